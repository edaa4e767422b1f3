import Verif.Props.Groups
import Verif.Proofs.Sampled
import Verif.Spec.Sampled

/-!
# C114: evaluating among fewer candidates
-/

namespace Irspack.Props
open Irspack Spec Evaluation Sampled

variable {S : Type} [LinearOrder S] [OrderBot S]

theorem listFor_isTopK (score : Nat → ScoreRow S) (allowed seen : Nat → Nat → Prop) (nItems cutoff u : Nat) :
    ∃ C : Finset Nat, (∀ i, i ∈ C ↔ i < nItems ∧ (allowed u i ∧ ¬ seen u i) ∧ score u i ≠ ⊥) ∧
      IsTopK C (score u) cutoff (listFor score allowed seen nItems cutoff u) := by
  classical
  refine ⟨candSet nItems (some ((List.range nItems).filter (fun i => decide (allowed u i ∧ ¬ seen u i)))) (score u), ?_, ?_⟩
  · intro i
    simp [candSet]
    tauto
  · refine topCutoff_isTopK _ _ _ _ ?_
    intro l hl
    injection hl with hl
    subst hl
    exact List.nodup_range.filter _

variable {us : List Nat} {gt : Nat → List Nat} {score : Nat → ScoreRow S} {allowed seen allowed' seen' : Nat → Nat → Prop}
  {nItems cutoff : Nat} {capped : Bool} {d e : MetricDict}

/-- C114.  If fewer items may be recommended, because fewer are recommendable or more are masked, but the relevant items
of every user stay recommendable and none of them is newly masked, no accuracy metric falls. -/
theorem C114_fewer_candidates (hd : ReportOn us gt score allowed seen nItems cutoff capped d)
    (he : ReportOn us gt score allowed' seen' nItems cutoff capped e)
    (hsub : ∀ u ∈ us, ∀ i, allowed' u i ∧ ¬ seen' u i → allowed u i ∧ ¬ seen u i)
    (hrel : ∀ u ∈ us, ∀ i ∈ gt u, (allowed u i ↔ allowed' u i) ∧ (allowed u i → seen' u i → seen u i)) : NoLower d e := by
  classical
  have rd := reportOn_isReport hd
  have re := reportOn_isReport he
  have hG : (fun k : Nat => ((us[k]?).map (relevant gt allowed')).getD ∅) =
      fun k : Nat => ((us[k]?).map (relevant gt allowed)).getD ∅ := by
    funext k
    cases hk : us[k]? with
    | none => rfl
    | some u =>
      simp only [Option.map_some, Option.getD_some, relevant]
      congr 1
      apply List.filter_congr
      intro i hi
      rw [decide_eq_decide]
      exact ((hrel u (List.mem_of_getElem? hk) i hi).1).symm
  rw [hG] at re
  have hno : ∀ k : Nat, NoWorse (((us[k]?).map (relevant gt allowed)).getD ∅)
      (((us[k]?).map (listFor score allowed seen nItems cutoff)).getD [])
      (((us[k]?).map (listFor score allowed' seen' nItems cutoff)).getD []) := by
    intro k
    cases hk : us[k]? with
    | none => exact ⟨le_rfl, le_rfl, le_rfl, le_rfl⟩
    | some u =>
      have hu := List.mem_of_getElem? hk
      obtain ⟨C, hC, hL⟩ := listFor_isTopK score allowed seen nItems cutoff u
      obtain ⟨C', hC', hL'⟩ := listFor_isTopK score allowed' seen' nItems cutoff u
      refine noWorse hL hL' ?_ ?_
      · intro i hi
        rw [hC'] at hi
        rw [hC]
        exact ⟨hi.1, hsub u hu i hi.2.1, hi.2.2⟩
      · intro i hi hiC
        rw [hC] at hiC
        rw [hC']
        simp only [Option.map_some, Option.getD_some, relevant, List.mem_toFinset, List.mem_filter, decide_eq_true_eq] at hi
        have := hrel u hu i hi.1
        exact ⟨hiC.1, ⟨this.1.mp hi.2, fun hs => hiC.2.1.2 (this.2 hi.2 hs)⟩, hiC.2.2⟩
  refine ⟨by rw [re.totalUser, rd.totalUser], by rw [re.validUser, rd.validUser], ?_, ?_, ?_, ?_, ?_⟩
  · rw [rd.hit, re.hit]; exact meanOver_mono _ _ _ _ (fun k _ _ => (hno k).hit)
  · rw [rd.precision, re.precision]; exact meanOver_mono _ _ _ _ (fun k _ _ => (hno k).precision)
  · rw [rd.recall, re.recall]; exact meanOver_mono _ _ _ _ (fun k _ hg => (hno k).recall hg capped)
  · rw [rd.ndcg, re.ndcg]; exact meanOver_mono _ _ _ _ (fun k _ hg => (hno k).ndcg hg)
  · rw [rd.map, re.map]; exact meanOver_mono _ _ _ _ (fun k _ _ => (hno k).ap)

/-- Reports exist for every list of recommendable items without repetition. -/
theorem reportOn_exists_shared (us : List Nat) (gt : Nat → List Nat) (score : Nat → ScoreRow S) (nItems cutoff : Nat)
    (capped : Bool) (l : List Nat) (hl : l.Nodup) (hb : ∀ i ∈ l, i < nItems) (h0 : 0 < cutoff) (h1 : cutoff ≤ nItems) :
    ∃ d, ReportOn us gt score (fun _ i => i ∈ l) (fun _ _ => False) nItems cutoff capped d := by
  obtain ⟨ev, hev⟩ : ∃ ev, Evaluator.make (us.map gt) nItems 0 cutoff (some l) none none 1 capped 8 = .ok ev := by
    obtain ⟨c, hc⟩ := (C15_constructor_accepts_iff (us.map gt) nItems [l]).mpr ⟨by simp, by simpa using ⟨hl, hb⟩⟩
    simp [Evaluator.make, recommendableArg, hc]
  obtain ⟨ds, hds, hlen⟩ := ((C11_row_mismatch_rejected hev [(⟨true, nItems, true, us.map score⟩ : Chunk S)] [cutoff]).2.2
    (by decide) (by simpa using ⟨h0, h1⟩)).1 ⟨by simp [GoodChunk], by simp⟩
  have hlt : 0 < ds.length := by rw [hlen]; simp
  refine ⟨ds[0].base, 0, cutoff, some l, none, none, 1, 8, ev, _, [cutoff], ds, 0, ds[0], hev, hds, by simp, rfl,
    List.getElem?_eq_getElem hlt, rfl, ?_⟩
  intro k u _ i
  simp [recLists, RecommendableTo]

/-- the single best candidate -/
theorem listFor_best (score : Nat → ScoreRow S) (allowed seen : Nat → Nat → Prop) (nItems u x : Nat) (hx : x < nItems)
    (ha : allowed u x) (hs : ¬ seen u x) (hb : score u x ≠ ⊥)
    (hbest : ∀ j < nItems, allowed u j → j ≠ x → score u j < score u x) :
    listFor score allowed seen nItems 1 u = [x] := by
  obtain ⟨C, hC, hL⟩ := listFor_isTopK score allowed seen nItems 1 u
  have hxC : x ∈ C := (hC x).mpr ⟨hx, ⟨ha, hs⟩, hb⟩
  refine isTopK_unique hL (s' := score u) ⟨by simpa using hxC, ?_, by simp, ?_⟩ (fun _ _ _ _ => Iff.rfl)
  · have := Finset.card_pos.mpr ⟨x, hxC⟩
    rw [List.length_singleton]; omega
  · intro i hi j hj hjn
    simp only [List.mem_singleton] at hi hjn
    subst hi
    obtain ⟨h1, h2, _⟩ := (hC j).mp hj
    exact .inl (hbest j h1 h2.1 hjn)

/-- the first model: item 1 before item 0 before item 2, for every user -/
def scoreA : Nat → ScoreRow (WithBot Nat) := fun _ i => if i = 1 then 2 else if i = 0 then 1 else 0

/-- the second model: user 0 gets item 0 first, the others item 2; item 1 is last -/
def scoreB : Nat → ScoreRow (WithBot Nat) := fun u i => if i = 1 then 0 else if i = 0 then (if u = 0 then 3 else 1) else 2

theorem hit_of_pair {score : Nat → ScoreRow (WithBot Nat)} {allowed : Nat → Nat → Prop} {d : MetricDict}
    (h : ReportOn [0, 1] (fun _ => [0]) score allowed (fun _ _ => False) 3 1 false d) (h0 : ∀ u, allowed u 0) (x y : Nat)
    (hx : listFor score allowed (fun _ _ => False) 3 1 0 = [x]) (hy : listFor score allowed (fun _ _ => False) 3 1 1 = [y]) :
    2 * d.hit = (if x = 0 then 1 else 0) + (if y = 0 then 1 else 0) := by
  have r := reportOn_isReport h
  have hrel : ∀ u, relevant (fun _ => [0]) allowed u = {0} := by
    intro u
    unfold relevant
    simp [h0]
  have hm := mean_times [0, 1] (relevant (fun _ => [0]) allowed) (listFor score allowed (fun _ _ => False) 3 1) Spec.hit
  have hone : ∀ x : Nat, Spec.hit [x] {0} = if x = 0 then 1 else 0 := by
    intro x
    rw [hit_eq]
    show (if hitsAt [x] {0} (0 + 1) > 0 then (1 : ℝ) else 0) = _
    rw [hitsAt_cons, hitsAt_zero]
    by_cases hx0 : x = 0 <;> simp [hx0]
  rw [← r.hit, card_valid] at hm
  simp [hrel, hx, hy, hone] at hm
  exact hm

/-- C114: fewer candidates can change which of two models is better.  Two users with the relevant item 0: among all three
items the second model has the larger hit rate, among the items 0 and 2 the first. -/
theorem C114_order_counterexample : ∃ a b a' b' : MetricDict,
    ReportOn [0, 1] (fun _ => [0]) scoreA (fun _ _ => True) (fun _ _ => False) 3 1 false a ∧
    ReportOn [0, 1] (fun _ => [0]) scoreB (fun _ _ => True) (fun _ _ => False) 3 1 false b ∧
    ReportOn [0, 1] (fun _ => [0]) scoreA (fun _ i => i ∈ [0, 2]) (fun _ _ => False) 3 1 false a' ∧
    ReportOn [0, 1] (fun _ => [0]) scoreB (fun _ i => i ∈ [0, 2]) (fun _ _ => False) 3 1 false b' ∧
    a.hit < b.hit ∧ b'.hit < a'.hit := by
  obtain ⟨a, ha⟩ := reportOn_exists [0, 1] (fun _ => [0]) scoreA 3 1 false (by decide) (by decide)
  obtain ⟨b, hb⟩ := reportOn_exists [0, 1] (fun _ => [0]) scoreB 3 1 false (by decide) (by decide)
  obtain ⟨a', ha'⟩ := reportOn_exists_shared [0, 1] (fun _ => [0]) scoreA 3 1 false [0, 2] (by decide) (by decide)
    (by decide) (by decide)
  obtain ⟨b', hb'⟩ := reportOn_exists_shared [0, 1] (fun _ => [0]) scoreB 3 1 false [0, 2] (by decide) (by decide)
    (by decide) (by decide)
  refine ⟨a, b, a', b', ha, hb, ha', hb', ?_, ?_⟩
  · have h1 := hit_of_pair ha (fun _ => trivial) 1 1
      (listFor_best _ _ _ _ _ _ (by decide) trivial id (by decide) (by
        intro j hj _ hne; rcases (by omega : j = 0 ∨ j = 1 ∨ j = 2) with rfl | rfl | rfl <;> first | exact absurd rfl hne | decide))
      (listFor_best _ _ _ _ _ _ (by decide) trivial id (by decide) (by
        intro j hj _ hne; rcases (by omega : j = 0 ∨ j = 1 ∨ j = 2) with rfl | rfl | rfl <;> first | exact absurd rfl hne | decide))
    have h2 := hit_of_pair hb (fun _ => trivial) 0 2
      (listFor_best _ _ _ _ _ _ (by decide) trivial id (by decide) (by
        intro j hj _ hne; rcases (by omega : j = 0 ∨ j = 1 ∨ j = 2) with rfl | rfl | rfl <;> first | exact absurd rfl hne | decide))
      (listFor_best _ _ _ _ _ _ (by decide) trivial id (by decide) (by
        intro j hj _ hne; rcases (by omega : j = 0 ∨ j = 1 ∨ j = 2) with rfl | rfl | rfl <;> first | exact absurd rfl hne | decide))
    norm_num at h1 h2
    linarith
  · have h1 := hit_of_pair ha' (fun _ => by decide) 0 0
      (listFor_best _ _ _ _ _ _ (by decide) (by decide) id (by decide) (by
        intro j hj hm hne; rcases (by omega : j = 0 ∨ j = 1 ∨ j = 2) with rfl | rfl | rfl <;> first | exact absurd rfl hne | (exact absurd hm (by decide)) | decide))
      (listFor_best _ _ _ _ _ _ (by decide) (by decide) id (by decide) (by
        intro j hj hm hne; rcases (by omega : j = 0 ∨ j = 1 ∨ j = 2) with rfl | rfl | rfl <;> first | exact absurd rfl hne | (exact absurd hm (by decide)) | decide))
    have h2 := hit_of_pair hb' (fun _ => by decide) 0 2
      (listFor_best _ _ _ _ _ _ (by decide) (by decide) id (by decide) (by
        intro j hj hm hne; rcases (by omega : j = 0 ∨ j = 1 ∨ j = 2) with rfl | rfl | rfl <;> first | exact absurd rfl hne | (exact absurd hm (by decide)) | decide))
      (listFor_best _ _ _ _ _ _ (by decide) (by decide) id (by decide) (by
        intro j hj hm hne; rcases (by omega : j = 0 ∨ j = 1 ∨ j = 2) with rfl | rfl | rfl <;> first | exact absurd rfl hne | (exact absurd hm (by decide)) | decide))
    norm_num at h1 h2
    linarith

/-- The first model of the counterexample: the restriction meets the hypotheses. -/
example : ∃ a a' : MetricDict,
    ReportOn [0, 1] (fun _ => [0]) scoreA (fun _ _ => True) (fun _ _ => False) 3 1 false a ∧
    ReportOn [0, 1] (fun _ => [0]) scoreA (fun _ i => i ∈ [0, 2]) (fun _ _ => False) 3 1 false a' ∧ NoLower a a' := by
  obtain ⟨a, _, a', _, ha, _, ha', _⟩ := C114_order_counterexample
  exact ⟨a, a', ha, ha', C114_fewer_candidates ha ha' (by simp) (by simp)⟩

end Irspack.Props
