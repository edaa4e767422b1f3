import Verif.Props.PyEvaluator
import Verif.Spec.Groups

/-!
# C113: reports for groups of users
-/

namespace Irspack.Props
open Irspack Spec Evaluation

variable {S : Type} [LinearOrder S] [OrderBot S]

/-- `d` is the dictionary for `cutoff` of an `Evaluator` built for the users `us`, in this order, with any number of
threads, block size and cutting into chunks: user `u` has the ground truth `gt u`, the scores `score u`, the
recommendable items `allowed u` (given for all users at once or one by one) and the masked items `seen u`. -/
def ReportOn (us : List Nat) (gt : Nat → List Nat) (score : Nat → ScoreRow S) (allowed seen : Nat → Nat → Prop)
    (nItems cutoff : Nat) (capped : Bool) (d : MetricDict) : Prop :=
  ∃ (offset c : Nat) (recommendable : Option (List Nat)) (perUser : Option (List (List Nat))) (masked : Option Mask)
    (nThreads mb : Nat) (ev : Evaluator) (chunks : List (Chunk S)) (cutoffs : List Nat) (ds : List PyDict)
    (j : Nat) (p : PyDict),
    Evaluator.make (us.map gt) nItems offset c recommendable perUser masked nThreads capped mb = .ok ev ∧
    ev.scoresFromChunks chunks cutoffs = .ok ds ∧
    (chunks.map Chunk.rows).flatten = us.map score ∧
    cutoffs[j]? = some cutoff ∧ ds[j]? = some p ∧ p.base = d ∧
    ∀ k u, us[k]? = some u → ∀ i, (RecommendableTo (recLists recommendable perUser) k i ↔ allowed u i) ∧
      ((∀ m, masked = some m → m.nz k i = false) ↔ ¬ seen u i)

open Classical in
/-- the relevant items of a user -/
noncomputable def relevant (gt : Nat → List Nat) (allowed : Nat → Nat → Prop) (u : Nat) : Finset Nat :=
  ((gt u).filter (fun i => decide (allowed u i))).toFinset

open Classical in
/-- the list evaluated for a user -/
noncomputable def listFor (score : Nat → ScoreRow S) (allowed seen : Nat → Nat → Prop) (nItems cutoff u : Nat) : List Nat :=
  topCutoff nItems (some ((List.range nItems).filter (fun i => decide (allowed u i ∧ ¬ seen u i)))) cutoff (score u)

theorem reportOn_isReport {us : List Nat} {gt : Nat → List Nat} {score : Nat → ScoreRow S} {allowed seen : Nat → Nat → Prop}
    {nItems cutoff : Nat} {capped : Bool} {d : MetricDict} (h : ReportOn us gt score allowed seen nItems cutoff capped d) :
    IsReport us.length nItems capped (fun k => ((us[k]?).map (listFor score allowed seen nItems cutoff)).getD [])
      (fun k => ((us[k]?).map (relevant gt allowed)).getD ∅) d := by
  classical
  obtain ⟨offset, c, rec, perUser, masked, T, mb, ev, chunks, cutoffs, ds, j, p, hev, hds, hrows, hj, hp, rfl, hset⟩ := h
  obtain ⟨hj1, hj2⟩ := List.getElem?_eq_some_iff.mp hj
  obtain ⟨hp1, hp2⟩ := List.getElem?_eq_some_iff.mp hp
  have hu : ∀ k, k < (us.map gt).length → ∃ u, us[k]? = some u := by
    intro k hk
    rw [List.length_map] at hk
    exact ⟨_, List.getElem?_eq_getElem hk⟩
  have key := C12_C04_C08_C13_chunk_report hev chunks cutoffs ds hds
    (fun k => ((us[k]?).map score).getD (fun _ => ⊥)) ?_
    (fun k => ((us[k]?).map (relevant gt allowed)).getD ∅)
    (fun k => ((us[k]?).map (fun u => candSet nItems
      (some ((List.range nItems).filter (fun i => decide (allowed u i ∧ ¬ seen u i)))) (score u))).getD ∅)
    (fun k => ((us[k]?).map (listFor score allowed seen nItems cutoff)).getD []) j hj1 hp1 ?_ ?_ ?_
  · rw [List.length_map, hp2] at key
    exact key
  · intro k hk
    rw [hrows] at hk
    have hk' : k < us.length := by simpa using hk
    simp only [hrows, List.getElem_map, List.getElem?_eq_getElem hk', Option.map_some, Option.getD_some]
  · intro k i
    cases hk : us[k]? with
    | none =>
      simp [List.getD_eq_getElem?_getD, hk]
    | some u =>
      simp only [Option.map_some, Option.getD_some, relevant, List.mem_toFinset, List.mem_filter, decide_eq_true_eq,
        List.getD_eq_getElem?_getD, List.getElem?_map, hk]
      rw [(hset k u hk i).1]
  · intro k hk i
    obtain ⟨u, hu⟩ := hu k hk
    simp only [hu, Option.map_some, Option.getD_some]
    rw [(hset k u hu i).1, (hset k u hu i).2]
    simp [candSet]
    tauto
  · intro k hk
    obtain ⟨u, hu⟩ := hu k hk
    simp only [hu, Option.map_some, Option.getD_some, hj2]
    refine topCutoff_isTopK _ _ _ _ ?_
    intro l hl
    injection hl with hl
    subst hl
    exact List.nodup_range.filter _

theorem sum_valid {M : Type} [AddCommMonoid M] (us : List Nat) (G : Nat → Finset Nat) (f g : Nat → M)
    (hf : ∀ k u, us[k]? = some u → f k = g u) :
    ∑ k ∈ validUsers us.length (fun k => ((us[k]?).map G).getD ∅), f k =
      (us.map (fun u => if (G u).Nonempty then g u else 0)).sum := by
  unfold validUsers
  rw [Finset.sum_filter]
  induction us generalizing f with
  | nil => simp
  | cons u us ih =>
    rw [List.length_cons, Finset.sum_range_succ', List.map_cons, List.sum_cons, add_comm]
    congr 1
    · have := hf 0 u rfl
      simp [this]
    · rw [← ih (fun k => f (k + 1)) (fun k u h => hf (k + 1) u h)]
      simp

theorem card_valid (us : List Nat) (G : Nat → Finset Nat) :
    (validUsers us.length (fun k => ((us[k]?).map G).getD ∅)).card =
      (us.map (fun u => if (G u).Nonempty then 1 else 0)).sum := by
  rw [Finset.card_eq_sum_ones]
  exact sum_valid us G (fun _ => 1) (fun _ => 1) (fun _ _ _ => rfl)

theorem perm_sum {M : Type} [AddCommMonoid M] {us as bs : List Nat} (h : us.Perm (as ++ bs)) (f : Nat → M) :
    (us.map f).sum = (as.map f).sum + (bs.map f).sum := by
  rw [(h.map f).sum_eq, List.map_append, List.sum_append]

/-- the mean times the number of valid users -/
theorem mean_times (us : List Nat) (G : Nat → Finset Nat) (L : Nat → List Nat) (φ : List Nat → Finset Nat → ℝ) :
    ((validUsers us.length (fun k => ((us[k]?).map G).getD ∅)).card : ℝ) *
      meanOver us.length (fun k => ((us[k]?).map G).getD ∅)
        (fun k => φ (((us[k]?).map L).getD []) (((us[k]?).map G).getD ∅)) =
      (us.map (fun u => if (G u).Nonempty then φ (L u) (G u) else 0)).sum := by
  rw [← sum_valid us G (fun k => φ (((us[k]?).map L).getD []) (((us[k]?).map G).getD ∅)) (fun u => φ (L u) (G u))
    (fun k u h => by simp [h])]
  unfold meanOver
  by_cases h : (validUsers us.length (fun k => ((us[k]?).map G).getD ∅)).card = 0
  · rw [Finset.card_eq_zero.mp h]; simp
  · field_simp

theorem count_valid (us : List Nat) (G : Nat → Finset Nat) (L : Nat → List Nat) (i : Nat) :
    recommendedCount us.length (fun k => ((us[k]?).map L).getD []) (fun k => ((us[k]?).map G).getD ∅) i =
      (us.map (fun u => if (G u).Nonempty then (L u).count i else 0)).sum :=
  sum_valid us G _ (fun u => (L u).count i) (fun k u h => by simp [h])

variable {us as bs : List Nat} {gt : Nat → List Nat} {score : Nat → ScoreRow S} {allowed seen : Nat → Nat → Prop}
  {nItems cutoff : Nat} {capped : Bool} {d a b : MetricDict}

/-- C113.  The report for all users follows from the reports for two groups they are divided into: users add up, each
accuracy metric is the mean weighted by valid users, and an item appears if it appears in a group. -/
theorem C113_groups_combine (hp : us.Perm (as ++ bs)) (hd : ReportOn us gt score allowed seen nItems cutoff capped d)
    (ha : ReportOn as gt score allowed seen nItems cutoff capped a)
    (hb : ReportOn bs gt score allowed seen nItems cutoff capped b) : Combines d a b := by
  have rd := reportOn_isReport hd
  have ra := reportOn_isReport ha
  have rb := reportOn_isReport hb
  have metric : ∀ (φ : List Nat → Finset Nat → ℝ), _ := fun φ => perm_sum hp (fun u =>
    if (relevant gt allowed u).Nonempty then
      φ (listFor score allowed seen nItems cutoff u) (relevant gt allowed u) else 0)
  simp only [← mean_times] at metric
  have hcount := fun i => perm_sum hp (fun u => if (relevant gt allowed u).Nonempty then
    (listFor score allowed seen nItems cutoff u).count i else 0)
  simp only [← count_valid] at hcount
  refine ⟨?_, ?_, ⟨by rw [rd.itemNumber, ra.itemNumber], by rw [rd.itemNumber, rb.itemNumber]⟩, ?_, ?_, ?_, ?_, ?_, ?_⟩
  · rw [rd.totalUser, ra.totalUser, rb.totalUser, hp.length_eq, List.length_append]
    push_cast; rfl
  · rw [rd.validUser, ra.validUser, rb.validUser, card_valid, card_valid, card_valid, perm_sum hp]
    push_cast; rfl
  · rw [rd.validUser, ra.validUser, rb.validUser, rd.hit, ra.hit, rb.hit]
    exact metric Spec.hit
  · rw [rd.validUser, ra.validUser, rb.validUser, rd.precision, ra.precision, rb.precision]
    exact metric Spec.precision
  · rw [rd.validUser, ra.validUser, rb.validUser, rd.recall, ra.recall, rb.recall]
    exact metric (Spec.recall capped)
  · rw [rd.validUser, ra.validUser, rb.validUser, rd.ndcg, ra.ndcg, rb.ndcg]
    exact metric Spec.ndcg
  · rw [rd.validUser, ra.validUser, rb.validUser, rd.map, ra.map, rb.map]
    exact metric Spec.averagePrecision
  · rw [rd.appearedItem, ra.appearedItem, rb.appearedItem]
    unfold appeared
    refine ⟨?_, ?_, ?_⟩
    · exact_mod_cast Finset.card_le_card (Finset.monotone_filter_right _ (fun i _ h => by rw [hcount]; omega))
    · exact_mod_cast Finset.card_le_card (Finset.monotone_filter_right _ (fun i _ h => by rw [hcount]; omega))
    · have : (Finset.range nItems).filter (fun i => recommendedCount us.length
          (fun k => ((us[k]?).map (listFor score allowed seen nItems cutoff)).getD [])
          (fun k => ((us[k]?).map (relevant gt allowed)).getD ∅) i ≠ 0) ⊆
        ((Finset.range nItems).filter (fun i => recommendedCount as.length
          (fun k => ((as[k]?).map (listFor score allowed seen nItems cutoff)).getD [])
          (fun k => ((as[k]?).map (relevant gt allowed)).getD ∅) i ≠ 0)) ∪
        ((Finset.range nItems).filter (fun i => recommendedCount bs.length
          (fun k => ((bs[k]?).map (listFor score allowed seen nItems cutoff)).getD [])
          (fun k => ((bs[k]?).map (relevant gt allowed)).getD ∅) i ≠ 0)) := by
        intro i hi
        simp only [Finset.mem_union, Finset.mem_filter, ne_eq] at hi ⊢
        rw [hcount] at hi
        by_cases h0 : recommendedCount as.length (fun k => ((as[k]?).map (listFor score allowed seen nItems cutoff)).getD [])
          (fun k => ((as[k]?).map (relevant gt allowed)).getD ∅) i = 0
        · exact .inr ⟨hi.1, by omega⟩
        · exact .inl ⟨hi.1, h0⟩
      exact_mod_cast (Finset.card_le_card this).trans (Finset.card_union_le _ _)

theorem between {x y z l m n : ℝ} (hm : 0 < m) (hn : 0 < n) (hl : l = m + n) (h : l * z = m * x + n * y) :
    min x y ≤ z ∧ z ≤ max x y := by
  subst hl
  rcases le_total x y with hxy | hxy
  · rw [min_eq_left hxy, max_eq_right hxy]
    constructor <;> nlinarith
  · rw [min_eq_right hxy, max_eq_left hxy]
    constructor <;> nlinarith

/-- C113.  An accuracy metric of all users lies between those of two groups that both have valid users. -/
theorem C113_between (hp : us.Perm (as ++ bs)) (hd : ReportOn us gt score allowed seen nItems cutoff capped d)
    (ha : ReportOn as gt score allowed seen nItems cutoff capped a)
    (hb : ReportOn bs gt score allowed seen nItems cutoff capped b) (hm : 0 < a.validUser) (hn : 0 < b.validUser) :
    (min a.hit b.hit ≤ d.hit ∧ d.hit ≤ max a.hit b.hit) ∧
    (min a.precision b.precision ≤ d.precision ∧ d.precision ≤ max a.precision b.precision) ∧
    (min a.recall b.recall ≤ d.recall ∧ d.recall ≤ max a.recall b.recall) ∧
    (min a.ndcg b.ndcg ≤ d.ndcg ∧ d.ndcg ≤ max a.ndcg b.ndcg) ∧
    (min a.map b.map ≤ d.map ∧ d.map ≤ max a.map b.map) := by
  have h := C113_groups_combine hp hd ha hb
  exact ⟨between hm hn h.validUser h.hit, between hm hn h.validUser h.precision, between hm hn h.validUser h.recall,
    between hm hn h.validUser h.ndcg, between hm hn h.validUser h.map⟩

/-- C113.  A group none of whose users is valid changes no accuracy and no diversity metric. -/
theorem C113_invalid_users (hp : us.Perm (as ++ bs)) (hd : ReportOn us gt score allowed seen nItems cutoff capped d)
    (ha : ReportOn as gt score allowed seen nItems cutoff capped a)
    (hb : ∀ u ∈ bs, ∀ i ∈ gt u, ¬ allowed u i) : d = { a with totalUser := a.totalUser + bs.length } := by
  have rd := reportOn_isReport hd
  have ra := reportOn_isReport ha
  have hno : ∀ u ∈ bs, ¬ (relevant gt allowed u).Nonempty := by
    rintro u hu ⟨i, hi⟩
    unfold relevant at hi
    simp only [List.mem_toFinset, List.mem_filter, decide_eq_true_eq] at hi
    exact hb u hu i hi.1 hi.2
  have hzero : ∀ {M : Type} [AddCommMonoid M] (f : Nat → M),
      (us.map (fun u => if (relevant gt allowed u).Nonempty then f u else 0)).sum =
        (as.map (fun u => if (relevant gt allowed u).Nonempty then f u else 0)).sum := by
    intro M _ f
    rw [perm_sum hp]
    have : (bs.map (fun u => if (relevant gt allowed u).Nonempty then f u else 0)).sum = 0 := by
      apply List.sum_eq_zero
      intro x hx
      obtain ⟨u, hu, rfl⟩ := List.mem_map.mp hx
      exact if_neg (hno u hu)
    rw [this, add_zero]
  have hcard : (validUsers us.length (fun k => ((us[k]?).map (relevant gt allowed)).getD ∅)).card =
      (validUsers as.length (fun k => ((as[k]?).map (relevant gt allowed)).getD ∅)).card := by
    rw [card_valid, card_valid]
    exact hzero (fun _ => 1)
  have hmean : ∀ φ : List Nat → Finset Nat → ℝ, meanOver us.length (fun k => ((us[k]?).map (relevant gt allowed)).getD ∅)
      (fun k => φ (((us[k]?).map (listFor score allowed seen nItems cutoff)).getD [])
        (((us[k]?).map (relevant gt allowed)).getD ∅)) =
      meanOver as.length (fun k => ((as[k]?).map (relevant gt allowed)).getD ∅)
      (fun k => φ (((as[k]?).map (listFor score allowed seen nItems cutoff)).getD [])
        (((as[k]?).map (relevant gt allowed)).getD ∅)) := by
    intro φ
    unfold meanOver
    rw [hcard, sum_valid us _ _ (fun u => φ (listFor score allowed seen nItems cutoff u) (relevant gt allowed u))
      (fun k u h => by simp [h]), sum_valid as _ _ (fun u => φ (listFor score allowed seen nItems cutoff u)
      (relevant gt allowed u)) (fun k u h => by simp [h]), hzero]
  have hcount : recommendedCount us.length (fun k => ((us[k]?).map (listFor score allowed seen nItems cutoff)).getD [])
      (fun k => ((us[k]?).map (relevant gt allowed)).getD ∅) =
      recommendedCount as.length (fun k => ((as[k]?).map (listFor score allowed seen nItems cutoff)).getD [])
      (fun k => ((as[k]?).map (relevant gt allowed)).getD ∅) := by
    funext i
    rw [count_valid, count_valid]
    exact hzero _
  apply MetricDict.ext
  · rw [rd.totalUser, ra.totalUser, hp.length_eq, List.length_append]
    push_cast; rfl
  · rw [rd.validUser, ra.validUser, hcard]
  · rw [rd.itemNumber, ra.itemNumber]
  · rw [rd.hit, ra.hit]; exact hmean Spec.hit
  · rw [rd.ndcg, ra.ndcg]; exact hmean Spec.ndcg
  · rw [rd.recall, ra.recall]; exact hmean (Spec.recall capped)
  · rw [rd.map, ra.map]; exact hmean Spec.averagePrecision
  · rw [rd.precision, ra.precision]; exact hmean Spec.precision
  · rw [rd.appearedItem, ra.appearedItem, hcount]
  · rw [rd.entropy, ra.entropy, hcount]
  · rw [rd.giniIndex, ra.giniIndex, hcount]

/-- C113.  The order in which the users are given does not change the report. -/
theorem C113_order (hp : us.Perm as) (hd : ReportOn us gt score allowed seen nItems cutoff capped d)
    (ha : ReportOn as gt score allowed seen nItems cutoff capped a) : d = a := by
  have := C113_invalid_users (bs := []) (by simpa using hp) hd ha (by simp)
  simpa using this

/-- Reports exist for every group of users: without restrictions and masks, for every positive cutoff up to the number
of items. -/
theorem reportOn_exists (us : List Nat) (gt : Nat → List Nat) (score : Nat → ScoreRow S) (nItems cutoff : Nat)
    (capped : Bool) (h0 : 0 < cutoff) (h1 : cutoff ≤ nItems) :
    ∃ d, ReportOn us gt score (fun _ _ => True) (fun _ _ => False) nItems cutoff capped d := by
  obtain ⟨ev, hev⟩ : ∃ ev, Evaluator.make (us.map gt) nItems 0 cutoff none none none 1 capped 8 = .ok ev := ⟨_, rfl⟩
  obtain ⟨ds, hds, hlen⟩ := ((C11_row_mismatch_rejected hev [(⟨true, nItems, true, us.map score⟩ : Chunk S)] [cutoff]).2.2
    (by decide) (by simpa using ⟨h0, h1⟩)).1 ⟨by simp [GoodChunk], by simp⟩
  have hlt : 0 < ds.length := by rw [hlen]; simp
  refine ⟨ds[0].base, 0, cutoff, none, none, none, 1, 8, ev, _, [cutoff], ds, 0, ds[0], hev, hds, by simp, rfl,
    List.getElem?_eq_getElem hlt, rfl, ?_⟩
  intro k u _ i
  simp [recLists, RecommendableTo]

/-- Two users; each scores the item of the same number best and has it in the ground truth. -/
def pairScore (u : Nat) : ScoreRow (WithBot Nat) := fun i => if i = u then 1 else 0

theorem pair_list {u : Nat} (hu : u < 2) : listFor pairScore (fun _ _ => True) (fun _ _ => False) 2 1 u = [u] := by
  have hl : listFor pairScore (fun _ _ => True) (fun _ _ => False) 2 1 u = topCutoff 2 (some [0, 1]) 1 (pairScore u) := by
    unfold listFor
    have : (List.range 2) = [0, 1] := rfl
    simp [this]
  have hc : candSet 2 (some [0, 1]) (pairScore u) = {0, 1} := by
    ext i
    have : pairScore u i ≠ ⊥ := by unfold pairScore; split <;> decide
    simp [candSet, this]
  have h1 := topCutoff_isTopK 2 (some [0, 1]) (pairScore u) 1 (by
    intro l hl
    injection hl with hl
    subst hl
    decide)
  rw [hc, ← hl] at h1
  refine C04_top_cutoff_is_unique {0, 1} (pairScore u) 1 _ _ h1 ⟨?_, by simp, by simp, ?_⟩
  · intro i hi
    simp at hi ⊢
    omega
  · intro i hi j _ hj
    simp at hi hj
    subst hi
    left
    simp [pairScore, hj]

theorem pair_relevant (u : Nat) : relevant (fun u => [u]) (fun _ _ => True) u = {u} := by
  unfold relevant
  ext i
  simp

/-- C113 fails for the diversity metrics: two groups of one user each, both with entropy 0, while the entropy of both
users is not 0.  The diversity of all users does not follow from that of the groups. -/
theorem C113_entropy_counterexample : ∃ d a b : MetricDict,
    ReportOn [0, 1] (fun u => [u]) pairScore (fun _ _ => True) (fun _ _ => False) 2 1 false d ∧
    ReportOn [0] (fun u => [u]) pairScore (fun _ _ => True) (fun _ _ => False) 2 1 false a ∧
    ReportOn [1] (fun u => [u]) pairScore (fun _ _ => True) (fun _ _ => False) 2 1 false b ∧
    0 < a.validUser ∧ 0 < b.validUser ∧ a.entropy = 0 ∧ b.entropy = 0 ∧ d.entropy = Real.log 2 := by
  obtain ⟨d, hd⟩ := reportOn_exists [0, 1] (fun u => [u]) pairScore 2 1 false (by decide) (by decide)
  obtain ⟨a, ha⟩ := reportOn_exists [0] (fun u => [u]) pairScore 2 1 false (by decide) (by decide)
  obtain ⟨b, hb⟩ := reportOn_exists [1] (fun u => [u]) pairScore 2 1 false (by decide) (by decide)
  have rd := reportOn_isReport hd
  have ra := reportOn_isReport ha
  have rb := reportOn_isReport hb
  refine ⟨d, a, b, hd, ha, hb, ?_, ?_, ?_, ?_, ?_⟩
  · rw [ra.validUser, card_valid]; simp [pair_relevant]
  · rw [rb.validUser, card_valid]; simp [pair_relevant]
  · rw [ra.entropy]
    unfold Spec.entropy totalCount
    simp only [Finset.sum_range_succ, Finset.sum_range_zero, count_valid]
    simp [pair_relevant, pair_list]
  · rw [rb.entropy]
    unfold Spec.entropy totalCount
    simp only [Finset.sum_range_succ, Finset.sum_range_zero, count_valid]
    simp [pair_relevant, pair_list]
  · rw [rd.entropy]
    unfold Spec.entropy totalCount
    simp only [Finset.sum_range_succ, Finset.sum_range_zero, count_valid]
    simp [pair_relevant, pair_list, Real.negMulLog]
    ring_nf
    try rw [Real.log_inv]
    try ring

/-- A second user without ground truth is counted and changes nothing else. -/
example : ∃ d a : MetricDict,
    ReportOn [1, 0] (fun u => if u = 0 then [0] else []) pairScore (fun _ _ => True) (fun _ _ => False) 2 1 false d ∧
    ReportOn [0] (fun u => if u = 0 then [0] else []) pairScore (fun _ _ => True) (fun _ _ => False) 2 1 false a ∧
    d = { a with totalUser := a.totalUser + 1 } := by
  obtain ⟨d, hd⟩ := reportOn_exists [1, 0] (fun u => if u = 0 then [0] else []) pairScore 2 1 false (by decide) (by decide)
  obtain ⟨a, ha⟩ := reportOn_exists [0] (fun u => if u = 0 then [0] else []) pairScore 2 1 false (by decide) (by decide)
  refine ⟨d, a, hd, ha, ?_⟩
  have := C113_invalid_users (as := [0]) (bs := [1]) (by decide) hd ha (by simp)
  simpa using this

end Irspack.Props
