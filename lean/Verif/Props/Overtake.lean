import Verif.Props.FewerCandidates
import Verif.Proofs.Overtake

/-!
# C115: relevant items that do not fall behind
-/

namespace Irspack.Props
open Irspack Spec Evaluation Sampled

variable {S : Type} [LinearOrder S] [OrderBot S] {us : List Nat} {gt : Nat → List Nat} {score score' : Nat → ScoreRow S}
  {allowed seen : Nat → Nat → Prop} {nItems cutoff : Nat} {capped : Bool} {d e : MetricDict}

/-- C115.  Two models give -inf to the same items.  If no item outside the ground truth that the first model ranks after an
item of the ground truth is ranked before it by the second, no accuracy metric of the second is lower.  Only items that
may be recommended matter. -/
theorem C115_no_overtaking (hd : ReportOn us gt score allowed seen nItems cutoff capped d)
    (he : ReportOn us gt score' allowed seen nItems cutoff capped e)
    (hbot : ∀ u ∈ us, ∀ i, score u i = ⊥ ↔ score' u i = ⊥)
    (hover : ∀ u ∈ us, ∀ g ∈ gt u, ∀ x ∉ gt u, allowed u g ∧ ¬ seen u g → allowed u x ∧ ¬ seen u x →
      Before (score u) g x → Before (score' u) g x) : NoLower d e := by
  classical
  have rd := reportOn_isReport hd
  have re := reportOn_isReport he
  have hno : ∀ k : Nat, NoWorse (((us[k]?).map (relevant gt allowed)).getD ∅)
      (((us[k]?).map (listFor score allowed seen nItems cutoff)).getD [])
      (((us[k]?).map (listFor score' allowed seen nItems cutoff)).getD []) := by
    intro k
    cases hk : us[k]? with
    | none => exact ⟨le_rfl, le_rfl, le_rfl, le_rfl⟩
    | some u =>
      have hu := List.mem_of_getElem? hk
      obtain ⟨C, hC, hL⟩ := listFor_isTopK score allowed seen nItems cutoff u
      obtain ⟨C', hC', hL'⟩ := listFor_isTopK score' allowed seen nItems cutoff u
      have hCC : C' = C := by
        ext i
        rw [hC, hC', ne_eq, ne_eq, hbot u hu i]
      rw [hCC] at hL'
      refine noWorse_overtake hL hL' ?_
      intro g hgC hg x hxC hx hb
      simp only [Option.map_some, Option.getD_some, relevant, List.mem_toFinset, List.mem_filter, decide_eq_true_eq] at hg hx
      have h1 := ((hC g).mp hgC).2.1
      have h2 := ((hC x).mp hxC).2.1
      exact hover u hu g hg.1 x (fun hc => hx ⟨hc, h2.1⟩) h1 h2 hb
  refine ⟨by rw [re.totalUser, rd.totalUser], by rw [re.validUser, rd.validUser], ?_, ?_, ?_, ?_, ?_⟩
  · rw [rd.hit, re.hit]; exact meanOver_mono _ _ _ _ (fun k _ _ => (hno k).hit)
  · rw [rd.precision, re.precision]; exact meanOver_mono _ _ _ _ (fun k _ _ => (hno k).precision)
  · rw [rd.recall, re.recall]; exact meanOver_mono _ _ _ _ (fun k _ hg => (hno k).recall hg capped)
  · rw [rd.ndcg, re.ndcg]; exact meanOver_mono _ _ _ _ (fun k _ hg => (hno k).ndcg hg)
  · rw [rd.map, re.map]; exact meanOver_mono _ _ _ _ (fun k _ _ => (hno k).ap)

/-- C115.  Raising scores of ground-truth items and lowering scores of others lowers no accuracy metric, as long as the
same items have -inf. -/
theorem C115_better_scores (hd : ReportOn us gt score allowed seen nItems cutoff capped d)
    (he : ReportOn us gt score' allowed seen nItems cutoff capped e)
    (hbot : ∀ u ∈ us, ∀ i, score u i = ⊥ ↔ score' u i = ⊥)
    (hup : ∀ u ∈ us, ∀ i ∈ gt u, score u i ≤ score' u i) (hdown : ∀ u ∈ us, ∀ i ∉ gt u, score' u i ≤ score u i) :
    NoLower d e := by
  refine C115_no_overtaking hd he hbot ?_
  intro u hu g hg x hx _ _ hb
  have h1 := hup u hu g hg
  have h2 := hdown u hu x hx
  rcases hb with hb | ⟨hb, hlt⟩
  · exact .inl (h2.trans_lt (hb.trans_le h1))
  · rcases (h2.trans (hb ▸ h1)).lt_or_eq with h | h
    · exact .inl h
    · exact .inr ⟨h.symm, hlt⟩

/-- C115.  The accuracy metrics depend only on which items outside the ground truth rank before which items of it: how
either kind is ordered among itself does not matter. -/
theorem C115_relative_order (hd : ReportOn us gt score allowed seen nItems cutoff capped d)
    (he : ReportOn us gt score' allowed seen nItems cutoff capped e)
    (hbot : ∀ u ∈ us, ∀ i, score u i = ⊥ ↔ score' u i = ⊥)
    (hsame : ∀ u ∈ us, ∀ g ∈ gt u, ∀ x ∉ gt u, Before (score u) g x ↔ Before (score' u) g x) :
    d.hit = e.hit ∧ d.precision = e.precision ∧ d.recall = e.recall ∧ d.ndcg = e.ndcg ∧ d.map = e.map := by
  have h1 := C115_no_overtaking hd he hbot (fun u hu g hg x hx _ _ => (hsame u hu g hg x hx).mp)
  have h2 := C115_no_overtaking he hd (fun u hu i => (hbot u hu i).symm)
    (fun u hu g hg x hx _ _ => (hsame u hu g hg x hx).mpr)
  exact ⟨le_antisymm h1.hit h2.hit, le_antisymm h1.precision h2.precision, le_antisymm h1.recall h2.recall,
    le_antisymm h1.ndcg h2.ndcg, le_antisymm h1.map h2.map⟩

/-- item 0 raised above item 1, which is lowered, for every user -/
def scoreA' : Nat → ScoreRow (WithBot Nat) := fun _ i => if i = 1 then 1 else if i = 0 then 3 else 0

/-- The first model of C114, with the relevant item 0 raised above item 1: the hit rate rises from 0 to 1. -/
example : ∃ a a' : MetricDict,
    ReportOn [0, 1] (fun _ => [0]) scoreA (fun _ _ => True) (fun _ _ => False) 3 1 false a ∧
    ReportOn [0, 1] (fun _ => [0]) scoreA' (fun _ _ => True) (fun _ _ => False) 3 1 false a' ∧
    NoLower a a' ∧ a.hit = 0 ∧ a'.hit = 1 := by
  obtain ⟨a, ha⟩ := reportOn_exists [0, 1] (fun _ => [0]) scoreA 3 1 false (by decide) (by decide)
  obtain ⟨a', ha'⟩ := reportOn_exists [0, 1] (fun _ => [0]) scoreA' 3 1 false (by decide) (by decide)
  have hne : ∀ u i, scoreA u i ≠ ⊥ := by intro u i; unfold scoreA; split_ifs <;> decide
  have hne' : ∀ u i, scoreA' u i ≠ ⊥ := by intro u i; unfold scoreA'; split_ifs <;> decide
  refine ⟨a, a', ha, ha', C115_better_scores ha ha' (fun u _ i => by simp [hne, hne']) ?_ ?_, ?_, ?_⟩
  · intro u _ i hi
    rw [List.mem_singleton] at hi
    subst hi
    exact (by decide : ((1 : WithBot Nat) ≤ 3))
  · intro u _ i hi
    rw [List.mem_singleton] at hi
    unfold scoreA scoreA'
    simp only [hi, if_false]
    split_ifs <;> decide
  · have h1 := hit_of_pair ha (fun _ => trivial) 1 1
      (listFor_best _ _ _ _ _ _ (by decide) trivial id (by decide) (by
        intro j hj _ hne; rcases (by omega : j = 0 ∨ j = 1 ∨ j = 2) with rfl | rfl | rfl <;> first | exact absurd rfl hne | decide))
      (listFor_best _ _ _ _ _ _ (by decide) trivial id (by decide) (by
        intro j hj _ hne; rcases (by omega : j = 0 ∨ j = 1 ∨ j = 2) with rfl | rfl | rfl <;> first | exact absurd rfl hne | decide))
    norm_num at h1
    linarith
  · have h1 := hit_of_pair ha' (fun _ => trivial) 0 0
      (listFor_best _ _ _ _ _ _ (by decide) trivial id (by decide) (by
        intro j hj _ hne; rcases (by omega : j = 0 ∨ j = 1 ∨ j = 2) with rfl | rfl | rfl <;> first | exact absurd rfl hne | decide))
      (listFor_best _ _ _ _ _ _ (by decide) trivial id (by decide) (by
        intro j hj _ hne; rcases (by omega : j = 0 ∨ j = 1 ∨ j = 2) with rfl | rfl | rfl <;> first | exact absurd rfl hne | decide))
    norm_num at h1
    linarith

/-- the same with the two other items exchanged -/
def scoreA'' : Nat → ScoreRow (WithBot Nat) := fun _ i => if i = 1 then 0 else if i = 0 then 3 else 1

/-- Exchanging the two items outside the ground truth changes the lists but no accuracy metric. -/
example : ∃ a a' : MetricDict,
    ReportOn [0, 1] (fun _ => [0]) scoreA' (fun _ _ => True) (fun _ _ => False) 3 2 false a ∧
    ReportOn [0, 1] (fun _ => [0]) scoreA'' (fun _ _ => True) (fun _ _ => False) 3 2 false a' ∧ a.ndcg = a'.ndcg := by
  obtain ⟨a, ha⟩ := reportOn_exists [0, 1] (fun _ => [0]) scoreA' 3 2 false (by decide) (by decide)
  obtain ⟨a', ha'⟩ := reportOn_exists [0, 1] (fun _ => [0]) scoreA'' 3 2 false (by decide) (by decide)
  have hne : ∀ u i, scoreA' u i ≠ ⊥ := by intro u i; unfold scoreA'; split_ifs <;> decide
  have hne' : ∀ u i, scoreA'' u i ≠ ⊥ := by intro u i; unfold scoreA''; split_ifs <;> decide
  refine ⟨a, a', ha, ha', (C115_relative_order ha ha' (fun u _ i => by simp [hne, hne']) ?_).2.2.2.1⟩
  intro u _ g hg x hx
  rw [List.mem_singleton] at hg hx
  subst hg
  have h1 : scoreA' u x < scoreA' u 0 := by
    show scoreA' u x < 3
    unfold scoreA'
    simp only [hx, if_false]
    split_ifs <;> decide
  have h2 : scoreA'' u x < scoreA'' u 0 := by
    show scoreA'' u x < 3
    unfold scoreA''
    simp only [hx, if_false]
    split_ifs <;> decide
  exact ⟨fun _ => .inl h2, fun _ => .inl h1⟩

end Irspack.Props
