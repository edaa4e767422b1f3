import Verif.Model.Evaluator
import Verif.Spec.Ranking
import Mathlib.Algebra.BigOperators.Group.List.Basic
import Mathlib.Algebra.Order.BigOperators.Ring.Finset
import Mathlib.Tactic.Ring
import Mathlib.Tactic.Linarith
import Mathlib.Tactic.Positivity
import Mathlib.Tactic.FieldSimp
import Mathlib.Data.Finset.Sort
import Mathlib.Order.Interval.Finset.Nat

namespace Irspack.Evaluation
open Irspack Spec

/-! ### Metrics form a commutative monoid under `merge` -/

noncomputable instance : Zero Metrics := ⟨Metrics.empty⟩
noncomputable instance : Add Metrics := ⟨Metrics.merge⟩

noncomputable instance : AddCommMonoid Metrics where
  add_assoc a b c := by
    show Metrics.merge (Metrics.merge a b) c = Metrics.merge a (Metrics.merge b c)
    ext <;> simp [Metrics.merge] <;> ring
  zero_add a := by
    show Metrics.merge Metrics.empty a = a
    ext <;> simp [Metrics.merge, Metrics.empty]
  add_zero a := by
    show Metrics.merge a Metrics.empty = a
    ext <;> simp [Metrics.merge, Metrics.empty]
  add_comm a b := by
    show Metrics.merge a b = Metrics.merge b a
    ext <;> simp [Metrics.merge] <;> ring
  nsmul := nsmulRec

theorem merge_eq_add (a b : Metrics) : a.merge b = a + b := rfl
theorem empty_eq_zero : Metrics.empty = 0 := rfl

section fields
variable (a b : Metrics)
@[simp] theorem add_validUser : (a + b).validUser = a.validUser + b.validUser := by
  show (a.merge b).validUser = _; simp [Metrics.merge]
@[simp] theorem add_totalUser : (a + b).totalUser = a.totalUser + b.totalUser := by
  show (a.merge b).totalUser = _; simp [Metrics.merge]
@[simp] theorem add_hit : (a + b).hit = a.hit + b.hit := rfl
@[simp] theorem add_recall : (a + b).recall = a.recall + b.recall := rfl
@[simp] theorem add_ndcg : (a + b).ndcg = a.ndcg + b.ndcg := rfl
@[simp] theorem add_precision : (a + b).precision = a.precision + b.precision := rfl
@[simp] theorem add_map : (a + b).map = a.map + b.map := rfl
@[simp] theorem add_itemCnt (i : Nat) : (a + b).itemCnt i = a.itemCnt i + b.itemCnt i := rfl
@[simp] theorem zero_validUser : (0 : Metrics).validUser = 0 := rfl
@[simp] theorem zero_totalUser : (0 : Metrics).totalUser = 0 := rfl
@[simp] theorem zero_hit : (0 : Metrics).hit = 0 := rfl
@[simp] theorem zero_recall : (0 : Metrics).recall = 0 := rfl
@[simp] theorem zero_ndcg : (0 : Metrics).ndcg = 0 := rfl
@[simp] theorem zero_precision : (0 : Metrics).precision = 0 := rfl
@[simp] theorem zero_map : (0 : Metrics).map = 0 := rfl
@[simp] theorem zero_itemCnt (i : Nat) : (0 : Metrics).itemCnt i = 0 := rfl
end fields

/-! ### Relevance bookkeeping -/

theorem relevant_lt {recs : List Nat} {gt : Finset Nat} {j : Nat} (h : Relevant recs gt j) :
    j < recs.length := by
  obtain ⟨i, hi, _⟩ := h
  exact (List.getElem?_eq_some_iff.mp hi).1

theorem relevant_append_left {l r : List Nat} {gt : Finset Nat} {j : Nat} (h : j < l.length) :
    Relevant (l ++ r) gt j ↔ Relevant l gt j := by
  unfold Relevant; rw [List.getElem?_append_left h]

theorem relevant_append_right {l r : List Nat} {gt : Finset Nat} {j : Nat} :
    Relevant (l ++ r) gt (l.length + j) ↔ Relevant r gt j := by
  unfold Relevant; rw [List.getElem?_append_right (by omega)]; simp

theorem relevant_cons_zero {a : Nat} {r : List Nat} {gt : Finset Nat} :
    Relevant (a :: r) gt 0 ↔ a ∈ gt := by simp [Relevant]

theorem hitsAt_succ (recs : List Nat) (gt : Finset Nat) (k : Nat) [Decidable (Relevant recs gt k)] :
    hitsAt recs gt (k + 1) = hitsAt recs gt k + if Relevant recs gt k then 1 else 0 := by
  classical
  unfold hitsAt
  rw [Finset.range_add_one, Finset.filter_insert]
  by_cases h : Relevant recs gt k
  · simp only [h, if_true]
    rw [Finset.card_insert_of_notMem]
    simp
  · simp only [h, if_false, Nat.add_zero]

theorem hitsAt_zero (recs : List Nat) (gt : Finset Nat) : hitsAt recs gt 0 = 0 := by
  simp [hitsAt]

theorem hitsAt_append_left (l r : List Nat) (gt : Finset Nat) {k : Nat} (h : k ≤ l.length) :
    hitsAt (l ++ r) gt k = hitsAt l gt k := by
  classical
  unfold hitsAt
  congr 1
  apply Finset.filter_congr
  intro j hj
  exact relevant_append_left (by simp at hj; omega)

theorem hitsAt_append_right (l r : List Nat) (gt : Finset Nat) (k : Nat) :
    hitsAt (l ++ r) gt (l.length + k) = hitsAt l gt l.length + hitsAt r gt k := by
  classical
  induction k with
  | zero => rw [Nat.add_zero, hitsAt_append_left l r gt (Nat.le_refl _), hitsAt_zero, Nat.add_zero]
  | succ k ih =>
    rw [← Nat.add_assoc, hitsAt_succ, hitsAt_succ, ih]
    simp only [relevant_append_right]
    omega

theorem hitsAt_le (recs : List Nat) (gt : Finset Nat) (k : Nat) : hitsAt recs gt k ≤ k := by
  classical
  unfold hitsAt
  exact (Finset.card_filter_le _ _).trans (by simp)

theorem hitsAt_mono (recs : List Nat) (gt : Finset Nat) {j k : Nat} (h : j ≤ k) :
    hitsAt recs gt j ≤ hitsAt recs gt k := by
  classical
  unfold hitsAt
  apply Finset.card_le_card
  apply Finset.filter_subset_filter
  simpa using h

/-! ### The update loop computes the textbook values -/

theorem disc_eq (j : Nat) : dcgDiscount j = 1 / Real.logb 2 ((j : ℝ) + 2) := by
  unfold dcgDiscount; rw [add_comm]

open Classical in
/-- sum of `F j` over relevant positions, as a sum over all positions -/
theorem sum_relevant_snoc (l : List Nat) (a : Nat) (gt : Finset Nat) (F G : Nat → ℝ)
    (hFG : ∀ j < l.length, F j = G j) :
    ∑ j ∈ (Finset.range (l ++ [a]).length).filter (Relevant (l ++ [a]) gt), F j =
      (∑ j ∈ (Finset.range l.length).filter (Relevant l gt), G j) +
        if a ∈ gt then F l.length else 0 := by
  classical
  simp only [Finset.sum_filter]
  rw [List.length_append, List.length_singleton, Finset.sum_range_succ]
  congr 1
  · apply Finset.sum_congr rfl
    intro j hj
    have hj' : j < l.length := by simpa using hj
    rw [relevant_append_left hj', hFG j hj']
  · have : Relevant (l ++ [a]) gt l.length ↔ a ∈ gt := by
      have := relevant_append_right (l := l) (r := [a]) (gt := gt) (j := 0)
      rw [Nat.add_zero] at this
      rw [this, relevant_cons_zero]
    by_cases h : a ∈ gt <;> simp [h, this]

open Classical in
/-- State of the loop after the list `recs`. -/
theorem upd_foldl (recs : List Nat) (gt : Finset Nat) (cnt : Nat → Nat) :
    recs.foldl (updStep gt)
      { i := 0, dcg := 0, cumHit := 0, averagePrecision := 0, itemCnt := cnt } =
    { i := recs.length
      dcg := dcg recs gt
      cumHit := hitsAt recs gt recs.length
      averagePrecision := ∑ j ∈ (Finset.range recs.length).filter (Relevant recs gt),
        (hitsAt recs gt (j + 1) : ℝ) / ((j : ℝ) + 1)
      itemCnt := fun i => cnt i + recs.count i } := by
  induction recs using List.reverseRecOn with
  | nil => simp [dcg, hitsAt_zero]
  | append_singleton l a ih =>
    rw [List.foldl_append, ih]
    simp only [List.foldl_cons, List.foldl_nil]
    have hdcg : dcg (l ++ [a]) gt = dcg l gt + if a ∈ gt then dcgDiscount l.length else 0 := by
      unfold dcg
      rw [sum_relevant_snoc l a gt _ (fun j => 1 / Real.logb 2 ((j : ℝ) + 2)) (fun _ _ => rfl),
        disc_eq]
    have hhit : hitsAt (l ++ [a]) gt (l ++ [a]).length =
        hitsAt l gt l.length + if a ∈ gt then 1 else 0 := by
      rw [List.length_append, hitsAt_append_right]
      congr 1
      rw [List.length_singleton, show (1 : Nat) = 0 + 1 from rfl, hitsAt_succ, hitsAt_zero,
        relevant_cons_zero]
      simp
    have hap : ∑ j ∈ (Finset.range (l ++ [a]).length).filter (Relevant (l ++ [a]) gt),
        (hitsAt (l ++ [a]) gt (j + 1) : ℝ) / ((j : ℝ) + 1) =
        (∑ j ∈ (Finset.range l.length).filter (Relevant l gt),
          (hitsAt l gt (j + 1) : ℝ) / ((j : ℝ) + 1)) +
        if a ∈ gt then ((hitsAt l gt l.length + 1 : Nat) : ℝ) / ((l.length : ℝ) + 1) else 0 := by
      rw [sum_relevant_snoc l a gt _ (fun j => (hitsAt l gt (j + 1) : ℝ) / ((j : ℝ) + 1))]
      · congr 1
        by_cases h : a ∈ gt
        · simp only [h, if_true]
          have : hitsAt (l ++ [a]) gt (l.length + 1) = hitsAt l gt l.length + 1 := by
            have := hhit
            simpa [h] using this
          rw [this]
        · simp [h]
      · intro j hj
        rw [hitsAt_append_left l [a] gt (by omega)]
    have hcnt : (fun i => cnt i + (l ++ [a]).count i) =
        Function.update (fun i => cnt i + l.count i) a (cnt a + l.count a + 1) := by
      funext i
      by_cases h : i = a
      · subst h; simp; omega
      · have h' : ¬ a = i := fun e => h e.symm
        simp [h, h']
    unfold updStep
    by_cases h : a ∈ gt
    · simp only [h, if_true] at hdcg hhit hap ⊢
      rw [hdcg, hhit, hap, hcnt]
      simp
    · simp only [h, if_false, add_zero] at hdcg hhit hap ⊢
      rw [hdcg, hhit, hap, hcnt]
      simp

/-- What one user with ground truth `gt` and list `recs` adds to the accumulator. -/
noncomputable def contribution (capped : Bool) (recs : List Nat) (gt : Finset Nat) : Metrics where
  validUser := 1
  totalUser := 0
  hit := Spec.hit recs gt
  recall := Spec.recall capped recs gt
  ndcg := Spec.ndcg recs gt
  precision := Spec.precision recs gt
  map := Spec.averagePrecision recs gt
  itemCnt := fun i => recs.count i

theorem hit_eq (recs : List Nat) (gt : Finset Nat) :
    Spec.hit recs gt = if hitsAt recs gt recs.length > 0 then 1 else 0 := by
  classical
  unfold Spec.hit
  have : (∃ j, Relevant recs gt j) ↔ hitsAt recs gt recs.length > 0 := by
    unfold hitsAt
    rw [gt_iff_lt, Finset.card_pos]
    constructor
    · rintro ⟨j, hj⟩
      exact ⟨j, by simp [hj, relevant_lt hj]⟩
    · rintro ⟨j, hj⟩
      simp at hj
      exact ⟨j, hj.2⟩
  by_cases h : ∃ j, Relevant recs gt j
  · rw [if_pos h, if_pos (this.mp h)]
  · rw [if_neg h, if_neg (fun h' => h (this.mpr h'))]

theorem spec_nil (capped : Bool) (gt : Finset Nat) :
    Spec.hit [] gt = 0 ∧ Spec.recall capped [] gt = 0 ∧ Spec.ndcg [] gt = 0 ∧
    Spec.precision [] gt = 0 ∧ Spec.averagePrecision [] gt = 0 := by
  refine ⟨?_, ?_, ?_, ?_, ?_⟩
  · rw [hit_eq]; simp [hitsAt_zero]
  · simp [Spec.recall]
  · simp [Spec.ndcg]
  · simp [Spec.precision]
  · simp [Spec.averagePrecision]

theorem range_map_sum (f : Nat → ℝ) (n : Nat) : ((List.range n).map f).sum = ∑ j ∈ Finset.range n, f j := by
  induction n with
  | zero => simp
  | succ n ih => rw [List.range_succ, List.map_append, List.sum_append, ih, Finset.sum_range_succ]; simp

/-- `Metrics::update` adds exactly the textbook values. -/
theorem update_eq (m : Metrics) (recs : List Nat) (gt : Finset Nat) (capped : Bool) :
    m.update recs gt capped = m + contribution capped recs gt := by
  unfold Metrics.update
  by_cases hn : recs.length = 0
  · have hr : recs = [] := List.length_eq_zero_iff.mp hn
    subst hr
    obtain ⟨h1, h2, h3, h4, h5⟩ := spec_nil capped gt
    simp only [List.length_nil, if_true]
    ext <;> simp [contribution, h1, h2, h3, h4, h5]
  · have hr : recs ≠ [] := fun e => hn (by simp [e])
    simp only [hn, if_false]
    rw [upd_foldl]
    ext
    · simp [contribution]
    · simp [contribution]
    · simp only [add_hit, contribution, hit_eq]
      split <;> simp
    · simp only [add_recall, contribution, Spec.recall, hr, if_false]
      congr 3
      cases capped
      · simp
      · simp only [if_true]
        split <;> omega
    · simp only [add_ndcg, contribution, Spec.ndcg, hr, if_false]
      rw [range_map_sum]
      unfold Spec.idealDcg
      simp only [disc_eq]
    · simp only [add_precision, contribution, Spec.precision, hr, if_false]
    · simp only [add_map, contribution, Spec.averagePrecision]
    · simp [contribution]

/-! ### Rows -/

/-- a user that has been looked at -/
noncomputable def oneUser : Metrics := { Metrics.empty with totalUser := 1 }

theorem incrementTotalUser_eq (m : Metrics) : m.incrementTotalUser = m + oneUser := by
  unfold Metrics.incrementTotalUser oneUser Metrics.empty
  ext <;> simp

section scores
variable {S : Type} [LinearOrder S] [OrderBot S]

/-- contribution of score row `u` -/
noncomputable def rowContribution (c : Core) (rows : List (ScoreRow S)) (cutoff offset : Nat)
    (capped : Bool) (u : Nat) : Metrics :=
  oneUser + if c.gtSet (u + offset) = ∅ then 0 else
    contribution capped (topCutoff c.nItems (c.recommendableFor (u + offset)) cutoff
      (rows.getD u (fun _ => ⊥))) (c.gtSet (u + offset))

theorem evalRow_eq (c : Core) (rows : List (ScoreRow S)) (cutoff offset : Nat) (capped : Bool)
    (u : Nat) (m : Metrics) :
    c.evalRow rows cutoff offset capped u m = m + rowContribution c rows cutoff offset capped u := by
  unfold Core.evalRow rowContribution
  simp only [incrementTotalUser_eq]
  split
  · simp
  · rw [update_eq, add_assoc]

theorem foldl_add_eq {A : Type} [AddCommMonoid A] (g : Nat → A) (n : Nat) (a : A) :
    (List.range n).foldl (fun m u => m + g u) a = a + ∑ u ∈ Finset.range n, g u := by
  induction n with
  | zero => simp
  | succ n ih =>
    rw [List.range_succ, List.foldl_append, ih, Finset.sum_range_succ]
    simp [add_assoc]

theorem getMetrics_eq (c : Core) (rows : List (ScoreRow S)) (cutoff offset nThreads : Nat)
    (capped : Bool) :
    c.getMetrics rows cutoff offset nThreads capped =
      match c.checkArgs rows.length cutoff offset nThreads with
      | .error e => .error e
      | .ok () => .ok (∑ u ∈ Finset.range rows.length,
          rowContribution c rows cutoff offset capped u) := by
  unfold Core.getMetrics
  cases c.checkArgs rows.length cutoff offset nThreads with
  | error e => rfl
  | ok _ =>
    simp only [evalRow_eq]
    rw [foldl_add_eq, empty_eq_zero, zero_add]

end scores

theorem listRow_eq (recs gts : List (List Nat)) (u : Nat) (m : Metrics) :
    listRow recs gts u m =
      m + (oneUser + contribution false (recs.getD u []) (gts.getD u []).toFinset) := by
  unfold listRow
  rw [incrementTotalUser_eq, update_eq, add_assoc]

end Irspack.Evaluation
