import Verif.Proofs.Evaluator
import Verif.Spec.Diversity
import Mathlib.Algebra.Order.Chebyshev
import Mathlib.Analysis.Convex.SpecificFunctions.Basic

namespace Irspack.Evaluation
open Irspack Spec

/-- Σ_k (2(i0+k) - n + 1) l_k -/
noncomputable def rankSum (n : ℝ) (i0 : ℝ) : List Nat → ℝ
  | [] => 0
  | a :: l => (2 * i0 - n + 1) * a + rankSum n (i0 + 1) l

theorem div_foldl (n : Nat) (total : ℝ) (l : List Nat) (a : DivAcc) :
    l.foldl (divStep n total) a =
    { i := a.i + l.length
      appeared := a.appeared + ((l.filter (fun c => decide (c ≠ 0))).length : ℝ)
      entropy := a.entropy + (l.map (fun c : Nat => Real.negMulLog ((c : ℝ) / total))).sum
      gini := a.gini + rankSum n a.i l } := by
  induction l generalizing a with
  | nil => simp [rankSum]
  | cons c l ih =>
    rw [List.foldl_cons, ih]
    unfold divStep
    by_cases hc : c = 0
    · subst hc
      simp [rankSum]
      omega
    · simp only [hc, if_false]
      have : (fun c : Nat => decide (c ≠ 0)) c = true := by simp [hc]
      rw [List.filter_cons_of_pos (p := fun c : Nat => decide (c ≠ 0)) this]
      simp only [List.length_cons, List.map_cons, List.sum_cons, rankSum, Real.negMulLog]
      congr 1
      · omega
      · push_cast; ring
      · ring
      · push_cast; ring

/-- Σ_{a,b ∈ l} |a - b| -/
noncomputable def absDiff (l : List Nat) : ℝ :=
  (l.map (fun a : Nat => (l.map (fun b : Nat => |(a : ℝ) - b|)).sum)).sum

theorem absDiff_perm {l l' : List Nat} (h : l.Perm l') : absDiff l = absDiff l' := by
  unfold absDiff
  have h1 : ∀ a : Nat, (l.map (fun b : Nat => |(a : ℝ) - b|)).sum =
      (l'.map (fun b : Nat => |(a : ℝ) - b|)).sum := fun a => (h.map _).sum_eq
  simp only [h1]
  exact (h.map _).sum_eq

theorem rankSum_shift (n i0 d : ℝ) (l : List Nat) :
    rankSum n (i0 + d) l = rankSum n i0 l + 2 * d * ((l.sum : Nat) : ℝ) := by
  induction l generalizing i0 with
  | nil => simp [rankSum]
  | cons a l ih =>
    simp only [rankSum, List.sum_cons]
    rw [show i0 + d + 1 = (i0 + 1) + d by ring, ih]
    push_cast; ring

theorem rankSum_n (n m i0 : ℝ) (l : List Nat) :
    rankSum n i0 l = rankSum m i0 l + (m - n) * ((l.sum : Nat) : ℝ) := by
  induction l generalizing i0 with
  | nil => simp [rankSum]
  | cons a l ih =>
    simp only [rankSum, List.sum_cons, ih]
    push_cast; ring

theorem sum_abs_sorted (a : Nat) (l : List Nat) (h : ∀ b ∈ l, a ≤ b) :
    (l.map (fun b : Nat => |(a : ℝ) - b|)).sum = ((l.sum : Nat) : ℝ) - l.length * a := by
  induction l with
  | nil => simp
  | cons b l ih =>
    simp only [List.map_cons, List.sum_cons, List.length_cons]
    rw [ih (fun c hc => h c (List.mem_cons_of_mem _ hc))]
    have hab : (a : ℝ) ≤ b := by exact_mod_cast h b List.mem_cons_self
    rw [abs_sub_comm, abs_of_nonneg (by linarith)]
    push_cast; ring

theorem list_sum_map_add (l : List Nat) (f g : Nat → ℝ) :
    (l.map (fun x => f x + g x)).sum = (l.map f).sum + (l.map g).sum := by
  induction l with
  | nil => simp
  | cons a l ih => simp only [List.map_cons, List.sum_cons, ih]; ring

theorem absDiff_sorted (l : List Nat) (h : l.Pairwise (· ≤ ·)) :
    absDiff l = 2 * rankSum l.length 0 l := by
  induction l with
  | nil => simp [absDiff, rankSum]
  | cons a l ih =>
    have hp := List.pairwise_cons.mp h
    have ih := ih hp.2
    have hexp : absDiff (a :: l) =
        2 * (l.map (fun b : Nat => |(a : ℝ) - b|)).sum + absDiff l := by
      unfold absDiff
      simp only [List.map_cons, List.sum_cons, sub_self, abs_zero, zero_add]
      rw [list_sum_map_add]
      have : (l.map (fun x : Nat => |(x : ℝ) - a|)).sum = (l.map (fun b : Nat => |(a : ℝ) - b|)).sum := by
        congr 1; apply List.map_congr_left; intro x _; exact abs_sub_comm _ _
      rw [this]; ring
    rw [hexp, ih, sum_abs_sorted a l hp.1]
    simp only [rankSum, List.length_cons]
    rw [rankSum_shift (i0 := 0) (d := 1), rankSum_n ((l.length + 1 : Nat) : ℝ) (l.length : ℝ)]
    push_cast; ring

theorem list_range_sum (n : Nat) (f : Nat → ℝ) :
    (((List.range n).map f).sum) = ∑ i ∈ Finset.range n, f i := range_map_sum f n

theorem counts_sum (n : Nat) (cnt : Nat → Nat) :
    ((List.range n).map cnt).sum = totalCount n cnt := by
  unfold totalCount
  induction n with
  | zero => simp
  | succ n ih => rw [List.range_succ, List.map_append, List.sum_append, ih, Finset.sum_range_succ]; simp

theorem counts_filter (n : Nat) (cnt : Nat → Nat) :
    (((List.range n).map cnt).filter (fun c => decide (c ≠ 0))).length = appeared n cnt := by
  unfold appeared
  induction n with
  | zero => simp
  | succ n ih =>
    rw [List.range_succ, List.map_append, List.filter_append, List.length_append, ih,
      Finset.range_add_one, Finset.filter_insert]
    by_cases h : cnt n = 0
    · simp [h]
    · simp only [h, not_false_eq_true, ne_eq, if_true]
      rw [Finset.card_insert_of_notMem (by simp)]
      simp [h]

theorem absDiff_range (n : Nat) (cnt : Nat → Nat) :
    absDiff ((List.range n).map cnt) =
      ∑ i ∈ Finset.range n, ∑ j ∈ Finset.range n, |(cnt i : ℝ) - cnt j| := by
  unfold absDiff
  simp only [List.map_map]
  rw [← list_range_sum]
  congr 1

/-- The loop over the sorted counts computes the textbook values. -/
theorem asDict_diversity (n : Nat) (m : Metrics) :
    (m.asDict n).appearedItem = appeared n m.itemCnt ∧
    (m.asDict n).entropy = Spec.entropy n m.itemCnt ∧
    (m.asDict n).giniIndex = Spec.gini n m.itemCnt := by
  set counts := (List.range n).map m.itemCnt with hcounts
  set srt := counts.mergeSort (fun a b => decide (a ≤ b)) with hsrt
  have hperm : srt.Perm counts := List.mergeSort_perm _ _
  have hpw : srt.Pairwise (· ≤ ·) := by
    have := List.pairwise_mergeSort (le := fun a b : Nat => decide (a ≤ b))
      (by intro a b c; simp; omega) (by intro a b; simp; omega) counts
    simpa using this
  have hlen : srt.length = n := by rw [hperm.length_eq, hcounts]; simp
  have hfold := div_foldl n ((counts.sum : Nat) : ℝ) srt { i := 0, appeared := 0, entropy := 0, gini := 0 }
  have hD : absDiff counts = 2 * rankSum n 0 srt := by
    rw [← absDiff_perm hperm, absDiff_sorted srt hpw, hlen]
  have hf1 : (srt.filter (fun c => decide (c ≠ 0))).length = appeared n m.itemCnt := by
    rw [(hperm.filter _).length_eq, counts_filter]
  have hf2 : (srt.map (fun c : Nat => Real.negMulLog ((c : ℝ) / ((counts.sum : Nat) : ℝ)))).sum =
      Spec.entropy n m.itemCnt := by
    rw [(hperm.map _).sum_eq, hcounts, counts_sum]
    unfold Spec.entropy
    rw [← list_range_sum, List.map_map]
    rfl
  refine ⟨?_, ?_, ?_⟩
  · show (srt.foldl (divStep n ((counts.sum : Nat) : ℝ)) _).appeared = _
    rw [hfold]; simp only [zero_add]; rw [hf1]
  · show (srt.foldl (divStep n ((counts.sum : Nat) : ℝ)) _).entropy = _
    rw [hfold]; simp only [zero_add]; rw [hf2]
  · show (if ((counts.sum : Nat) : ℝ) > 0 then
        (srt.foldl (divStep n ((counts.sum : Nat) : ℝ)) _).gini / ((n : ℝ) * ((counts.sum : Nat) : ℝ))
      else (srt.foldl (divStep n ((counts.sum : Nat) : ℝ)) _).gini) = _
    rw [hfold]
    simp only [zero_add, Nat.cast_zero]
    have hg : Spec.gini n m.itemCnt = 2 * rankSum n 0 srt / (2 * n * ((counts.sum : Nat) : ℝ)) := by
      unfold Spec.gini
      rw [← absDiff_range, ← hcounts, hD, hcounts, counts_sum]
    rw [hg]
    split
    · rename_i h
      by_cases hn : n = 0
      · subst hn
        simp
      · have : (n : ℝ) ≠ 0 := by exact_mod_cast hn
        field_simp
    · rename_i h
      have h0 : counts.sum = 0 := by
        have : (0 : ℝ) ≤ ((counts.sum : Nat) : ℝ) := Nat.cast_nonneg _
        have : ((counts.sum : Nat) : ℝ) = 0 := by linarith [not_lt.mp h]
        exact_mod_cast this
      have hs0 : srt.sum = 0 := by rw [hperm.sum_eq, h0]
      have : ∀ (l : List Nat) (i0 : ℝ), l.sum = 0 → rankSum n i0 l = 0 := by
        intro l
        induction l with
        | nil => intro i0 _; rfl
        | cons a l ih =>
          intro i0 h
          simp only [List.sum_cons] at h
          have ha : a = 0 := by omega
          simp only [rankSum, ha, Nat.cast_zero, mul_zero, zero_add]
          exact ih _ (by omega)
      rw [this srt 0 hs0, h0]
      simp

/-! ### bounds on the textbook values -/

theorem gini_nonneg (n : Nat) (cnt : Nat → Nat) : 0 ≤ Spec.gini n cnt := by
  unfold Spec.gini
  apply div_nonneg
  · exact Finset.sum_nonneg (fun _ _ => Finset.sum_nonneg (fun _ _ => abs_nonneg _))
  · positivity

theorem gini_le (n : Nat) (hn : 0 < n) (cnt : Nat → Nat) : Spec.gini n cnt ≤ 1 - 1 / n := by
  have hn' : (0 : ℝ) < n := by exact_mod_cast hn
  by_cases ht : totalCount n cnt = 0
  · unfold Spec.gini
    rw [ht]
    simp only [Nat.cast_zero, mul_zero, div_zero, sub_nonneg]
    rw [div_le_one hn']
    exact_mod_cast hn
  · have ht' : (0 : ℝ) < totalCount n cnt := by exact_mod_cast Nat.pos_of_ne_zero ht
    unfold Spec.gini
    rw [div_le_iff₀ (by positivity)]
    have hb : ∀ i ∈ Finset.range n, ∑ j ∈ Finset.range n, |(cnt i : ℝ) - cnt j| ≤
        ∑ j ∈ Finset.range n, (if i = j then 0 else ((cnt i : ℝ) + cnt j)) := by
      intro i _
      apply Finset.sum_le_sum
      intro j _
      split
      · rename_i h; subst h; simp
      · rw [abs_le]
        have h1 : (0 : ℝ) ≤ cnt i := Nat.cast_nonneg _
        have h2 : (0 : ℝ) ≤ cnt j := Nat.cast_nonneg _
        constructor <;> linarith
    refine (Finset.sum_le_sum hb).trans ?_
    have hT : (∑ i ∈ Finset.range n, (cnt i : ℝ)) = totalCount n cnt := by
      unfold totalCount; push_cast; rfl
    have he : ∀ i ∈ Finset.range n,
        ∑ j ∈ Finset.range n, (if i = j then 0 else ((cnt i : ℝ) + cnt j)) =
        (n : ℝ) * cnt i + totalCount n cnt - 2 * cnt i := by
      intro i hi
      have : ∀ j ∈ Finset.range n, (if i = j then (0 : ℝ) else ((cnt i : ℝ) + cnt j)) =
          ((cnt i : ℝ) + cnt j) - (if i = j then 2 * (cnt i : ℝ) else 0) := by
        intro j _
        split
        · rename_i h; subst h; ring
        · ring
      rw [Finset.sum_congr rfl this, Finset.sum_sub_distrib, Finset.sum_add_distrib,
        Finset.sum_ite_eq, if_pos hi, hT, Finset.sum_const, Finset.card_range, nsmul_eq_mul]
    rw [Finset.sum_congr rfl he, Finset.sum_sub_distrib, Finset.sum_add_distrib, ← Finset.mul_sum,
      ← Finset.mul_sum, hT, Finset.sum_const, Finset.card_range, nsmul_eq_mul]
    apply le_of_eq
    field_simp
    ring

theorem gini_uniform (n : Nat) (cnt : Nat → Nat) (h : ∀ i < n, ∀ j < n, cnt i = cnt j) :
    Spec.gini n cnt = 0 := by
  unfold Spec.gini
  have : ∑ i ∈ Finset.range n, ∑ j ∈ Finset.range n, |(cnt i : ℝ) - cnt j| = 0 := by
    apply Finset.sum_eq_zero; intro i hi
    apply Finset.sum_eq_zero; intro j hj
    rw [h i (by simpa using hi) j (by simpa using hj)]; simp
  rw [this, zero_div]

theorem gini_single (n : Nat) (cnt : Nat → Nat) (k : Nat) (hk : k < n) (hpos : 0 < cnt k)
    (h : ∀ i < n, i ≠ k → cnt i = 0) : Spec.gini n cnt = 1 - 1 / n := by
  have hn' : (0 : ℝ) < n := by exact_mod_cast (Nat.zero_lt_of_lt hk)
  have hc : (0 : ℝ) < cnt k := by exact_mod_cast hpos
  have hT : (totalCount n cnt : ℝ) = cnt k := by
    unfold totalCount
    rw [Finset.sum_eq_single k]
    · intro i hi hik; exact h i (by simpa using hi) hik
    · intro h; exact absurd (by simpa using hk) h
  unfold Spec.gini
  rw [hT]
  have hi : ∀ i ∈ Finset.range n, ∑ j ∈ Finset.range n, |(cnt i : ℝ) - cnt j| =
      if i = k then ((n : ℝ) - 1) * cnt k else cnt k := by
    intro i hi
    by_cases hik : i = k
    · rw [if_pos hik, hik]
      have : ∀ j ∈ Finset.range n, |(cnt k : ℝ) - cnt j| = cnt k - if k = j then (cnt k : ℝ) else 0 := by
        intro j hj
        by_cases hj' : k = j
        · rw [if_pos hj', ← hj']; simp
        · rw [h j (by simpa using hj) (fun e => hj' e.symm)]; simp [hj']
      rw [Finset.sum_congr rfl this, Finset.sum_sub_distrib, Finset.sum_ite_eq,
        if_pos (by simpa using hk), Finset.sum_const, Finset.card_range, nsmul_eq_mul]
      ring
    · rw [if_neg hik, h i (by simpa using hi) hik]
      rw [Finset.sum_eq_single k]
      · simp
      · intro j hj hjk; rw [h j (by simpa using hj) hjk]; simp
      · intro hh; exact absurd (by simpa using hk) hh
  rw [Finset.sum_congr rfl hi]
  have : ∀ i ∈ Finset.range n, (if i = k then ((n : ℝ) - 1) * cnt k else (cnt k : ℝ)) =
      cnt k + if i = k then ((n : ℝ) - 2) * cnt k else 0 := by
    intro i _; split <;> ring
  rw [Finset.sum_congr rfl this, Finset.sum_add_distrib, Finset.sum_ite_eq',
    if_pos (by simpa using hk), Finset.sum_const, Finset.card_range, nsmul_eq_mul]
  field_simp
  ring

theorem share_nonneg (n : Nat) (cnt : Nat → Nat) (i : Nat) :
    0 ≤ (cnt i : ℝ) / totalCount n cnt := by positivity

theorem share_le_one (n : Nat) (cnt : Nat → Nat) (i : Nat) (hi : i < n) :
    (cnt i : ℝ) / totalCount n cnt ≤ 1 := by
  have h1 : cnt i ≤ totalCount n cnt :=
    Finset.single_le_sum (f := cnt) (fun _ _ => Nat.zero_le _) (by simpa using hi)
  by_cases h : totalCount n cnt = 0
  · rw [h]; simp
  · rw [div_le_one (by exact_mod_cast Nat.pos_of_ne_zero h)]
    exact_mod_cast h1

theorem entropy_nonneg (n : Nat) (cnt : Nat → Nat) : 0 ≤ Spec.entropy n cnt :=
  Finset.sum_nonneg (fun i hi =>
    Real.negMulLog_nonneg (share_nonneg n cnt i) (share_le_one n cnt i (by simpa using hi)))

theorem entropy_le (n : Nat) (cnt : Nat → Nat) : Spec.entropy n cnt ≤ Real.log (appeared n cnt) := by
  by_cases ht : totalCount n cnt = 0
  · unfold Spec.entropy
    rw [ht]
    simp only [Nat.cast_zero, div_zero, Real.negMulLog_zero, Finset.sum_const_zero]
    exact Real.log_natCast_nonneg _
  · have ht' : (0 : ℝ) < totalCount n cnt := by exact_mod_cast Nat.pos_of_ne_zero ht
    set s := (Finset.range n).filter (fun i => cnt i ≠ 0) with hs
    have hk : appeared n cnt = s.card := rfl
    have hne : s.Nonempty := by
      by_contra hcon
      rw [Finset.not_nonempty_iff_eq_empty] at hcon
      apply ht
      unfold totalCount
      apply Finset.sum_eq_zero
      intro i hi
      by_contra h
      have : i ∈ s := by rw [hs, Finset.mem_filter]; exact ⟨hi, h⟩
      rw [hcon] at this
      exact absurd this (Finset.notMem_empty _)
    have hkpos : (0 : ℝ) < s.card := by exact_mod_cast hne.card_pos
    have hsum : ∑ i ∈ s, (cnt i : ℝ) / totalCount n cnt = 1 := by
      rw [← Finset.sum_div, div_eq_one_iff_eq ht'.ne']
      have : ∑ i ∈ s, cnt i = totalCount n cnt := by
        unfold totalCount
        rw [hs, Finset.sum_filter]
        apply Finset.sum_congr rfl
        intro i _; split
        · rfl
        · rename_i h; push Not at h; exact h.symm
      exact_mod_cast this
    have hent : Spec.entropy n cnt = ∑ i ∈ s, Real.negMulLog ((cnt i : ℝ) / totalCount n cnt) := by
      unfold Spec.entropy
      rw [hs, Finset.sum_filter]
      apply Finset.sum_congr rfl
      intro i _; split
      · rfl
      · rename_i h; push Not at h; rw [h]; simp
    rw [hent, hk]
    -- -p log p ≤ p log k + (1/k - p)
    have hpt : ∀ i ∈ s, Real.negMulLog ((cnt i : ℝ) / totalCount n cnt) ≤
        (cnt i : ℝ) / totalCount n cnt * Real.log s.card +
          (1 / s.card - (cnt i : ℝ) / totalCount n cnt) := by
      intro i hi
      have hci : 0 < cnt i := Nat.pos_of_ne_zero (by rw [hs, Finset.mem_filter] at hi; exact hi.2)
      have hp : (0 : ℝ) < (cnt i : ℝ) / totalCount n cnt := by
        apply div_pos _ ht'
        exact_mod_cast hci
      set p := (cnt i : ℝ) / totalCount n cnt
      have hl := Real.log_le_sub_one_of_pos (show 0 < 1 / (s.card * p) by positivity)
      rw [Real.log_div one_ne_zero (by positivity), Real.log_one, zero_sub,
        Real.log_mul hkpos.ne' hp.ne'] at hl
      have h2 := mul_le_mul_of_nonneg_left hl hp.le
      have h3 : p * (1 / (s.card * p) - 1) = 1 / s.card - p := by field_simp
      rw [h3] at h2
      unfold Real.negMulLog
      nlinarith
    refine (Finset.sum_le_sum hpt).trans ?_
    rw [Finset.sum_add_distrib, ← Finset.sum_mul, hsum, Finset.sum_sub_distrib, hsum,
      Finset.sum_const, nsmul_eq_mul]
    apply le_of_eq
    field_simp
    ring

end Irspack.Evaluation
