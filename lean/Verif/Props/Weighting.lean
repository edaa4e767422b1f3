import Mathlib.Tactic
import Verif.Proofs.Similarity

/-!
# C30, C31, C32: remove_diagonal, BM25 / TF-IDF weights, row normalisation
-/

namespace Irspack.Props
open Irspack Sim Spec.Sim

/-! ### C30 -/

theorem zeroAt_get (i : Nat) (row : SpVec ℝ) (j : Nat) :
    (zeroAt i row).get j = if i = j then 0 else row.get j := by
  unfold zeroAt
  induction row with
  | nil => simp [get_nil]
  | cons e row ih =>
    rw [List.map_cons, get_cons, get_cons, ih]
    by_cases h1 : i = e.1 <;> by_cases h2 : i = j <;> simp_all

theorem row_mapIdx (X : CSR ℝ) (f : Nat → SpVec ℝ → SpVec ℝ) (hf : ∀ i, f i [] = []) (c i : Nat) :
    (CSR.mk c (X.rows.mapIdx f)).row i = f i (X.row i) := by
  unfold CSR.row
  simp only [List.getD_eq_getElem?_getD, List.getElem?_mapIdx]
  cases X.rows[i]? <;> simp [hf]

/-- C30: a square matrix keeps its shape, its stored positions and every value off the diagonal; the
diagonal becomes zero. -/
theorem C30_remove_diagonal (X : CSR ℝ) (hsq : X.nrows = X.cols) :
    ∃ Y, removeDiagonal X = .ok Y ∧ Y.nrows = X.nrows ∧ Y.cols = X.cols ∧
      (∀ i j, Y.get i j = if i = j then 0 else X.get i j) ∧
      (∀ i, (Y.row i).map Prod.fst = (X.row i).map Prod.fst) := by
  refine ⟨⟨X.cols, X.rows.mapIdx zeroAt⟩, ?_, ?_, rfl, ?_, ?_⟩
  · unfold removeDiagonal; rw [if_neg (by simpa using hsq)]
  · simp [CSR.nrows]
  · intro i j
    unfold CSR.get
    rw [row_mapIdx X zeroAt (fun _ => rfl)]
    exact zeroAt_get i _ j
  · intro i
    rw [row_mapIdx X zeroAt (fun _ => rfl)]
    unfold zeroAt
    rw [List.map_map]
    apply List.map_congr_left
    intro e _
    simp only [Function.comp]
    split <;> rfl

/-- C30: applying it to its own result changes nothing. -/
theorem C30_idempotent (X Y : CSR ℝ) (h : removeDiagonal X = .ok Y) : removeDiagonal Y = .ok Y := by
  unfold removeDiagonal at h ⊢
  split at h
  · cases h
  · rename_i hsq
    push Not at hsq
    injection h with h
    subst h
    have : CSR.nrows ⟨X.cols, X.rows.mapIdx zeroAt⟩ = X.nrows := by simp [CSR.nrows]
    rw [if_neg (by rw [this]; simpa using hsq)]
    congr 2
    apply List.ext_getElem
    · simp
    · intro i h1 h2
      simp only [List.getElem_mapIdx]
      unfold zeroAt
      rw [List.map_map]
      apply List.map_congr_left
      intro e _
      simp only [Function.comp]
      split <;> simp_all

/-- C30: a matrix that is not square is refused. -/
theorem C30_rejects_non_square (X : CSR ℝ) (h : X.nrows ≠ X.cols) :
    removeDiagonal X = .error .invalidArgument := by
  unfold removeDiagonal; rw [if_pos h]

example : (CSR.mk 2 [[(0, (3 : ℝ)), (1, 4)], [(0, 5)]]).nrows = 2 := rfl

example : ∃ Y, removeDiagonal ⟨2, [[(0, 3), (1, 4)], [(0, 5)]]⟩ = .ok Y ∧ Y.get 0 0 = 0 ∧ Y.get 0 1 = 4 := by
  obtain ⟨Y, h, -, -, hg, -⟩ := C30_remove_diagonal ⟨2, [[(0, 3), (1, 4)], [(0, 5)]]⟩ rfl
  refine ⟨Y, h, by rw [hg]; simp, ?_⟩
  rw [hg]; norm_num [CSR.get, CSR.row, SpVec.get]

/-! ### C31 -/

theorem docFreq_eq (X : CSR ℝ) (hX : Proper X) (hz : NoStoredZero X) (j : Nat) :
    docFreq X j = frequency X j := by
  have hcount : ∀ v : SpVec ℝ, (v.map Prod.fst).Nodup → (∀ e ∈ v, e.2 ≠ 0) →
      v.countP (fun e => decide (e.1 = j)) = if v.get j ≠ 0 then 1 else 0 := by
    intro v hn hz
    have h1 : v.countP (fun e => decide (e.1 = j)) = (v.map Prod.fst).count j := by
      rw [List.count, List.countP_map]
      apply List.countP_congr
      intro e _
      simp
    rw [h1]
    by_cases h : v.get j ≠ 0
    · rw [if_pos h]
      exact List.count_eq_one_of_mem hn ((mem_cols_iff v hn hz j).mpr h)
    · rw [if_neg h]
      exact List.count_eq_zero.mpr (fun hc => h ((mem_cols_iff v hn hz j).mp hc))
  unfold docFreq frequency
  have hmap : X.rows.map (fun row => row.countP (fun e => decide (e.1 = j))) =
      (List.range X.nrows).map (fun r => if X.get r j ≠ 0 then 1 else 0) := by
    apply List.ext_getElem
    · simp [CSR.nrows]
    · intro i h1 h2
      have hi : i < X.nrows := by simpa [CSR.nrows] using h1
      simp only [List.getElem_map, List.getElem_range]
      have hrow : X.rows[i] = X.row i := by
        unfold CSR.row
        rw [List.getD_eq_getElem?_getD, List.getElem?_eq_getElem hi, Option.getD_some]
      exact (congrArg (fun l : SpVec ℝ => l.countP (fun e => decide (e.1 = j))) hrow).trans
        (hcount _ (row_nodup hX i) (row_nonzero hz i))
  rw [hmap, Finset.card_filter, ← List.sum_toFinset _ List.nodup_range]
  congr 1
  ext r; simp

theorem docLength_eq (X : CSR ℝ) (hX : Proper X) (r : Nat) : docLength (X.row r) = Spec.Sim.length X r := by
  unfold docLength Spec.Sim.length CSR.get
  have := sum_stored (X.row r) X.cols (row_bound hX r) (fun _ => 1)
  simpa using this

theorem sum_rows (X : CSR ℝ) (f : SpVec ℝ → ℝ) :
    (X.rows.map f).sum = ∑ r ∈ Finset.range X.nrows, f (X.row r) := by
  have : X.rows.map f = (List.range X.nrows).map (fun r => f (X.row r)) := by
    apply List.ext_getElem
    · simp [CSR.nrows]
    · intro i h1 h2
      have hi : i < X.nrows := by simpa [CSR.nrows] using h1
      simp only [List.getElem_map, List.getElem_range]
      unfold CSR.row
      rw [List.getD_eq_getElem?_getD, List.getElem?_eq_getElem hi, Option.getD_some]
      rfl
  rw [this, ← List.sum_toFinset _ List.nodup_range]
  congr 1
  ext r; simp

/-- The inverse document frequency used by BM25. -/
noncomputable def bm25Idf (X : CSR ℝ) (j : Nat) : ℝ := Real.log (X.nrows / ((frequency X j : ℝ) + 1) + 1)

/-- C31: both weightings keep the shape and the stored positions of every matrix. -/
theorem C31_same_pattern (X : CSR ℝ) (k1 b : ℝ) (smooth : Bool) :
    ((bm25 X k1 b).cols = X.cols ∧ (bm25 X k1 b).nrows = X.nrows ∧
      ∀ r, ((bm25 X k1 b).row r).map Prod.fst = (X.row r).map Prod.fst) ∧
    ((tfIdf X smooth).cols = X.cols ∧ (tfIdf X smooth).nrows = X.nrows ∧
      ∀ r, ((tfIdf X smooth).row r).map Prod.fst = (X.row r).map Prod.fst) := by
  refine ⟨⟨rfl, by simp [bm25, CSR.nrows], fun r => ?_⟩, rfl, by simp [tfIdf, CSR.nrows], fun r => ?_⟩
  · unfold bm25
    rw [row_map _ _ (by simp)]
    simp only [List.map_map]
    rfl
  · unfold tfIdf
    rw [row_map _ _ (by simp)]
    simp only [List.map_map]
    rfl

theorem bm25_get (X : CSR ℝ) (hX : Proper X) (hp : Positive X) (k1 b : ℝ) (r j : Nat)
    (hx : X.get r j ≠ 0) :
    (bm25 X k1 b).get r j = bm25Idf X j * (X.get r j * (k1 + 1)) /
      (X.get r j + k1 * (1 - b + b * Spec.Sim.length X r /
        ((∑ r ∈ Finset.range X.nrows, Spec.Sim.length X r) / X.nrows))) := by
  have hz : NoStoredZero X := fun row hr e he => ne_of_gt (hp row hr e he)
  unfold CSR.get bm25
  rw [row_map _ _ (by simp)]
  simp only
  rw [get_mapval (X.row r) (row_nodup hX r) (fun c v => Real.log (X.nrows / ((docFreq X c : ℝ) + 1) + 1) *
    (v * (k1 + 1)) / (v + k1 * (1 - b + b * docLength (X.row r) / avgdl X)))]
  rw [if_pos ((mem_cols_iff _ (row_nodup hX r) (row_nonzero hz r) j).mpr hx), docFreq_eq X hX hz,
    docLength_eq X hX]
  unfold avgdl bm25Idf
  rw [sum_rows]
  simp only [docLength_eq X hX]

theorem bm25_zero (X : CSR ℝ) (hX : Proper X) (hp : Positive X) (k1 b : ℝ) (r j : Nat)
    (hx : X.get r j = 0) : (bm25 X k1 b).get r j = 0 := by
  have hz : NoStoredZero X := fun row hr e he => ne_of_gt (hp row hr e he)
  unfold CSR.get
  apply get_eq_zero
  rw [(C31_same_pattern X k1 b true).1.2.2 r, mem_cols_iff _ (row_nodup hX r) (row_nonzero hz r)]
  simpa [CSR.get] using hx

/-- C31 (Okapi BM25). The weight of a stored interaction is
`idf · x (k1 + 1) / (x + k1 (1 - b + b · length / mean length))` with
`idf = log (n_rows / (frequency + 1) + 1)`. -/
theorem C31_bm25_formula (X : CSR ℝ) (hX : Proper X) (hp : Positive X) (k1 b : ℝ) (r j : Nat)
    (meanLength : ℝ) (hm : meanLength = (∑ r ∈ Finset.range X.nrows, Spec.Sim.length X r) / X.nrows) :
    (X.get r j = 0 → (bm25 X k1 b).get r j = 0) ∧
    (X.get r j ≠ 0 → (bm25 X k1 b).get r j =
      Real.log (X.nrows / ((frequency X j : ℝ) + 1) + 1) * (X.get r j * (k1 + 1)) /
        (X.get r j + k1 * (1 - b + b * Spec.Sim.length X r / meanLength))) :=
  ⟨bm25_zero X hX hp k1 b r j, fun h => by rw [bm25_get X hX hp k1 b r j h, hm]; rfl⟩

theorem get_nonneg (X : CSR ℝ) (hp : Positive X) (r j : Nat) : 0 ≤ X.get r j := by
  unfold CSR.get SpVec.get
  apply List.sum_nonneg
  intro x hx
  obtain ⟨e, he, rfl⟩ := List.mem_map.mp hx
  by_cases hr : r < X.nrows
  · exact (hp _ (row_mem X hr) e (List.mem_filter.mp he).1).le
  · rw [row_nil X hr] at he; simp at he

theorem get_col_lt (X : CSR ℝ) (hX : Proper X) (r j : Nat) (h : X.get r j ≠ 0) : j < X.cols := by
  by_contra hc
  apply h
  apply get_eq_zero
  intro hm
  obtain ⟨e, he, rfl⟩ := List.mem_map.mp hm
  exact hc (row_bound hX r e he)

theorem get_row_lt (X : CSR ℝ) (r j : Nat) (h : X.get r j ≠ 0) : r < X.nrows := by
  by_contra hc
  apply h
  unfold CSR.get
  rw [row_nil X hc]; exact get_nil j

theorem length_nonneg (X : CSR ℝ) (hp : Positive X) (r : Nat) : 0 ≤ Spec.Sim.length X r :=
  Finset.sum_nonneg fun j _ => get_nonneg X hp r j

theorem length_pos (X : CSR ℝ) (hX : Proper X) (hp : Positive X) (r j : Nat) (h : X.get r j ≠ 0) :
    0 < Spec.Sim.length X r := by
  unfold Spec.Sim.length
  exact Finset.sum_pos' (fun j _ => get_nonneg X hp r j)
    ⟨j, Finset.mem_range.mpr (get_col_lt X hX r j h), lt_of_le_of_ne (get_nonneg X hp r j) (Ne.symm h)⟩

theorem bm25_reg_pos (X : CSR ℝ) (hX : Proper X) (hp : Positive X) (k1 b : ℝ) (hk : 0 < k1) (hb0 : 0 ≤ b)
    (hb1 : b ≤ 1) (r j : Nat) (h : X.get r j ≠ 0) :
    0 < k1 * (1 - b + b * Spec.Sim.length X r /
        ((∑ r ∈ Finset.range X.nrows, Spec.Sim.length X r) / X.nrows)) := by
  have hr := get_row_lt X r j h
  have hl := length_pos X hX hp r j h
  have hsum : 0 < ∑ r ∈ Finset.range X.nrows, Spec.Sim.length X r :=
    Finset.sum_pos' (fun r _ => length_nonneg X hp r) ⟨r, Finset.mem_range.mpr hr, hl⟩
  have hn : (0 : ℝ) < X.nrows := by exact_mod_cast (by omega : 0 < X.nrows)
  apply mul_pos hk
  rcases lt_or_eq_of_le hb1 with hb | hb
  · have : 0 ≤ b * Spec.Sim.length X r / ((∑ r ∈ Finset.range X.nrows, Spec.Sim.length X r) / X.nrows) := by
      positivity
    linarith
  · subst hb
    have : 0 < 1 * Spec.Sim.length X r / ((∑ r ∈ Finset.range X.nrows, Spec.Sim.length X r) / X.nrows) := by
      positivity
    linarith

theorem bm25Idf_pos (X : CSR ℝ) (r j : Nat) (h : X.get r j ≠ 0) : 0 < bm25Idf X j := by
  have hr := get_row_lt X r j h
  have hn : (0 : ℝ) < X.nrows := by exact_mod_cast (by omega : 0 < X.nrows)
  apply Real.log_pos
  have : (0 : ℝ) < X.nrows / ((frequency X j : ℝ) + 1) := by positivity
  linarith

/-- C31: BM25 weights of positive data are zero where the data are, otherwise strictly between 0 and
`idf (k1 + 1)`, with the given inverse document frequency. -/
theorem C31_bm25_bounds (X : CSR ℝ) (hX : Proper X) (hp : Positive X) (k1 b : ℝ) (hk : 0 < k1)
    (hb0 : 0 ≤ b) (hb1 : b ≤ 1) (r j : Nat) :
    (X.get r j = 0 → (bm25 X k1 b).get r j = 0) ∧
    (X.get r j ≠ 0 → 0 < (bm25 X k1 b).get r j ∧
      (bm25 X k1 b).get r j < Real.log (X.nrows / ((frequency X j : ℝ) + 1) + 1) * (k1 + 1)) := by
  refine ⟨bm25_zero X hX hp k1 b r j, fun h => ?_⟩
  have hreg := bm25_reg_pos X hX hp k1 b hk hb0 hb1 r j h
  have hidf := bm25Idf_pos X r j h
  have hx : 0 < X.get r j := lt_of_le_of_ne (get_nonneg X hp r j) (Ne.symm h)
  rw [bm25_get X hX hp k1 b r j h]
  set reg := k1 * (1 - b + b * Spec.Sim.length X r /
        ((∑ r ∈ Finset.range X.nrows, Spec.Sim.length X r) / X.nrows)) with hreg'
  constructor
  · positivity
  · rw [div_lt_iff₀ (by positivity)]
    change _ < bm25Idf X j * (k1 + 1) * _
    have : 0 < bm25Idf X j * (k1 + 1) * reg := by positivity
    nlinarith

/-- C31: for two documents (rows) of equal length, a larger value of the same term (column) has a
strictly larger BM25 weight. -/
theorem C31_bm25_increasing (X : CSR ℝ) (hX : Proper X) (hp : Positive X) (k1 b : ℝ) (hk : 0 < k1)
    (hb0 : 0 ≤ b) (hb1 : b ≤ 1) (r r' j : Nat)
    (hlen : Spec.Sim.length X r = Spec.Sim.length X r') (hlt : X.get r j < X.get r' j) :
    (bm25 X k1 b).get r j < (bm25 X k1 b).get r' j := by
  have h0 := get_nonneg X hp r j
  have h' : X.get r' j ≠ 0 := by intro hc; rw [hc] at hlt; linarith
  by_cases h : X.get r j = 0
  · rw [(C31_bm25_bounds X hX hp k1 b hk hb0 hb1 r j).1 h]
    exact ((C31_bm25_bounds X hX hp k1 b hk hb0 hb1 r' j).2 h').1
  · have hreg := bm25_reg_pos X hX hp k1 b hk hb0 hb1 r j h
    have hidf := bm25Idf_pos X r j h
    have hx : 0 < X.get r j := lt_of_le_of_ne h0 (Ne.symm h)
    have hx' : 0 < X.get r' j := by linarith
    rw [bm25_get X hX hp k1 b r j h, bm25_get X hX hp k1 b r' j h', ← hlen]
    set reg := k1 * (1 - b + b * Spec.Sim.length X r /
        ((∑ r ∈ Finset.range X.nrows, Spec.Sim.length X r) / X.nrows)) with hreg'
    rw [div_lt_div_iff₀ (by positivity) (by positivity)]
    have h1 : 0 < bm25Idf X j * (k1 + 1) * reg := by positivity
    nlinarith

/-- C31: TF-IDF multiplies each column by one factor, a function of its document frequency that never
increases with it. -/
theorem C31_tf_idf (X : CSR ℝ) (hX : Proper X) (hz : NoStoredZero X) (smooth : Bool) :
    ∃ factor : Nat → ℝ,
      (∀ d, factor d = Real.log (X.nrows / ((d : ℝ) + if smooth then 1 else 0))) ∧
      (∀ r j, (tfIdf X smooth).get r j = X.get r j * factor (frequency X j)) ∧
      (∀ d d', 1 ≤ d → d ≤ d' → factor d' ≤ factor d) := by
  refine ⟨fun d => Real.log (X.nrows / ((d : ℝ) + if smooth then 1 else 0)), fun _ => rfl, ?_, ?_⟩
  · intro r j
    unfold CSR.get tfIdf
    rw [row_map _ _ (by simp)]
    rw [get_mapval (X.row r) (row_nodup hX r) (fun c v => v * Real.log (X.nrows / ((docFreq X c : ℝ) +
      if smooth then 1 else 0)))]
    split
    · rw [docFreq_eq X hX hz]
    · rename_i h
      rw [get_eq_zero _ _ h, zero_mul]
  · intro d d' h1 h2
    have hd : (1 : ℝ) ≤ d := by exact_mod_cast h1
    have hdd : (d : ℝ) ≤ d' := by exact_mod_cast h2
    have hs : (0 : ℝ) ≤ if smooth then 1 else 0 := by split <;> norm_num
    rcases Nat.eq_zero_or_pos X.nrows with h0 | h0
    · simp [h0]
    · have hn : (0 : ℝ) < X.nrows := by exact_mod_cast h0
      apply Real.log_le_log
      · apply div_pos hn; linarith
      · apply div_le_div_of_nonneg_left hn.le <;> linarith

/-- Two documents of equal length and three terms. -/
def exampleCounts : CSR ℝ := ⟨3, [[(0, 1), (1, 3)], [(0, 2), (2, 2)]]⟩

theorem exampleCounts_ok : Proper exampleCounts ∧ Positive exampleCounts := by
  refine ⟨⟨?_, ?_⟩, ?_⟩
  · intro row hr e he; simp [exampleCounts] at hr; rcases hr with rfl | rfl <;> simp at he <;>
      rcases he with rfl | rfl <;> simp [exampleCounts]
  · intro row hr; simp [exampleCounts] at hr; rcases hr with rfl | rfl <;> simp
  · intro row hr e he; simp [exampleCounts] at hr; rcases hr with rfl | rfl <;> simp at he <;>
      rcases he with rfl | rfl <;> norm_num

example : (bm25 exampleCounts 1.2 0.75).get 0 0 < (bm25 exampleCounts 1.2 0.75).get 1 0 := by
  apply C31_bm25_increasing _ exampleCounts_ok.1 exampleCounts_ok.2 <;> norm_num
  · norm_num [Spec.Sim.length, CSR.get, CSR.row, SpVec.get, exampleCounts, Finset.sum_range_succ]
  · norm_num [CSR.get, CSR.row, SpVec.get, exampleCounts]

/-! ### C32 -/

theorem csc_rowSum (X : CSC ℝ) (i : Nat) : rowSum X i = ∑ j ∈ Finset.range X.cols.length, X.get i j := by
  unfold rowSum
  have : X.cols.map (fun col => SpVec.get col i) = (List.range X.cols.length).map (fun j => X.get i j) := by
    apply List.ext_getElem
    · simp
    · intro k h1 h2
      have hk : k < X.cols.length := by simpa using h1
      simp only [List.getElem_map, List.getElem_range]
      unfold CSC.get
      rw [List.getD_eq_getElem?_getD, List.getElem?_eq_getElem hk, Option.getD_some]
  rw [this, ← List.sum_toFinset _ List.nodup_range]
  congr 1
  ext r; simp

theorem get_div (v : SpVec ℝ) (f : Nat → ℝ) (i : Nat) :
    SpVec.get (v.map (fun e => (e.1, e.2 / f e.1))) i = v.get i / f i := by
  induction v with
  | nil => simp [get_nil]
  | cons e v ih =>
    rw [List.map_cons, get_cons, get_cons, ih]
    by_cases h : e.1 = i
    · subst h; simp [add_div]
    · simp [h]

theorem l1_cols (X : CSC ℝ) (j : Nat) : (l1NormalizeRow X).cols.getD j [] =
    ((X.cols.getD j []).insertionSort (fun a b => a.1 ≤ b.1)).map (fun e => (e.1, e.2 / rowSum X e.1)) := by
  unfold l1NormalizeRow
  simp only [List.getD_eq_getElem?_getD, List.getElem?_map]
  cases X.cols[j]? <;> simp

/-- C32: every entry is divided by the sum of its row; the stored positions stay. -/
theorem C32_entries (X : CSC ℝ) :
    (l1NormalizeRow X).rows = X.rows ∧ (l1NormalizeRow X).cols.length = X.cols.length ∧
    (∀ i j, (l1NormalizeRow X).get i j = X.get i j / ∑ j ∈ Finset.range X.cols.length, X.get i j) ∧
    (∀ j, (((l1NormalizeRow X).cols.getD j []).map Prod.fst).Perm ((X.cols.getD j []).map Prod.fst)) := by
  refine ⟨rfl, by simp [l1NormalizeRow], ?_, ?_⟩
  · intro i j
    unfold CSC.get
    rw [l1_cols, get_div, get_perm (List.perm_insertionSort _ _), csc_rowSum]
    rfl
  · intro j
    rw [l1_cols, List.map_map]
    exact (List.perm_insertionSort _ _).map _

/-- C32: a row whose sum is not zero sums to 1 afterwards. -/
theorem C32_rows_sum_to_one (X : CSC ℝ) (i : Nat)
    (h : ∑ j ∈ Finset.range X.cols.length, X.get i j ≠ 0) :
    ∑ j ∈ Finset.range X.cols.length, (l1NormalizeRow X).get i j = 1 := by
  simp only [(C32_entries X).2.2.1]
  rw [← Finset.sum_div, div_self h]

/-- C32: ratios inside a row are kept. -/
theorem C32_ratios (X : CSC ℝ) (i j j' : Nat) :
    (l1NormalizeRow X).get i j * X.get i j' = (l1NormalizeRow X).get i j' * X.get i j := by
  simp only [(C32_entries X).2.2.1]
  ring

/-- A row (number 1) with entries 1 and 3. -/
example : ∑ j ∈ Finset.range 2, (CSC.mk 2 [[(1, (1 : ℝ))], [(1, 3), (0, 2)]]).get 1 j = 4 := by
  norm_num [CSC.get, SpVec.get, Finset.sum_range_succ]

end Irspack.Props
