import Mathlib.Tactic
import Verif.Proofs.Similarity

/-! # Lemmas about the transposed matrix and random-walk weights -/

namespace Irspack.Sim
open Irspack Spec.Sim

theorem get_flatMap (l : List Nat) (f : Nat → SpVec ℝ) (u : Nat) :
    SpVec.get (l.flatMap f) u = (l.map (fun i => (f i).get u)).sum := by
  induction l with
  | nil => simp [get_nil]
  | cons a l ih => rw [List.flatMap_cons, get_append, ih, List.map_cons, List.sum_cons]

theorem get_pick (v : SpVec ℝ) (i j u : Nat) :
    SpVec.get (v.filterMap (fun e => if e.1 = j then some (i, e.2) else none)) u =
      if i = u then v.get j else 0 := by
  induction v with
  | nil => simp [get_nil]
  | cons e v ih =>
    rw [List.filterMap_cons, get_cons]
    by_cases h : e.1 = j
    · simp only [h, if_true]
      rw [get_cons, ih]
      by_cases h2 : i = u <;> simp [h2]
    · simp only [h, if_false]
      rw [ih]; simp

theorem transpose_nrows (X : CSR ℝ) : (transpose X).nrows = X.cols := by simp [transpose, CSR.nrows]

theorem transpose_cols (X : CSR ℝ) : (transpose X).cols = X.nrows := rfl

theorem transpose_row (X : CSR ℝ) {j : Nat} (h : j < X.cols) : (transpose X).row j =
    (List.range X.nrows).flatMap (fun i =>
      (X.row i).filterMap (fun e => if e.1 = j then some (i, e.2) else none)) := by
  unfold transpose
  exact row_range _ _ _ h

theorem transpose_get (X : CSR ℝ) (hX : Proper X) (j u : Nat) : (transpose X).get j u = X.get u j := by
  by_cases hj : j < X.cols
  · unfold CSR.get
    rw [transpose_row X hj, get_flatMap]
    simp only [get_pick]
    rw [← List.sum_toFinset _ List.nodup_range]
    have : (List.range X.nrows).toFinset = Finset.range X.nrows := by ext; simp
    rw [this, Finset.sum_ite_eq' (Finset.range X.nrows) u (fun i => (X.row i).get j)]
    split
    · rfl
    · rename_i h
      rw [row_nil X (by simpa using h), get_nil]
  · unfold CSR.get
    rw [row_nil _ (by rw [transpose_nrows]; exact hj), get_nil, get_eq_zero]
    intro hm
    obtain ⟨e, he, rfl⟩ := List.mem_map.mp hm
    exact hj (row_bound hX u e he)

theorem mem_transpose (X : CSR ℝ) {row : SpVec ℝ} (h : row ∈ (transpose X).rows) {e : Nat × ℝ}
    (he : e ∈ row) : ∃ i < X.nrows, ∃ f ∈ X.row i, e = (i, f.2) := by
  simp only [transpose, List.mem_map] at h
  obtain ⟨j, -, rfl⟩ := h
  obtain ⟨i, hi, hm⟩ := List.mem_flatMap.mp he
  obtain ⟨f, hf, hfe⟩ := List.mem_filterMap.mp hm
  refine ⟨i, List.mem_range.mp hi, f, hf, ?_⟩
  split at hfe
  · injection hfe with hfe; exact hfe.symm
  · cases hfe

theorem transpose_positive (X : CSR ℝ) (h : Positive X) : Positive (transpose X) := by
  intro row hr e he
  obtain ⟨i, hi, f, hf, rfl⟩ := mem_transpose X hr he
  exact h _ (row_mem X hi) f hf

theorem transpose_noZero (X : CSR ℝ) (h : NoStoredZero X) : NoStoredZero (transpose X) := by
  intro row hr e he
  obtain ⟨i, hi, f, hf, rfl⟩ := mem_transpose X hr he
  exact h _ (row_mem X hi) f hf

theorem transpose_proper (X : CSR ℝ) (hX : Proper X) : Proper (transpose X) := by
  refine ⟨fun row hr e he => ?_, fun row hr => ?_⟩
  · obtain ⟨i, hi, f, hf, rfl⟩ := mem_transpose X hr he
    exact hi
  · simp only [transpose, List.mem_map] at hr
    obtain ⟨j, -, rfl⟩ := hr
    rw [List.map_flatMap]
    have hone : ∀ i, ((X.row i).filterMap (fun e => if e.1 = j then some (i, e.2) else none)).map Prod.fst =
        List.replicate ((X.row i).map Prod.fst |>.count j) i := by
      intro i
      generalize X.row i = v
      induction v with
      | nil => rfl
      | cons e v ih =>
        rw [List.filterMap_cons, List.map_cons, List.count_cons]
        by_cases h : e.1 = j
        · simp [h, ih, List.replicate_succ]
        · simp [h, ih]
    simp only [hone]
    have hle : ∀ i, ((X.row i).map Prod.fst).count j ≤ 1 := fun i =>
      List.nodup_iff_count_le_one.mp (row_nodup hX i) j
    rw [List.nodup_flatMap]
    refine ⟨fun i _ => ?_, ?_⟩
    · rw [List.nodup_replicate]; exact hle i
    · refine List.nodup_range.imp ?_
      intro a b hab x hxa hxb
      rw [List.mem_replicate] at hxa hxb
      exact hab (hxa.2.symm.trans hxb.2)

/-! ### Powers -/

theorem pw_nonneg (a x : ℝ) (hx : 0 ≤ x) : 0 ≤ pw a x := by
  unfold pw; split
  · exact le_refl _
  · exact Real.rpow_nonneg hx a

theorem pw_pos (a x : ℝ) (hx : 0 < x) : 0 < pw a x := by
  unfold pw; rw [if_neg hx.ne']; exact Real.rpow_pos_of_pos hx a

theorem get_nonneg_of_positive (X : CSR ℝ) (hp : Positive X) (r j : Nat) : 0 ≤ X.get r j := by
  unfold CSR.get SpVec.get
  apply List.sum_nonneg
  intro x hx
  obtain ⟨e, he, rfl⟩ := List.mem_map.mp hx
  by_cases hr : r < X.nrows
  · exact (hp _ (row_mem X hr) e (List.mem_filter.mp he).1).le
  · rw [row_nil X hr] at he; simp at he

theorem get_map_pw (v : SpVec ℝ) (hn : (v.map Prod.fst).Nodup) (hz : ∀ e ∈ v, e.2 ≠ 0) (a : ℝ)
    (g : Nat → ℝ) (u : Nat) :
    SpVec.get (v.map (fun e => (e.1, e.2 ^ a / g e.1))) u = pw a (v.get u) / g u := by
  rw [get_mapval v hn (fun c x => x ^ a / g c) u]
  unfold pw
  by_cases h : v.get u = 0
  · rw [if_neg (by rw [mem_cols_iff v hn hz]; simpa using h), if_pos h, zero_div]
  · rw [if_pos ((mem_cols_iff v hn hz u).mpr h), if_neg h]

theorem sum_pw (v : SpVec ℝ) (hn : (v.map Prod.fst).Nodup) (hz : ∀ e ∈ v, e.2 ≠ 0) (a : ℝ) (N : Nat)
    (hv : ∀ e ∈ v, e.1 < N) :
    (v.map (fun e => e.2 ^ a)).sum = ∑ u ∈ Finset.range N, pw a (v.get u) := by
  rw [sum_mapval v hn N hv (fun _ x => x ^ a)]
  apply Finset.sum_congr rfl
  intro u _
  unfold pw
  by_cases h : v.get u = 0
  · rw [if_neg (by rw [mem_cols_iff v hn hz]; simpa using h), if_pos h]
  · rw [if_pos ((mem_cols_iff v hn hz u).mpr h), if_neg h]

theorem sum_rows_range (X : CSR ℝ) (f : SpVec ℝ → ℝ) :
    (X.rows.map f).sum = ∑ r ∈ Finset.range X.nrows, f (X.row r) := by
  have : X.rows.map f = (List.range X.nrows).map (fun r => f (X.row r)) := by
    apply List.ext_getElem
    · simp [CSR.nrows]
    · intro i h1 h2
      have hi : i < X.nrows := by simpa [CSR.nrows] using h1
      simp only [List.getElem_map, List.getElem_range]
      unfold CSR.row
      rw [List.getD_eq_getElem?_getD, List.getElem?_eq_getElem hi, Option.getD_some]
      rfl
  rw [this, ← List.sum_toFinset _ List.nodup_range]
  congr 1
  ext r; simp

theorem userNorm_eq (X : CSR ℝ) (hX : Proper X) (hz : NoStoredZero X) (a : ℝ) (u : Nat) :
    userNorm a X u = ∑ i ∈ Finset.range X.nrows, pw a (X.get i u) := by
  unfold userNorm
  rw [sum_rows_range X]
  apply Finset.sum_congr rfl
  intro i _
  have h := get_map_pw (X.row i) (row_nodup hX i) (row_nonzero hz i) a (fun _ => 1) u
  simp only [div_one] at h
  unfold CSR.get
  rw [← h]
  unfold SpVec.get
  rw [List.filter_map, List.map_map]
  congr 1

theorem itemToUser_get (X : CSR ℝ) (hX : Proper X) (hz : NoStoredZero X) (a : ℝ) (i u : Nat) :
    (itemToUser a X).get i u =
      pw a (X.get i u) / ∑ v ∈ Finset.range X.cols, pw a (X.get i v) := by
  unfold CSR.get itemToUser
  rw [row_map _ _ (by simp)]
  simp only
  rw [get_map_pw (X.row i) (row_nodup hX i) (row_nonzero hz i) a
    (fun _ => ((X.row i).map (fun e => e.2 ^ a)).sum) u,
    sum_pw (X.row i) (row_nodup hX i) (row_nonzero hz i) a X.cols (row_bound hX i)]

theorem mapvals_proper (X : CSR ℝ) (hX : Proper X) (g : SpVec ℝ → Nat × ℝ → ℝ) :
    Proper ⟨X.cols, X.rows.map (fun row => row.map (fun e => (e.1, g row e)))⟩ := by
  refine ⟨fun row hr e he => ?_, fun row hr => ?_⟩
  · obtain ⟨row', hr', rfl⟩ := List.mem_map.mp hr
    obtain ⟨f, hf, rfl⟩ := List.mem_map.mp he
    exact hX.1 _ hr' f hf
  · obtain ⟨row', hr', rfl⟩ := List.mem_map.mp hr
    rw [List.map_map]
    exact hX.2 _ hr'

theorem itemToUser_proper (X : CSR ℝ) (hX : Proper X) (a : ℝ) : Proper (itemToUser a X) :=
  mapvals_proper X hX (fun row e => e.2 ^ a / (row.map (fun e => e.2 ^ a)).sum)

theorem itemToUser_nrows (X : CSR ℝ) (a : ℝ) : (itemToUser a X).nrows = X.nrows := by
  simp [itemToUser, CSR.nrows]

/-- The matrix handed to `compute_similarity` by RP3beta; by P3alpha for `beta = 0`. -/
noncomputable def target (a b : ℝ) (X : CSR ℝ) : CSR ℝ := ⟨X.cols, X.rows.map (fun row =>
  row.map (fun e => (e.1, e.2 ^ a / (userNorm a X e.1 * (rowTotal row) ^ b))))⟩

theorem target_get (X : CSR ℝ) (hX : Proper X) (hz : NoStoredZero X) (a b : ℝ) (i u : Nat) :
    (target a b X).get i u = pw a (X.get i u) /
      ((∑ j ∈ Finset.range X.nrows, pw a (X.get j u)) * (∑ v ∈ Finset.range X.cols, X.get i v) ^ b) := by
  unfold CSR.get target
  rw [row_map _ _ (by simp)]
  rw [get_map_pw (X.row i) (row_nodup hX i) (row_nonzero hz i) a
    (fun c => userNorm a X c * (rowTotal (X.row i)) ^ b) u, userNorm_eq X hX hz]
  have : rowTotal (X.row i) = ∑ v ∈ Finset.range X.cols, (X.row i).get v := by
    unfold rowTotal
    have := sum_stored (X.row i) X.cols (row_bound hX i) (fun _ => 1)
    simpa using this
  rw [this]
  rfl

theorem rp3W_eq (nth : Nat → SpVec ℝ → List Nat) (a b : ℝ) (X : CSR ℝ) (nT mC k : Nat) :
    rp3W nth a b X nT mC k = if a < 0 ∨ b < 0 then .error .invalidArgument else
      match computeSimilarity nth .raw 0 (itemToUser a X) (target a b X) nT mC k with
      | .error e => .error e
      | .ok R => .ok ⟨R.cols, R.rows⟩ := by
  unfold rp3W target
  split_ifs <;> rfl

theorem p3W_eq (nth : Nat → SpVec ℝ → List Nat) (a : ℝ) (X : CSR ℝ) (nT mC k : Nat) :
    p3W nth a X nT mC k = rp3W nth a 0 X nT mC k := by
  unfold p3W rp3W
  simp only [Real.rpow_zero, mul_one, lt_irrefl, or_false]

end Irspack.Sim
