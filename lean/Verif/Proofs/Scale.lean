import Verif.Proofs.Similarity
import Verif.Spec.Scale
import Verif.Model.SimRecommender

/-! # Multiplying all interactions by a constant: lemmas -/

namespace Irspack.Sim

open Spec.Scale Spec.Sim

theorem scaled_nrows (c : ℝ) (X : CSR ℝ) : (scaled c X).nrows = X.nrows := by
  simp [CSR.nrows, scaled]

theorem scaled_row (c : ℝ) (X : CSR ℝ) (j : Nat) : (scaled c X).row j = scaledVec c (X.row j) := by
  unfold CSR.row scaled
  simp only [List.getD_eq_getElem?_getD, List.getElem?_map]
  cases X.rows[j]? <;> rfl

theorem scaledVec_get (c : ℝ) (v : SpVec ℝ) (j : Nat) : SpVec.get (scaledVec c v) j = c * SpVec.get v j := by
  unfold SpVec.get scaledVec
  rw [List.filter_map, List.map_map, ← List.sum_map_mul_left]
  rfl

theorem scaledVec_scaledVec (c d : ℝ) (v : SpVec ℝ) : scaledVec c (scaledVec d v) = scaledVec (c * d) v := by
  simp [scaledVec, mul_assoc]

theorem scaledVec_one (v : SpVec ℝ) : scaledVec 1 v = v := by simp [scaledVec]

theorem scaled_one (X : CSR ℝ) : scaled 1 X = X := by
  have : scaledVec (1 : ℝ) = id := by funext v; exact scaledVec_one v
  simp [scaled, this]

theorem transpose_scaled (c : ℝ) (X : CSR ℝ) : transpose (scaled c X) = scaled c (transpose X) := by
  have h : ∀ i j, ((scaled c X).row i).filterMap (fun e => if e.1 = j then some (i, e.2) else none) =
      scaledVec c ((X.row i).filterMap (fun e => if e.1 = j then some (i, e.2) else none)) := by
    intro i j
    rw [scaled_row]
    unfold scaledVec
    rw [List.filterMap_map, List.map_filterMap]
    apply List.filterMap_congr
    intro e _
    simp only [Function.comp]
    by_cases he : e.1 = j <;> simp [he]
  unfold transpose
  rw [scaled_nrows]
  simp only [h]
  unfold scaled
  simp only [List.map_map, CSR.mk.injEq, true_and]
  apply List.map_congr_left
  intro j _
  simp only [Function.comp, scaledVec, List.map_flatMap]

theorem productRow_scaled (c d : ℝ) (t : SpVec ℝ) (X : CSR ℝ) :
    productRow (scaledVec c t) (scaled d X) = scaledVec (c * d) (productRow t X) := by
  unfold productRow
  rw [scaled_nrows]
  conv_rhs => rw [scaledVec, List.map_filterMap]
  apply List.filterMap_congr
  intro j _
  rw [scaled_row]
  have h1 : (scaledVec c t).any (fun e => (scaledVec d (X.row j)).any (fun f => decide (f.1 = e.1))) =
      t.any (fun e => (X.row j).any (fun f => decide (f.1 = e.1))) := by
    unfold scaledVec
    rw [List.any_map]
    congr 1
    funext e
    simp only [Function.comp, List.any_map]
    rfl
  have h2 : ((scaledVec c t).map (fun e => e.2 * (scaledVec d (X.row j)).get e.1)).sum =
      c * d * (t.map (fun e => e.2 * (X.row j).get e.1)).sum := by
    simp only [scaledVec_get]
    rw [← List.sum_map_mul_left, scaledVec, List.map_map]
    congr 1
    apply List.map_congr_left
    intro e _
    simp only [Function.comp]
    ring
  rw [h1, h2]
  split <;> rfl

theorem sqNorm_scaled (c : ℝ) (v : SpVec ℝ) : sqNorm (scaledVec c v) = c ^ 2 * sqNorm v := by
  unfold sqNorm scaledVec
  rw [List.map_map, ← List.sum_map_mul_left]
  congr 1
  apply List.map_congr_left
  intro e _
  simp only [Function.comp]; ring

theorem rowTotal_scaled (c : ℝ) (v : SpVec ℝ) : rowTotal (scaledVec c v) = c * rowTotal v := by
  unfold rowTotal scaledVec
  rw [List.map_map, ← List.sum_map_mul_left]
  rfl

theorem binarize_scaled (c : ℝ) (v : SpVec ℝ) : binarize (scaledVec c v) = binarize v := by
  simp [binarize, scaledVec]

/-! ## from rows to the computers -/

theorem computeSimilarity_congr (nth : Nat → SpVec ℝ → List Nat) {kind kind' : Kind} {s s' : ℝ}
    {X X' target target' : CSR ℝ} (nThreads maxChunk topK : Nat)
    (hs : s < 0 ↔ s' < 0) (hk : kind.paramsOk ↔ kind'.paramsOk)
    (hX : X'.nrows = X.nrows) (hXc : X'.cols = X.cols) (ht : target'.nrows = target.nrows)
    (htc : target'.cols = target.cols)
    (hrow : ∀ r, simRow kind' s' X' (target'.row r) = simRow kind s X (target.row r)) :
    computeSimilarity nth kind' s' X' target' nThreads maxChunk topK =
      computeSimilarity nth kind s X target nThreads maxChunk topK := by
  have hT : ∀ a b, triples nth (simRow kind' s' X') target' maxChunk topK a b =
      triples nth (simRow kind s X) target maxChunk topK a b := by
    intro a b
    unfold triples simBlock
    simp only [hrow]
  unfold computeSimilarity
  by_cases h : s < 0 ∨ nThreads < 1 ∨ maxChunk < 1 ∨ ¬ kind.paramsOk
  · rw [if_pos h, if_pos (by rw [← hs, ← hk]; exact h)]
  · rw [if_neg h, if_neg (by rw [← hs, ← hk]; exact h)]
    unfold similarityRows
    simp only [hX, hXc, ht, htc, hT]

open Classical in
theorem bestOf_scaled (k : Nat) {d : ℝ} (hd : 0 < d) (row : SpVec ℝ) :
    bestOf k (scaledVec d row) = scaledVec d (bestOf k row) := by
  unfold bestOf scaledVec
  rw [List.filter_map]
  congr 1
  apply List.filter_congr
  intro e _
  simp only [Function.comp, List.countP_map]
  congr 2
  apply List.countP_congr
  intro f _
  simp only [Function.comp, better, decide_eq_true_eq, mul_lt_mul_iff_right₀ hd, mul_right_inj' hd.ne']
  exact (@decide_eq_true_iff _ (_)).symm

theorem computeSimilarity_scaled {nth : Nat → SpVec ℝ → List Nat} (hnth : NthOk nth) {kind kind' : Kind}
    {s s' d : ℝ} (hd : 0 < d) {X X' target target' : CSR ℝ} (nThreads maxChunk topK : Nat)
    (hs : s < 0 ↔ s' < 0) (hk : kind.paramsOk ↔ kind'.paramsOk)
    (hX : X'.nrows = X.nrows) (hXc : X'.cols = X.cols) (ht : target'.nrows = target.nrows)
    (htc : target'.cols = target.cols)
    (hrow : ∀ r, simRow kind' s' X' (target'.row r) = scaledVec d (simRow kind s X (target.row r))) :
    computeSimilarity nth kind' s' X' target' nThreads maxChunk topK =
      (computeSimilarity nth kind s X target nThreads maxChunk topK).map (scaled d) := by
  by_cases h : s < 0 ∨ nThreads < 1 ∨ maxChunk < 1 ∨ ¬ kind.paramsOk
  · unfold computeSimilarity
    rw [if_pos h, if_pos (by rw [← hs, ← hk]; exact h)]
    rfl
  · by_cases hc : target.cols = X.cols
    · have h' := h
      push Not at h'
      have ha : Accepted kind s X target nThreads maxChunk := ⟨h'.1, h'.2.1, h'.2.2.1, h'.2.2.2, hc⟩
      have ha' : Accepted kind' s' X' target' nThreads maxChunk :=
        ⟨not_lt.mp (fun hlt => h (.inl (hs.mpr hlt))), h'.2.1, h'.2.2.1, hk.mp h'.2.2.2,
          by rw [htc, hXc, hc]⟩
      rw [computeSimilarity_eq hnth _ _ _ _ _ _ _ ha, computeSimilarity_eq hnth _ _ _ _ _ _ _ ha']
      simp only [Except.map, scaled, List.map_map, ht, hX]
      congr 2
      apply List.map_congr_left
      intro r _
      simp only [Function.comp, hrow, bestOf_scaled _ hd]
    · unfold computeSimilarity
      rw [if_neg h, if_neg (by rw [← hs, ← hk]; exact h), if_pos hc, if_pos (by rw [htc, hXc]; exact hc)]
      rfl

/-! ## weighting -/

theorem docFreq_scaled (c : ℝ) (X : CSR ℝ) (j : Nat) : docFreq (scaled c X) j = docFreq X j := by
  unfold docFreq scaled scaledVec
  simp only [List.map_map]
  congr 1
  apply List.map_congr_left
  intro row _
  simp only [Function.comp, List.countP_map]
  rfl

theorem docLength_scaled (c : ℝ) (v : SpVec ℝ) : docLength (scaledVec c v) = c * docLength v :=
  rowTotal_scaled c v

theorem avgdl_scaled (c : ℝ) (X : CSR ℝ) : avgdl (scaled c X) = c * avgdl X := by
  unfold avgdl
  rw [scaled_nrows, ← mul_div_assoc, ← List.sum_map_mul_left]
  congr 2
  simp only [scaled, List.map_map]
  apply List.map_congr_left
  intro row _
  exact docLength_scaled c row

theorem apply_scaled {c : ℝ} (hc : 0 < c) (w : Weighting) (hw : ∀ k1 b, w = .bm25 k1 b → 0 ≤ k1) (X : CSR ℝ) :
    (weightingIn c w).apply (scaled c X) = scaled (weightedBy c w) (w.apply X) := by
  cases w with
  | none => rfl
  | tfIdf =>
    simp only [weightingIn, weightedBy, Weighting.apply, Sim.tfIdf, docFreq_scaled, scaled_nrows]
    simp only [scaled, List.map_map, CSR.mk.injEq, true_and]
    apply List.map_congr_left
    intro row _
    simp only [Function.comp, scaledVec, List.map_map]
    apply List.map_congr_left
    intro e _
    simp only [Function.comp, mul_assoc]
  | bm25 k1 b =>
    have hk := hw k1 b rfl
    simp only [weightingIn, weightedBy, Weighting.apply, Sim.bm25, docFreq_scaled, scaled_nrows, avgdl_scaled]
    simp only [scaled, List.map_map, CSR.mk.injEq, true_and]
    apply List.map_congr_left
    intro row _
    simp only [Function.comp, docLength_scaled]
    simp only [scaledVec, List.map_map]
    apply List.map_congr_left
    intro e _
    simp only [Function.comp, Prod.mk.injEq, true_and]
    have e1 : b * (c * docLength row) / (c * avgdl X) = b * docLength row / avgdl X := by
      rw [show b * (c * docLength row) = c * (b * docLength row) by ring, mul_div_mul_left _ _ hc.ne']
    rw [e1]
    have hk1 : k1 + 1 ≠ 0 := by positivity
    rw [show c * e.2 + c * k1 * (1 - b + b * docLength row / avgdl X) =
      c * (e.2 + k1 * (1 - b + b * docLength row / avgdl X)) by ring]
    rw [show Real.log (X.nrows / ((docFreq X e.1 : ℝ) + 1) + 1) * (c * e.2 * (c * k1 + 1)) =
      c * (Real.log (X.nrows / ((docFreq X e.1 : ℝ) + 1) + 1) * (e.2 * (c * k1 + 1))) by ring,
      mul_div_mul_left _ _ hc.ne', ← mul_div_assoc]
    congr 1
    field_simp

theorem apply_nrows (w : Weighting) (X : CSR ℝ) : (w.apply X).nrows = X.nrows := by
  cases w <;> simp [Weighting.apply, Sim.tfIdf, Sim.bm25, CSR.nrows]

theorem apply_cols (w : Weighting) (X : CSR ℝ) : (w.apply X).cols = X.cols := by
  cases w <;> rfl

theorem weightedBy_pos {c : ℝ} (hc : 0 < c) (w : Weighting) (hw : ∀ k1 b, w = .bm25 k1 b → 0 ≤ k1) :
    0 < weightedBy c w := by
  cases w with
  | none => exact hc
  | tfIdf => exact hc
  | bm25 k1 b =>
    have := hw k1 b rfl
    unfold weightedBy
    positivity

/-! ## similarities -/

theorem simRow_cosine_scaled {c d : ℝ} (hc : 0 < c) (hd : 0 < d) {s s' : ℝ}
    (hs : s' + eps = c * d * (s + eps)) (X : CSR ℝ) (t : SpVec ℝ) :
    simRow (.cosine true) s' (scaled d X) (scaledVec c t) = simRow (.cosine true) s X t := by
  simp only [simRow, productRow_scaled]
  unfold scaledVec
  simp only [List.map_map]
  apply List.map_congr_left
  intro e _
  simp only [Function.comp, Prod.mk.injEq, true_and]
  have h1 : sqNorm ((scaled d X).row e.1) = d ^ 2 * sqNorm (X.row e.1) := by rw [scaled_row, sqNorm_scaled]
  have h2 : sqNorm (t.map fun e => (e.1, c * e.2)) = c ^ 2 * sqNorm t := sqNorm_scaled c t
  rw [h1, h2, Real.sqrt_mul (by positivity), Real.sqrt_mul (by positivity), Real.sqrt_sq hc.le,
    Real.sqrt_sq hd.le]
  unfold eps at hs
  rw [show d * √(sqNorm (X.row e.1)) * (c * √(sqNorm t)) + s' + 1e-6 =
    c * d * (√(sqNorm (X.row e.1)) * √(sqNorm t) + s + 1e-6) by linear_combination hs]
  exact mul_div_mul_left _ _ (mul_pos hc hd).ne'

theorem simRow_asymmetric_scaled {c d alpha : ℝ} (hc : 0 < c) (hd : 0 < d) {s s' : ℝ}
    (hs : s' + eps = (d ^ 2) ^ (1 - alpha) * (c ^ 2) ^ alpha * (s + eps)) (X : CSR ℝ) (t : SpVec ℝ) :
    simRow (.asymmetric alpha) s' (scaled d X) (scaledVec c t) =
      scaledVec (c * d / ((d ^ 2) ^ (1 - alpha) * (c ^ 2) ^ alpha)) (simRow (.asymmetric alpha) s X t) := by
  simp only [simRow, productRow_scaled]
  unfold scaledVec
  simp only [List.map_map]
  apply List.map_congr_left
  intro e _
  simp only [Function.comp, Prod.mk.injEq, true_and]
  have h1 : sqNorm ((scaled d X).row e.1) = d ^ 2 * sqNorm (X.row e.1) := by rw [scaled_row, sqNorm_scaled]
  have h2 : sqNorm (t.map fun e => (e.1, c * e.2)) = c ^ 2 * sqNorm t := sqNorm_scaled c t
  rw [h1, h2, Real.mul_rpow (by positivity) (sqNorm_nonneg _), Real.mul_rpow (by positivity) (sqNorm_nonneg _)]
  unfold eps at hs
  have hf : (d ^ 2) ^ (1 - alpha) * (c ^ 2) ^ alpha ≠ 0 := by positivity
  rw [show (d ^ 2) ^ (1 - alpha) * sqNorm (X.row e.1) ^ (1 - alpha) * ((c ^ 2) ^ alpha * sqNorm t ^ alpha) + s' + 1e-6 =
    (d ^ 2) ^ (1 - alpha) * (c ^ 2) ^ alpha * (sqNorm (X.row e.1) ^ (1 - alpha) * sqNorm t ^ alpha + s + 1e-6)
    by linear_combination hs]
  rw [div_mul_div_comm]

theorem simRow_binary_scaled (kind : Kind) (hk : kind = .jaccard ∨ ∃ a b, kind = .tversky a b) (s c d : ℝ)
    (X : CSR ℝ) (t : SpVec ℝ) : simRow kind s (scaled d X) (scaledVec c t) = simRow kind s X t := by
  have h : (scaled d X).rows.map binarize = X.rows.map binarize := by
    simp only [scaled, List.map_map]
    apply List.map_congr_left
    intro v _
    exact binarize_scaled d v
  have h' : (scaled d X).cols = X.cols := rfl
  rcases hk with rfl | ⟨a, b, rfl⟩ <;> simp only [simRow, h, h', binarize_scaled]

theorem removeDiagonal_scaled (d : ℝ) (S : CSR ℝ) :
    removeDiagonal (scaled d S) = (removeDiagonal S).map (scaled d) := by
  unfold removeDiagonal
  rw [scaled_nrows, show (scaled d S).cols = S.cols from rfl]
  by_cases h : S.nrows ≠ S.cols
  · rw [if_pos h, if_pos h]; rfl
  · rw [if_neg h, if_neg h]
    simp only [Except.map, scaled]
    congr 2
    apply List.ext_getElem (by simp)
    intro i h1 h2
    simp only [List.getElem_map, List.getElem_mapIdx, zeroAt, scaledVec, List.map_map]
    apply List.map_congr_left
    intro e _
    simp only [Function.comp]
    by_cases hi : i = e.1 <;> simp [hi]

/-! ## random walks -/

theorem rpow_scaled {c x : ℝ} (hc : 0 < c) (hx : 0 ≤ x) (alpha : ℝ) : (c * x) ^ alpha = c ^ alpha * x ^ alpha :=
  Real.mul_rpow hc.le hx

theorem itemToUser_scaled {c : ℝ} (hc : 0 < c) (alpha : ℝ) (X : CSR ℝ) (hX : NonNegative X) :
    itemToUser alpha (scaled c X) = itemToUser alpha X := by
  have hca : c ^ alpha ≠ 0 := (Real.rpow_pos_of_pos hc _).ne'
  unfold itemToUser scaled
  simp only [List.map_map, CSR.mk.injEq, true_and]
  apply List.map_congr_left
  intro row hrow
  have hs : ((scaledVec c row).map (fun e => e.2 ^ alpha)).sum = c ^ alpha * (row.map (fun e => e.2 ^ alpha)).sum := by
    unfold scaledVec
    rw [List.map_map, ← List.sum_map_mul_left]
    congr 1
    apply List.map_congr_left
    intro e he
    exact rpow_scaled hc (hX row hrow e he) alpha
  simp only [Function.comp, hs]
  unfold scaledVec
  rw [List.map_map]
  apply List.map_congr_left
  intro e he
  simp only [Function.comp, rpow_scaled hc (hX row hrow e he), mul_div_mul_left _ _ hca]

theorem userNorm_scaled {c : ℝ} (hc : 0 < c) (alpha : ℝ) (X : CSR ℝ) (hX : NonNegative X) (u : Nat) :
    userNorm alpha (scaled c X) u = c ^ alpha * userNorm alpha X u := by
  unfold userNorm scaled
  rw [← List.sum_map_mul_left]
  simp only [List.map_map]
  congr 1
  apply List.map_congr_left
  intro row hrow
  simp only [Function.comp]
  rw [← List.sum_map_mul_left]
  unfold scaledVec
  rw [List.filter_map, List.map_map]
  congr 1
  apply List.map_congr_left
  intro e he
  exact rpow_scaled hc (hX row hrow e (List.mem_of_mem_filter he)) alpha

theorem rowTotal_nonneg {X : CSR ℝ} (hX : NonNegative X) {row : SpVec ℝ} (h : row ∈ X.rows) : 0 ≤ rowTotal row := by
  unfold rowTotal
  apply List.sum_nonneg
  intro x hx
  obtain ⟨e, he, rfl⟩ := List.mem_map.mp hx
  exact hX row h e he

theorem nonNegative_transpose {X : CSR ℝ} (hX : NonNegative X) : NonNegative (Sim.transpose X) := by
  intro row hrow e he
  obtain ⟨j, -, rfl⟩ := List.mem_map.mp hrow
  obtain ⟨i, hi, he⟩ := List.mem_flatMap.mp he
  obtain ⟨f, hf, he⟩ := List.mem_filterMap.mp he
  by_cases hfj : f.1 = j
  · rw [if_pos hfj] at he
    cases he
    have hir : X.row i ∈ X.rows := by
      unfold CSR.row
      have hi' : i < X.rows.length := List.mem_range.mp hi
      rw [List.getD_eq_getElem?_getD, List.getElem?_eq_getElem hi']
      exact List.getElem_mem hi'
    exact hX _ hir f hf
  · rw [if_neg hfj] at he; cases he

theorem p3W_scaled (nth : Nat → SpVec ℝ → List Nat) {c : ℝ} (hc : 0 < c) (alpha : ℝ) (X : CSR ℝ)
    (hX : NonNegative X) (nThreads maxChunk topK : Nat) :
    p3W nth alpha (scaled c X) nThreads maxChunk topK = p3W nth alpha X nThreads maxChunk topK := by
  have hca : c ^ alpha ≠ 0 := (Real.rpow_pos_of_pos hc _).ne'
  have ht : (scaled c X).rows.map (fun row =>
      row.map (fun e => (e.1, e.2 ^ alpha / userNorm alpha (scaled c X) e.1))) =
      X.rows.map (fun row => row.map (fun e => (e.1, e.2 ^ alpha / userNorm alpha X e.1))) := by
    simp only [userNorm_scaled hc alpha X hX]
    simp only [scaled, List.map_map]
    apply List.map_congr_left
    intro row hrow
    simp only [Function.comp]
    unfold scaledVec
    rw [List.map_map]
    apply List.map_congr_left
    intro e he
    simp only [Function.comp, rpow_scaled hc (hX row hrow e he), mul_div_mul_left _ _ hca]
  unfold p3W
  simp only [ht, itemToUser_scaled hc alpha X hX, show (scaled c X).cols = X.cols from rfl]

theorem simRow_raw_scaled (d : ℝ) (X : CSR ℝ) (t : SpVec ℝ) :
    simRow .raw 0 X (scaledVec d t) = scaledVec d (simRow .raw 0 X t) := by
  have := productRow_scaled d 1 t X
  rw [scaled_one, mul_one] at this
  exact this

theorem rp3W_scaled {nth : Nat → SpVec ℝ → List Nat} (hnth : NthOk nth) {c : ℝ} (hc : 0 < c) (alpha beta : ℝ)
    (X : CSR ℝ) (hX : NonNegative X) (nThreads maxChunk topK : Nat) :
    rp3W nth alpha beta (scaled c X) nThreads maxChunk topK =
      (rp3W nth alpha beta X nThreads maxChunk topK).map (scaledCSC ((c ^ beta)⁻¹)) := by
  have hca : c ^ alpha ≠ 0 := (Real.rpow_pos_of_pos hc _).ne'
  have hcb : 0 < c ^ beta := Real.rpow_pos_of_pos hc _
  have ht : (⟨(scaled c X).cols, (scaled c X).rows.map (fun row =>
      row.map (fun e => (e.1, e.2 ^ alpha / (userNorm alpha (scaled c X) e.1 * (rowTotal row) ^ beta))))⟩ : CSR ℝ) =
      scaled ((c ^ beta)⁻¹) ⟨X.cols, X.rows.map (fun row =>
        row.map (fun e => (e.1, e.2 ^ alpha / (userNorm alpha X e.1 * (rowTotal row) ^ beta))))⟩ := by
    simp only [userNorm_scaled hc alpha X hX]
    simp only [scaled, List.map_map, CSR.mk.injEq, true_and]
    apply List.map_congr_left
    intro row hrow
    simp only [Function.comp, rowTotal_scaled, rpow_scaled hc (rowTotal_nonneg hX hrow)]
    unfold scaledVec
    rw [List.map_map, List.map_map]
    apply List.map_congr_left
    intro e he
    simp only [Function.comp, rpow_scaled hc (hX row hrow e he)]
    rw [show c ^ alpha * userNorm alpha X e.1 * (c ^ beta * rowTotal row ^ beta) =
      c ^ alpha * (c ^ beta * (userNorm alpha X e.1 * rowTotal row ^ beta)) by ring, mul_div_mul_left _ _ hca,
      Prod.mk.injEq]
    refine ⟨rfl, ?_⟩
    rw [div_mul_eq_div_div_swap, div_eq_inv_mul]
  unfold rp3W
  by_cases h : alpha < 0 ∨ beta < 0
  · rw [if_pos h, if_pos h]; rfl
  · rw [if_neg h, if_neg h]
    simp only [ht, itemToUser_scaled hc alpha X hX]
    rw [computeSimilarity_scaled hnth (d := (c ^ beta)⁻¹) (kind := .raw) (s := 0) (X := itemToUser alpha X)
      (target := ⟨X.cols, X.rows.map (fun row =>
        row.map (fun e => (e.1, e.2 ^ alpha / (userNorm alpha X e.1 * (rowTotal row) ^ beta))))⟩)
      (inv_pos.mpr hcb) nThreads maxChunk topK Iff.rfl Iff.rfl rfl rfl (scaled_nrows _ _) rfl
      (fun r => by rw [scaled_row, simRow_raw_scaled])]
    cases computeSimilarity nth .raw 0 (itemToUser alpha X) ⟨X.cols, X.rows.map (fun row =>
        row.map (fun e => (e.1, e.2 ^ alpha / (userNorm alpha X e.1 * (rowTotal row) ^ beta))))⟩
        nThreads maxChunk topK <;> rfl

theorem l1NormalizeRow_scaled {d : ℝ} (hd : d ≠ 0) (W : CSC ℝ) :
    l1NormalizeRow (scaledCSC d W) = l1NormalizeRow W := by
  have hsum : ∀ i, rowSum (scaledCSC d W) i = d * rowSum W i := by
    intro i
    unfold rowSum scaledCSC
    rw [List.map_map, ← List.sum_map_mul_left]
    congr 1
    apply List.map_congr_left
    intro v _
    exact scaledVec_get d v i
  unfold l1NormalizeRow
  simp only [hsum]
  simp only [scaledCSC, List.map_map, CSC.mk.injEq, true_and]
  apply List.map_congr_left
  intro v _
  simp only [Function.comp]
  have : (scaledVec d v).insertionSort (fun a b => a.1 ≤ b.1) =
      scaledVec d (v.insertionSort (fun a b => a.1 ≤ b.1)) := by
    unfold scaledVec
    symm
    apply List.map_insertionSort
    intro a _ b _
    exact Iff.rfl
  rw [this]
  unfold scaledVec
  rw [List.map_map]
  apply List.map_congr_left
  intro e _
  simp only [Function.comp, mul_div_mul_left _ _ hd]

end Irspack.Sim
