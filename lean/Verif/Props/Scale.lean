import Verif.Model.Ease
import Verif.Props.SimRecommender
import Verif.Model.Score
import Verif.Proofs.Scale
import Verif.Proofs.ScaleSlim
import Verif.Proofs.ScaleIals
import Mathlib.Tactic.NormNum
import Mathlib.Tactic.IntervalCases

/-!
# C90: the unit in which interactions are measured

`scaled c X` is the same interaction matrix with every value multiplied by `c`, as when ratings are given
in half stars instead of stars, or watching times in minutes instead of seconds.
-/

namespace Irspack.Props

open Irspack Sim Spec.Scale Spec.Sim RecClasses

/-! ## Recommenders that do not see the unit -/

theorem itemKnnW_binary (nth : Nat → SpVec ℝ → List Nat) (kind : Kind)
    (hk : kind = .jaccard ∨ ∃ a b, kind = .tversky a b) (s c : ℝ) (X : CSR ℝ) (n k : Nat) :
    itemKnnW nth .none kind s (scaled c X) n k = itemKnnW nth .none kind s X n k := by
  unfold itemKnnW
  have : computeSimilarity nth kind s (transpose (Weighting.none.apply (scaled c X))) (transpose (scaled c X)) n 128 k =
      computeSimilarity nth kind s (transpose (Weighting.none.apply X)) (transpose X) n 128 k := by
    rw [show Weighting.none.apply (scaled c X) = scaled c X from rfl, show Weighting.none.apply X = X from rfl,
      transpose_scaled]
    exact computeSimilarity_congr nth n 128 k Iff.rfl Iff.rfl (scaled_nrows c _) rfl (scaled_nrows c _) rfl
      (fun r => by rw [scaled_row]; exact simRow_binary_scaled kind hk s c c _ _)
  rw [this]

theorem baseKnnInit_map (e : Env) (a b d : Val) :
    baseKnnInit e [a, b, d] [] = (e.nThreads d).map (fun T => [("shrinkage", a), ("top_k", b),
      ("feature_weighting", .str "NONE"), ("bm25_k1", .num (6 / 5)), ("bm25_b", .num (3 / 4)), ("n_threads", T)]) := by
  cases h : e.nThreads d with
  | ok T => exact baseKnnInit_plain e a b d T h
  | error x =>
    have h1 : call baseKnnSig [a, b, d] [] =
        .ok [("shrinkage", a), ("top_k", b), ("n_threads", d), ("feature_weighting", .str "NONE"),
          ("bm25_k1", .num (6 / 5)), ("bm25_b", .num (3 / 4))] := by rfl
    unfold baseKnnInit
    rw [h1]
    show (e.nThreads d >>= fun n => Except.ok [("shrinkage", a), ("top_k", b), ("feature_weighting", .str "NONE"),
      ("bm25_k1", .num (6 / 5)), ("bm25_b", .num (3 / 4)), ("n_threads", n)]) = _
    rw [h]
    rfl

theorem itemLearn_binary (nth : Nat → SpVec ℝ → List Nat) (create : Args → Except Err (Kind × ℝ × Nat)) (c : ℝ)
    (X : CSR ℝ) (self : Args) (hw : weightingOf self = .ok .none)
    (hk : ∀ r, create self = .ok r → r.1 = .jaccard ∨ ∃ a b, r.1 = .tversky a b) :
    itemLearn nth create (scaled c X) self = itemLearn nth create X self := by
  unfold itemLearn
  rw [hw]
  simp only [bind, Except.bind]
  cases h1 : create self with
  | error _ => rfl
  | ok r =>
    simp only
    cases h2 : attr self "top_k" with
    | error _ => rfl
    | ok v =>
      simp only
      cases h3 : toSize v with
      | error _ => rfl
      | ok k => exact itemKnnW_binary nth r.1 (hk r h1) _ c X _ _

theorem createJaccard_kind (self : Args) (r : Kind × ℝ × Nat) (h : createJaccard self = .ok r) : r.1 = .jaccard := by
  unfold createJaccard at h
  obtain ⟨_, _, h⟩ := Ials.bind_ok h
  obtain ⟨_, _, h⟩ := Ials.bind_ok h
  obtain ⟨_, _, h⟩ := Ials.bind_ok h
  obtain ⟨_, _, h⟩ := Ials.bind_ok h
  obtain ⟨_, _, h⟩ := Ials.bind_ok h
  obtain ⟨_, _, h⟩ := Ials.bind_ok h
  obtain ⟨_, _, h⟩ := Ials.bind_ok h
  cases h
  rfl

theorem createTversky_kind (self : Args) (r : Kind × ℝ × Nat) (h : createTversky self = .ok r) :
    ∃ a b, r.1 = .tversky a b := by
  unfold createTversky at h
  obtain ⟨_, _, h⟩ := Ials.bind_ok h
  obtain ⟨_, _, h⟩ := Ials.bind_ok h
  obtain ⟨_, _, h⟩ := Ials.bind_ok h
  obtain ⟨_, _, h⟩ := Ials.bind_ok h
  obtain ⟨_, _, h⟩ := Ials.bind_ok h
  obtain ⟨_, _, h⟩ := Ials.bind_ok h
  obtain ⟨_, _, h⟩ := Ials.bind_ok h
  obtain ⟨_, _, h⟩ := Ials.bind_ok h
  obtain ⟨_, _, h⟩ := Ials.bind_ok h
  obtain ⟨_, _, h⟩ := Ials.bind_ok h
  obtain ⟨_, _, h⟩ := Ials.bind_ok h
  obtain ⟨_, _, h⟩ := Ials.bind_ok h
  obtain ⟨_, _, h⟩ := Ials.bind_ok h
  cases h
  exact ⟨_, _, rfl⟩

/-- C90 (Jaccard).  Whatever the arguments are, also when they are rejected, `JaccardKNNRecommender` learns
exactly the same similarities from the scaled interactions: only the positions of the stored values
matter. -/
theorem C90_jaccard (nth : Nat → SpVec ℝ → List Nat) (e : Env) (c : ℝ) (X : CSR ℝ) (given : Args) :
    jaccardKnnFit nth e (scaled c X) given = jaccardKnnFit nth e X given := by
  unfold jaccardKnnFit jaccardInit
  simp only [bind, Except.bind]
  cases construct jaccardKnn given with
  | error _ => rfl
  | ok p =>
    simp only
    cases attr p "shrinkage" with
    | error _ => rfl
    | ok a =>
      cases attr p "top_k" with
      | error _ => rfl
      | ok b =>
        cases attr p "n_threads" with
        | error _ => rfl
        | ok d =>
          simp only [baseKnnInit_map]
          cases e.nThreads d with
          | error _ => rfl
          | ok T => exact itemLearn_binary nth _ c X _ rfl (fun r hr => .inl (createJaccard_kind _ r hr))

/-- C90 (Tversky).  The same for `TverskyIndexKNNRecommender`. -/
theorem C90_tversky (nth : Nat → SpVec ℝ → List Nat) (e : Env) (c : ℝ) (X : CSR ℝ) (given : Args) :
    tverskyKnnFit nth e (scaled c X) given = tverskyKnnFit nth e X given := by
  unfold tverskyKnnFit tverskyInit
  simp only [bind, Except.bind]
  cases construct tverskyKnn given with
  | error _ => rfl
  | ok p =>
    simp only
    cases attr p "shrinkage" with
    | error _ => rfl
    | ok a =>
      cases attr p "top_k" with
      | error _ => rfl
      | ok b =>
        cases attr p "n_threads" with
        | error _ => rfl
        | ok d =>
          simp only [baseKnnInit_map]
          cases e.nThreads d with
          | error _ => rfl
          | ok T =>
            simp only [Except.map]
            cases attr p "alpha" with
            | error _ => rfl
            | ok al =>
              cases attr p "beta" with
              | error _ => rfl
              | ok be =>
                exact itemLearn_binary nth _ c X _ rfl (fun r hr => .inr (createTversky_kind _ r hr))

/-- C90 (P3alpha).  Whatever the arguments are, `P3alphaRecommender` learns exactly the same transition
probabilities from the scaled interactions. -/
theorem C90_p3 (nth : Nat → SpVec ℝ → List Nat) (e : Env) {c : ℝ} (hc : 0 < c) (X : CSR ℝ) (hX : NonNegative X)
    (given : Args) : p3Fit nth e (scaled c X) given = p3Fit nth e X given := by
  have h : ∀ alpha K b n, p3Learn nth alpha (scaled c X) K b n = p3Learn nth alpha X K b n := by
    intro alpha K b n
    unfold p3Learn
    rw [transpose_scaled, p3W_scaled nth hc alpha _ (nonNegative_transpose hX)]
    rfl
  unfold p3Fit
  simp only [h]

/-- C90 (RP3beta).  `RP3betaRecommender` divides by the popularity of the target item to the power `beta`, so
all its weights are divided by `c ^ beta`, and nothing changes if it normalises them. -/
theorem C90_rp3 {nth : Nat → SpVec ℝ → List Nat} (hnth : NthOk nth) {c : ℝ} (hc : 0 < c) (X : CSR ℝ)
    (hX : NonNegative X) (alpha beta : ℝ) (topK : Option Nat) (normalized : Bool) (T : Nat) :
    rp3Learn nth alpha beta (scaled c X) topK normalized T =
      (rp3Learn nth alpha beta X topK normalized T).map
        (fun W => if normalized then W else scaledCSC ((c ^ beta)⁻¹) W) := by
  unfold rp3Learn
  rw [transpose_scaled, rp3W_scaled hnth hc alpha beta _ (nonNegative_transpose hX)]
  have hcb : (c ^ beta)⁻¹ ≠ 0 := inv_ne_zero (Real.rpow_pos_of_pos hc _).ne'
  have e1 : (scaled c X).cols = X.cols := rfl
  rw [e1]
  cases rp3W nth alpha beta (transpose X) T 128 (topK.getD X.cols) with
  | error _ => rfl
  | ok W =>
    cases normalized
    · rfl
    · simp only [Except.map, if_true, l1NormalizeRow_scaled hcb]

/-- the hypotheses are met: two users, half stars instead of stars -/
example : NonNegative ⟨2, [[(0, 3), (1, 5)], [(1, 1)]]⟩ ∧ (0 : ℝ) < 2 ∧
    scaled (2 : ℝ) ⟨2, [[(0, 3), (1, 5)], [(1, 1)]]⟩ = ⟨2, [[(0, 6), (1, 10)], [(1, 2)]]⟩ := by
  refine ⟨?_, by norm_num, ?_⟩
  · intro row hrow e he
    simp only [List.mem_cons, List.not_mem_nil, or_false] at hrow
    rcases hrow with rfl | rfl
    · simp only [List.mem_cons, List.not_mem_nil, or_false] at he
      rcases he with rfl | rfl <;> norm_num
    · simp only [List.mem_cons, List.not_mem_nil, or_false] at he
      subst he
      norm_num
  · simp only [scaled, scaledVec, List.map_cons, List.map_nil]
    norm_num

/-! ## Recommenders whose parameters have a unit -/

/-- C90 (cosine).  `CosineKNNRecommender` learns exactly the same similarities from the scaled interactions
if the amounts among its parameters are converted: the saturation constant of BM25 by `c`, and the shrinkage
together with the constant `1e-6` of the denominator by the factor that a product of a value and a weighted
value takes. -/
theorem C90_cosine_items (nth : Nat → SpVec ℝ → List Nat) {c : ℝ} (hc : 0 < c) (X : CSR ℝ) (w : Weighting)
    (hw : ∀ k1 b, w = .bm25 k1 b → 0 ≤ k1) (s s' : ℝ) (hs : 0 ≤ s) (hs' : 0 ≤ s')
    (hunit : s' + eps = c * weightedBy c w * (s + eps)) (T k : Nat) :
    itemKnnW nth (weightingIn c w) (.cosine true) s' (scaled c X) T k = itemKnnW nth w (.cosine true) s X T k := by
  unfold itemKnnW
  have : computeSimilarity nth (.cosine true) s' (transpose ((weightingIn c w).apply (scaled c X)))
      (transpose (scaled c X)) T 128 k =
      computeSimilarity nth (.cosine true) s (transpose (w.apply X)) (transpose X) T 128 k := by
    rw [apply_scaled hc w hw, transpose_scaled, transpose_scaled]
    exact computeSimilarity_congr nth T 128 k (by constructor <;> intro h <;> linarith) Iff.rfl (scaled_nrows _ _) rfl
      (scaled_nrows _ _) rfl
      (fun r => by rw [scaled_row]; exact simRow_cosine_scaled hc (weightedBy_pos hc w hw) hunit _ _)
  rw [this]

/-- the hypotheses are met: BM25 with `k1 = 1.2`, twice the unit, and a shrinkage of 10 -/
example : ∃ (c : ℝ) (w : Weighting) (s s' : ℝ), 0 < c ∧ c ≠ 1 ∧ (∀ k1 b, w = .bm25 k1 b → 0 ≤ k1) ∧ 0 < s ∧ 0 ≤ s' ∧
    s' + eps = c * weightedBy c w * (s + eps) ∧ weightingIn c w = .bm25 (12 / 5) (3 / 4) := by
  refine ⟨2, .bm25 (6 / 5) (3 / 4), 10, 2 * weightedBy 2 (.bm25 (6 / 5) (3 / 4)) * (10 + eps) - eps, by norm_num,
    by norm_num, ?_, by norm_num, ?_, by ring, ?_⟩
  · intro k1 b h
    simp only [Weighting.bm25.injEq] at h
    rw [← h.1]
    norm_num
  · simp only [weightedBy, eps]
    norm_num
  · simp only [weightingIn]
    norm_num

/-- C90 (cosine between users).  The same for `CosineUserKNNRecommender`. -/
theorem C90_cosine_users (nth : Nat → SpVec ℝ → List Nat) {c : ℝ} (hc : 0 < c) (X : CSR ℝ) (w : Weighting)
    (hw : ∀ k1 b, w = .bm25 k1 b → 0 ≤ k1) (s s' : ℝ) (hs : 0 ≤ s) (hs' : 0 ≤ s')
    (hunit : s' + eps = c * weightedBy c w * (s + eps)) (T k : Nat) :
    userKnnU nth (weightingIn c w) (.cosine true) s' (scaled c X) T k = userKnnU nth w (.cosine true) s X T k := by
  unfold userKnnU
  have : computeSimilarity nth (.cosine true) s' ((weightingIn c w).apply (scaled c X)) (scaled c X) T 128 k =
      computeSimilarity nth (.cosine true) s (w.apply X) X T 128 k := by
    rw [apply_scaled hc w hw]
    exact computeSimilarity_congr nth T 128 k (by constructor <;> intro h <;> linarith) Iff.rfl (scaled_nrows _ _) rfl
      (scaled_nrows _ _) rfl
      (fun r => by rw [scaled_row]; exact simRow_cosine_scaled hc (weightedBy_pos hc w hw) hunit _ _)
  rw [this]

/-- C90 (asymmetric cosine).  For `AsymmetricCosineKNNRecommender` the same conversion multiplies all
similarities by one constant. -/
theorem C90_asymmetric_items {nth : Nat → SpVec ℝ → List Nat} (hnth : NthOk nth) {c : ℝ} (hc : 0 < c) (X : CSR ℝ)
    (w : Weighting) (hw : ∀ k1 b, w = .bm25 k1 b → 0 ≤ k1) (alpha s s' : ℝ) (hs : 0 ≤ s) (hs' : 0 ≤ s')
    (hunit : s' + eps = (weightedBy c w ^ 2) ^ (1 - alpha) * (c ^ 2) ^ alpha * (s + eps)) (T k : Nat) :
    itemKnnW nth (weightingIn c w) (.asymmetric alpha) s' (scaled c X) T k =
      (itemKnnW nth w (.asymmetric alpha) s X T k).map
        (scaled (c * weightedBy c w / ((weightedBy c w ^ 2) ^ (1 - alpha) * (c ^ 2) ^ alpha))) := by
  have hd := weightedBy_pos hc w hw
  unfold itemKnnW
  rw [apply_scaled hc w hw, transpose_scaled, transpose_scaled,
    computeSimilarity_scaled hnth (kind := .asymmetric alpha) (s := s) (X := transpose (w.apply X))
      (target := transpose X) (d := c * weightedBy c w / ((weightedBy c w ^ 2) ^ (1 - alpha) * (c ^ 2) ^ alpha))
      (by positivity) T 128 k (by constructor <;> intro h <;> linarith) Iff.rfl
      (scaled_nrows _ _) rfl (scaled_nrows _ _) rfl
      (fun r => by rw [scaled_row]; exact simRow_asymmetric_scaled hc hd hunit _ _)]
  cases computeSimilarity nth (.asymmetric alpha) s (transpose (w.apply X)) (transpose X) T 128 k with
  | error _ => rfl
  | ok S => exact removeDiagonal_scaled _ S

/-- C90 (asymmetric cosine between users).  The same for `AsymmetricCosineUserKNNRecommender`. -/
theorem C90_asymmetric_users {nth : Nat → SpVec ℝ → List Nat} (hnth : NthOk nth) {c : ℝ} (hc : 0 < c) (X : CSR ℝ)
    (w : Weighting) (hw : ∀ k1 b, w = .bm25 k1 b → 0 ≤ k1) (alpha s s' : ℝ) (hs : 0 ≤ s) (hs' : 0 ≤ s')
    (hunit : s' + eps = (weightedBy c w ^ 2) ^ (1 - alpha) * (c ^ 2) ^ alpha * (s + eps)) (T k : Nat) :
    userKnnU nth (weightingIn c w) (.asymmetric alpha) s' (scaled c X) T k =
      (userKnnU nth w (.asymmetric alpha) s X T k).map
        (scaled (c * weightedBy c w / ((weightedBy c w ^ 2) ^ (1 - alpha) * (c ^ 2) ^ alpha))) := by
  have hd := weightedBy_pos hc w hw
  unfold userKnnU
  rw [apply_scaled hc w hw,
    computeSimilarity_scaled hnth (kind := .asymmetric alpha) (s := s) (X := w.apply X)
      (target := X) (d := c * weightedBy c w / ((weightedBy c w ^ 2) ^ (1 - alpha) * (c ^ 2) ^ alpha))
      (by positivity) T 128 k (by constructor <;> intro h <;> linarith) Iff.rfl
      (scaled_nrows _ _) rfl (scaled_nrows _ _) rfl
      (fun r => by rw [scaled_row]; exact simRow_asymmetric_scaled hc hd hunit _ _)]
  cases computeSimilarity nth (.asymmetric alpha) s (w.apply X) X T 128 k with
  | error _ => rfl
  | ok S => exact removeDiagonal_scaled _ S

/-- C90 (inner products).  Without normalisation the similarities are inner products; they take the factor of
a product of a value and a weighted value, and the shrinkage plays no role. -/
theorem C90_unnormalized {nth : Nat → SpVec ℝ → List Nat} (hnth : NthOk nth) {c : ℝ} (hc : 0 < c) (X : CSR ℝ)
    (w : Weighting) (hw : ∀ k1 b, w = .bm25 k1 b → 0 ≤ k1) (s : ℝ) (T k : Nat) :
    itemKnnW nth (weightingIn c w) (.cosine false) s (scaled c X) T k =
      (itemKnnW nth w (.cosine false) s X T k).map (scaled (c * weightedBy c w)) ∧
    userKnnU nth (weightingIn c w) (.cosine false) s (scaled c X) T k =
      (userKnnU nth w (.cosine false) s X T k).map (scaled (c * weightedBy c w)) := by
  have hd := weightedBy_pos hc w hw
  constructor
  · unfold itemKnnW
    rw [apply_scaled hc w hw, transpose_scaled, transpose_scaled,
      computeSimilarity_scaled hnth (kind := .cosine false) (s := s) (X := transpose (w.apply X))
        (target := transpose X) (mul_pos hc hd) T 128 k Iff.rfl Iff.rfl
        (scaled_nrows _ _) rfl (scaled_nrows _ _) rfl
        (fun r => by rw [scaled_row]; exact productRow_scaled _ _ _ _)]
    cases computeSimilarity nth (.cosine false) s (transpose (w.apply X)) (transpose X) T 128 k with
    | error _ => rfl
    | ok S => exact removeDiagonal_scaled _ S
  · unfold userKnnU
    rw [apply_scaled hc w hw,
      computeSimilarity_scaled hnth (kind := .cosine false) (s := s) (X := w.apply X)
        (target := X) (mul_pos hc hd) T 128 k Iff.rfl Iff.rfl
        (scaled_nrows _ _) rfl (scaled_nrows _ _) rfl
        (fun r => by rw [scaled_row]; exact productRow_scaled _ _ _ _)]
    cases computeSimilarity nth (.cosine false) s (w.apply X) X T 128 k with
    | error _ => rfl
    | ok S => exact removeDiagonal_scaled _ S

/-! ## Linear models -/

open Classical in
theorem solve_smul {K : Type} [Field K] {F : Nat} {d : K} (hd : d ≠ 0) (P : Matrix (Fin F) (Fin F) K) (lamb : Fin F → K) :
    Ease.solve (d • P) (fun i => d * lamb i) = Ease.solve P lamb := by
  have hA : d • P + Matrix.diagonal (fun i => d * lamb i) = d • (P + Matrix.diagonal lamb) := by
    rw [smul_add, ← Matrix.diagonal_smul]
    rfl
  unfold Ease.solve
  rw [hA]
  set A := P + Matrix.diagonal lamb
  have hdet : IsUnit (d • A).det ↔ IsUnit A.det := by
    rw [Matrix.det_smul, IsUnit.mul_iff]
    exact and_iff_right (IsUnit.pow _ hd.isUnit)
  by_cases h : IsUnit A.det
  · have hu : Invertible d := invertibleOfNonzero hd
    have hinv : ∀ i j, (d • A)⁻¹ i j = d⁻¹ * A⁻¹ i j := by
      intro i j
      rw [Matrix.inv_smul _ _ h]
      simp
    simp only [if_pos h, if_pos (hdet.mpr h), hinv, mul_eq_zero, inv_eq_zero, hd, false_or]
    split
    · rfl
    · next hne =>
      congr 1
      funext i j
      split
      · rfl
      · have : A⁻¹ j j ≠ 0 := fun h0 => hne ⟨j, h0⟩
        field_simp
  · simp only [if_neg h, if_neg (fun h' => h (hdet.mp h'))]

theorem gram_smul {K : Type} [Field K] {U F : Nat} (c : K) (X : Matrix (Fin U) (Fin F) K) :
    Ease.gram (c • X) = c ^ 2 • Ease.gram X := by
  unfold Ease.gram
  rw [Matrix.transpose_smul, Matrix.smul_mul, Matrix.mul_smul, smul_smul, sq]

/-- C90 (DenseSLIM).  The regularisation of `DenseSLIMRecommender` is a sum of squared interactions: converted
by `c²`, it gives exactly the same weights, or the same error. -/
theorem C90_dense_slim {K : Type} [Field K] {U F : Nat} {c : K} (hc : c ≠ 0) (X : Matrix (Fin U) (Fin F) K) (reg : K) :
    Ease.denseSlim (c • X) (c ^ 2 * reg) = Ease.denseSlim X reg := by
  unfold Ease.denseSlim
  rw [gram_smul]
  exact solve_smul (pow_ne_zero 2 hc) _ (fun _ => reg)

/-- C90 (EDLAE).  The same for `EDLAERecommender`, whose dropout probability has no unit. -/
theorem C90_edlae {K : Type} [Field K] {U F : Nat} {c : K} (hc : c ≠ 0) (X : Matrix (Fin U) (Fin F) K) (reg p : K) :
    Ease.edlae (c • X) (c ^ 2 * reg) p = Ease.edlae X reg p := by
  unfold Ease.edlae
  rw [gram_smul]
  by_cases hq : 1 - p = 0
  · simp only [if_pos hq]
  · simp only [if_neg hq]
    rw [← solve_smul (pow_ne_zero 2 hc) (Ease.gram X) (fun i => p / (1 - p) * Ease.gram X i i + reg)]
    congr 1
    funext i
    simp only [Matrix.smul_apply, smul_eq_mul]
    ring

/-- C90 (SLIM).  `SLIMRecommender` with `alpha` converted by `c²` does exactly the same, coefficient by
coefficient, for every interleaving of its workers, every shuffle and every `top_k`: neither its tolerance nor
the precision below which it ignores updates has a unit. -/
theorem C90_slim {K : Type} [Field K] [LinearOrder K] [IsStrictOrderedRing K] {c : K} (hc : c ≠ 0) (X : CSC K)
    (alpha l1Ratio tol prec : K) (positiveOnly : Bool) (nIter blockSize : Nat) (topK : Option Int) {T : Nat}
    (shuffles : Nat → List Nat) (srt : List (K × Nat) → List (K × Nat)) (sched : List (Fin T)) :
    Slim.slim (Slim.recommenderConfig X.rows (c ^ 2 * alpha) l1Ratio positiveOnly nIter tol topK blockSize prec)
        (scaledCSC c X) shuffles srt sched =
      Slim.slim (Slim.recommenderConfig X.rows alpha l1Ratio positiveOnly nIter tol topK blockSize prec)
        X shuffles srt sched := by
  conv_rhs => rw [← Slim.slim_scale hc]
  congr 1
  unfold Slim.recommenderConfig Slim.Config.scale
  simp only [Slim.Config.mk.injEq, true_and, and_true]
  constructor <;> ring

/-! ## Matrix factorisation -/

/-- C90 (the documented loss of iALS).  If `alpha0` and `reg` are converted as the interactions are, the loss
of any embeddings is multiplied by `c`, so the same embeddings are optimal; this needs a regularisation that
does not depend on `alpha0`, that is `nu = 0` or `alpha0 = 0`. -/
theorem C90_ials_loss {K : Nat} (c : ℝ) (p : Spec.Ials.Params) (hp : p.nu = 0 ∨ p.alpha0 = 0) (D : Spec.Ials.Data)
    (A B : Nat → Fin K → ℝ) :
    Spec.Ials.loss ⟨p.original, c * p.alpha0, c * p.reg, p.nu⟩ (scaledData c D) A B = c * Spec.Ials.loss p D A B := by
  have hw : ∀ x : ℝ, ∀ n : Nat, c * p.reg * (c * p.alpha0 * x + n) ^ p.nu = c * (p.reg * (p.alpha0 * x + n) ^ p.nu) := by
    intro x n
    rcases hp with h | h <;> simp [h, mul_assoc]
  have hu : ∀ u, Spec.Ials.userWeight ⟨p.original, c * p.alpha0, c * p.reg, p.nu⟩ (scaledData c D) u =
      c * Spec.Ials.userWeight p D u := fun u => hw _ _
  have hi : ∀ i, Spec.Ials.itemWeight ⟨p.original, c * p.alpha0, c * p.reg, p.nu⟩ (scaledData c D) i =
      c * Spec.Ials.itemWeight p D i := fun i => hw _ _
  have hd : Spec.Ials.dataTerm ⟨p.original, c * p.alpha0, c * p.reg, p.nu⟩ (scaledData c D) A B =
      c * Spec.Ials.dataTerm p D A B := by
    unfold Spec.Ials.dataTerm
    cases p.original
    · simp only [Bool.false_eq_true, if_false, Spec.Ials.ialsppTerm, scaledData, mul_add, Finset.mul_sum, mul_assoc]
      rfl
    · simp only [if_true, Spec.Ials.originalTerm, scaledData, Finset.mul_sum]
      refine Finset.sum_congr rfl fun u _ => Finset.sum_congr rfl fun i _ => ?_
      by_cases hS : D.S u i
      · simp only [hS, if_true]; ring
      · simp only [hS, if_false]; ring
  unfold Spec.Ials.loss
  rw [hd]
  simp only [hu, hi, mul_assoc, ← Finset.mul_sum]
  have e1 : (scaledData c D).U = D.U := rfl
  have e2 : (scaledData c D).I = D.I := rfl
  rw [e1, e2]
  ring

/-- one epoch of a training run: the number of threads, the interleavings and the solver -/
structure Epoch where
  threads : Nat
  order : Oracle threads
  solver : Ials.SolverConfig

/-- `n` epochs -/
noncomputable def train {K : Nat} (epochs : List Epoch) (tr : Ials.Trainer K) : Except Err (Ials.Trainer K) :=
  epochs.foldlM (fun tr e => tr.step e.order e.solver) tr

/-- C90 (training iALS).  Under the same conversion the Cholesky and iALS++ solvers compute exactly the same
embeddings, or the same error, from the same initial values: for any number of epochs, with any threads and
interleavings. -/
theorem C90_ials_training {K : Nat} {c : ℝ} (hc : 0 < c) (cfg : Ials.Config) (h : cfg.nu = 0 ∨ cfg.alpha0 = 0)
    (X : CSR ℝ) (u₀ v₀ : Nat → Fin K → ℝ) (epochs : List Epoch) (hs : ∀ e ∈ epochs, e.solver.solverType ≠ .cg) :
    (train epochs (Ials.Trainer.create { cfg with alpha0 := c * cfg.alpha0, reg := c * cfg.reg } (scaled c X) u₀ v₀)).map
        (fun tr => (tr.user, tr.item)) =
      (train epochs (Ials.Trainer.create cfg X u₀ v₀)).map (fun tr => (tr.user, tr.item)) := by
  have key : ∀ (epochs : List Epoch) (tr : Ials.Trainer K), (∀ e ∈ epochs, e.solver.solverType ≠ .cg) →
      Ials.UnitFree tr.cfg → tr.featureAware = false →
      train epochs (tr.scale c) = (train epochs tr).map (Ials.Trainer.scale c) := by
    intro epochs
    induction epochs with
    | nil => intro tr _ _ _; rfl
    | cons e l ih =>
      intro tr hs h hf
      unfold train
      rw [List.foldlM_cons, List.foldlM_cons, Ials.step_scale hc e.order e.solver (hs e List.mem_cons_self) tr h hf]
      cases h1 : tr.step e.order e.solver with
      | error x => rfl
      | ok tr₁ =>
        obtain ⟨k1, k2⟩ := Ials.step_keeps _ _ _ _ hf h1
        exact ih tr₁ (fun e' he' => hs e' (List.mem_cons_of_mem _ he')) (by rw [k1]; exact h) k2
  have := key epochs (Ials.Trainer.create cfg X u₀ v₀) hs h rfl
  rw [← Ials.create_scale] at this
  show (train epochs (Ials.Trainer.create (cfg.scale c) (scaled c X) u₀ v₀)).map _ = _
  rw [this]
  cases train epochs (Ials.Trainer.create cfg X u₀ v₀) <;> rfl

/-- the hypotheses are met, and there is something to train: two epochs with different solvers -/
example : ∃ (cfg : Ials.Config) (epochs : List Epoch), 0 < cfg.alpha0 ∧ 0 < cfg.reg ∧ (cfg.nu = 0 ∨ cfg.alpha0 = 0) ∧
    epochs.length = 2 ∧ ∀ e ∈ epochs, 0 < e.threads ∧ e.solver.solverType ≠ .cg :=
  ⟨⟨1, 1, 1, 0, 1, 0, .ialspp, 0, 0, 0⟩,
    [⟨2, fun _ _ _ => [], ⟨.cholesky, 0, 1, 1⟩⟩, ⟨3, fun _ _ _ => [], ⟨.ialspp, 0, 1, 1⟩⟩], by norm_num, by norm_num,
    .inl rfl, rfl, by
      intro e he
      simp only [List.mem_cons, List.not_mem_nil, or_false] at he
      rcases he with rfl | rfl
      · exact ⟨by norm_num, nofun⟩
      · exact ⟨by norm_num, nofun⟩⟩

/-! ## Scores -/

/-- every score multiplied by `c` -/
def scaledScores (c : ℝ) (S : Score.Dense ℝ) : Score.Dense ℝ := ⟨S.cols, S.rows.map (fun row j => c * row j)⟩

theorem dotSparse_scaled (c : ℝ) (X : CSR ℝ) (W : Score.Dense ℝ) :
    Score.dotSparse (scaled c X) W = (Score.dotSparse X W).map (scaledScores c) := by
  unfold Score.dotSparse
  have e1 : (scaled c X).cols = X.cols := rfl
  rw [e1]
  split
  · simp only [Except.map, scaledScores, scaled, List.map_map]
    congr 2
    apply List.map_congr_left
    intro row _
    simp only [Function.comp]
    funext j
    rw [← List.sum_map_mul_left, scaledVec, List.map_map]
    congr 1
    apply List.map_congr_left
    intro e _
    simp only [Function.comp, mul_assoc]
  · rfl

theorem pickRows_scaled (c : ℝ) (X : CSR ℝ) (users : List Int) :
    Score.pickRows (scaled c X) users = (Score.pickRows X users).map (scaled c) := by
  unfold Score.pickRows
  rw [scaled_nrows]
  cases Score.resolveAll X.nrows users with
  | error _ => rfl
  | ok l =>
    show Except.ok _ = Except.ok _
    congr 1
    unfold scaled
    simp only [List.map_map, CSR.mk.injEq, true_and]
    apply List.map_congr_left
    intro u _
    exact scaled_row c X u

theorem sliceRows_scaled (c : ℝ) (X : CSR ℝ) (b e : Int) :
    Score.sliceRows (scaled c X) b e = scaled c (Score.sliceRows X b e) := by
  unfold Score.sliceRows
  rw [scaled_nrows]
  simp only [scaled, List.map_take, List.map_drop]

/-- C90 (scores of item-based recommenders).  With the same weights, every score of every score function is
multiplied by `c`, so nothing about the ranking changes. -/
theorem C90_scores (c : ℝ) (X Y : CSR ℝ) (W : Option (Score.Dense ℝ)) (users : List Int) (b e : Int) :
    (Score.similarity (scaled c X) W).getScore users = ((Score.similarity X W).getScore users).map (scaledScores c) ∧
    (Score.similarity (scaled c X) W).getScoreBlock b e =
      ((Score.similarity X W).getScoreBlock b e).map (scaledScores c) ∧
    (Score.similarity (scaled c X) W).getScoreColdUser (scaled c Y) =
      ((Score.similarity X W).getScoreColdUser Y).map (scaledScores c) := by
  refine ⟨?_, ?_, ?_⟩
  · unfold Score.similarity
    simp only [pickRows_scaled, bind, Except.bind]
    cases Score.pickRows X users with
    | error _ => rfl
    | ok x =>
      simp only [Except.map]
      cases Score.fitted W with
      | error _ => rfl
      | ok w => exact dotSparse_scaled c x w
  · unfold Score.similarity
    simp only [bind, Except.bind, sliceRows_scaled]
    cases Score.fitted W with
    | error _ => rfl
    | ok w => exact dotSparse_scaled c _ w
  · unfold Score.similarity
    simp only [bind, Except.bind]
    cases Score.fitted W with
    | error _ => rfl
    | ok w => exact dotSparse_scaled c _ w

/-- C90 (popularity).  The popularity of every item is multiplied by `c`. -/
theorem C90_top_pop (c : ℝ) (X : CSR ℝ) (j : Nat) : Score.popularity (scaled c X) j = c * Score.popularity X j := by
  unfold Score.popularity
  rw [← List.sum_map_mul_left]
  simp only [scaled, List.map_map]
  congr 1
  apply List.map_congr_left
  intro row _
  exact scaledVec_get c row j

/-! ## What does depend on the unit -/

/-- one user with two interactions -/
def pairX : CSR ℝ := ⟨2, [[(0, 1), (1, 1)]]⟩

/-- C90 (negative).  Even without shrinkage the cosine similarities depend on the unit, through the constant
`1e-6` of the denominator. -/
theorem C90_cosine_counterexample {nth : Nat → SpVec ℝ → List Nat} (hnth : NthOk nth) :
    ∃ (X : CSR ℝ) (c : ℝ) (W W' : CSR ℝ), Proper X ∧ Positive X ∧ 0 < c ∧
      itemKnnW nth .none (.cosine true) 0 X 1 2 = .ok W ∧
      itemKnnW nth .none (.cosine true) 0 (scaled c X) 1 2 = .ok W' ∧ W.get 0 1 ≠ W'.get 0 1 := by
  have hP : Proper pairX := by
    constructor
    · intro row hrow e he
      simp only [pairX, List.mem_singleton] at hrow
      subst hrow
      simp only [List.mem_cons, List.not_mem_nil, or_false] at he
      rcases he with rfl | rfl <;> decide
    · intro row hrow
      simp only [pairX, List.mem_singleton] at hrow
      subst hrow
      decide
  have hpos : Positive pairX := by
    intro row hrow e he
    simp only [pairX, List.mem_singleton] at hrow
    subst hrow
    simp only [List.mem_cons, List.not_mem_nil, or_false] at he
    rcases he with rfl | rfl <;> norm_num
  have hz : ∀ X : CSR ℝ, Positive X → NoStoredZero X := fun X h row hr e he => (h row hr e he).ne'
  have hP' : Proper (scaled 2 pairX) := by
    constructor
    · intro row hrow e he
      simp only [pairX, scaled, scaledVec, List.map_cons, List.map_nil, List.mem_singleton] at hrow
      subst hrow
      simp only [List.mem_cons, List.not_mem_nil, or_false] at he
      rcases he with rfl | rfl <;> decide
    · intro row hrow
      simp only [pairX, scaled, scaledVec, List.map_cons, List.map_nil, List.mem_singleton] at hrow
      subst hrow
      simp
  have hpos' : Positive (scaled 2 pairX) := by
    intro row hrow e he
    simp only [pairX, scaled, scaledVec, List.map_cons, List.map_nil, List.mem_singleton] at hrow
    subst hrow
    simp only [List.mem_cons, List.not_mem_nil, or_false] at he
    rcases he with rfl | rfl <;> norm_num
  obtain ⟨W, hW, hW1⟩ := (C60_item_similarity_partial hnth 0 (le_refl _) pairX hP (hz _ hpos) 1 2 (le_refl _)
    (le_refl _)).1 .none
  obtain ⟨W', hW', hW1'⟩ := (C60_item_similarity_partial hnth 0 (le_refl _) (scaled 2 pairX) hP' (hz _ hpos') 1 2
    (le_refl _) (le_refl _)).1 .none
  refine ⟨pairX, 2, W, W', hP, hpos, by norm_num, hW, hW', ?_⟩
  rw [hW1 0 (by decide) 1 (by decide), hW1' 0 (by decide) 1 (by decide)]
  have g : ∀ j, j < 2 → pairX.get 0 j = 1 := by
    intro j hj
    interval_cases j <;> simp [CSR.get, CSR.row, pairX, SpVec.get]
  have g' : ∀ j, j < 2 → (scaled 2 pairX).get 0 j = 2 := by
    intro j hj
    interval_cases j <;> simp [CSR.get, CSR.row, pairX, SpVec.get, scaled, scaledVec]
  have n1 : pairX.nrows = 1 := rfl
  have n2 : (scaled 2 pairX).nrows = 1 := rfl
  have s4 : Real.sqrt (2 * 2) = 2 := Real.sqrt_mul_self (by norm_num)
  simp only [Weighting.apply, cosine, l2norm, dot, n1, n2, Finset.sum_range_one, g 0 (by decide), g 1 (by decide),
    g' 0 (by decide), g' 1 (by decide), s4, eps]
  norm_num

/-- C90 (negative).  With `nu = 1` (the default) no other value of `reg` makes up for a change of unit: the
regularisation weighs numbers of interactions against `alpha0`. -/
theorem C90_ials_nu_counterexample : ∃ (p : Spec.Ials.Params) (D : Spec.Ials.Data) (c : ℝ), p.nu = 1 ∧ 0 < p.alpha0 ∧
    0 < p.reg ∧ 0 < c ∧ ∀ reg' : ℝ, ∃ A B : Nat → Fin 1 → ℝ,
      Spec.Ials.loss ⟨p.original, c * p.alpha0, reg', p.nu⟩ (scaledData c D) A B ≠ c * Spec.Ials.loss p D A B := by
  refine ⟨⟨false, 1, 1, 1⟩, ⟨2, 1, fun u _ => u = 0, fun _ _ => 1⟩, 2, rfl, by norm_num, by norm_num, by norm_num,
    fun reg' => ?_⟩
  by_contra hcon
  push Not at hcon
  have h0 := hcon (fun r _ => if r = 0 then 1 else 0) (fun _ _ => 0)
  have h1 := hcon (fun r _ => if r = 1 then 1 else 0) (fun _ _ => 0)
  have c0 : (⟨2, 1, fun u _ => u = 0, fun _ _ => 1⟩ : Spec.Ials.Data).userCount 0 = 1 := by
    simp [Spec.Ials.Data.userCount]
  have c1 : (⟨2, 1, fun u _ => u = 0, fun _ _ => 1⟩ : Spec.Ials.Data).userCount 1 = 0 := by
    simp [Spec.Ials.Data.userCount]
  have c0' : (⟨2, 1, fun u _ => u = 0, fun _ _ => 2⟩ : Spec.Ials.Data).userCount 0 = 1 := by
    simp [Spec.Ials.Data.userCount]
  have c1' : (⟨2, 1, fun u _ => u = 0, fun _ _ => 2⟩ : Spec.Ials.Data).userCount 1 = 0 := by
    simp [Spec.Ials.Data.userCount]
  simp [Spec.Ials.loss, Spec.Ials.dataTerm, Spec.Ials.ialsppTerm, Spec.Ials.score, Spec.Ials.normSq,
    Spec.Ials.userWeight, Finset.sum_range_succ, c0, c1, c0', c1', scaledData] at h0 h1
  linarith

/-- a trainer's configuration without `alpha0` -/
noncomputable def plainConfig (reg : ℝ) : Ials.Config := ⟨1, 0, reg, 0, 1, 0, .ialspp, 0, 0, 0⟩

theorem cold_one {T : Nat} {ω : Oracle T} (hω : ω.Complete) (hT : 0 < T) (c : ℝ) (y : Fin 1 → ℝ)
    (h : Ials.cgRow (plainConfig c) ⟨.cg, 0, 1, 1⟩ 0 ⟨1, fun _ => fun _ => 1⟩ none [(0, c)] (0 : Fin 1 → ℝ) = .ok y) :
    ∃ E : Ials.Factor 1, (Ials.Trainer.create (plainConfig c) ⟨1, [[(0, c)]]⟩ (fun _ _ => 1) (fun _ _ => 1)).transformUser ω
      ⟨.cg, 0, 1, 1⟩ ⟨1, [[(0, c)]]⟩ = .ok E ∧ E.row 0 = y := by
  have hP : Ials.prepareP (ω.at 0) (plainConfig c) (⟨1, fun _ => fun _ => 1⟩ : Ials.Factor 1) = .ok 0 := by
    unfold Ials.prepareP
    rw [if_neg (by omega)]
    congr 1
    exact zero_smul ℝ (A := Fin 1 → Fin 1 → ℝ) _
  have hr := Irspack.parRows_total (Oracle.Complete.at hω 1) hT (n := 1) (c := 1) (by norm_num)
    (f := fun r x => Ials.cgRow (plainConfig c) ⟨.cg, 0, 1, 1⟩ 0 (⟨1, fun _ => fun _ => 1⟩ : Ials.Factor 1) none
      ((⟨1, [[(0, c)]]⟩ : CSR ℝ).row r) x) (m := fun _ => (0 : Fin 1 → ℝ)) (fun _ => y)
    (fun r hr => by
      have : r = 0 := by omega
      subst this
      exact h)
  refine ⟨⟨1, fun r => if r < 1 then y else 0⟩, ?_, rfl⟩
  unfold Ials.Trainer.transformUser
  show (Ials.prepareP (ω.at 0) (plainConfig c) (⟨1, fun _ => fun _ => 1⟩ : Ials.Factor 1) >>= _) = _
  rw [hP]
  show Ials.xToVector (ω.at 1) (plainConfig c) ⟨.cg, 0, 1, 1⟩ 0 ⟨1, [[(0, c)]]⟩ (⟨1, fun _ => fun _ => 1⟩ : Ials.Factor 1) = _
  unfold Ials.xToVector Ials.solverStep Ials.stepCg
  rw [if_neg (by simp)]
  simp only [Option.any_none, Bool.false_eq_true, if_false, Option.map_none, CSR.nrows, List.length_singleton]
  rw [hr]
  rfl

/-- C90 (negative).  The conjugate-gradient solver, the default, stops when the squared residual falls below
the absolute number `1e-20`: in a unit in which the interactions are small it does nothing at all.  Here the
embedding of a new user changes from 1/2 to 0. -/
theorem C90_cg_counterexample {T : Nat} {ω : Oracle T} (hω : ω.Complete) (hT : 0 < T) :
    ∃ (cfg : Ials.Config) (X : CSR ℝ) (c : ℝ) (sc : Ials.SolverConfig) (u₀ v₀ : Nat → Fin 1 → ℝ)
      (E E' : Ials.Factor 1), cfg.nu = 0 ∧ 0 < cfg.reg ∧ 0 < c ∧ Positive X ∧
      (Ials.Trainer.create cfg X u₀ v₀).transformUser ω sc X = .ok E ∧
      (Ials.Trainer.create { cfg with alpha0 := c * cfg.alpha0, reg := c * cfg.reg } (scaled c X) u₀ v₀).transformUser
        ω sc (scaled c X) = .ok E' ∧ E.row 0 0 = 1 / 2 ∧ E'.row 0 0 = 0 := by
  obtain ⟨E, h1, h2⟩ := cold_one hω hT 1 (fun _ => 1 / 2) (by
    norm_num [Ials.cgRow, Ials.computeReg, Ials.bias, plainConfig, Ials.cgMaxIter, Ials.cgLoop, Ials.cgEps, Ials.applyA,
      dotProduct, funext_iff])
  obtain ⟨E', h1', h2'⟩ := cold_one hω hT (1 / 10 ^ 11) 0 (by
    norm_num [Ials.cgRow, Ials.computeReg, Ials.bias, plainConfig, Ials.cgMaxIter, Ials.cgLoop, Ials.cgEps, Ials.applyA,
      dotProduct, funext_iff])
  refine ⟨plainConfig 1, ⟨1, [[(0, 1)]]⟩, 1 / 10 ^ 11, ⟨.cg, 0, 1, 1⟩, fun _ _ => 1, fun _ _ => 1, E, E', rfl,
    by norm_num [plainConfig], by norm_num, ?_, h1, ?_, by rw [h2], by rw [h2']; rfl⟩
  · intro row hrow e he
    simp only [List.mem_singleton] at hrow
    subst hrow
    simp only [List.mem_singleton] at he
    subst he
    norm_num
  · have e1 : scaled (1 / 10 ^ 11 : ℝ) ⟨1, [[(0, 1)]]⟩ = ⟨1, [[(0, 1 / 10 ^ 11)]]⟩ := by
      simp [scaled, scaledVec]
    have e2 : ({ plainConfig 1 with alpha0 := 1 / 10 ^ 11 * (plainConfig 1).alpha0, reg := 1 / 10 ^ 11 * (plainConfig 1).reg } :
        Ials.Config) = plainConfig (1 / 10 ^ 11) := by
      simp [plainConfig]
    rw [e1, e2]
    exact h1'

end Irspack.Props
