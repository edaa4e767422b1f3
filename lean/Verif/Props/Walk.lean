import Mathlib.Tactic
import Verif.Proofs.Walk
import Verif.Props.Weighting
import Verif.Props.Similarity

/-!
# C36, C60, C61: the weight matrices of P3alpha, RP3beta and the KNN recommenders

`X` is the user-item matrix given to the recommender.
-/

namespace Irspack.Props
open Irspack Sim Spec.Sim

variable {nth : Nat → SpVec ℝ → List Nat}

theorem rp3_rows (hnth : NthOk nth) (a b : ℝ) (ha : 0 ≤ a) (hb : 0 ≤ b) (X : CSR ℝ) (nT mC k : Nat)
    (hT : 1 ≤ nT) (hC : 1 ≤ mC) :
    ∃ R, computeSimilarity nth .raw 0 (itemToUser a X) (target a b X) nT mC k = .ok R ∧
      rp3W nth a b X nT mC k = .ok ⟨R.cols, R.rows⟩ := by
  obtain ⟨R, hR⟩ := (C34_succeeds_iff hnth .raw 0 (itemToUser a X) (target a b X) nT mC k).mpr
    ⟨le_refl _, hT, hC, trivial, rfl⟩
  refine ⟨R, hR, ?_⟩
  rw [rp3W_eq, if_neg (by push Not; exact ⟨ha, hb⟩), hR]

theorem csc_get (R : CSR ℝ) (i j : Nat) : (CSC.mk R.cols R.rows).get i j = R.get j i := rfl

theorem positive_noZero {X : CSR ℝ} (h : Positive X) : NoStoredZero X :=
  fun row hr e he => ne_of_gt (h row hr e he)

/-- The weights of RP3beta on the transposed matrix. -/
theorem rp3_get (hnth : NthOk nth) (a b : ℝ) (ha : 0 ≤ a) (hb : 0 ≤ b) (X : CSR ℝ) (hX : Proper X)
    (hp : Positive X) (nT mC k : Nat) (hT : 1 ≤ nT) (hC : 1 ≤ mC) (hk : X.cols ≤ k) :
    ∃ W, rp3W nth a b (transpose X) nT mC k = .ok W ∧ W.rows = X.cols ∧ W.cols.length = X.cols ∧
      ∀ j < X.cols, ∀ i < X.cols, W.get j i =
        (∑ u ∈ Finset.range X.nrows, toUser a X j u * toItem a X u i) / popularity X i ^ b := by
  have hXt := transpose_proper X hX
  have hzt := transpose_noZero X (positive_noZero hp)
  obtain ⟨R, hR, hW⟩ := rp3_rows hnth a b ha hb (transpose X) nT mC k hT hC
  obtain ⟨full, -, hn, hc, -, -, -⟩ := C33_top_k_best hnth _ _ _ _ _ _ _ _ (le_refl _) R hR
  have hnr : R.nrows = X.cols := by
    rw [hn]; simp [target, CSR.nrows, transpose]
  refine ⟨_, hW, ?_, hnr, ?_⟩
  · change R.cols = X.cols
    rw [hc, itemToUser_nrows, transpose_nrows]
  · intro j hj i hi
    rw [csc_get, full_get hnth .raw 0 _ _ nT mC k (itemToUser_proper _ hXt a)
      (mapvals_proper _ hXt _) (by intro h; exact False.elim h) R hR
      (by rw [itemToUser_nrows, transpose_nrows]; exact hk) i j
      (by simpa [target, CSR.nrows, transpose] using hi)
      (by rw [itemToUser_nrows, transpose_nrows]; exact hj)]
    change dot (transpose X).cols ((target a b (transpose X)).get i) ((itemToUser a (transpose X)).get j) = _
    unfold dot
    rw [Finset.sum_div, transpose_cols]
    apply Finset.sum_congr rfl
    intro u _
    rw [target_get _ hXt hzt, itemToUser_get _ hXt hzt]
    simp only [transpose_get X hX, transpose_nrows, transpose_cols]
    unfold toUser toItem popularity
    rw [div_mul_eq_div_div]
    ring

/-- C36: without truncation and row normalisation, `W[j, i]` of P3alpha is the probability to get from
item `j` to item `i` through a random user. -/
theorem C36_p3_random_walk (hnth : NthOk nth) (alpha : ℝ) (ha : 0 ≤ alpha) (X : CSR ℝ) (hX : Proper X)
    (hp : Positive X) (nThreads : Nat) (hT : 1 ≤ nThreads) :
    ∃ W, p3Learn nth alpha X none false nThreads = .ok W ∧ W.rows = X.cols ∧ W.cols.length = X.cols ∧
      ∀ j < X.cols, ∀ i < X.cols,
        W.get j i = ∑ u ∈ Finset.range X.nrows, toUser alpha X j u * toItem alpha X u i := by
  obtain ⟨W, hW, h1, h2, h3⟩ := rp3_get hnth alpha 0 ha (le_refl _) X hX hp nThreads 128 X.cols hT
    (by norm_num) (le_refl _)
  refine ⟨W, ?_, h1, h2, fun j hj i hi => by simpa using h3 j hj i hi⟩
  unfold p3Learn
  rw [p3W_eq, Option.getD_none, hW]
  rfl

/-- C36: those weights are non-negative, and the weights out of an item sum to 1 if anybody has
interacted with it. -/
theorem C36_rows_are_distributions (hnth : NthOk nth) (alpha : ℝ) (ha : 0 ≤ alpha) (X : CSR ℝ)
    (hX : Proper X) (hp : Positive X) (nThreads : Nat) (hT : 1 ≤ nThreads) (W : CSC ℝ)
    (hW : p3Learn nth alpha X none false nThreads = .ok W) (j : Nat) (hj : j < X.cols) :
    (∀ i < X.cols, 0 ≤ W.get j i) ∧
    ((∃ u, X.get u j ≠ 0) → ∑ i ∈ Finset.range X.cols, W.get j i = 1) := by
  obtain ⟨W', hW', -, -, h⟩ := C36_p3_random_walk hnth alpha ha X hX hp nThreads hT
  rw [hW] at hW'
  injection hW' with hW'
  subst hW'
  have hnn := fun r c => get_nonneg_of_positive X hp r c
  have hs : ∀ i u, 0 ≤ toUser alpha X i u := fun i u =>
    div_nonneg (pw_nonneg _ _ (hnn u i)) (Finset.sum_nonneg fun v _ => pw_nonneg _ _ (hnn v i))
  have ht : ∀ u i, 0 ≤ toItem alpha X u i := fun u i =>
    div_nonneg (pw_nonneg _ _ (hnn u i)) (Finset.sum_nonneg fun v _ => pw_nonneg _ _ (hnn u v))
  refine ⟨fun i hi => ?_, ?_⟩
  · rw [h j hj i hi]
    exact Finset.sum_nonneg fun u _ => mul_nonneg (hs j u) (ht u i)
  · rintro ⟨u0, hu0⟩
    rw [Finset.sum_congr rfl (fun i hi => h j hj i (Finset.mem_range.mp hi)), Finset.sum_comm]
    have h1 : ∀ u ∈ Finset.range X.nrows,
        ∑ i ∈ Finset.range X.cols, toUser alpha X j u * toItem alpha X u i = toUser alpha X j u := by
      intro u _
      rw [← Finset.mul_sum]
      by_cases hx : X.get u j = 0
      · have : toUser alpha X j u = 0 := by unfold toUser pw; rw [if_pos hx, zero_div]
        rw [this, zero_mul]
      · have hpos : 0 < ∑ i ∈ Finset.range X.cols, pw alpha (X.get u i) :=
          Finset.sum_pos' (fun i _ => pw_nonneg _ _ (hnn u i))
            ⟨j, Finset.mem_range.mpr hj, pw_pos _ _ (lt_of_le_of_ne (hnn u j) (Ne.symm hx))⟩
        have : ∑ i ∈ Finset.range X.cols, toItem alpha X u i = 1 := by
          unfold toItem
          rw [← Finset.sum_div, div_self hpos.ne']
        rw [this, mul_one]
    rw [Finset.sum_congr rfl h1]
    have hpos : 0 < ∑ v ∈ Finset.range X.nrows, pw alpha (X.get v j) :=
      Finset.sum_pos' (fun v _ => pw_nonneg _ _ (hnn v j))
        ⟨u0, Finset.mem_range.mpr (get_row_lt X u0 j hu0),
          pw_pos _ _ (lt_of_le_of_ne (hnn u0 j) (Ne.symm hu0))⟩
    unfold toUser
    rw [← Finset.sum_div, div_self hpos.ne']

/-- C36: without truncation and row normalisation, RP3beta divides the weight of every destination item
by its popularity to the power `beta`. -/
theorem C36_rp3_penalises_popularity (hnth : NthOk nth) (alpha beta : ℝ) (ha : 0 ≤ alpha) (hb : 0 ≤ beta)
    (X : CSR ℝ) (hX : Proper X) (hp : Positive X) (nThreads : Nat) (hT : 1 ≤ nThreads) :
    ∃ W V, p3Learn nth alpha X none false nThreads = .ok W ∧
      rp3Learn nth alpha beta X none false nThreads = .ok V ∧ V.rows = X.cols ∧ V.cols.length = X.cols ∧
      ∀ j < X.cols, ∀ i < X.cols, V.get j i = W.get j i / popularity X i ^ beta := by
  obtain ⟨W, hW, -, -, h⟩ := C36_p3_random_walk hnth alpha ha X hX hp nThreads hT
  obtain ⟨V, hV, h1, h2, h3⟩ := rp3_get hnth alpha beta ha hb X hX hp nThreads 128 X.cols hT
    (by norm_num) (le_refl _)
  refine ⟨W, V, hW, ?_, h1, h2, fun j hj i hi => by rw [h3 j hj i hi, h j hj i hi]⟩
  unfold rp3Learn
  rw [Option.getD_none, hV]
  rfl

/-- C36: with `beta = 0` RP3beta is P3alpha: the same result for every input and option. -/
theorem C36_beta_zero (alpha : ℝ) (X : CSR ℝ) (topK : Option Nat) (normalize : Bool) (nThreads : Nat) :
    rp3Learn nth alpha 0 X topK normalize nThreads = p3Learn nth alpha X topK normalize nThreads := by
  unfold rp3Learn p3Learn
  simp only [p3W_eq]

/-- C36: with `normalize_weight` the rows of `W` that do not sum to zero sum to 1, for any `top_k`. -/
theorem C36_normalized_rows (alpha beta : ℝ) (X : CSR ℝ) (topK : Option Nat) (nThreads : Nat) (W V : CSC ℝ)
    (hW : rp3Learn nth alpha beta X topK false nThreads = .ok W)
    (hV : rp3Learn nth alpha beta X topK true nThreads = .ok V) (j : Nat)
    (h : ∑ i ∈ Finset.range W.cols.length, W.get j i ≠ 0) :
    ∑ i ∈ Finset.range V.cols.length, V.get j i = 1 := by
  unfold rp3Learn at hW hV
  cases hr : rp3W nth alpha beta (transpose X) nThreads 128 (topK.getD X.cols) with
  | error e => rw [hr] at hW; cases hW
  | ok R =>
    rw [hr] at hW hV
    injection hW with hW
    injection hV with hV
    simp only [if_true, Bool.false_eq_true, if_false] at hW hV
    subst hW
    subst hV
    rw [(C32_entries R).2.1]
    exact C32_rows_sum_to_one R j h

/-- C36: negative exponents are refused. -/
theorem C36_rejects_negative (alpha beta : ℝ) (X : CSR ℝ) (topK : Option Nat) (normalize : Bool)
    (nThreads : Nat) (h : alpha < 0 ∨ beta < 0) :
    rp3Learn nth alpha beta X topK normalize nThreads = .error .invalidArgument := by
  unfold rp3Learn
  rw [rp3W_eq, if_pos h]

/-- Two users, two items; item 0 has been seen by both. -/
def exampleWalk : CSR ℝ := ⟨2, [[(0, 1), (1, 1)], [(0, 1)]]⟩

theorem exampleWalk_ok : Proper exampleWalk ∧ Positive exampleWalk := by
  refine ⟨⟨?_, ?_⟩, ?_⟩
  · intro row hr e he; simp [exampleWalk] at hr; rcases hr with rfl | rfl <;> simp at he
    · rcases he with rfl | rfl <;> simp [exampleWalk]
    · subst he; simp [exampleWalk]
  · intro row hr; simp [exampleWalk] at hr; rcases hr with rfl | rfl <;> simp
  · intro row hr e he; simp [exampleWalk] at hr; rcases hr with rfl | rfl <;> simp at he
    · rcases he with rfl | rfl <;> norm_num
    · subst he; norm_num

/-- From item 0: half of the way to user 0, who has seen both items, half to user 1. -/
example : ∃ W, p3Learn sortNth 1 exampleWalk none false 2 = .ok W ∧ W.get 0 1 = 1 / 4 := by
  obtain ⟨W, hW, -, -, h⟩ := C36_p3_random_walk sortNth_ok 1 (by norm_num) exampleWalk exampleWalk_ok.1
    exampleWalk_ok.2 2 (by norm_num)
  refine ⟨W, hW, ?_⟩
  rw [h 0 (by simp [exampleWalk]) 1 (by simp [exampleWalk])]
  norm_num [toUser, toItem, pw, exampleWalk, CSR.get, CSR.row, CSR.nrows, SpVec.get, Finset.sum_range_succ]

/-! ### C61 -/

/-- C61: with `top_k = k`, every column of `W` of RP3beta consists of the `k` best entries of the column
without truncation (so at most `k` are stored). -/
theorem C61_columns_are_top_k (hnth : NthOk nth) (alpha beta : ℝ) (ha : 0 ≤ alpha) (hb : 0 ≤ beta)
    (X : CSR ℝ) (k nThreads : Nat) (hT : 1 ≤ nThreads) :
    ∃ W full, rp3Learn nth alpha beta X (some k) false nThreads = .ok W ∧
      rp3Learn nth alpha beta X none false nThreads = .ok full ∧
      W.rows = full.rows ∧ W.cols.length = full.cols.length ∧
      ∀ i, W.cols.getD i [] = bestOf k (full.cols.getD i []) ∧
        (W.cols.getD i []).length = min k (full.cols.getD i []).length := by
  obtain ⟨R, hR, hW⟩ := rp3_rows hnth alpha beta ha hb (transpose X) nThreads 128 k hT (by norm_num)
  obtain ⟨F, hF, hV⟩ := rp3_rows hnth alpha beta ha hb (transpose X) nThreads 128 X.cols hT (by norm_num)
  obtain ⟨full, hfull, h1, h2, h3, h4, h5⟩ := C33_top_k_best hnth .raw 0 _ _ nThreads 128 k X.cols
    (by rw [itemToUser_nrows, transpose_nrows]) R hR
  rw [hF] at hfull
  injection hfull with hfull
  subst hfull
  refine ⟨_, _, by unfold rp3Learn; rw [Option.getD_some, hW],
    by unfold rp3Learn; rw [Option.getD_none, hV], ?_, ?_, ?_⟩
  · simp only [Bool.false_eq_true, if_false]
    rw [h2, h4]
  · simp only [Bool.false_eq_true, if_false]
    exact h1.trans h3.symm
  · intro i
    exact h5 i

/-! ### C60 -/

theorem apply_proper (w : Weighting) (X : CSR ℝ) (hX : Proper X) : Proper (w.apply X) := by
  cases w with
  | none => exact hX
  | tfIdf => exact mapvals_proper X hX (fun _ e => _)
  | bm25 k1 b => exact mapvals_proper X hX (fun row e => _)

theorem apply_shape (w : Weighting) (X : CSR ℝ) : (w.apply X).cols = X.cols ∧ (w.apply X).nrows = X.nrows := by
  cases w with
  | none => exact ⟨rfl, rfl⟩
  | tfIdf => exact ⟨rfl, by simp [Weighting.apply, tfIdf, CSR.nrows]⟩
  | bm25 k1 b => exact ⟨rfl, by simp [Weighting.apply, bm25, CSR.nrows]⟩

/-- the learnt item similarity in terms of the computed one -/
theorem itemKnn_rows (hnth : NthOk nth) (w : Weighting) (kind : Kind) (s : ℝ) (hs : 0 ≤ s)
    (hk : kind.paramsOk) (X : CSR ℝ) (nThreads topK : Nat) (hT : 1 ≤ nThreads) :
    ∃ S W, computeSimilarity nth kind s (transpose (w.apply X)) (transpose X) nThreads 128 topK = .ok S ∧
      itemKnnW nth w kind s X nThreads topK = .ok W ∧ W.nrows = X.cols ∧ W.cols = X.cols ∧
      (∀ i j, W.get i j = if i = j then 0 else S.get i j) ∧
      (∀ i, (W.row i).map Prod.fst = (S.row i).map Prod.fst) := by
  obtain ⟨S, hS⟩ := (C34_succeeds_iff hnth kind s (transpose (w.apply X)) (transpose X) nThreads 128 topK).mpr
    ⟨hs, hT, by norm_num, hk, by rw [transpose_cols, transpose_cols, (apply_shape w X).2]⟩
  obtain ⟨full, -, h1, h2, -, -, -⟩ := C33_top_k_best hnth kind s _ _ nThreads 128 topK _ (le_refl _) S hS
  rw [transpose_nrows] at h1 h2
  rw [(apply_shape w X).1] at h2
  obtain ⟨W, hW, h3, h4, h5, h6⟩ := C30_remove_diagonal S (by rw [h1, h2])
  refine ⟨S, W, hS, ?_, by rw [h3, h1], by rw [h4, h2], h5, h6⟩
  unfold itemKnnW
  rw [hS]
  exact hW

/-- C60 (part): without truncation (`top_k ≥` number of items), the matrix learnt by the KNN recommenders
is the documented similarity between the columns of the interaction matrix (for cosine types: of the
second argument's feature-weighted column), with a zero diagonal.  Not covered: the documented
column-wise restriction to `top_k`, which is false, see below. -/
theorem C60_item_similarity_partial (hnth : NthOk nth) (s : ℝ) (hs : 0 ≤ s) (X : CSR ℝ)
    (hX : Proper X) (hz : NoStoredZero X) (nThreads topK : Nat) (hT : 1 ≤ nThreads) (hk : X.cols ≤ topK) :
    (∀ w, ∃ W, itemKnnW nth w (.cosine true) s X nThreads topK = .ok W ∧ ∀ i < X.cols, ∀ j < X.cols,
      W.get i j = if i = j then 0 else
        cosine X.nrows s (fun u => X.get u i) (fun u => (w.apply X).get u j)) ∧
    (∀ w, ∃ W, itemKnnW nth w (.cosine false) s X nThreads topK = .ok W ∧ ∀ i < X.cols, ∀ j < X.cols,
      W.get i j = if i = j then 0 else
        dot X.nrows (fun u => X.get u i) (fun u => (w.apply X).get u j)) ∧
    (∀ w alpha, 0 ≤ alpha → alpha ≤ 1 →
      ∃ W, itemKnnW nth w (.asymmetric alpha) s X nThreads topK = .ok W ∧ ∀ i < X.cols, ∀ j < X.cols,
      W.get i j = if i = j then 0 else
        asymmetric X.nrows alpha s (fun u => X.get u i) (fun u => (w.apply X).get u j)) ∧
    (∃ W, itemKnnW nth .none .jaccard s X nThreads topK = .ok W ∧ ∀ i < X.cols, ∀ j < X.cols,
      W.get i j = if i = j then 0 else jaccard X.nrows s (fun u => X.get u i) (fun u => X.get u j)) ∧
    (∀ alpha beta, 0 ≤ alpha → 0 ≤ beta →
      ∃ W, itemKnnW nth .none (.tversky alpha beta) s X nThreads topK = .ok W ∧
      ∀ i < X.cols, ∀ j < X.cols, W.get i j = if i = j then 0 else
        tversky X.nrows alpha beta s (fun u => X.get u i) (fun u => X.get u j)) := by
  have key : ∀ (w : Weighting) (kind : Kind), kind.paramsOk → (kind.onSets → w = .none) →
      ∃ W, itemKnnW nth w kind s X nThreads topK = .ok W ∧ ∀ i < X.cols, ∀ j < X.cols,
        W.get i j = if i = j then 0 else
          formula kind X.nrows s (fun u => X.get u i) (fun u => (w.apply X).get u j) := by
    intro w kind hp hset
    obtain ⟨S, W, hS, hW, -, -, hget, -⟩ := itemKnn_rows hnth w kind s hs hp X nThreads topK hT
    refine ⟨W, hW, fun i hi j hj => ?_⟩
    rw [hget]
    congr 1
    rw [full_get hnth kind s _ _ nThreads 128 topK (transpose_proper _ (apply_proper w X hX))
      (transpose_proper X hX)
      (fun h => ⟨by rw [hset h]; exact transpose_noZero X hz, transpose_noZero X hz⟩) S hS
      (by rw [transpose_nrows, (apply_shape w X).1]; exact hk) i j (by rw [transpose_nrows]; exact hi)
      (by rw [transpose_nrows, (apply_shape w X).1]; exact hj), transpose_cols, (apply_shape w X).2]
    congr 1
    · funext u; exact transpose_get X hX i u
    · funext u; exact transpose_get _ (apply_proper w X hX) j u
  refine ⟨fun w => key w (.cosine true) trivial (by intro h; exact False.elim h),
    fun w => key w (.cosine false) trivial (by intro h; exact False.elim h),
    fun w a h0 h1 => key w (.asymmetric a) ⟨h0, h1⟩ (by intro h; exact False.elim h),
    key .none .jaccard trivial (fun _ => rfl), fun a b ha hb => key .none (.tversky a b) ⟨ha, hb⟩ (fun _ => rfl)⟩

/-- C60 (part): with `top_k`, the restriction is row-wise: row `i` keeps the positions of the `top_k`
best entries of the full similarity row, the item itself included, whose value is then zeroed. -/
theorem C60_rows_are_top_k_partial (hnth : NthOk nth) (w : Weighting) (kind : Kind) (s : ℝ) (hs : 0 ≤ s)
    (hp : kind.paramsOk) (X : CSR ℝ) (nThreads topK : Nat) (hT : 1 ≤ nThreads) :
    ∃ S W, computeSimilarity nth kind s (transpose (w.apply X)) (transpose X) nThreads 128 X.cols = .ok S ∧
      itemKnnW nth w kind s X nThreads topK = .ok W ∧ W.nrows = X.cols ∧ W.cols = X.cols ∧
      ∀ i, (W.row i).map Prod.fst = (bestOf topK (S.row i)).map Prod.fst ∧
        (∀ j, W.get i j = if i = j then 0 else (bestOf topK (S.row i)).get j) ∧
        (W.row i).length ≤ topK := by
  obtain ⟨R, W, hR, hW, h1, h2, hget, hcols⟩ := itemKnn_rows hnth w kind s hs hp X nThreads topK hT
  obtain ⟨S, hS, -, -, -, -, hrow⟩ := C33_top_k_best hnth kind s _ _ nThreads 128 topK X.cols
    (by rw [transpose_nrows, (apply_shape w X).1]) R hR
  refine ⟨S, W, hS, hW, h1, h2, fun i => ⟨?_, fun j => ?_, ?_⟩⟩
  · rw [hcols, (hrow i).1]
  · rw [hget]
    unfold CSR.get
    rw [(hrow i).1]
  · have := congrArg List.length (hcols i)
    rw [List.length_map, List.length_map] at this
    rw [this, (hrow i).2]
    exact min_le_left _ _

/-- One user who has seen three items. -/
def exampleOne : CSR ℝ := ⟨3, [[(0, 1), (1, 1), (2, 1)]]⟩

/-- C60: the documented "column-wise top-k restriction" is false.  With `top_k = 1` (plain cosine) and
one user with three items, column 0 of `W` has two nonzero entries, and item 0 itself has no
neighbour at all although its similarity to the others is not zero. -/
theorem C60_column_wise_counterexample (hnth : NthOk nth) :
    ∃ W, itemKnnW nth .none (.cosine false) 0 exampleOne 1 1 = .ok W ∧
      W.get 1 0 = 1 ∧ W.get 2 0 = 1 ∧ W.get 0 1 = 0 ∧ W.get 0 2 = 0 := by
  obtain ⟨S, W, hS, hW, -, -, h⟩ := C60_rows_are_top_k_partial hnth .none (.cosine false) 0 (le_refl _)
    trivial exampleOne 1 1 (le_refl _)
  refine ⟨W, hW, ?_⟩
  have hrows : ∀ i < 3, S.row i = [(0, 1), (1, 1), (2, 1)] := by
    intro i hi
    change computeSimilarity nth (.cosine false) 0 (transpose exampleOne) (transpose exampleOne) 1 128
      exampleOne.cols = .ok S at hS
    rw [computeSimilarity_eq hnth (.cosine false) 0 _ _ 1 128 _
      ⟨le_refl _, le_refl _, by norm_num, trivial, rfl⟩] at hS
    injection hS with hS
    rw [← hS, row_range _ _ _ (by simpa [transpose, CSR.nrows, exampleOne] using hi),
      bestOf_all _ _ (by
        refine le_trans (simRow_sorted (.cosine false) 0 _ _).length_le ?_
        simp [transpose, CSR.nrows, Weighting.apply])]
    have : ∀ j < 3, (transpose exampleOne).row j = [(0, 1)] := by
      intro j hj
      rw [transpose_row _ (by simpa [exampleOne] using hj)]
      have : j = 0 ∨ j = 1 ∨ j = 2 := by omega
      rcases this with rfl | rfl | rfl <;> simp [exampleOne, CSR.nrows, CSR.row]
    change productRow ((transpose exampleOne).row i) (transpose exampleOne) = _
    rw [this i hi]
    unfold productRow
    rw [transpose_nrows]
    change (List.range 3).filterMap _ = _
    simp [List.range_succ, this, SpVec.get]
  have hbest : bestOf 1 [((0 : Nat), (1 : ℝ)), (1, 1), (2, 1)] = [(0, 1)] := by
    unfold bestOf better
    simp
  have hg : ∀ i < 3, ∀ j, W.get i j = if i = j then 0 else SpVec.get [((0 : Nat), (1 : ℝ))] j := by
    intro i hi j
    rw [(h i).2.1 j, hrows i hi, hbest]
  refine ⟨?_, ?_, ?_, ?_⟩
  · rw [hg 1 (by norm_num)]; norm_num [SpVec.get]
  · rw [hg 2 (by norm_num)]; norm_num [SpVec.get]
  · rw [hg 0 (by norm_num)]; norm_num [SpVec.get]
  · rw [hg 0 (by norm_num)]; norm_num [SpVec.get]

/-- The user-based recommenders: without truncation, the documented similarity between users with a
zero diagonal. -/
theorem C60_user_similarity_partial (hnth : NthOk nth) (w : Weighting) (s : ℝ) (hs : 0 ≤ s) (X : CSR ℝ)
    (hX : Proper X) (nThreads topK : Nat) (hT : 1 ≤ nThreads) (hk : X.nrows ≤ topK) :
    (∃ U, userKnnU nth w (.cosine true) s X nThreads topK = .ok U ∧ U.nrows = X.nrows ∧ U.cols = X.nrows ∧
      ∀ u < X.nrows, ∀ v < X.nrows,
        U.get u v = if u = v then 0 else cosine X.cols s (X.get u) ((w.apply X).get v)) ∧
    (∀ alpha, 0 ≤ alpha → alpha ≤ 1 → ∃ U, userKnnU nth w (.asymmetric alpha) s X nThreads topK = .ok U ∧
      U.nrows = X.nrows ∧ U.cols = X.nrows ∧ ∀ u < X.nrows, ∀ v < X.nrows,
        U.get u v = if u = v then 0 else asymmetric X.cols alpha s (X.get u) ((w.apply X).get v)) ∧
    (∃ U, userKnnU nth w (.cosine false) s X nThreads topK = .ok U ∧ U.nrows = X.nrows ∧ U.cols = X.nrows ∧
      ∀ u < X.nrows, ∀ v < X.nrows,
        U.get u v = if u = v then 0 else dot X.cols (X.get u) ((w.apply X).get v)) := by
  have key : ∀ kind : Kind, kind.paramsOk → ¬ kind.onSets →
      ∃ U, userKnnU nth w kind s X nThreads topK = .ok U ∧ U.nrows = X.nrows ∧ U.cols = X.nrows ∧
        ∀ u < X.nrows, ∀ v < X.nrows,
        U.get u v = if u = v then 0 else formula kind X.cols s (X.get u) ((w.apply X).get v) := by
    intro kind hp hset
    obtain ⟨S, hS⟩ := (C34_succeeds_iff hnth kind s (w.apply X) X nThreads 128 topK).mpr
      ⟨hs, hT, by norm_num, hp, (apply_shape w X).1.symm⟩
    obtain ⟨full, -, h1, h2, -, -, -⟩ := C33_top_k_best hnth kind s _ _ nThreads 128 topK _ (le_refl _) S hS
    rw [(apply_shape w X).2] at h2
    obtain ⟨U, hU, h3, h4, h5, -⟩ := C30_remove_diagonal S (by rw [h1, h2])
    refine ⟨U, ?_, by rw [h3, h1], by rw [h4, h2], ?_⟩
    · unfold userKnnU; rw [hS]; exact hU
    · intro u hu v hv
      rw [h5]
      congr 1
      rw [full_get hnth kind s _ _ nThreads 128 topK (apply_proper w X hX) hX
        (fun h => absurd h hset) S hS (by rw [(apply_shape w X).2]; exact hk) u v hu
        (by rw [(apply_shape w X).2]; exact hv), (apply_shape w X).1]
  exact ⟨key (.cosine true) trivial (by intro h; exact h),
    fun a h0 h1 => key (.asymmetric a) ⟨h0, h1⟩ (by intro h; exact h),
    key (.cosine false) trivial (by intro h; exact h)⟩

/-- C60 (part): the same for the user-based recommenders with `top_k`: row `u` keeps the positions of the
`top_k` best entries of the full similarity row, the user included, whose value is then zeroed. -/
theorem C60_user_rows_are_top_k_partial (hnth : NthOk nth) (w : Weighting) (kind : Kind) (s : ℝ) (hs : 0 ≤ s)
    (hp : kind.paramsOk) (X : CSR ℝ) (nThreads topK : Nat) (hT : 1 ≤ nThreads) :
    ∃ S U, computeSimilarity nth kind s (w.apply X) X nThreads 128 X.nrows = .ok S ∧
      userKnnU nth w kind s X nThreads topK = .ok U ∧ U.nrows = X.nrows ∧ U.cols = X.nrows ∧
      ∀ u, (U.row u).map Prod.fst = (bestOf topK (S.row u)).map Prod.fst ∧
        (∀ v, U.get u v = if u = v then 0 else (bestOf topK (S.row u)).get v) ∧
        (U.row u).length ≤ topK := by
  obtain ⟨R, hR⟩ := (C34_succeeds_iff hnth kind s (w.apply X) X nThreads 128 topK).mpr
    ⟨hs, hT, by norm_num, hp, (apply_shape w X).1.symm⟩
  obtain ⟨S, hS, h1, h2, -, -, hrow⟩ := C33_top_k_best hnth kind s _ _ nThreads 128 topK X.nrows
    (by rw [(apply_shape w X).2]) R hR
  rw [(apply_shape w X).2] at h2
  obtain ⟨U, hU, h3, h4, h5, h6⟩ := C30_remove_diagonal R (by rw [h1, h2])
  refine ⟨S, U, hS, by unfold userKnnU; rw [hR]; exact hU, by rw [h3, h1], by rw [h4, h2],
    fun u => ⟨?_, fun v => ?_, ?_⟩⟩
  · rw [h6, (hrow u).1]
  · rw [h5]
    unfold CSR.get
    rw [(hrow u).1]
  · have := congrArg List.length (h6 u)
    rw [List.length_map, List.length_map] at this
    rw [this, (hrow u).2]
    exact min_le_left _ _

example : Proper exampleWalk ∧ NoStoredZero exampleWalk :=
  ⟨exampleWalk_ok.1, positive_noZero exampleWalk_ok.2⟩

end Irspack.Props
