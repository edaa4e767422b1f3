import Verif.Proofs.Aliasing

/-!
# C99: the matrices of the caller

A user keeps using the matrices passed to the package.  Building a recommender, an evaluator or a
train/test pair and training must leave them as they are, and what was built must not follow later
changes to them.
-/

namespace Irspack.Aliasing

open Irspack.Spec.Aliasing

/-- `Recommender(X)`: no buffer of the caller changes; the recommender holds the same matrix, in order,
in buffers of its own, so whatever the caller writes later it keeps holding that matrix. -/
theorem C99_recommender (h : Heap) (X : Obj) :
    Untouched h (recommenderInit h X).1 ∧
    (recommenderInit h X).2.rows = X.rows ∧ (recommenderInit h X).2.cols = X.cols ∧
    (recommenderInit h X).2.Sorted (recommenderInit h X).1 ∧
    ∀ later, CallerWrites h.next (recommenderInit h X).1 later →
      ∀ u i, u < X.rows → value later (recommenderInit h X).2 u i = value h X u i := by
  obtain ⟨r1, r2, _, r4, r5, r6, r7, r8, r9⟩ := recommenderInit_facts h X
  refine ⟨r7, r5, r6, r8, fun later hl u i hu => ?_⟩
  rw [value_congr _ (hl _ r1).1 (hl _ r2).2, ← r9 u i hu]
  unfold value
  rw [r4]

/-- `Evaluator(ground_truth)`: no buffer of the caller changes, and the evaluator holds the ground truth
by value.  Everything it keeps is in `core`: no object of the caller is among it. -/
theorem C99_evaluator (sorts : Bool) (h : Heap) (G : Obj) :
    Untouched h (evaluatorInit sorts h G none).1 ∧
    (evaluatorInit sorts h G none).2.mask = none ∧
    ∀ u i, u < G.rows → total ((evaluatorInit sorts h G none).2.core.getD u []) i = value h G u i := by
  obtain ⟨_, _, _, _, _, _, r7, _, r9⟩ := recommenderInit_facts h G
  obtain ⟨-, e⟩ := evaluatorInit_core sorts h G none
  rw [e]
  exact ⟨r7, rfl, r9⟩

/-- With `masked_interactions` no buffer of the caller changes either, and the evaluator holds that matrix;
if it was given in CSC format it keeps holding it. -/
theorem C99_mask_partial (sorts : Bool) (h : Heap) (G M : Obj) (v : Valid h M) :
    Untouched h (evaluatorInit sorts h G (some M)).1 ∧
    (∀ u i, u < G.rows → total ((evaluatorInit sorts h G (some M)).2.core.getD u []) i = value h G u i) ∧
    ∃ m, (evaluatorInit sorts h G (some M)).2.mask = some m ∧
      (∀ u i, u < M.rows → value (evaluatorInit sorts h G (some M)).1 m u i = value h M u i) ∧
      (M.fmt = .csc → ∀ later, CallerWrites h.next (evaluatorInit sorts h G (some M)).1 later →
        ∀ u i, u < M.rows → value later m u i = value h M u i) := by
  obtain ⟨_, _, r3, _, _, _, r7, _, r9⟩ := recommenderInit_facts h G
  obtain ⟨-, e⟩ := evaluatorInit_core sorts h G (some M)
  rw [e]
  have hv : ∀ u i, u < M.rows → value (csrMatrix (recommenderInit h G).1 M).1 (csrMatrix (recommenderInit h G).1 M).2 u i
      = value h M u i := fun u i hu => by
    rw [csrMatrix_value u i hu, untouched_value r7 v]
  refine ⟨untouched_trans r7 (csrMatrix_untouched _ M) r3, r9, _, rfl, hv, fun c later hl u i hu => ?_⟩
  obtain ⟨p1, p2⟩ := csrMatrix_private (h := (recommenderInit h G).1) c
  rw [value_congr _ (hl _ (by rw [p1]; exact r3)).1 (hl _ (by rw [p2]; exact r3)).2]
  exact hv u i hu

/-- One user, two items; the user has the value 1 at item 0. -/
noncomputable def oneRow : Heap where
  data := fun a => if a = 0 then [[1]] else []
  idx := fun a => if a = 0 then [[0]] else []
  next := 1

/-- that matrix, in CSR format -/
def oneRowObj : Obj := ⟨.csr, .float64, 1, 2, 0, 0⟩

theorem oneRow_valid : Valid oneRow oneRowObj where
  data := by simp [oneRow, oneRowObj]
  idx := by simp [oneRow, oneRowObj]
  fits := by simp [oneRow, oneRowObj]
  shape := by simp [oneRow, oneRowObj]

/-- The hypotheses are met, and the entry is not zero. -/
example : Valid oneRow oneRowObj ∧ value oneRow oneRowObj 0 0 = 1 :=
  ⟨oneRow_valid, by simp [value, total, Obj.lines, oneRow, oneRowObj]⟩

/-- The caller overwrites the value of that matrix. -/
noncomputable def overwrite (h : Heap) (a : Nat) (d : List (List ℝ)) : Heap :=
  { h with data := Function.update h.data a d }

/-- A CSR matrix given as `masked_interactions` is shared: when the caller later writes `X.data[:] = 0`,
the evaluator no longer masks the item. -/
theorem C99_mask_counterexample (sorts : Bool) :
    ∃ (h : Heap) (G M : Obj) (m : Obj) (later : Heap),
      Valid h G ∧ Valid h M ∧ (evaluatorInit sorts h G (some M)).2.mask = some m ∧
      CallerWrites h.next (evaluatorInit sorts h G (some M)).1 later ∧
      value h M 0 0 = 1 ∧ value later m 0 0 = 0 := by
  have hd : ∀ b : Heap, (overwrite b 0 [[0]]).data 0 = [[0]] := fun b => by simp [overwrite]
  refine ⟨oneRow, oneRowObj, oneRowObj, oneRowObj,
    overwrite (evaluatorInit sorts oneRow oneRowObj (some oneRowObj)).1 0 [[0]], oneRow_valid, oneRow_valid, ?_, ?_, ?_, ?_⟩
  · rw [(evaluatorInit_core sorts oneRow oneRowObj (some oneRowObj)).2]
    rfl
  · intro a ha
    have : a ≠ 0 := by
      have : (1 : Nat) ≤ a := ha
      omega
    exact ⟨Function.update_of_ne this _ _, rfl⟩
  · simp [value, total, Obj.lines, oneRow, oneRowObj]
  · have hi : (evaluatorInit sorts oneRow oneRowObj (some oneRowObj)).1.idx 0 = [[0]] := by
      rw [((C99_mask_partial sorts oneRow oneRowObj oneRowObj oneRow_valid).1 0 (by simp [oneRow])).2]
      simp [oneRow]
    have hl : oneRowObj.lines (overwrite (evaluatorInit sorts oneRow oneRowObj (some oneRowObj)).1 0 [[0]]) = [[(0, 0)]] := by
      unfold Obj.lines
      have e1 : oneRowObj.data = 0 := rfl
      have e2 : oneRowObj.idx = 0 := rfl
      rw [e1, e2, hd]
      simp [overwrite, hi]
    have hf : oneRowObj.fmt = .csr := rfl
    unfold value
    rw [hl, hf]
    simp [total]

/-- `EvaluatorWithColdUser(input_interaction, ground_truth)`: no buffer of the caller changes; the evaluator
holds the ground truth by value, and both the matrix it takes the new users' histories from and the one it masks
with are `input_interaction`. -/
theorem C99_cold_partial (sorts : Bool) (h : Heap) (I G : Obj) (v : Valid h I) :
    Untouched h (coldEvaluatorInit sorts h I G).1 ∧
    (∀ u i, u < G.rows → total ((coldEvaluatorInit sorts h I G).2.core.getD u []) i = value h G u i) ∧
    ∀ u i, u < I.rows →
      value (coldEvaluatorInit sorts h I G).1 (coldEvaluatorInit sorts h I G).2.input u i = value h I u i ∧
      value (coldEvaluatorInit sorts h I G).1 (coldEvaluatorInit sorts h I G).2.mask u i = value h I u i := by
  obtain ⟨e1, -, e3⟩ := C99_evaluator sorts h G
  have n : h.next ≤ (evaluatorInit sorts h G none).1.next := by
    rw [(evaluatorInit_core sorts h G none).2]
    exact (recommenderInit_facts h G).2.2.1
  have t : Untouched h (coldEvaluatorInit sorts h I G).1 :=
    untouched_trans e1 (csrMatrix_untouched (evaluatorInit sorts h G none).1 I) n
  refine ⟨t, e3, fun u i hu => ⟨untouched_value t v u i, ?_⟩⟩
  have := csrMatrix_value (h := (evaluatorInit sorts h G none).1) (X := I) u i hu
  exact this.trans (untouched_value e1 v u i)

/-- The object of the caller is kept: a later write of the caller to a CSR `input_interaction` changes both the
history that the model is asked about and the mask. -/
theorem C99_cold_counterexample (sorts : Bool) :
    ∃ (h : Heap) (I G : Obj) (later : Heap),
      Valid h I ∧ Valid h G ∧ CallerWrites h.next (coldEvaluatorInit sorts h I G).1 later ∧
      value h I 0 0 = 1 ∧ value later (coldEvaluatorInit sorts h I G).2.input 0 0 = 0 ∧
      value later (coldEvaluatorInit sorts h I G).2.mask 0 0 = 0 := by
  have hi : (coldEvaluatorInit sorts oneRow oneRowObj oneRowObj).1.idx 0 = [[0]] := by
    rw [((C99_cold_partial sorts oneRow oneRowObj oneRowObj oneRow_valid).1 0 (by simp [oneRow])).2]
    simp [oneRow]
  have hl : oneRowObj.lines (overwrite (coldEvaluatorInit sorts oneRow oneRowObj oneRowObj).1 0 [[0]]) = [[(0, 0)]] := by
    unfold Obj.lines
    have e1 : oneRowObj.data = 0 := rfl
    have e2 : oneRowObj.idx = 0 := rfl
    rw [e1, e2]
    simp [overwrite, hi]
  have hv : value (overwrite (coldEvaluatorInit sorts oneRow oneRowObj oneRowObj).1 0 [[0]]) oneRowObj 0 0 = 0 := by
    have hf : oneRowObj.fmt = .csr := rfl
    unfold value
    rw [hl, hf]
    simp [total]
  refine ⟨oneRow, oneRowObj, oneRowObj, overwrite (coldEvaluatorInit sorts oneRow oneRowObj oneRowObj).1 0 [[0]],
    oneRow_valid, oneRow_valid, ?_, ?_, hv, hv⟩
  · intro a ha
    have : a ≠ 0 := by
      have : (1 : Nat) ≤ a := ha
      omega
    exact ⟨Function.update_of_ne this _ _, rfl⟩
  · simp [value, total, Obj.lines, oneRow, oneRowObj]

/-- `UserTrainTestInteractionPair(…, X_train, X_test)`: no buffer of the caller changes; `X_train` and
`X_test` are the given matrices and `X_all` is their sum.  For matrices given in CSC format this remains so
whatever the caller writes later. -/
theorem C99_pair_partial (h : Heap) (train test : Obj) (vtr : Valid h train) (vte : Valid h test)
    (hr : test.rows = train.rows) :
    Untouched h (pairInit h train test).1 ∧
    ∀ later, (later = (pairInit h train test).1 ∨
        (train.fmt = .csc ∧ test.fmt = .csc ∧ CallerWrites h.next (pairInit h train test).1 later)) →
      ∀ u i, u < train.rows →
        value later (pairInit h train test).2.train u i = value h train u i ∧
        value later (pairInit h train test).2.test u i = value h test u i ∧
        value later (pairInit h train test).2.all u i = value h train u i + value h test u i := by
  set h1 := (csrMatrix h test).1 with h1d
  set te := (csrMatrix h test).2 with ted
  set h2 := (csrMatrix h1 train).1 with h2d
  set tr := (csrMatrix h1 train).2 with trd
  set L := addLines (tr.lines h2) (te.lines h2) with Ld
  have e : pairInit h train test = ((h2.alloc train.dtype train.rows train.cols L).1,
    ⟨tr, te, (h2.alloc train.dtype train.rows train.cols L).2⟩) := rfl
  have n1 : h.next ≤ h1.next := csrMatrix_next h test
  have n2 : h1.next ≤ h2.next := csrMatrix_next h1 train
  have t1 : Untouched h h1 := csrMatrix_untouched h test
  have t2 : Untouched h1 h2 := csrMatrix_untouched h1 train
  have t3 : Untouched h2 (h2.alloc train.dtype train.rows train.cols L).1 := alloc_untouched _ _ _ _ _
  have vtr1 : Valid h1 train := valid_mono vtr t1 n1
  obtain ⟨bt1, bt2⟩ : te.data < h1.next ∧ te.idx < h1.next := csrMatrix_bounds vte
  obtain ⟨br1, br2⟩ : tr.data < h2.next ∧ tr.idx < h2.next := csrMatrix_bounds vtr1
  have te2 : te.lines h2 = te.lines h1 := lines_congr te (t2 _ bt1).1 (t2 _ bt2).2
  have lte : te.lines h2 = test.rowLines h := te2.trans (csrMatrix_lines h test)
  have ltr : tr.lines h2 = train.rowLines h := by
    rw [csrMatrix_lines h1 train]
    exact rowLines_congr train (t1 _ vtr.data).1 (t1 _ vtr.idx).2
  have fte : te.fmt = .csr := csrMatrix_fmt h test
  have ftr : tr.fmt = .csr := csrMatrix_fmt h1 train
  have base : ∀ u i, u < train.rows →
      value (pairInit h train test).1 tr u i = value h train u i ∧
      value (pairInit h train test).1 te u i = value h test u i ∧
      value (pairInit h train test).1 (h2.alloc train.dtype train.rows train.cols L).2 u i
        = value h train u i + value h test u i := by
    intro u i hu
    rw [e]
    refine ⟨?_, ?_, ?_⟩
    · rw [value_congr tr (t3 _ br1).1 (t3 _ br2).2]
      unfold value
      rw [ftr]
      show total ((tr.lines h2).getD u []) i = _
      rw [ltr, rowLines_total h train u i hu]
      rfl
    · rw [value_congr te (t3 _ (by omega)).1 (t3 _ (by omega)).2]
      unfold value
      rw [fte]
      show total ((te.lines h2).getD u []) i = _
      rw [lte, rowLines_total h test u i (by omega)]
      rfl
    · have : value (h2.alloc train.dtype train.rows train.cols L).1 (h2.alloc train.dtype train.rows train.cols L).2 u i
          = total (((h2.alloc train.dtype train.rows train.cols L).2.lines
              (h2.alloc train.dtype train.rows train.cols L).1).getD u []) i := rfl
      rw [this, alloc_lines, Ld, getD_addLines _ _ ?_, ltr, lte, rowLines_total h train u i hu,
        rowLines_total h test u i (by omega)]
      rw [ltr, lte, rowLines_length vtr, rowLines_length vte, hr]
  refine ⟨?_, ?_⟩
  · rw [e]
    exact untouched_trans (untouched_trans t1 t2 n1) t3 (by omega)
  · intro later hl u i hu
    have hp : (pairInit h train test).2 = ⟨tr, te, (h2.alloc train.dtype train.rows train.cols L).2⟩ := rfl
    rw [hp]
    rcases hl with rfl | ⟨ctr, cte, hl⟩
    · exact base u i hu
    · obtain ⟨b1, b2, b3⟩ := base u i hu
      obtain ⟨p1, p2⟩ : te.data = h.next ∧ te.idx = h.next := csrMatrix_private cte
      obtain ⟨q1, q2⟩ : tr.data = h1.next ∧ tr.idx = h1.next := csrMatrix_private ctr
      refine ⟨?_, ?_, ?_⟩
      · rw [← b1]; exact value_congr tr (hl tr.data (by omega)).1 (hl tr.idx (by omega)).2 u i
      · rw [← b2]; exact value_congr te (hl te.data (by omega)).1 (hl te.idx (by omega)).2 u i
      · rw [← b3]
        have a1 : (h2.alloc train.dtype train.rows train.cols L).2.data = h2.next := rfl
        have a2 : (h2.alloc train.dtype train.rows train.cols L).2.idx = h2.next := rfl
        exact value_congr (h2.alloc train.dtype train.rows train.cols L).2 (hl _ (by rw [a1]; omega)).1
          (hl _ (by rw [a2]; omega)).2 u i

/-- Two users' worth of buffers: the training matrix (buffer 0) and an empty test matrix (buffer 1). -/
noncomputable def twoBuffers : Heap where
  data := fun a => if a = 0 then [[1]] else [[]]
  idx := fun a => if a = 0 then [[0]] else [[]]
  next := 2

theorem twoBuffers_valid : Valid twoBuffers oneRowObj ∧ Valid twoBuffers ⟨.csr, .float64, 1, 2, 1, 1⟩ :=
  ⟨⟨by simp [twoBuffers, oneRowObj], by simp [twoBuffers, oneRowObj], by simp [twoBuffers, oneRowObj],
    by simp [twoBuffers, oneRowObj]⟩,
   ⟨by simp [twoBuffers], by simp [twoBuffers], by simp [twoBuffers], by simp [twoBuffers]⟩⟩

/-- Matrices given in CSR format are shared by `X_train` and `X_test` but not by `X_all`: after a later write
of the caller, `X_all` is no longer `X_train + X_test`. -/
theorem C99_pair_counterexample :
    ∃ (h : Heap) (train test : Obj) (later : Heap),
      Valid h train ∧ Valid h test ∧ test.rows = train.rows ∧
      CallerWrites h.next (pairInit h train test).1 later ∧
      value later (pairInit h train test).2.all 0 0 = 1 ∧
      value later (pairInit h train test).2.train 0 0 = 5 ∧
      value later (pairInit h train test).2.test 0 0 = 0 := by
  obtain ⟨v1, v2⟩ := twoBuffers_valid
  obtain ⟨t, p⟩ := C99_pair_partial twoBuffers oneRowObj ⟨.csr, .float64, 1, 2, 1, 1⟩ v1 v2 rfl
  obtain ⟨p1, p2, p3⟩ := p _ (.inl rfl) 0 0 (by simp [oneRowObj])
  have w1 : value twoBuffers oneRowObj 0 0 = 1 := by simp [value, total, Obj.lines, twoBuffers, oneRowObj]
  have w2 : value twoBuffers ⟨.csr, .float64, 1, 2, 1, 1⟩ 0 0 = 0 := by simp [value, total, Obj.lines, twoBuffers]
  refine ⟨twoBuffers, oneRowObj, ⟨.csr, .float64, 1, 2, 1, 1⟩,
    overwrite (pairInit twoBuffers oneRowObj ⟨.csr, .float64, 1, 2, 1, 1⟩).1 0 [[5]], v1, v2, rfl, ?_, ?_, ?_, ?_⟩
  · intro a ha
    have : a ≠ 0 := by
      have : (2 : Nat) ≤ a := ha
      omega
    exact ⟨Function.update_of_ne this _ _, rfl⟩
  · rw [w1, w2, add_zero] at p3
    rw [← p3]
    exact value_congr _ (Function.update_of_ne (by decide : (2 : Nat) ≠ 0) [[5]] _) rfl 0 0
  · have hi : (pairInit twoBuffers oneRowObj ⟨.csr, .float64, 1, 2, 1, 1⟩).1.idx 0 = [[0]] := by
      rw [(t 0 (by simp [twoBuffers])).2]
      simp [twoBuffers]
    have hp : (pairInit twoBuffers oneRowObj ⟨.csr, .float64, 1, 2, 1, 1⟩).2.train = oneRowObj := rfl
    rw [hp]
    have hl : oneRowObj.lines (overwrite (pairInit twoBuffers oneRowObj ⟨.csr, .float64, 1, 2, 1, 1⟩).1 0 [[5]])
        = [[(0, 5)]] := by
      unfold Obj.lines
      have e1 : oneRowObj.data = 0 := rfl
      have e2 : oneRowObj.idx = 0 := rfl
      rw [e1, e2]
      simp [overwrite, hi]
    have hf : oneRowObj.fmt = .csr := rfl
    unfold value
    rw [hl, hf]
    simp [total]
  · rw [w2] at p2
    rw [← p2]
    exact value_congr _ (Function.update_of_ne (by decide : (1 : Nat) ≠ 0) [[5]] _) rfl 0 0

/-- What sorts in place keeps every matrix: `df_train()`/`df_test()`, `compute_reg_scale` and every call of a
native function with a matrix of the caller.  `Y` is any matrix that has either both buffers in common with
the one passed, or neither. -/
theorem C99_in_place (sorts : Bool) (h : Heap) (X Y : Obj) (v : Valid h Y)
    (hY : (Y.data = X.data ∧ Y.idx = X.idx) ∨ (Y.data ≠ X.data ∧ Y.idx ≠ X.idx)) :
    SameMatrix h (toDf h X) Y ∧ SameMatrix h (toNative sorts h X).1 Y ∧ SameMatrix h (computeRegScale h X) Y := by
  refine ⟨fun u i _ _ => sortIndices_value_other h X Y hY u i, fun u i _ _ => ?_, fun u i _ _ => ?_⟩
  · unfold toNative
    cases sorts
    · rfl
    · exact sortIndices_value_other h X Y hY u i
  · have e : computeRegScale h X = sortIndices (csrMatrix h X).1 (csrMatrix h X).2 := rfl
    rw [e]
    cases c : X.fmt with
    | csr =>
      have e2 : csrMatrix h X = (h, X) := by unfold csrMatrix; rw [c]
      rw [e2]
      exact sortIndices_value_other h X Y hY u i
    | csc =>
      obtain ⟨p1, p2⟩ := csrMatrix_private (h := h) c
      have d := v.data
      have i' := v.idx
      rw [sortIndices_value_other _ _ Y (.inr ⟨by omega, by omega⟩), untouched_value (csrMatrix_untouched h X) v]

/-- The trainer gets the rows of the matrix that was passed. -/
theorem C99_native_value (sorts : Bool) (h : Heap) (X : Obj) (c : X.fmt = .csr) (u i : Nat) :
    total ((toNative sorts h X).2.getD u []) i = value h X u i := by
  unfold toNative value
  rw [c]
  cases sorts
  · rfl
  · exact lines_getD_total_sort h X u i

/-- Features of iALS: `IALSRecommender(X, user_features=F)` followed by `learn()`.  The trainer gets the
features rounded to float32.  If `F` is CSC, or float32, or has sorted indices (or if the native binding does
not sort), every matrix of the caller is still the same afterwards. -/
theorem C99_features_partial (round : ℝ → ℝ) (r0 : round 0 = 0) (sorts : Bool) (h : Heap) (F : Obj) (v : Valid h F) :
    let built := featureMatrix round h F
    let trained := nativeFeatures round sorts built.1 built.2
    Untouched h built.1 ∧
    (∀ u i, u < F.rows → ((F.rowLines h).getD u [] |>.map Prod.fst).Nodup →
      total (trained.2.getD u []) i = if F.dtype = .float32 then value h F u i else round (value h F u i)) ∧
    ((F.fmt = .csc ∨ F.dtype = .float32 ∨ F.Sorted h ∨ sorts = false) →
      ∀ Y, Valid h Y → ((Y.data = F.data ∧ Y.idx = F.idx) ∨ (Y.data ≠ F.data ∧ Y.idx ≠ F.idx)) →
        SameMatrix h trained.1 Y) := by
  intro built trained
  obtain ⟨f1, f2, f3, f4⟩ := featureMatrix_facts round h F
  have ht : trained = toNative sorts built.1 built.2 := nativeFeatures_float32 round sorts built.1 built.2 f3 f4
  refine ⟨f1, fun u i hu nd => ?_, fun hc Y vY hY => ?_⟩
  · rw [ht, C99_native_value sorts built.1 built.2 f3]
    have : value built.1 built.2 u i = total ((built.2.lines built.1).getD u []) i := by
      unfold value; rw [f3]
    rw [this, featureMatrix_lines, getD_map_nil _ _ (by simp)]
    have hr : toFloat32 round F 0 = 0 := by unfold toFloat32; split <;> simp [r0]
    rw [total_round _ hr _ nd, rowLines_total h F u i hu]
    unfold toFloat32
    split <;> rfl
  · rw [ht]
    have base : ∀ u i, value built.1 Y u i = value h Y u i := fun u i => untouched_value f1 vY u i
    have keep : SameMatrix h built.1 Y := fun u i _ _ => base u i
    cases sorts with
    | false => exact keep
    | true =>
      show SameMatrix h (sortIndices built.1 built.2) Y
      cases c : F.fmt with
      | csc =>
        have b1 : built.2.data = h.next ∧ built.2.idx = h.next := by
          show (featureMatrix round h F).2.data = _ ∧ (featureMatrix round h F).2.idx = _
          unfold featureMatrix; rw [c]; exact ⟨rfl, rfl⟩
        have d := vY.data
        have i' := vY.idx
        intro u i _ _
        rw [sortIndices_value_other _ _ Y (.inr ⟨by omega, by omega⟩), base]
      | csr =>
        by_cases d : F.dtype = .float32
        · have b1 : built = (h, F) := by
            show featureMatrix round h F = _
            unfold featureMatrix; rw [c]; simp [d]
          intro u i _ _
          rw [b1]
          exact sortIndices_value_other h F Y hY u i
        · have hs : F.Sorted h := by
            rcases hc with hc | hc | hc | hc
            · rw [c] at hc; exact absurd hc (by decide)
            · exact absurd hc d
            · exact hc
            · exact absurd hc (by decide)
          have b1 : built.2.Sorted built.1 := by
            show (featureMatrix round h F).2.Sorted (featureMatrix round h F).1
            unfold featureMatrix; rw [c]
            simp only [d, if_false]
            exact hs
          have : sortIndices built.1 built.2 = built.1 := by unfold sortIndices; rw [if_pos b1]
          rw [this]
          exact keep

/-- One user with two features, stored in descending order: feature 1 has the value 3, feature 0 the value 2. -/
noncomputable def unsorted : Heap where
  data := fun a => if a = 0 then [[3, 2]] else []
  idx := fun a => if a = 0 then [[1, 0]] else []
  next := 1

theorem unsorted_valid : Valid unsorted oneRowObj where
  data := by simp [unsorted, oneRowObj]
  idx := by simp [unsorted, oneRowObj]
  fits := by simp [unsorted, oneRowObj]
  shape := by simp [unsorted, oneRowObj]

theorem unsorted_not_sorted : ¬ oneRowObj.Sorted unsorted := by
  simp [Obj.Sorted, unsorted, oneRowObj]

/-- Sorted, the same features meet the hypotheses of `C99_features_partial`. -/
example : Valid oneRow oneRowObj ∧ oneRowObj.Sorted oneRow ∧
    ((oneRowObj.rowLines oneRow).getD 0 [] |>.map Prod.fst).Nodup :=
  ⟨oneRow_valid, by simp [Obj.Sorted, oneRow, oneRowObj], by simp [Obj.rowLines, Obj.lines, oneRow, oneRowObj]⟩

/-- A float64 CSR feature matrix with unsorted indices shares only its indices with the float32 copy, which
the binding sorts in place: after `learn()` the caller's matrix has its two values exchanged. -/
theorem C99_features_counterexample :
    ∃ (h : Heap) (F : Obj), Valid h F ∧
      value h F 0 0 = 2 ∧ value h F 0 1 = 3 ∧
      value (nativeFeatures id true (featureMatrix id h F).1 (featureMatrix id h F).2).1 F 0 0 = 3 ∧
      value (nativeFeatures id true (featureMatrix id h F).1 (featureMatrix id h F).2).1 F 0 1 = 2 := by
  refine ⟨unsorted, oneRowObj, unsorted_valid, ?_, ?_, ?_, ?_⟩ <;>
  simp [value, total, Obj.lines, unsorted, oneRowObj, nativeFeatures, featureMatrix, toNative, sortIndices, Obj.Sorted,
    sortLine, List.insertionSort, List.orderedInsert, Function.update]

/-- Two recommenders are built with those features.  Training the first exchanges the features that the
second one is trained with. -/
theorem C99_two_models_counterexample :
    ∃ (h : Heap) (F : Obj),
      let first := featureMatrix id h F
      let second := featureMatrix id first.1 F
      let trained := nativeFeatures id true second.1 first.2
      Valid h F ∧
      total ((nativeFeatures id true second.1 second.2).2.getD 0 []) 0 = 2 ∧
      total ((nativeFeatures id true trained.1 second.2).2.getD 0 []) 0 = 3 := by
  refine ⟨unsorted, oneRowObj, unsorted_valid, ?_, ?_⟩ <;>
  simp [total, Obj.lines, unsorted, oneRowObj, nativeFeatures, featureMatrix, toNative, sortIndices, Obj.Sorted,
    sortLine, List.insertionSort, List.orderedInsert, Function.update]

end Irspack.Aliasing
