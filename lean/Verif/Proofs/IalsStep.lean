import Verif.Proofs.IalsPp
import Verif.Proofs.IalsCg
import Verif.Proofs.IalsLoss

/-! # Half-steps of iALS -/

namespace Irspack.Ials

open Matrix

set_option linter.unusedSectionVars false
set_option linter.unusedVariables false

variable {K T : Nat}

theorem prepareP_eq {ω : Oracle T} (hω : ω.Complete) (hT : 0 < T) (cfg : Config) (V : Factor K) :
    prepareP ω cfg V = .ok (gramP cfg V) := by
  unfold prepareP
  rw [if_neg (by omega), parSum_eq hω hT _ _ (by norm_num)]
  congr 1
  apply Matrix.ext
  intro i j
  exact congrArg (cfg.alpha0 * ·) (Matrix.sum_apply i j (Finset.range V.n)
    (fun r => (Matrix.of fun i j => V.row r i * V.row r j : Matrix (Fin K) (Fin K) ℝ)))

theorem computeReg_nonneg (cfg : Config) (hr : 0 ≤ cfg.reg) (ha : 0 ≤ cfg.alpha0) (nnz other : Nat) :
    0 ≤ computeReg cfg nnz other := by
  unfold computeReg
  apply mul_nonneg hr
  apply Real.rpow_nonneg
  positivity

/-- the regularisation of a row with `nnz` entries is positive -/
theorem computeReg_pos (cfg : Config) (hr : 0 < cfg.reg) (ha : 0 ≤ cfg.alpha0) (nnz other : Nat)
    (h : cfg.nu = 0 ∨ 0 < cfg.alpha0 * other + nnz) : 0 < computeReg cfg nnz other := by
  unfold computeReg
  apply mul_pos hr
  rcases h with h | h
  · rw [h, Real.rpow_zero]; exact one_pos
  · exact Real.rpow_pos_of_pos h _

/-- the quadratic function of row `r` with prior `q` -/
noncomputable def rowQ (cfg : Config) (X : CSR ℝ) (V : Factor K) (q : Vec K) (r : Nat) (x : Vec K) : ℝ :=
  quad (rowMat cfg (gramP cfg V) X V r)
    (sysRhs cfg V (X.row r) (computeReg cfg (X.row r).length V.n • q)) x

section rows
variable {cfg : Config} (ha : 0 ≤ cfg.alpha0) (hr : 0 ≤ cfg.reg) {X : CSR ℝ} {V : Factor K}
include ha hr

theorem rowMat_symm (r : Nat) (i j : Fin K) :
    rowMat cfg (gramP cfg V) X V r i j = rowMat cfg (gramP cfg V) X V r j i :=
  sysMat_symm _ (gramP_symm cfg V) _ _ i j

theorem rowMat_nonneg {r : Nat} (hX : NonNegRow (X.row r)) (x : Vec K) :
    0 ≤ x ⬝ᵥ (rowMat cfg (gramP cfg V) X V r).mulVec x :=
  sysMat_nonneg _ (gramP_nonneg cfg ha V) _ (ents_nonneg hX) _ (computeReg_nonneg cfg hr ha _ _) x

theorem rowMat_posDef {r : Nat} (hX : NonNegRow (X.row r))
    (hp : 0 < computeReg cfg (X.row r).length V.n) :
    PosDef (rowMat cfg (gramP cfg V) X V r) :=
  sysMat_posDef _ (gramP_nonneg cfg ha V) _ (ents_nonneg hX) _ hp

theorem cgRow_descent (sc : SolverConfig) (prior : Option (Vec K)) {r : Nat}
    (hX : NonNegRow (X.row r)) (x y : Vec K)
    (h : cgRow cfg sc (gramP cfg V) V prior (X.row r) x = .ok y) :
    rowQ cfg X V (prior.getD 0) r y ≤ rowQ cfg X V (prior.getD 0) r x := by
  by_cases he : prior.isNone = true ∧ (X.row r).length = 0
  · unfold cgRow at h
    simp only at h
    rw [if_pos he] at h
    cases h
    have h1 : prior = none := Option.isNone_iff_eq_none.mp he.1
    have h2 : X.row r = [] := List.length_eq_zero_iff.mp he.2
    subst h1
    have hb : sysRhs cfg V (X.row r) (computeReg cfg (X.row r).length V.n • (0 : Vec K)) = 0 := by
      rw [h2]; simp [sysRhs]
    unfold rowQ quad
    rw [Option.getD_none, hb]
    simp only [mulVec_zero, dotProduct_zero, zero_dotProduct, mul_zero, sub_zero]
    exact rowMat_nonneg ha hr hX x
  · rw [cgRow_eq cfg sc _ V prior _ x he] at h
    simp only at h
    have := cgLoop_descent _ (rowMat_symm ha hr r) _ x cgEps (by unfold cgEps; positivity) _ y h
    unfold rowQ
    cases prior with
    | none => simpa [priorRhs] using this
    | some q => exact this

theorem cgRow_total (sc : SolverConfig) (prior : Option (Vec K)) {r : Nat}
    (hX : NonNegRow (X.row r)) (hp : 0 < computeReg cfg (X.row r).length V.n) (x : Vec K) :
    ∃ y, cgRow cfg sc (gramP cfg V) V prior (X.row r) x = .ok y := by
  by_cases he : prior.isNone = true ∧ (X.row r).length = 0
  · refine ⟨0, ?_⟩
    unfold cgRow
    simp only
    rw [if_pos he]
  · rw [cgRow_eq cfg sc _ V prior _ x he]
    exact cgLoop_total _ (rowMat_posDef ha hr hX hp) _ x cgEps (by unfold cgEps; positivity) _

theorem choleskyRow_min {r : Nat} (hX : NonNegRow (X.row r)) (y : Vec K)
    (h : choleskyRow cfg (gramP cfg V) V (X.row r) = .ok y) :
    PosDef (rowMat cfg (gramP cfg V) X V r) ∧
    (rowMat cfg (gramP cfg V) X V r).mulVec y = sysRhs cfg V (X.row r) 0 := by
  classical
  rw [choleskyRow_eq cfg _ (gramP_symm cfg V) V _ hX] at h
  by_cases hp : PosDef (sysMat (gramP cfg V) (ents V (X.row r)) (computeReg cfg (X.row r).length V.n))
  · rw [if_pos hp] at h
    cases h
    exact ⟨hp, hp.solve _⟩
  · rw [if_neg hp] at h; cases h

theorem choleskyPriorRow_min (q : Vec K) {r : Nat} (hX : NonNegRow (X.row r)) (y : Vec K)
    (h : choleskyPriorRow cfg (gramP cfg V) V q (X.row r) = .ok y) :
    PosDef (rowMat cfg (gramP cfg V) X V r) ∧
    (rowMat cfg (gramP cfg V) X V r).mulVec y =
      sysRhs cfg V (X.row r) (computeReg cfg (X.row r).length V.n • q) := by
  classical
  rw [choleskyPriorRow_eq cfg _ (gramP_symm cfg V) V q _ hX] at h
  by_cases hp : PosDef (sysMat (gramP cfg V) (ents V (X.row r)) (computeReg cfg (X.row r).length V.n))
  · rw [if_pos hp] at h
    cases h
    exact ⟨hp, hp.solve _⟩
  · rw [if_neg hp] at h; cases h

/-- the solution of the row's system is the unique minimiser -/
theorem rowQ_min {r : Nat} (hX : NonNegRow (X.row r)) (q y : Vec K)
    (hy : (rowMat cfg (gramP cfg V) X V r).mulVec y =
      sysRhs cfg V (X.row r) (computeReg cfg (X.row r).length V.n • q)) (x : Vec K) :
    rowQ cfg X V q r y ≤ rowQ cfg X V q r x :=
  quad_min (rowMat_symm ha hr r) (rowMat_nonneg ha hr hX) hy x

omit ha hr in
theorem rowQ_strict (r : Nat) (hpd : PosDef (rowMat cfg (gramP cfg V) X V r)) (q y : Vec K)
    (hy : (rowMat cfg (gramP cfg V) X V r).mulVec y =
      sysRhs cfg V (X.row r) (computeReg cfg (X.row r).length V.n • q)) (x : Vec K) (hxy : x ≠ y) :
    rowQ cfg X V q r y < rowQ cfg X V q r x := by
  have hs : ∀ i j, rowMat cfg (gramP cfg V) X V r i j = rowMat cfg (gramP cfg V) X V r j i :=
    fun i j => sysMat_symm _ (gramP_symm cfg V) _ _ i j
  have := quad_add hs (sysRhs cfg V (X.row r) (computeReg cfg (X.row r).length V.n • q)) y (x - y)
  rw [add_sub_cancel, hy, sub_self, dotProduct_zero] at this
  have h2 := hpd (x - y) (sub_ne_zero.mpr hxy)
  unfold rowQ
  linarith

/-! ## Descent of a half-step -/

theorem stepCg_descent {ω : Oracle T} (hω : ω.Complete) (hT : 0 < T) (sc : SolverConfig)
    (prior : Option (Factor K)) (F F' : Factor K) (hX : ∀ r, r < F.n → NonNegRow (X.row r))
    (h : stepCg ω cfg sc (gramP cfg V) X V prior F = .ok F') :
    F'.n = F.n ∧ ∀ r, r < F.n →
      rowQ cfg X V ((prior.map (fun q => q.row r)).getD 0) r (F'.row r) ≤
        rowQ cfg X V ((prior.map (fun q => q.row r)).getD 0) r (F.row r) := by
  unfold stepCg at h
  split at h
  · cases h
  · obtain ⟨m, hm, rfl⟩ := map_ok h
    have hres := parRows_ok hω hT Nat.one_pos hm
    exact ⟨rfl, fun r hr' => cgRow_descent ha hr sc _ (hX r hr') _ _ (hres.1 r hr')⟩

omit ha hr in
theorem stepCholesky_row {ω : Oracle T} (hω : ω.Complete) (hT : 0 < T)
    (F F' : Factor K) (P : Matrix (Fin K) (Fin K) ℝ) 
    (h : stepCholesky ω cfg P X V F = .ok F') :
    F'.n = F.n ∧ ∀ r, r < F.n → choleskyRow cfg P V (X.row r) = .ok (F'.row r) := by
  obtain ⟨m, hm, rfl⟩ := map_ok h
  have hres := parRows_ok hω hT Nat.one_pos hm
  exact ⟨rfl, fun r hr' => hres.1 r hr'⟩

omit ha hr in
theorem stepCholeskyPrior_row {ω : Oracle T} (hω : ω.Complete) (hT : 0 < T)
    (prior F F' : Factor K) (P : Matrix (Fin K) (Fin K) ℝ)
    (h : stepCholeskyPrior ω cfg P X V prior F = .ok F') :
    F'.n = F.n ∧ prior.n = F.n ∧
      ∀ r, r < F.n → choleskyPriorRow cfg P V (prior.row r) (X.row r) = .ok (F'.row r) := by
  unfold stepCholeskyPrior at h
  split at h
  · cases h
  · rename_i hn
    obtain ⟨m, hm, rfl⟩ := map_ok h
    have hres := parRows_ok hω hT Nat.one_pos hm
    exact ⟨rfl, by simpa using hn, fun r hr' => hres.1 r hr'⟩

/-- No solver increases the quadratic function of a row. -/
theorem solverStep_descent {ω : Oracle T} (hω : ω.Complete) (hT : 0 < T) (sc : SolverConfig)
    (F F' : Factor K) (hX : ∀ r, r < F.n → NonNegRow (X.row r))
    (h : solverStep ω cfg sc (gramP cfg V) X V F = .ok F') :
    F'.n = F.n ∧ ∀ r, r < F.n → rowQ cfg X V 0 r (F'.row r) ≤ rowQ cfg X V 0 r (F.row r) := by
  unfold solverStep at h
  cases hs : sc.solverType with
  | cg =>
    rw [hs] at h
    exact stepCg_descent ha hr hω hT sc none F F' hX h
  | cholesky =>
    rw [hs] at h
    obtain ⟨hn, hrow⟩ := stepCholesky_row hω hT F F' _ h
    refine ⟨hn, fun r hr' => ?_⟩
    have := choleskyRow_min ha hr (hX r hr') _ (hrow r hr')
    exact rowQ_min ha hr (hX r hr') 0 _ (by rw [smul_zero]; exact this.2) _
  | ialspp =>
    rw [hs] at h
    obtain ⟨hn, hrow⟩ := stepIalspp_progress hω hT cfg sc _ (gramP_symm cfg V) (gramP_nonneg cfg ha V)
      X V F F' hX (fun r _ => computeReg_nonneg cfg hr ha _ _) h
    refine ⟨hn, fun r hr' => ?_⟩
    have := (hrow r hr').1
    unfold rowQ
    rw [smul_zero]
    exact this

theorem solverStepPrior_descent {ω : Oracle T} (hω : ω.Complete) (hT : 0 < T) (sc : SolverConfig)
    (prior F F' : Factor K) (hX : ∀ r, r < F.n → NonNegRow (X.row r))
    (h : solverStepPrior ω cfg sc (gramP cfg V) X V prior F = .ok F') :
    F'.n = F.n ∧ ∀ r, r < F.n →
      rowQ cfg X V (prior.row r) r (F'.row r) ≤ rowQ cfg X V (prior.row r) r (F.row r) := by
  unfold solverStepPrior at h
  split at h
  · cases h
  · cases hs : sc.solverType with
    | cg =>
      rw [hs] at h
      exact stepCg_descent ha hr hω hT sc (some prior) F F' hX h
    | cholesky =>
      rw [hs] at h
      obtain ⟨hn, _, hrow⟩ := stepCholeskyPrior_row hω hT prior F F' _ h
      refine ⟨hn, fun r hr' => ?_⟩
      have := choleskyPriorRow_min ha hr _ (hX r hr') _ (hrow r hr')
      exact rowQ_min ha hr (hX r hr') _ _ this.2 _
    | ialspp =>
      rw [hs] at h
      cases h

/-! ## Success -/

theorem solverStep_cg_total {ω : Oracle T} (hω : ω.Complete) (hT : 0 < T) (sc : SolverConfig)
    (prior : Option (Factor K)) (F : Factor K) (hX : ∀ r, r < F.n → NonNegRow (X.row r))
    (hp : ∀ r, r < F.n → 0 < computeReg cfg (X.row r).length V.n)
    (hq : ∀ q ∈ prior, q.n = F.n) :
    ∃ F', stepCg ω cfg sc (gramP cfg V) X V prior F = .ok F' := by
  unfold stepCg
  rw [if_neg (by
    cases prior with
    | none => simp
    | some q => simp [hq q rfl])]
  rcases parRows_cases hω hT F.n 1 Nat.one_pos
    (fun r x => cgRow cfg sc (gramP cfg V) V (prior.map (fun q => q.row r)) (X.row r) x) F.row with
    ⟨m, hm, _⟩ | ⟨e, r, hm, hr', herr⟩
  · rw [hm]; exact ⟨_, rfl⟩
  · obtain ⟨y, hy⟩ := cgRow_total ha hr sc (prior.map (fun q => q.row r)) (hX r hr') (hp r hr') (F.row r)
    rw [hy] at herr; cases herr

theorem choleskyRow_total {r : Nat} (hX : NonNegRow (X.row r))
    (hp : 0 < computeReg cfg (X.row r).length V.n) :
    ∃ y, choleskyRow cfg (gramP cfg V) V (X.row r) = .ok y := by
  classical
  rw [choleskyRow_eq cfg _ (gramP_symm cfg V) V _ hX, if_pos (rowMat_posDef ha hr hX hp)]
  exact ⟨_, rfl⟩

theorem choleskyPriorRow_total (q : Vec K) {r : Nat} (hX : NonNegRow (X.row r))
    (hp : 0 < computeReg cfg (X.row r).length V.n) :
    ∃ y, choleskyPriorRow cfg (gramP cfg V) V q (X.row r) = .ok y := by
  classical
  rw [choleskyPriorRow_eq cfg _ (gramP_symm cfg V) V q _ hX, if_pos (rowMat_posDef ha hr hX hp)]
  exact ⟨_, rfl⟩

theorem dimrangeRow_total (lo hi : Nat) {r : Nat} (hX : NonNegRow (X.row r))
    (hp : 0 < computeReg cfg (X.row r).length V.n) (x : Vec K) :
    ∃ s', dimrangeRow cfg (gramP cfg V) V lo hi (X.row r) x
      (fun i => x i.1, (X.row r).map (fun e => x ⬝ᵥ V.row e.1)) = .ok s' := by
  classical
  rw [dimrangeRow_eq cfg _ (gramP_symm cfg V) V lo hi _ hX]
  simp only
  rw [if_pos]
  · exact ⟨_, rfl⟩
  · apply sysMat_posDef
    · intro y
      have h1 := gramP_nonneg cfg ha V (extBlock y)
      rw [extBlock_dot] at h1
      have h2 : ∀ i : Dims K lo hi, (gramP cfg V).mulVec (extBlock y) i.1 =
          (Matrix.mulVec (fun i j : Dims K lo hi => gramP cfg V i.1 j.1) y) i := fun i => block_mulVec _ y i
      simp only [h2] at h1
      exact h1
    · intro e he
      obtain ⟨e', he', rfl⟩ := List.mem_map.mp he
      exact hX e' he'
    · exact hp

theorem icdRow_total (d : Fin K) {r : Nat} (hX : NonNegRow (X.row r))
    (hp : 0 < computeReg cfg (X.row r).length V.n) (x : Vec K) :
    ∃ s', icdRow cfg (gramP cfg V) V d (X.row r) x
      (x d, (X.row r).map (fun e => x ⬝ᵥ V.row e.1)) = .ok s' := by
  rw [icdRow_eq]
  simp only
  have h := rowMat_posDef (X := X) (r := r) ha hr hX hp (Pi.single d 1) (by
    intro h0
    have := congrFun h0 d
    simp at this)
  have h1 : (Pi.single d 1 : Vec K) ⬝ᵥ (rowMat cfg (gramP cfg V) X V r).mulVec (Pi.single d 1) =
      rowMat cfg (gramP cfg V) X V r d d := by simp
  rw [h1] at h
  rw [if_neg h.ne']
  exact ⟨_, rfl⟩

end rows

/-- a fold of total steps is total -/
theorem foldlM_total {α β : Type} (I : α → Prop) (f : α → β → Except Err α)
    (hf : ∀ b s, I s → ∃ s', f s b = .ok s' ∧ I s') :
    ∀ (l : List β) (s : α), I s → ∃ s', l.foldlM f s = .ok s' ∧ I s' := by
  intro l
  induction l with
  | nil => intro s hs; exact ⟨s, rfl, hs⟩
  | cons b l ih =>
    intro s hs
    obtain ⟨s₁, h1, hs₁⟩ := hf b s hs
    obtain ⟨s', h2, hs'⟩ := ih s₁ hs₁
    refine ⟨s', ?_, hs'⟩
    rw [List.foldlM_cons, h1]
    exact h2

section rows
variable {cfg : Config} (ha : 0 ≤ cfg.alpha0) (hr : 0 ≤ cfg.reg) {X : CSR ℝ} {V : Factor K}
include ha hr

theorem prediction_total {ω : Oracle T} (hω : ω.Complete) (hT : 0 < T) (F : Factor K) :
    ∃ preds, prediction ω X F V = .ok preds := by
  unfold prediction
  exact ⟨_, parRows_total hω hT Nat.one_pos (fun r => (X.row r).map (fun e => F.row r ⬝ᵥ V.row e.1))
    (fun r _ => rfl)⟩

theorem stepIalspp_total {ω : Oracle T} (hω : ω.Complete) (hT : 0 < T) (sc : SolverConfig)
    (F : Factor K) (hX : ∀ r, r < F.n → NonNegRow (X.row r))
    (hp : ∀ r, r < F.n → 0 < computeReg cfg (X.row r).length V.n) :
    ∃ F', stepIalspp ω cfg sc (gramP cfg V) X V F = .ok F' := by
  unfold stepIalspp
  obtain ⟨F', h, _⟩ := foldlM_total (fun G : Factor K => G.n = F.n)
    (fun F it =>
      if 1 < sc.subspaceDimension then ialsppIteration (ω.at it) cfg sc.subspaceDimension (gramP cfg V) X V F
      else icdIteration (ω.at it) cfg (gramP cfg V) X V F) (by
    intro it G hG
    by_cases hsub : 1 < sc.subspaceDimension
    · simp only [if_pos hsub]
      obtain ⟨preds, h1⟩ := prediction_total (X := X) (V := V) ha hr ((hω.at it).at 0) hT G
      have hp1 := prediction_ok ((hω.at it).at 0) hT X G V preds h1
      obtain ⟨s, h2, h3, _⟩ := foldlM_total
        (fun s : Factor K × (Nat → List ℝ) => s.1.n = F.n ∧ PredsOk X V s)
        (fun s b => stepDimrange (((ω.at it).at 1).at b.1) cfg (gramP cfg V) X V b.1 b.2 s) (by
          intro b s hs
          have hX' : ∀ r, r < s.1.n → NonNegRow (X.row r) := fun r hr => hX r (hs.1 ▸ hr)
          have : ∃ s', stepDimrange (((ω.at it).at 1).at b.1) cfg (gramP cfg V) X V b.1 b.2 s = .ok s' := by
            unfold stepDimrange
            rcases parRows_cases (((hω.at it).at 1).at b.1) hT s.1.n 1 Nat.one_pos
              (fun r y => dimrangeRow cfg (gramP cfg V) V b.1 b.2 (X.row r) (s.1.row r) y)
              (fun r => (fun i => s.1.row r i.1, s.2 r)) with ⟨m, hm, _⟩ | ⟨e, r, hm, hr', herr⟩
            · rw [hm]; exact ⟨_, rfl⟩
            · exfalso
              simp only [hs.2 r hr'] at herr
              obtain ⟨y, hy⟩ := dimrangeRow_total ha hr b.1 b.2 (hX' r hr')
                (hp r (hs.1 ▸ hr')) (s.1.row r)
              rw [hy] at herr
              cases herr
          obtain ⟨s', hs'⟩ := this
          have h4 := stepDimrange_progress (((hω.at it).at 1).at b.1) hT cfg _ (gramP_symm cfg V) X V
            b.1 b.2 s s' hX' hs.2 hs'
          exact ⟨s', hs', h4.1.1.trans hs.1, h4.2⟩)
        (dimBlocks K sc.subspaceDimension) (G, preds) ⟨hG, hp1⟩
      refine ⟨s.1, ?_, h3⟩
      unfold ialsppIteration
      rw [h1]
      simp only [bind, Except.bind]
      rw [h2]
      rfl
    · simp only [if_neg hsub]
      obtain ⟨preds, h1⟩ := prediction_total (X := X) (V := V) ha hr ((hω.at it).at 0) hT G
      have hp1 := prediction_ok ((hω.at it).at 0) hT X G V preds h1
      obtain ⟨s, h2, h3, _⟩ := foldlM_total
        (fun s : Factor K × (Nat → List ℝ) => s.1.n = F.n ∧ PredsOk X V s)
        (fun s d => stepIcdDim (((ω.at it).at 1).at d.val) cfg (gramP cfg V) X V d s) (by
          intro b s hs
          have hX' : ∀ r, r < s.1.n → NonNegRow (X.row r) := fun r hr => hX r (hs.1 ▸ hr)
          have : ∃ s', stepIcdDim (((ω.at it).at 1).at b.val) cfg (gramP cfg V) X V b s = .ok s' := by
            unfold stepIcdDim
            rcases parRows_cases (((hω.at it).at 1).at b.val) hT s.1.n 1 Nat.one_pos
              (fun r y => icdRow cfg (gramP cfg V) V b (X.row r) (s.1.row r) y)
              (fun r => (s.1.row r b, s.2 r)) with ⟨m, hm, _⟩ | ⟨e, r, hm, hr', herr⟩
            · rw [hm]; exact ⟨_, rfl⟩
            · exfalso
              simp only [hs.2 r hr'] at herr
              obtain ⟨y, hy⟩ := icdRow_total ha hr b (hX' r hr')
                (hp r (hs.1 ▸ hr')) (s.1.row r)
              rw [hy] at herr
              cases herr
          obtain ⟨s', hs'⟩ := this
          have h4 := stepIcdDim_progress (((hω.at it).at 1).at b.val) hT cfg _ (gramP_symm cfg V)
            (gramP_nonneg cfg ha V) X V
            b s s' hX' (fun r _ => computeReg_nonneg cfg hr ha _ _) hs.2 hs'
          exact ⟨s', hs', h4.1.1.trans hs.1, h4.2⟩)
        (List.finRange K) (G, preds) ⟨hG, hp1⟩
      refine ⟨s.1, ?_, h3⟩
      unfold icdIteration
      rw [h1]
      simp only [bind, Except.bind]
      rw [h2]
      rfl) (List.range sc.iteration) F rfl
  exact ⟨F', h⟩

/-- With positive regularisation of every row, every solver succeeds. -/
theorem solverStep_total {ω : Oracle T} (hω : ω.Complete) (hT : 0 < T) (sc : SolverConfig)
    (F : Factor K) (hX : ∀ r, r < F.n → NonNegRow (X.row r))
    (hp : ∀ r, r < F.n → 0 < computeReg cfg (X.row r).length V.n) :
    ∃ F', solverStep ω cfg sc (gramP cfg V) X V F = .ok F' := by
  unfold solverStep
  cases hs : sc.solverType with
  | cg => exact solverStep_cg_total ha hr hω hT sc none F hX hp (by simp)
  | cholesky =>
    simp only
    unfold stepCholesky
    rcases parRows_cases hω hT F.n 1 Nat.one_pos
      (fun r _ => choleskyRow cfg (gramP cfg V) V (X.row r)) F.row with
      ⟨m, hm, _⟩ | ⟨e, r, hm, hr', herr⟩
    · rw [hm]; exact ⟨_, rfl⟩
    · obtain ⟨y, hy⟩ := choleskyRow_total ha hr (hX r hr') (hp r hr')
      rw [hy] at herr; cases herr
  | ialspp => exact stepIalspp_total ha hr hω hT sc F hX hp

end rows

end Irspack.Ials
