import Verif.Proofs.IalsGram
import Verif.Proofs.IalsPp
import Verif.Proofs.Scale
import Verif.Model.Ials

/-! # iALS on interactions multiplied by a constant: lemmas -/

namespace Irspack.Ials

open Spec.Scale

section gram
variable {ι : Type} [Fintype ι] [LinearOrder ι] {c : ℝ}

theorem upperSymm_smul (c : ℝ) (A : Matrix ι ι ℝ) : upperSymm (c • A) = c • upperSymm A := by
  funext i j
  simp only [upperSymm, Matrix.smul_apply]
  split <;> rfl

theorem posDef_smul (hc : 0 < c) (A : Matrix ι ι ℝ) : PosDef (c • A) ↔ PosDef A := by
  unfold PosDef
  constructor
  · intro h x hx
    have := h x hx
    rw [Matrix.smul_mulVec, dotProduct_smul, smul_eq_mul] at this
    exact (mul_pos_iff_of_pos_left hc).mp this
  · intro h x hx
    rw [Matrix.smul_mulVec, dotProduct_smul, smul_eq_mul]
    exact mul_pos hc (h x hx)

open Classical in
theorem llt_smul (hc : 0 < c) (A : Matrix ι ι ℝ) (b : ι → ℝ) : llt (c • A) (c • b) = llt A b := by
  unfold llt
  rw [upperSymm_smul]
  by_cases h : PosDef (upperSymm A)
  · rw [if_pos h, if_pos ((posDef_smul hc _).mpr h)]
    have hu : Invertible c := invertibleOfNonzero hc.ne'
    rw [Matrix.inv_smul _ _ h.isUnit, Matrix.smul_mulVec, Matrix.mulVec_smul, smul_smul]
    simp
  · rw [if_neg h, if_neg (fun h' => h ((posDef_smul hc _).mp h'))]

theorem addDiagonal_smul (c : ℝ) (A : Matrix ι ι ℝ) (d : ℝ) : addDiagonal (c • A) (c * d) = c • addDiagonal A d := by
  funext i j
  simp only [addDiagonal, Matrix.smul_apply, smul_eq_mul]
  split
  · ring
  · rfl

/-- the buffer and the matrix in the new unit -/
noncomputable def Batch.scale (c : ℝ) (b : Batch ι) : Batch ι :=
  ⟨b.buf.map (fun v i => Real.sqrt c * v i), c • b.target⟩

theorem consume_scale (hc : 0 < c) (b : Batch ι) : (b.scale c).consume = b.consume.scale c := by
  unfold Batch.consume
  by_cases h : 0 < b.buf.length
  · rw [if_pos h, if_pos (by simpa [Batch.scale] using h)]
    unfold Batch.scale
    simp only [List.map_nil, Batch.mk.injEq, true_and]
    funext i j
    simp only [rankUpdate, Matrix.smul_apply, smul_eq_mul]
    split
    · rw [mul_add, ← List.sum_map_mul_left, List.map_map]
      congr 2
      apply List.map_congr_left
      intro v _
      simp only [Function.comp]
      have := Real.mul_self_sqrt hc.le
      linear_combination (v i * v j) * this
    · rfl
  · rw [if_neg h, if_neg (by simpa [Batch.scale] using h)]

theorem addRow_scale (hc : 0 < c) (n : Nat) (b : Batch ι) (v : ι → ℝ) (x : ℝ) :
    (b.scale c).addRow n v (c * x) = (b.addRow n v x).scale c := by
  have hb : (⟨(b.scale c).buf ++ [fun i => Real.sqrt (c * x) * v i], (b.scale c).target⟩ : Batch ι) =
      Batch.scale c ⟨b.buf ++ [fun i => Real.sqrt x * v i], b.target⟩ := by
    unfold Batch.scale
    simp only [List.map_append, List.map_cons, List.map_nil, Batch.mk.injEq, and_true]
    congr 2
    funext i
    rw [Real.sqrt_mul hc.le, mul_assoc]
  unfold Batch.addRow
  simp only [hb]
  have hl : ((b.scale c).buf ++ [fun i => Real.sqrt (c * x) * v i]).length =
      (b.buf ++ [fun i => Real.sqrt x * v i]).length := by simp [Batch.scale]
  rw [hl]
  split
  · exact consume_scale hc _
  · rfl

end gram

variable {K T : Nat} {c : ℝ}

/-- the hyper-parameters in the new unit -/
def Config.scale (c : ℝ) (cfg : Config) : Config := { cfg with alpha0 := c * cfg.alpha0, reg := c * cfg.reg }

/-- the conditions under which the weight of the regularisation follows the unit -/
def UnitFree (cfg : Config) : Prop := cfg.nu = 0 ∨ cfg.alpha0 = 0

theorem bias_scale (c : ℝ) (cfg : Config) : bias (cfg.scale c) = c * bias cfg := by
  unfold bias Config.scale
  cases cfg.lossType <;> simp

theorem computeReg_scale {cfg : Config} (h : UnitFree cfg) (c : ℝ) (nnz other : Nat) :
    computeReg (cfg.scale c) nnz other = c * computeReg cfg nnz other := by
  unfold computeReg Config.scale
  rcases h with h | h
  · simp [h]
  · simp [h, mul_assoc]

theorem prepareP_scale (c : ℝ) (ω : Oracle T) (cfg : Config) (V : Factor K) :
    prepareP ω (cfg.scale c) V = (prepareP ω cfg V).map (c • ·) := by
  unfold prepareP
  split
  · rfl
  · show Except.ok _ = Except.ok _
    congr 1
    exact mul_smul c cfg.alpha0 (β := Fin K → Fin K → ℝ) _

theorem fold_scale {A : Type} (σ : A → A) (f : A → Nat × ℝ → A) (f' : A → Nat × ℝ → A)
    (h : ∀ a e, f' (σ a) (e.1, c * e.2) = σ (f a e)) :
    ∀ (l : SpVec ℝ) (a : A), (scaledVec c l).foldl f' (σ a) = σ (l.foldl f a) := by
  intro l
  induction l with
  | nil => intro a; rfl
  | cons e l ih =>
    intro a
    show (scaledVec c l).foldl f' (f' (σ a) (e.1, c * e.2)) = σ (l.foldl f (f a e))
    rw [h, ih]

theorem fold_scale_zip {A : Type} (σ : A → A) (f f' : A → (Nat × ℝ) × ℝ → A)
    (h : ∀ a e p, f' (σ a) ((e.1, c * e.2), p) = σ (f a (e, p))) :
    ∀ (l : SpVec ℝ) (s : List ℝ) (a : A), ((scaledVec c l).zip s).foldl f' (σ a) = σ ((l.zip s).foldl f a) := by
  intro l
  induction l with
  | nil => intro s a; rfl
  | cons e l ih =>
    intro s a
    cases s with
    | nil => rfl
    | cons p s =>
      show ((scaledVec c l).zip s).foldl f' (f' (σ a) ((e.1, c * e.2), p)) = σ ((l.zip s).foldl f (f a (e, p)))
      rw [h, ih]

theorem choleskyRow_scale (hc : 0 < c) {cfg : Config} (h : UnitFree cfg) (P : Matrix (Fin K) (Fin K) ℝ)
    (V : Factor K) (row : SpVec ℝ) :
    choleskyRow (cfg.scale c) (c • P) V (scaledVec c row) = choleskyRow cfg P V row := by
  have hf := fold_scale (c := c)
    (σ := fun s : Batch (Fin K) × Vec K × Nat => (s.1.scale c, c • s.2.1, s.2.2))
    (f := fun s e => (s.1.addRow batchMax (V.row e.1) e.2, s.2.1 + (bias cfg + e.2) • V.row e.1, s.2.2 + 1))
    (f' := fun s e => (s.1.addRow batchMax (V.row e.1) e.2, s.2.1 + (bias (cfg.scale c) + e.2) • V.row e.1, s.2.2 + 1))
    (fun a e => by
      simp only [addRow_scale hc, bias_scale, ← mul_add, smul_add, smul_smul]) row (⟨[], P⟩, 0, 0)
  have h0 : (((⟨[], P⟩ : Batch (Fin K)).scale c, c • (0 : Vec K), 0) : Batch (Fin K) × Vec K × Nat) =
      (⟨[], c • P⟩, 0, 0) := by simp [Batch.scale]
  simp only [h0] at hf
  unfold choleskyRow
  simp only [hf, consume_scale hc, computeReg_scale h]
  simp only [Batch.scale, addDiagonal_smul, llt_smul hc]

theorem dimrangeRow_scale (hc : 0 < c) {cfg : Config} (h : UnitFree cfg) (P : Matrix (Fin K) (Fin K) ℝ)
    (V : Factor K) (lo hi : Nat) (row : SpVec ℝ) (x : Vec K) (s : (Dims K lo hi → ℝ) × List ℝ) :
    dimrangeRow (cfg.scale c) (c • P) V lo hi (scaledVec c row) x s = dimrangeRow cfg P V lo hi row x s := by
  have hlen : (scaledVec c row).length = row.length := by simp [scaledVec]
  have hf := fold_scale_zip (c := c)
    (σ := fun s : Batch (Dims K lo hi) × (Dims K lo hi → ℝ) => (s.1.scale c, c • s.2))
    (f := fun a e => (a.1.addRow batchMax (fun i => V.row e.1.1 i.1) e.1.2,
        a.2 + (e.1.2 * (e.2 - 1) - bias cfg) • (fun i => V.row e.1.1 i.1)))
    (f' := fun a e => (a.1.addRow batchMax (fun i => V.row e.1.1 i.1) e.1.2,
        a.2 + (e.1.2 * (e.2 - 1) - bias (cfg.scale c)) • (fun i => V.row e.1.1 i.1)))
    (fun a e p => by
      simp only [addRow_scale hc, bias_scale, smul_add, smul_smul]
      rw [show c * e.2 * (p - 1) - c * bias cfg = c * (e.2 * (p - 1) - bias cfg) by ring]) row s.2
    (⟨[], fun i j => P i.1 j.1⟩, fun i => P.mulVec x i.1 + computeReg cfg row.length V.n * s.1 i)
  have h0 : (((⟨[], fun i j => P i.1 j.1⟩ : Batch (Dims K lo hi)).scale c,
      c • (fun i : Dims K lo hi => P.mulVec x i.1 + computeReg cfg row.length V.n * s.1 i)) :
        Batch (Dims K lo hi) × (Dims K lo hi → ℝ)) =
      (⟨[], fun i j => (c • P) i.1 j.1⟩, fun i => (c • P).mulVec x i.1 + c * computeReg cfg row.length V.n * s.1 i) := by
    simp only [Batch.scale, List.map_nil, Prod.mk.injEq]
    refine ⟨rfl, ?_⟩
    funext i
    rw [Matrix.smul_mulVec]
    simp only [Pi.smul_apply, smul_eq_mul]
    ring
  simp only [h0] at hf
  have hz : ∀ (δ : Dims K lo hi → ℝ), List.zipWith (fun (e : Nat × ℝ) p => p - ∑ i, δ i * V.row e.1 i.1) (scaledVec c row) s.2 =
      List.zipWith (fun (e : Nat × ℝ) p => p - ∑ i, δ i * V.row e.1 i.1) row s.2 := by
    intro δ
    unfold scaledVec
    rw [List.zipWith_map_left]
  unfold dimrangeRow
  simp only [computeReg_scale h, hlen, hf, consume_scale hc, hz]
  simp only [Batch.scale, addDiagonal_smul, llt_smul hc]

theorem icdRow_scale (hc : 0 < c) {cfg : Config} (h : UnitFree cfg) (P : Matrix (Fin K) (Fin K) ℝ)
    (V : Factor K) (d : Fin K) (row : SpVec ℝ) (x : Vec K) (s : ℝ × List ℝ) :
    icdRow (cfg.scale c) (c • P) V d (scaledVec c row) x s = icdRow cfg P V d row x s := by
  have hlen : (scaledVec c row).length = row.length := by simp [scaledVec]
  have hf := fold_scale_zip (c := c)
    (σ := fun s : ℝ × ℝ => (c * s.1, c * s.2))
    (f := fun a e => (a.1 + e.1.2 * V.row e.1.1 d * V.row e.1.1 d,
        a.2 + (e.1.2 * (e.2 - 1) - bias cfg) * V.row e.1.1 d))
    (f' := fun a e => (a.1 + e.1.2 * V.row e.1.1 d * V.row e.1.1 d,
        a.2 + (e.1.2 * (e.2 - 1) - bias (cfg.scale c)) * V.row e.1.1 d))
    (fun a e p => by
      simp only [bias_scale, Prod.mk.injEq]
      constructor <;> ring) row s.2
    (P d d, P d ⬝ᵥ x + computeReg cfg row.length V.n * s.1)
  have h0 : (c * (P d d), c * (P d ⬝ᵥ x + computeReg cfg row.length V.n * s.1)) =
      ((c • P) d d, (c • P) d ⬝ᵥ x + c * computeReg cfg row.length V.n * s.1) := by
    have : (c • P) d = c • P d := rfl
    rw [this, smul_dotProduct]
    simp only [Pi.smul_apply, smul_eq_mul, Prod.mk.injEq, true_and]
    ring
  simp only [h0] at hf
  have hz : ∀ δ : ℝ, List.zipWith (fun (e : Nat × ℝ) p => p - δ * V.row e.1 d) (scaledVec c row) s.2 =
      List.zipWith (fun (e : Nat × ℝ) p => p - δ * V.row e.1 d) row s.2 := by
    intro δ
    unfold scaledVec
    rw [List.zipWith_map_left]
  unfold icdRow
  simp only [computeReg_scale h, hlen, hf, hz, ← mul_add, mul_div_mul_left _ _ hc.ne', mul_eq_zero, hc.ne', false_or]

/-! ## half-steps -/

theorem csr_row_scale (c : ℝ) (X : CSR ℝ) (r : Nat) : (Spec.Scale.scaled c X).row r = scaledVec c (X.row r) :=
  Sim.scaled_row c X r

theorem stepCholesky_scale (hc : 0 < c) {cfg : Config} (h : UnitFree cfg) (ω : Oracle T)
    (P : Matrix (Fin K) (Fin K) ℝ) (X : CSR ℝ) (V F : Factor K) :
    stepCholesky ω (cfg.scale c) (c • P) (Spec.Scale.scaled c X) V F = stepCholesky ω cfg P X V F := by
  unfold stepCholesky
  simp only [csr_row_scale, choleskyRow_scale hc h]

theorem prediction_scale (c : ℝ) (ω : Oracle T) (X : CSR ℝ) (F V : Factor K) :
    prediction ω (Spec.Scale.scaled c X) F V = prediction ω X F V := by
  unfold prediction
  congr 1
  funext r _
  rw [csr_row_scale]
  unfold scaledVec
  rw [List.map_map]
  rfl

theorem stepIalspp_scale (hc : 0 < c) {cfg : Config} (h : UnitFree cfg) (ω : Oracle T) (sc : SolverConfig)
    (P : Matrix (Fin K) (Fin K) ℝ) (X : CSR ℝ) (V F : Factor K) :
    stepIalspp ω (cfg.scale c) sc (c • P) (Spec.Scale.scaled c X) V F = stepIalspp ω cfg sc P X V F := by
  have h1 : ∀ (ω : Oracle T) lo hi s, stepDimrange ω (cfg.scale c) (c • P) (Spec.Scale.scaled c X) V lo hi s =
      stepDimrange ω cfg P X V lo hi s := by
    intro ω lo hi s
    unfold stepDimrange
    simp only [csr_row_scale, dimrangeRow_scale hc h]
  have h2 : ∀ (ω : Oracle T) d s, stepIcdDim ω (cfg.scale c) (c • P) (Spec.Scale.scaled c X) V d s =
      stepIcdDim ω cfg P X V d s := by
    intro ω d s
    unfold stepIcdDim
    simp only [csr_row_scale, icdRow_scale hc h]
  unfold stepIalspp ialsppIteration icdIteration
  simp only [prediction_scale, h1, h2]

theorem solverStep_scale (hc : 0 < c) {cfg : Config} (h : UnitFree cfg) (ω : Oracle T) (sc : SolverConfig)
    (hs : sc.solverType ≠ .cg) (P : Matrix (Fin K) (Fin K) ℝ) (X : CSR ℝ) (V F : Factor K) :
    solverStep ω (cfg.scale c) sc (c • P) (Spec.Scale.scaled c X) V F = solverStep ω cfg sc P X V F := by
  unfold solverStep
  cases hst : sc.solverType with
  | cg => exact absurd hst hs
  | cholesky => exact stepCholesky_scale hc h ω P X V F
  | ialspp => exact stepIalspp_scale hc h ω sc P X V F

/-- the trainer in the new unit -/
def Trainer.scale (c : ℝ) (tr : Trainer K) : Trainer K :=
  { tr with cfg := tr.cfg.scale c, X := Spec.Scale.scaled c tr.X, Xt := Spec.Scale.scaled c tr.Xt }

theorem stepUser_scale (hc : 0 < c) (ω : Oracle T) (sc : SolverConfig) (hs : sc.solverType ≠ .cg)
    (tr : Trainer K) (h : UnitFree tr.cfg) (hf : tr.featureAware = false) :
    (tr.scale c).stepUser ω sc = (tr.stepUser ω sc).map (Trainer.scale c) := by
  unfold Trainer.stepUser
  have e1 : (tr.scale c).cfg = tr.cfg.scale c := rfl
  have e2 : (tr.scale c).item = tr.item := rfl
  rw [e1, e2, prepareP_scale]
  cases prepareP (ω.at 0) tr.cfg tr.item with
  | error e => rfl
  | ok P =>
    have hf' : (tr.scale c).featureAware = false := hf
    simp only [Except.map, bind, Except.bind, hf, hf', Bool.false_eq_true, false_and, if_false]
    have := solverStep_scale hc h (ω.at 1) sc hs P tr.X tr.item tr.user
    have e3 : (tr.scale c).X = Spec.Scale.scaled c tr.X := rfl
    have e4 : (tr.scale c).user = tr.user := rfl
    rw [e3, e4, this]
    cases solverStep (ω.at 1) tr.cfg sc P tr.X tr.item tr.user <;> rfl

theorem stepItem_scale (hc : 0 < c) (ω : Oracle T) (sc : SolverConfig) (hs : sc.solverType ≠ .cg)
    (tr : Trainer K) (h : UnitFree tr.cfg) (hf : tr.featureAware = false) :
    (tr.scale c).stepItem ω sc = (tr.stepItem ω sc).map (Trainer.scale c) := by
  unfold Trainer.stepItem
  have e1 : (tr.scale c).cfg = tr.cfg.scale c := rfl
  have e2 : (tr.scale c).user = tr.user := rfl
  rw [e1, e2, prepareP_scale]
  cases prepareP (ω.at 0) tr.cfg tr.user with
  | error e => rfl
  | ok P =>
    have hf' : (tr.scale c).featureAware = false := hf
    simp only [Except.map, bind, Except.bind, hf, hf', Bool.false_eq_true, false_and, if_false]
    have := solverStep_scale hc h (ω.at 1) sc hs P tr.Xt tr.user tr.item
    have e3 : (tr.scale c).Xt = Spec.Scale.scaled c tr.Xt := rfl
    have e4 : (tr.scale c).item = tr.item := rfl
    rw [e3, e4, this]
    cases solverStep (ω.at 1) tr.cfg sc P tr.Xt tr.user tr.item <;> rfl

theorem stepUser_keeps (ω : Oracle T) (sc : SolverConfig) (tr tr' : Trainer K) (hf : tr.featureAware = false)
    (h : tr.stepUser ω sc = .ok tr') : tr'.cfg = tr.cfg ∧ tr'.featureAware = false := by
  unfold Trainer.stepUser at h
  simp only [bind, Except.bind, hf, Bool.false_eq_true, false_and, if_false] at h
  cases h1 : prepareP (ω.at 0) tr.cfg tr.item with
  | error e => rw [h1] at h; cases h
  | ok P =>
    rw [h1] at h
    cases h2 : solverStep (ω.at 1) tr.cfg sc P tr.X tr.item tr.user with
    | error e => simp only [h2] at h; cases h
    | ok F => simp only [h2] at h; cases h; exact ⟨rfl, rfl⟩

theorem stepItem_keeps (ω : Oracle T) (sc : SolverConfig) (tr tr' : Trainer K) (hf : tr.featureAware = false)
    (h : tr.stepItem ω sc = .ok tr') : tr'.cfg = tr.cfg ∧ tr'.featureAware = false := by
  unfold Trainer.stepItem at h
  simp only [bind, Except.bind, hf, Bool.false_eq_true, false_and, if_false] at h
  cases h1 : prepareP (ω.at 0) tr.cfg tr.user with
  | error e => rw [h1] at h; cases h
  | ok P =>
    rw [h1] at h
    cases h2 : solverStep (ω.at 1) tr.cfg sc P tr.Xt tr.user tr.item with
    | error e => simp only [h2] at h; cases h
    | ok F => simp only [h2] at h; cases h; exact ⟨rfl, rfl⟩

theorem step_scale (hc : 0 < c) (ω : Oracle T) (sc : SolverConfig) (hs : sc.solverType ≠ .cg)
    (tr : Trainer K) (h : UnitFree tr.cfg) (hf : tr.featureAware = false) :
    (tr.scale c).step ω sc = (tr.step ω sc).map (Trainer.scale c) := by
  unfold Trainer.step
  have hf' : (tr.scale c).featureAware = false := hf
  simp only [hf, hf', Bool.false_eq_true, false_and, if_false, bind, Except.bind]
  rw [stepUser_scale hc _ sc hs tr h hf]
  cases h1 : tr.stepUser (ω.at 0) sc with
  | error e => rfl
  | ok tr₁ =>
    obtain ⟨k1, k2⟩ := stepUser_keeps _ _ _ _ hf h1
    simp only [Except.map]
    rw [stepItem_scale hc _ sc hs tr₁ (by rw [k1]; exact h) k2]
    cases tr₁.stepItem (ω.at 1) sc <;> rfl

theorem step_keeps (ω : Oracle T) (sc : SolverConfig) (tr tr' : Trainer K) (hf : tr.featureAware = false)
    (h : tr.step ω sc = .ok tr') : tr'.cfg = tr.cfg ∧ tr'.featureAware = false := by
  unfold Trainer.step at h
  simp only [hf, Bool.false_eq_true, false_and, if_false, bind, Except.bind] at h
  cases h1 : tr.stepUser (ω.at 0) sc with
  | error e => rw [h1] at h; cases h
  | ok tr₁ =>
    obtain ⟨k1, k2⟩ := stepUser_keeps _ _ _ _ hf h1
    rw [h1] at h
    cases h2 : tr₁.stepItem (ω.at 1) sc with
    | error e => simp only [h2] at h; cases h
    | ok tr₂ =>
      obtain ⟨k3, k4⟩ := stepItem_keeps _ _ _ _ k2 h2
      simp only [h2] at h
      cases h
      exact ⟨by rw [← k1, ← k3], k4⟩

theorem create_scale (c : ℝ) (cfg : Config) (X : CSR ℝ) (u₀ v₀ : Nat → Vec K) :
    Trainer.create (cfg.scale c) (Spec.Scale.scaled c X) u₀ v₀ = (Trainer.create cfg X u₀ v₀).scale c := by
  unfold Trainer.create Trainer.scale
  simp only [Sim.scaled_nrows, transpose, Sim.transpose_scaled]
  rfl

end Irspack.Ials
