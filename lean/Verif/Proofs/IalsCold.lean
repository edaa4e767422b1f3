import Verif.Proofs.IalsScale
import Verif.Model.IalsRecommender
import Verif.Proofs.IalsSystem

/-!
# The embedding of a row depends on that row only
-/

namespace Irspack.Ials

open Spec.Ials Matrix

variable {K T T' : Nat}

theorem stepCholesky_local {ω : Oracle T} {ω' : Oracle T'} (hω : ω.Complete) (hω' : ω'.Complete)
    (hT : 0 < T) (hT' : 0 < T') {cfg : Config} {P : Matrix (Fin K) (Fin K) ℝ} {X X' : CSR ℝ}
    {V F F' G G' : Factor K} {r r' : Nat} (hr : r < F.n) (hr' : r' < F'.n) (hX : X.row r = X'.row r')
    (h : stepCholesky ω cfg P X V F = .ok G) (h' : stepCholesky ω' cfg P X' V F' = .ok G') :
    G.row r = G'.row r' := by
  have h1 := (stepCholesky_row hω hT F G P h).2 r hr
  have h2 := (stepCholesky_row hω' hT' F' G' P h').2 r' hr'
  rw [hX, h2] at h1
  exact (Except.ok.inj h1).symm

/-- two intermediate states of iALS++ that agree on a row -/
def RowRel (r r' : Nat) (s s' : Factor K × (Nat → List ℝ)) : Prop :=
  r < s.1.n ∧ r' < s'.1.n ∧ s.1.row r = s'.1.row r' ∧ s.2 r = s'.2 r'

section pp
variable {cfg : Config} {P : Matrix (Fin K) (Fin K) ℝ} {X X' : CSR ℝ} {V : Factor K} {r r' : Nat}
  (hT : 0 < T) (hT' : 0 < T') (hX : X.row r = X'.row r')
include hT hT' hX

theorem stepDimrange_local {ω : Oracle T} {ω' : Oracle T'} (hω : ω.Complete) (hω' : ω'.Complete)
    (lo hi : Nat) (s s' t t' : Factor K × (Nat → List ℝ)) (hs : RowRel r r' s s')
    (h : stepDimrange ω cfg P X V lo hi s = .ok t) (h' : stepDimrange ω' cfg P X' V lo hi s' = .ok t') :
    RowRel r r' t t' := by
  obtain ⟨h1, h2, h3, h4⟩ := hs
  obtain ⟨m, hm, rfl⟩ := map_ok h
  obtain ⟨m', hm', rfl⟩ := map_ok h'
  have e1 := (parRows_ok hω hT Nat.one_pos hm).1 r h1
  have e2 := (parRows_ok hω' hT' Nat.one_pos hm').1 r' h2
  simp only at e1 e2
  rw [hX, h3, h4, e2] at e1
  have e3 := Except.ok.inj e1
  refine ⟨h1, h2, ?_, ?_⟩
  · funext k
    simp only [Factor.setRows, h3, e3]
  · simp only [e3]

theorem stepIcdDim_local {ω : Oracle T} {ω' : Oracle T'} (hω : ω.Complete) (hω' : ω'.Complete)
    (d : Fin K) (s s' t t' : Factor K × (Nat → List ℝ)) (hs : RowRel r r' s s')
    (h : stepIcdDim ω cfg P X V d s = .ok t) (h' : stepIcdDim ω' cfg P X' V d s' = .ok t') :
    RowRel r r' t t' := by
  obtain ⟨h1, h2, h3, h4⟩ := hs
  obtain ⟨m, hm, rfl⟩ := map_ok h
  obtain ⟨m', hm', rfl⟩ := map_ok h'
  have e1 := (parRows_ok hω hT Nat.one_pos hm).1 r h1
  have e2 := (parRows_ok hω' hT' Nat.one_pos hm').1 r' h2
  simp only at e1 e2
  rw [hX, h3, h4, e2] at e1
  have e3 := Except.ok.inj e1
  exact ⟨h1, h2, by simp only [Factor.setRows, h3, e3], by simp only [e3]⟩

omit hT hT' hX in
theorem foldlM_local {β : Type} (f f' : Factor K × (Nat → List ℝ) → β →
      Except Err (Factor K × (Nat → List ℝ)))
    (hf : ∀ b s s' t t', RowRel r r' s s' → f s b = .ok t → f' s' b = .ok t' → RowRel r r' t t') :
    ∀ (l : List β) (s s' t t' : Factor K × (Nat → List ℝ)), RowRel r r' s s' →
      l.foldlM f s = .ok t → l.foldlM f' s' = .ok t' → RowRel r r' t t' := by
  intro l
  induction l with
  | nil =>
    intro s s' t t' hs h h'
    simp only [List.foldlM_nil] at h h'
    cases h
    cases h'
    exact hs
  | cons b l ih =>
    intro s s' t t' hs h h'
    rw [List.foldlM_cons] at h h'
    obtain ⟨s₁, h1, h2⟩ := bind_ok h
    obtain ⟨s₁', h1', h2'⟩ := bind_ok h'
    exact ih s₁ s₁' t t' (hf b s s' s₁ s₁' hs h1 h1') h2 h2'

theorem prediction_local {ω : Oracle T} {ω' : Oracle T'} (hω : ω.Complete) (hω' : ω'.Complete)
    (F F' : Factor K) (hr : r < F.n) (hr' : r' < F'.n) (hF : F.row r = F'.row r') (p p' : Nat → List ℝ)
    (h : prediction ω X F V = .ok p) (h' : prediction ω' X' F' V = .ok p') : p r = p' r' := by
  have e1 := (parRows_ok hω hT Nat.one_pos h).1 r hr
  have e2 := (parRows_ok hω' hT' Nat.one_pos h').1 r' hr'
  simp only at e1 e2
  rw [hX, hF, e2] at e1
  exact (Except.ok.inj e1).symm

theorem stepIalspp_local {ω : Oracle T} {ω' : Oracle T'} (hω : ω.Complete) (hω' : ω'.Complete)
    (sc : SolverConfig) (F F' G G' : Factor K) (hr : r < F.n) (hr' : r' < F'.n)
    (hF : F.row r = F'.row r')
    (h : stepIalspp ω cfg sc P X V F = .ok G) (h' : stepIalspp ω' cfg sc P X' V F' = .ok G') :
    G.row r = G'.row r' := by
  unfold stepIalspp at h h'
  generalize List.range sc.iteration = l at h h'
  induction l generalizing F F' with
  | nil =>
    simp only [List.foldlM_nil] at h h'
    cases h
    cases h'
    exact hF
  | cons it l ih =>
    rw [List.foldlM_cons] at h h'
    obtain ⟨F₁, h1, h2⟩ := bind_ok h
    obtain ⟨F₁', h1', h2'⟩ := bind_ok h'
    have hrel : r < F₁.n ∧ r' < F₁'.n ∧ F₁.row r = F₁'.row r' := by
      by_cases hsub : 1 < sc.subspaceDimension
      · rw [if_pos hsub] at h1 h1'
        obtain ⟨p, hp, h3⟩ := bind_ok h1
        obtain ⟨p', hp', h3'⟩ := bind_ok h1'
        obtain ⟨s, hs, h4⟩ := bind_ok h3
        obtain ⟨s', hs', h4'⟩ := bind_ok h3'
        cases h4
        cases h4'
        have hpp := prediction_local hT hT' hX ((hω.at it).at 0) ((hω'.at it).at 0) F F' hr hr' hF p p'
          hp hp'
        have := foldlM_local (r := r) (r' := r') _ _ (fun b s s' t t' hs h h' =>
          stepDimrange_local hT hT' hX (((hω.at it).at 1).at b.1) (((hω'.at it).at 1).at b.1) b.1 b.2
            s s' t t' hs h h') _ _ _ _ _ ⟨hr, hr', hF, hpp⟩ hs hs'
        exact ⟨this.1, this.2.1, this.2.2.1⟩
      · rw [if_neg hsub] at h1 h1'
        obtain ⟨p, hp, h3⟩ := bind_ok h1
        obtain ⟨p', hp', h3'⟩ := bind_ok h1'
        obtain ⟨s, hs, h4⟩ := bind_ok h3
        obtain ⟨s', hs', h4'⟩ := bind_ok h3'
        cases h4
        cases h4'
        have hpp := prediction_local hT hT' hX ((hω.at it).at 0) ((hω'.at it).at 0) F F' hr hr' hF p p'
          hp hp'
        have := foldlM_local (r := r) (r' := r') _ _ (fun d s s' t t' hs h h' =>
          stepIcdDim_local hT hT' hX (((hω.at it).at 1).at d.val) (((hω'.at it).at 1).at d.val) d
            s s' t t' hs h h') _ _ _ _ _ ⟨hr, hr', hF, hpp⟩ hs hs'
        exact ⟨this.1, this.2.1, this.2.2.1⟩
    exact ih F₁ F₁' hrel.1 hrel.2.1 hrel.2.2 h2 h2'

theorem solverStep_local {ω : Oracle T} {ω' : Oracle T'} (hω : ω.Complete) (hω' : ω'.Complete)
    (sc : SolverConfig) (F F' G G' : Factor K) (hr : r < F.n) (hr' : r' < F'.n)
    (hF : F.row r = F'.row r')
    (h : solverStep ω cfg sc P X V F = .ok G) (h' : solverStep ω' cfg sc P X' V F' = .ok G') :
    G.row r = G'.row r' := by
  unfold solverStep at h h'
  cases hs : sc.solverType with
  | cg =>
    rw [hs] at h h'
    have h1 := (stepCg_row hω hT h).2 r hr
    have h2 := (stepCg_row hω' hT' h').2 r' hr'
    rw [hX, hF, h2] at h1
    exact (Except.ok.inj h1).symm
  | cholesky =>
    rw [hs] at h h'
    exact stepCholesky_local hω hω' hT hT' hr hr' hX h h'
  | ialspp =>
    rw [hs] at h h'
    exact stepIalspp_local hT hT' hX hω hω' sc F F' G G' hr hr' hF h h'

end pp

theorem solverStep_n {ω : Oracle T} (hω : ω.Complete) (hT : 0 < T) {cfg : Config} (ha : 0 ≤ cfg.alpha0)
    (hr : 0 ≤ cfg.reg) {sc : SolverConfig} {X : CSR ℝ} {V F F' : Factor K}
    (hX : ∀ r, r < F.n → NonNegRow (X.row r))
    (h : solverStep ω cfg sc (gramP cfg V) X V F = .ok F') : F'.n = F.n :=
  (solverStep_descent ha hr hω hT sc F F' hX h).1

/-- a row without entries that starts at zero stays at zero, whatever the solver -/
theorem solverStep_empty {ω : Oracle T} (hω : ω.Complete) (hT : 0 < T) {cfg : Config}
    (ha : 0 ≤ cfg.alpha0) (hreg : 0 ≤ cfg.reg) {sc : SolverConfig} {X : CSR ℝ} {V F F' : Factor K}
    (hX : ∀ r, r < F.n → NonNegRow (X.row r)) {r : Nat} (hr : r < F.n) (he : X.row r = [])
    (hF : F.row r = 0) (h : solverStep ω cfg sc (gramP cfg V) X V F = .ok F') : F'.row r = 0 := by
  have hb : sysRhs cfg V (X.row r) 0 = 0 := by rw [he]; simp [sysRhs]
  unfold solverStep at h
  cases hs : sc.solverType with
  | cg =>
    rw [hs] at h
    have h1 := (stepCg_row hω hT h).2 r hr
    unfold cgRow at h1
    simp only at h1
    rw [if_pos ⟨rfl, by rw [he]; rfl⟩] at h1
    exact (Except.ok.inj h1).symm
  | cholesky =>
    rw [hs] at h
    have h1 := choleskyRow_min ha hreg (hX r hr) _ ((stepCholesky_row hω hT F F' _ h).2 r hr)
    rw [hb] at h1
    by_contra hne
    have := h1.1 _ hne
    rw [h1.2, dotProduct_zero] at this
    exact lt_irrefl _ this
  | ialspp =>
    rw [hs] at h
    have h1 := (stepIalspp_progress hω hT cfg sc _ (gramP_symm cfg V) (gramP_nonneg cfg ha V)
      X V F F' hX (fun r _ => computeReg_nonneg cfg hreg ha _ _) h).2 r hr
    have h2 : quad (rowMat cfg (gramP cfg V) X V r) (sysRhs cfg V (X.row r) 0) (F.row r) = 0 := by
      rw [hF, quad, Matrix.mulVec_zero, dotProduct_zero, dotProduct_zero]; ring
    have h3 : 0 ≤ quad (rowMat cfg (gramP cfg V) X V r) (sysRhs cfg V (X.row r) 0) (F'.row r) := by
      rw [hb, quad, zero_dotProduct]
      have := rowMat_nonneg (V := V) ha hreg (hX r hr) (F'.row r)
      linarith
    have h4 := (h1.2 (le_antisymm h1.1 (by rw [h2]; exact h3))).1
    rw [h4, hF]

theorem transformUser_ok {ω : Oracle T} (hω : ω.Complete) {sc : SolverConfig} {tr : Trainer K}
    {X : CSR ℝ} {E : Factor K} (h : tr.transformUser ω sc X = .ok E) :
    0 < T ∧ X.cols = tr.item.n ∧
      solverStep (ω.at 1) tr.cfg sc (gramP tr.cfg tr.item) X tr.item ⟨X.nrows, fun _ => 0⟩ = .ok E := by
  unfold Trainer.transformUser at h
  obtain ⟨P, hP, h⟩ := bind_ok h
  have hT := pos_of_prepare hP
  rw [prepareP_eq (hω.at 0) hT] at hP
  cases hP
  unfold xToVector at h
  by_cases hc : X.cols ≠ tr.item.n
  · rw [if_pos hc] at h; cases h
  · rw [if_neg hc] at h
    exact ⟨hT, not_not.mp hc, h⟩

theorem transformItem_ok {ω : Oracle T} (hω : ω.Complete) {sc : SolverConfig} {tr : Trainer K}
    {X : CSR ℝ} {E : Factor K} (h : tr.transformItem ω sc X = .ok E) :
    0 < T ∧ X.nrows = tr.user.n ∧
      solverStep (ω.at 1) tr.cfg sc (gramP tr.cfg tr.user) (transpose X) tr.user
        ⟨(transpose X).nrows, fun _ => 0⟩ = .ok E := by
  unfold Trainer.transformItem at h
  obtain ⟨P, hP, h⟩ := bind_ok h
  have hT := pos_of_prepare hP
  rw [prepareP_eq (hω.at 0) hT] at hP
  cases hP
  unfold xToVector at h
  by_cases hc : (transpose X).cols ≠ tr.user.n
  · rw [if_pos hc] at h; cases h
  · rw [if_neg hc] at h
    exact ⟨hT, not_not.mp hc, h⟩

theorem scaleX_cols (s : Scaling) (e : ℝ) (X : CSR ℝ) : (scaleX s e X).cols = X.cols := by
  cases s <;> rfl

theorem scaleX_nrows (s : Scaling) (e : ℝ) (X : CSR ℝ) : (scaleX s e X).nrows = X.nrows := by
  cases s
  · rfl
  · simp [scaleX, CSR.nrows]

/-- the scaled values of one row -/
noncomputable def scaleRow (s : Scaling) (eps : ℝ) (row : SpVec ℝ) : SpVec ℝ :=
  match s with
  | .none => row
  | .log => row.map (fun e => (e.1, Real.log (1 + e.2 / eps)))

theorem scaleX_row (s : Scaling) (e : ℝ) (X : CSR ℝ) (u : Nat) :
    (scaleX s e X).row u = scaleRow s e (X.row u) := by
  cases s
  · rfl
  · unfold scaleX scaleRow CSR.row
    simp only
    rw [List.getD_eq_getElem?_getD, List.getD_eq_getElem?_getD, List.getElem?_map]
    cases X.rows[u]? <;> rfl

theorem scaleX_proper (s : Scaling) (e : ℝ) (X : CSR ℝ) (hX : Spec.Sim.Proper X) :
    Spec.Sim.Proper (scaleX s e X) := by
  cases s
  · exact hX
  · obtain ⟨h1, h2⟩ := hX
    constructor
    · intro row hrow e' he'
      obtain ⟨row', hr', rfl⟩ := List.mem_map.mp hrow
      obtain ⟨e'', he'', rfl⟩ := List.mem_map.mp he'
      exact h1 row' hr' e'' he''
    · intro row hrow
      obtain ⟨row', hr', rfl⟩ := List.mem_map.mp hrow
      rw [List.map_map]
      exact h2 row' hr'

theorem scaleX_nonneg (s : Scaling) (eps : ℝ) (heps : 0 < eps) (X : CSR ℝ)
    (hX : ∀ row ∈ X.rows, ∀ e ∈ row, (0 : ℝ) ≤ e.2) :
    ∀ row ∈ (scaleX s eps X).rows, ∀ e ∈ row, (0 : ℝ) ≤ e.2 := by
  cases s
  · exact hX
  · intro row hrow e he
    obtain ⟨row', hr', rfl⟩ := List.mem_map.mp hrow
    obtain ⟨e', he', rfl⟩ := List.mem_map.mp he
    apply Real.log_nonneg
    have := div_nonneg (hX row' hr' e' he') heps.le
    linarith

end Irspack.Ials
