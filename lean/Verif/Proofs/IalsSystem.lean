import Verif.Proofs.IalsTrainer

/-!
# The linear system of a row, in the words of the specification
-/

namespace Irspack.Ials

open Spec.Ials Matrix

variable {K T : Nat}

open Classical in
theorem sum_filter_entries (X : CSR ℝ) (hX : Spec.Sim.Proper X) (u : Nat) (g : Nat → ℝ → ℝ) :
    ∑ i ∈ (Finset.range (Data.ofCSR X).I).filter (fun i => (Data.ofCSR X).S u i),
      g i ((Data.ofCSR X).X u i) = ((X.row u).map (fun e => g e.1 e.2)).sum := by
  rw [sum_entries (X.row u) X.cols (Sim.row_nodup hX u) (Sim.row_bound hX u) g, Finset.sum_filter]
  exact Finset.sum_congr rfl (fun i _ => if_congr Iff.rfl rfl rfl)

theorem systemRhs_eq (cfg : Config) (X : CSR ℝ) (hX : Spec.Sim.Proper X) (V : Factor K) (u : Nat) :
    systemRhs (paramsOf cfg) (Data.ofCSR X) V.row u = sysRhs cfg V (X.row u) 0 := by
  classical
  funext k
  unfold systemRhs
  rw [bias_eq]
  refine (sum_filter_entries X hX u (fun i c => (c + bias cfg) * V.row i k)).trans ?_
  unfold sysRhs
  rw [zero_add, listSum_apply]
  congr 1
  apply List.map_congr_left
  intro e _
  simp only [Pi.smul_apply, smul_eq_mul]
  ring

theorem systemAt_eq (cfg : Config) (X : CSR ℝ) (hX : Spec.Sim.Proper X) (V : Factor K)
    (hV : V.n = X.cols) (u : Nat) (x : Vec K) :
    systemAt (paramsOf cfg) (Data.ofCSR X) V.row u x =
      (rowMat cfg (gramP cfg V) X V u).mulVec x := by
  classical
  funext k
  unfold systemAt rowMat
  rw [sysMat_mulVec, Pi.add_apply, Pi.add_apply, weight_ofCSR cfg X hX, hV]
  congr 1
  · congr 1
    · rw [gramP_mulVec, Pi.smul_apply, smul_eq_mul, Finset.sum_apply, hV]
      rfl
    · refine (sum_filter_entries X hX u (fun i c => c * score (V.row i) x * V.row i k)).trans ?_
      rw [listSum_apply]
      unfold ents
      rw [List.map_map]
      rfl

theorem system_residual (cfg : Config) (X : CSR ℝ) (hX : Spec.Sim.Proper X) (V : Factor K)
    (hV : V.n = X.cols) (u : Nat) (x : Vec K) :
    normSq (systemRhs (paramsOf cfg) (Data.ofCSR X) V.row u -
      systemAt (paramsOf cfg) (Data.ofCSR X) V.row u x) =
    (sysRhs cfg V (X.row u) 0 - (rowMat cfg (gramP cfg V) X V u).mulVec x) ⬝ᵥ
      (sysRhs cfg V (X.row u) 0 - (rowMat cfg (gramP cfg V) X V u).mulVec x) := by
  rw [systemRhs_eq cfg X hX, systemAt_eq cfg X hX V hV, normSq_eq]

/-- a small residual means a small distance -/
theorem distance_of_residual {A : Matrix (Fin K) (Fin K) ℝ} {lam eps : ℝ} (hl : 0 ≤ lam)
    (hA : ∀ x : Vec K, lam * (x ⬝ᵥ x) ≤ x ⬝ᵥ A.mulVec x) {b x y : Vec K} (hx : A.mulVec x = b)
    (hy : (b - A.mulVec y) ⬝ᵥ (b - A.mulVec y) ≤ eps) :
    lam ^ 2 * ((x - y) ⬝ᵥ (x - y)) ≤ eps := by
  have h1 := hA (x - y)
  rw [Matrix.mulVec_sub, hx] at h1
  set d := x - y with hd
  set r := b - A.mulVec y with hr
  have hcs : (d ⬝ᵥ r) ^ 2 ≤ (d ⬝ᵥ d) * (r ⬝ᵥ r) := by
    have := Finset.sum_mul_sq_le_sq_mul_sq Finset.univ d r
    simp only [dotProduct]
    calc (∑ i, d i * r i) ^ 2 ≤ (∑ i, d i ^ 2) * ∑ i, r i ^ 2 := this
      _ = _ := by simp only [sq]
  have hd0 := dot_self_nonneg d
  rcases eq_or_lt_of_le hd0 with h0 | h0
  · rw [← h0, mul_zero]
    exact le_trans (dot_self_nonneg r) hy
  · have h2 : (lam * (d ⬝ᵥ d)) ^ 2 ≤ (d ⬝ᵥ d) * (r ⬝ᵥ r) :=
      le_trans (pow_le_pow_left₀ (mul_nonneg hl hd0) h1 2) hcs
    have h3 : lam ^ 2 * (d ⬝ᵥ d) * (d ⬝ᵥ d) ≤ (r ⬝ᵥ r) * (d ⬝ᵥ d) := by nlinarith
    exact le_trans (le_of_mul_le_mul_right h3 h0) hy

theorem rowMat_lower {cfg : Config} (ha : 0 ≤ cfg.alpha0) {X : CSR ℝ} {V : Factor K} {r : Nat}
    (hX : NonNegRow (X.row r)) (x : Vec K) :
    computeReg cfg (X.row r).length V.n * (x ⬝ᵥ x) ≤
      x ⬝ᵥ (rowMat cfg (gramP cfg V) X V r).mulVec x := by
  unfold rowMat
  rw [sysMat_quad]
  have h1 := gramP_nonneg cfg ha V x
  have h2 : 0 ≤ ((ents V (X.row r)).map (fun e => e.2 * (e.1 ⬝ᵥ x) ^ 2)).sum := by
    apply List.sum_nonneg
    intro z hz
    obtain ⟨e, he, rfl⟩ := List.mem_map.mp hz
    exact mul_nonneg (ents_nonneg hX e he) (sq_nonneg _)
  linarith

theorem cgRow_residual {cfg : Config} (ha : 0 ≤ cfg.alpha0) (hr : 0 ≤ cfg.reg) {X : CSR ℝ} {V : Factor K}
    (sc : SolverConfig) (hs : K ≤ cgMaxIter K sc) {r : Nat} (x y : Vec K)
    (h : cgRow cfg sc (gramP cfg V) V none (X.row r) x = .ok y) :
    (sysRhs cfg V (X.row r) 0 - (rowMat cfg (gramP cfg V) X V r).mulVec y) ⬝ᵥ
      (sysRhs cfg V (X.row r) 0 - (rowMat cfg (gramP cfg V) X V r).mulVec y) ≤ cgEps := by
  have heps : (0 : ℝ) ≤ cgEps := by unfold cgEps; positivity
  by_cases he : (none : Option (Vec K)).isNone = true ∧ (X.row r).length = 0
  · unfold cgRow at h
    simp only at h
    rw [if_pos he] at h
    cases h
    have : X.row r = [] := List.length_eq_zero_iff.mp he.2
    rw [this]
    simpa [sysRhs] using heps
  · rw [cgRow_eq cfg sc _ V none _ x he] at h
    simp only [priorRhs] at h
    exact cgLoop_exact _ (rowMat_symm ha hr r) _ x cgEps heps _ hs y h

theorem stepCg_row {ω : Oracle T} (hω : ω.Complete) (hT : 0 < T) {cfg : Config} {sc : SolverConfig}
    {P : Matrix (Fin K) (Fin K) ℝ} {X : CSR ℝ} {V : Factor K} {F F' : Factor K}
    (h : stepCg ω cfg sc P X V none F = .ok F') :
    F'.n = F.n ∧ ∀ r, r < F.n → cgRow cfg sc P V none (X.row r) (F.row r) = .ok (F'.row r) := by
  unfold stepCg at h
  rw [if_neg (by simp)] at h
  obtain ⟨m, hm, rfl⟩ := map_ok h
  have := (parRows_ok hω hT Nat.one_pos hm).1
  exact ⟨rfl, fun r hr => this r hr⟩

theorem gramP_zero {cfg : Config} (h : cfg.alpha0 = 0) (V : Factor K) : gramP cfg V = 0 := by
  apply Matrix.ext
  intro i j
  simp [gramP, h]

theorem not_posDef_zero {ι : Type} [Fintype ι] [Nonempty ι] : ¬ PosDef (0 : Matrix ι ι ℝ) := by
  intro h
  have := h (fun _ => 1) (by
    intro h0
    have := congrFun h0 (Classical.arbitrary ι)
    simp at this)
  rw [Matrix.zero_mulVec, dotProduct_zero] at this
  exact lt_irrefl _ this

end Irspack.Ials
