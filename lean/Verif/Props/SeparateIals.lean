import Verif.Proofs.IalsCold
import Verif.Props.Separate
import Verif.Props.TwinsIals

/-!
# C96: populations that share neither users nor items, in iALS
-/

namespace Irspack.Ials
open Spec.Ials Spec.Sim Spec.Separate Irspack.Props

variable {T : Nat}

/-- each of two users has used one item of their own; the second one's value is `c` -/
def twoUsers (c : ℝ) : CSR ℝ := ⟨2, [[(0, 1)], [(1, c)]]⟩

theorem twoUsers_inside (c d : ℝ) : SameInside (twoUsers c) (twoUsers d) (· = 0) (· = 0) := by
  have ha : ∀ c, Apart (twoUsers c) (· = 0) (· = 0) := by
    rintro c (_ | _ | u) e he <;> simp [twoUsers, CSR.row] at he <;> simp [he]
  exact ⟨rfl, rfl, ha c, ha d, by rintro u rfl; rfl⟩

theorem twoUsers_transpose (c : ℝ) : transpose (twoUsers c) = twoUsers c := by
  simp [transpose, Sim.transpose, twoUsers, CSR.nrows, CSR.row, List.range_succ]

/-- one factor, `alpha0 = 1`, `reg = 1`, `nu = 0` -/
noncomputable def partsConfig : Config := ⟨1, 1, 1, 0, 1, 0, .ialspp, 0, 0, 0⟩

/-- the Cholesky solver with one factor -/
theorem cholesky_one {V : Factor 1} {P : Matrix (Fin 1) (Fin 1) ℝ} {i : Nat} {c : ℝ} (hc : 0 ≤ c) (hP : 0 ≤ P 0 0) {x : Vec 1}
    (h : choleskyRow partsConfig P V [(i, c)] = .ok x) : (P 0 0 + c * (V.row i 0 * V.row i 0) + 1) * x 0 = c * V.row i 0 := by
  rw [choleskyRow_eq partsConfig P (fun i j => by rw [Subsingleton.elim i j]) V _ (by intro e he; simp at he; rw [he]; exact hc)] at h
  have hm : sysMat P (ents V [(i, c)]) (computeReg partsConfig [(i, c)].length V.n) 0 0 = P 0 0 + c * (V.row i 0 * V.row i 0) + 1 := by
    simp [sysMat, ents, computeReg, partsConfig]
  have hr : sysRhs partsConfig V [(i, c)] 0 0 = c * V.row i 0 := by
    simp [sysRhs, bias, partsConfig]
  generalize sysMat P (ents V [(i, c)]) (computeReg partsConfig [(i, c)].length V.n) = A at *
  generalize sysRhs partsConfig V [(i, c)] 0 = b at *
  by_cases hp : PosDef A
  · rw [if_pos hp] at h
    have hx := Except.ok.inj h
    have hd : A.det ≠ 0 := by
      rw [Matrix.det_fin_one, hm]
      have := mul_nonneg hc (mul_self_nonneg (V.row i 0))
      positivity
    have : A.mulVec x = b := by
      rw [← hx, Matrix.mulVec_mulVec, Matrix.mul_nonsing_inv A (isUnit_iff_ne_zero.mpr hd), Matrix.one_mulVec]
    have := congrFun this 0
    rw [Matrix.mulVec, dotProduct, Fin.sum_univ_one, hm] at this
    rw [this, hr]
  · rw [if_neg hp] at h; cases h

/-- what one epoch makes of `twoUsers c` -/
theorem twoUsers_epoch {ω : Oracle T} (hω : ω.Complete) (hT : 0 < T) (c : ℝ) (hc : 0 < c) :
    ∃ tr' : Trainer 1, (Trainer.create partsConfig (twoUsers c) (fun _ _ => 1) (fun _ _ => 1)).step ω ⟨.cholesky, 0, 1, 1⟩ = .ok tr' ∧
      4 * tr'.user.row 0 0 = 1 ∧ (3 + c) * tr'.user.row 1 0 = c ∧
      ((tr'.user.row 0 0 * tr'.user.row 0 0 + tr'.user.row 1 0 * tr'.user.row 1 0) + tr'.user.row 0 0 * tr'.user.row 0 0 + 1) *
        tr'.item.row 0 0 = tr'.user.row 0 0 := by
  have hr : ∀ row ∈ (twoUsers c).rows, row = [(0, (1 : ℝ))] ∨ row = [(1, c)] := by
    intro row h
    simpa [twoUsers] using h
  have hv : Valid partsConfig (twoUsers c) := by
    refine ⟨⟨fun row h => ?_, fun row h => ?_⟩, fun row h => ?_, by norm_num [partsConfig], by norm_num [partsConfig]⟩ <;>
      rcases hr row h with rfl | rfl <;> simp [twoUsers, hc.le]
  have hp : ∀ X : CSR ℝ, RegPositive partsConfig X := fun X => ⟨by norm_num [partsConfig], fun _ _ => .inl rfl⟩
  obtain ⟨tr', hs, -⟩ := C42_epoch_regularised hω hT partsConfig (twoUsers c) hv (hp _) (hp _) ⟨.cholesky, 0, 1, 1⟩
    (Trainer.create partsConfig (twoUsers c) (fun _ _ => 1) (fun _ _ => 1)) (.create _ _) rfl
  refine ⟨tr', hs, ?_⟩
  unfold Trainer.step at hs
  rw [if_neg (by simp [Trainer.create])] at hs
  obtain ⟨t₁, h1, hs⟩ := bind_ok hs
  obtain ⟨t₂, h2, hs⟩ := bind_ok hs
  cases hs
  obtain ⟨-, user, h3, rfl⟩ := stepUser_plain (hω.at 0) _ _ t₁ rfl h1
  obtain ⟨-, item, h4, rfl⟩ := stepItem_plain (hω.at 1) _ _ t₂ rfl h2
  unfold solverStep at h3 h4
  simp only at h3 h4
  obtain ⟨nu, hu⟩ := stepCholesky_row ((hω.at 0).at 1) hT _ _ _ h3
  obtain ⟨ni, hi⟩ := stepCholesky_row ((hω.at 1).at 1) hT _ _ _ h4
  have hn : user.n = 2 := by rw [nu]; rfl
  have u0 := hu 0 (by simp [Trainer.create, twoUsers, CSR.nrows])
  have u1 := hu 1 (by simp [Trainer.create, twoUsers, CSR.nrows])
  have i0 := hi 0 (by simp [Trainer.create, twoUsers])
  have eX : (Trainer.create (K := 1) partsConfig (twoUsers c) (fun _ _ => 1) (fun _ _ => 1)).X = twoUsers c := rfl
  have eXt : (Trainer.create (K := 1) partsConfig (twoUsers c) (fun _ _ => 1) (fun _ _ => 1)).Xt = twoUsers c := by
    show transpose (twoUsers c) = _
    rw [twoUsers_transpose]
  have eV : (Trainer.create (K := 1) partsConfig (twoUsers c) (fun _ _ => 1) (fun _ _ => 1)).item = ⟨2, fun _ _ => 1⟩ := rfl
  have ec : (Trainer.create (K := 1) partsConfig (twoUsers c) (fun _ _ => 1) (fun _ _ => 1)).cfg = partsConfig := rfl
  simp only [eX, eXt, eV, ec] at u0 u1 i0
  rw [show (twoUsers c).row 0 = [(0, 1)] from rfl] at u0 i0
  rw [show (twoUsers c).row 1 = [(1, c)] from rfl] at u1
  have g1 : gramP partsConfig (⟨2, fun _ _ => 1⟩ : Factor 1) 0 0 = 2 := by
    norm_num [gramP, partsConfig]
  have g2 : gramP partsConfig user 0 0 = user.row 0 0 * user.row 0 0 + user.row 1 0 * user.row 1 0 := by
    simp [gramP, partsConfig, hn, Finset.sum_range_succ]
  have k0 := cholesky_one zero_le_one (by rw [g1]; norm_num) u0
  have k1 := cholesky_one hc.le (by rw [g1]; norm_num) u1
  have k2 := cholesky_one zero_le_one (by
    rw [g2]; exact add_nonneg (mul_self_nonneg _) (mul_self_nonneg _)) i0
  rw [g1] at k0 k1
  rw [g2] at k2
  simp only at k0 k1 k2
  refine ⟨by linarith, by linarith, by simpa using k2⟩

/-- C96 fails for iALS: the Gram matrix of all the embeddings takes part in every update, so what the others do
changes the scores of our users even when both data sets are trained from the same initial embeddings. -/
theorem C96_ials_counterexample {ω : Oracle T} (hω : ω.Complete) (hT : 0 < T) :
    ∃ (cfg : Config) (X X' : CSR ℝ) (A B : Nat → Fin 1 → ℝ) (tr tr' : Trainer 1), SameInside X X' (· = 0) (· = 0) ∧
      (Trainer.create cfg X A B).step ω ⟨.cholesky, 0, 1, 1⟩ = .ok tr ∧
      (Trainer.create cfg X' A B).step ω ⟨.cholesky, 0, 1, 1⟩ = .ok tr' ∧
      Spec.Ials.score (tr.user.row 0) (tr.item.row 0) = 1 / 19 ∧
      Spec.Ials.score (tr'.user.row 0) (tr'.item.row 0) = 25 / 514 := by
  obtain ⟨tr, h1, h2, h3, h4⟩ := twoUsers_epoch hω hT 1 one_pos
  obtain ⟨tr', h1', h2', h3', h4'⟩ := twoUsers_epoch hω hT 2 two_pos
  refine ⟨partsConfig, _, _, _, _, tr, tr', twoUsers_inside 1 2, h1, h1', ?_, ?_⟩
  · have e1 : tr.user.row 0 0 = 1 / 4 := by linarith
    have e2 : tr.user.row 1 0 = 1 / 4 := by linarith
    rw [e1, e2] at h4
    simp only [Spec.Ials.score, dotProduct, Fin.sum_univ_one]
    rw [e1]
    linarith
  · have e1 : tr'.user.row 0 0 = 1 / 4 := by linarith
    have e2 : tr'.user.row 1 0 = 2 / 5 := by linarith
    rw [e1, e2] at h4'
    simp only [Spec.Ials.score, dotProduct, Fin.sum_univ_one]
    rw [e1]
    linarith

end Irspack.Ials
