import Verif.Props.RelabelIals
import Verif.Proofs.IalsCold
import Verif.Props.Twins

/-!
# C95: users with the same history and items with the same audience in iALS
-/

namespace Irspack.Ials
open Spec.Relabel Spec.Ials Spec.Twins Spec.Sim Irspack.Props

variable {K T : Nat}

theorem facRel_id {n : Nat} {V : Factor K} (h : V.n = n) : FacRel n (fun i => i) V V := ⟨h, h, fun _ _ => rfl⟩

theorem nonNegRow_of {X : CSR ℝ} (hnn : ∀ row ∈ X.rows, ∀ e ∈ row, (0 : ℝ) ≤ e.2) (u : Nat) : NonNegRow (X.row u) := by
  by_cases hu : u < X.nrows
  · exact hnn _ (Sim.row_mem X hu)
  · rw [Sim.row_nil X hu]; intro e he; cases he

/-- what the Cholesky solver leaves in two rows with the same values is the same -/
theorem cholesky_alike {ω : Oracle T} (hω : ω.Complete) (hT : 0 < T) {cfg : Config} {X : CSR ℝ} (hX : Proper X)
    (hz : NoStoredZero X) (hnn : ∀ row ∈ X.rows, ∀ e ∈ row, (0 : ℝ) ≤ e.2) {V F F' : Factor K} (hV : V.n = X.cols)
    (hF : F.n = X.nrows) (h : stepCholesky ω cfg (gramP cfg V) X V F = .ok F') {u v : Nat} (hu : u < X.nrows)
    (hv : v < X.nrows) (huv : SameHistory X u v) : F'.row u = F'.row v := by
  obtain ⟨-, hr⟩ := stepCholesky_row hω hT F F' _ h
  have h1 := hr u (by rw [hF]; exact hu)
  have h2 := hr v (by rw [hF]; exact hv)
  have hS := sameSystem (renamed_users hu hv huv) hX hX hz hz (facRel_id hV) hu
  rw [exchange_left] at hS
  rw [choleskyRow_eq cfg _ (gramP_symm cfg V) V _ (nonNegRow_of hnn u)] at h1
  rw [choleskyRow_eq cfg _ (gramP_symm cfg V) V _ (nonNegRow_of hnn v), hS.length, hS.mat, hS.rhs, h1] at h2
  exact Except.ok.inj h2

theorem sameAudience_transpose {X : CSR ℝ} (hX : Proper X) {i j : Nat} (h : SameAudience X i j) :
    SameHistory (transpose X) i j := by
  intro u hu
  rw [Sim.transpose_cols] at hu
  rw [Sim.transpose_get X hX, Sim.transpose_get X hX, h u hu]

/-- C95 (iALS, Cholesky solver).  After any epoch of a trainer without features, whatever its state was before, users
with the same history have the same embedding, and items with the same audience have the same embedding. -/
theorem C95_ials_cholesky {ω : Oracle T} (hω : ω.Complete) (cfg : Config) (X : CSR ℝ) (hv : Valid cfg X)
    (hz : NoStoredZero X) (sc : SolverConfig) (hsc : sc.solverType = .cholesky) (tr tr' : Trainer K)
    (hr : tr.Reached cfg X) (hf : tr.featureAware = false) (hs : tr.step ω sc = .ok tr') :
    (∀ u v, u < X.nrows → v < X.nrows → SameHistory X u v → tr'.user.row u = tr'.user.row v) ∧
    (∀ i j, i < X.cols → j < X.cols → SameAudience X i j → tr'.item.row i = tr'.item.row j) := by
  obtain ⟨hg, hc, hx⟩ := reached_good hv hr
  unfold Trainer.step at hs
  rw [if_neg (by simp [hf])] at hs
  obtain ⟨t₁, h1, hs⟩ := bind_ok hs
  obtain ⟨t₂, h2, hs⟩ := bind_ok hs
  cases hs
  obtain ⟨hT, user, h3, rfl⟩ := stepUser_plain (hω.at 0) sc tr t₁ hf h1
  obtain ⟨-, item, h4, rfl⟩ := stepItem_plain (hω.at 1) sc { tr with user := user } t₂ hf h2
  have hn : user.n = X.nrows := by
    rw [(solverStep_descent (hc ▸ hv.alpha0) (hc ▸ hv.reg) ((hω.at 0).at 1) hT sc _ _
      (fun r _ => nonNegRow_of (hx ▸ hv.nonneg) r) h3).1, hg.un, hx]
  unfold solverStep at h3 h4
  rw [hsc] at h3 h4
  simp only [hc, hx, hg.Xt] at h3 h4
  refine ⟨fun u v hu hv' h => ?_, fun i j hi hj h => ?_⟩
  · exact cholesky_alike ((hω.at 0).at 1) hT hv.proper hz hv.nonneg (by rw [hg.vn, hx]) (by rw [hg.un, hx]) h3 hu hv' h
  · exact cholesky_alike ((hω.at 1).at 1) hT (Sim.transpose_proper X hv.proper) (Sim.transpose_noZero X hz)
      (transpose_nonNeg hv.nonneg) (by rw [hn]; rfl) (by rw [Sim.transpose_nrows, hg.vn, hx]) h4
      (by rw [Sim.transpose_nrows]; exact hi) (by rw [Sim.transpose_nrows]; exact hj) (sameAudience_transpose hv.proper h)

/-- C95 (iALS, new users).  Whatever the solver, new users with the same history get the same embedding, so the same
scores. -/
theorem C95_ials_new_users {ω : Oracle T} (hω : ω.Complete) (cfg : Config) (X Y : CSR ℝ) (hv : Valid cfg X)
    (hY : Valid cfg Y) (hz : NoStoredZero Y) (sc : SolverConfig) (tr : Trainer K) (hr : tr.Reached cfg X) (E : Factor K)
    (hE : tr.transformUser ω sc Y = .ok E) (u v : Nat) (hu : u < Y.nrows) (hv' : v < Y.nrows) (h : SameHistory Y u v) :
    E.row u = E.row v := by
  obtain ⟨hg, hc, hx⟩ := reached_good hv hr
  obtain ⟨hT, hcols, hs⟩ := transformUser_ok hω hE
  rw [hc] at hs
  have := solverStep_rel (hω.at 1) (hω.at 1) hT hT (renamed_users hu hv' h) hY.proper hY.proper hz hz hY.nonneg hY.nonneg
    hY.reg hY.alpha0 (facRel_id (V := tr.item) hcols.symm) sc (F := ⟨Y.nrows, fun _ => 0⟩) (F' := ⟨Y.nrows, fun _ => 0⟩)
    ⟨rfl, rfl, fun _ _ => rfl⟩
  rw [hs] at this
  cases this with
  | ok hr =>
    have := hr.rows u hu
    rw [exchange_left] at this
    exact this.symm

/-- C95 (iALS, every solver).  If two users with the same history start with the same embedding, they have the same
embedding after any number of epochs; so do items with the same audience.  (As the initial embeddings are random,
this is what a user can expect of the solvers that stop before the optimum only in the limit.) -/
theorem C95_ials_training (cfg : Config) (X : CSR ℝ) (hv : Valid cfg X) (hz : NoStoredZero X)
    (A B : Nat → Fin K → ℝ) (sc : Nat → SolverConfig) (tr : Nat → Trainer K) (hrun : TrainingRun cfg X sc tr)
    (h0 : tr 0 = Trainer.create cfg X A B) (n : Nat) :
    (∀ u v, u < X.nrows → v < X.nrows → SameHistory X u v → A u = A v → (tr n).user.row u = (tr n).user.row v) ∧
    (∀ i j, i < X.cols → j < X.cols → SameAudience X i j → B i = B j → (tr n).item.row i = (tr n).item.row j) := by
  have ex : ∀ (C : Nat → Fin K → ℝ) (a b : Nat), C a = C b → ∀ k, C (exchange a b k) = C k := by
    intro C a b e k
    unfold exchange; split_ifs with h1 h2
    · rw [h1, e]
    · rw [h2, e]
    · rfl
  refine ⟨fun u v hu hv' h e => ?_, fun i j hi hj h e => ?_⟩
  · have := (C87_ials_training cfg (renamed_users hu hv' h) hv hv hz hz A B A B (fun k _ => ex A u v e k) (fun _ _ => rfl)
      sc tr tr hrun hrun h0 h0 n).1 u hu
    rw [exchange_left] at this
    exact this.symm
  · have := (C87_ials_training cfg (renamed_items hi hj h) hv hv hz hz A B A B (fun _ _ => rfl) (fun k _ => ex B i j e k)
      sc tr tr hrun hrun h0 h0 n).2.1 i hi
    rw [exchange_left] at this
    exact this.symm

/-- two users who have interacted with one item -/
def twinUsers : CSR ℝ := ⟨1, [[(0, 1)], [(0, 1)]]⟩

/-- the trainer's configuration of the counterexample: two factors, no `alpha0`, `reg = 1` -/
noncomputable def twinConfig : Config := ⟨2, 0, 1, 0, 1, 0, .ialspp, 0, 0, 0⟩

/-- C95 fails for the conjugate-gradient solver, the default, when it stops before the optimum: the users' initial
embeddings are random and so differ, and the trained embeddings of users with the same history differ too. -/
theorem C95_ials_cg_counterexample {ω : Oracle T} (hω : ω.Complete) (hT : 0 < T) :
    ∃ (cfg : Config) (X : CSR ℝ) (A B : Nat → Fin 2 → ℝ) (tr' : Trainer 2), Valid cfg X ∧ 0 < cfg.reg ∧ NoStoredZero X ∧
      SameHistory X 0 1 ∧ (Trainer.create cfg X A B).step ω ⟨.cg, 1, 1, 1⟩ = .ok tr' ∧
      tr'.user.row 0 = ![1 / 2, 0] ∧ tr'.user.row 1 = ![2 / 3, 1 / 3] := by
  have hr : ∀ row ∈ twinUsers.rows, row = [(0, (1 : ℝ))] := by
    intro row h
    simpa [twinUsers] using h
  have hv : Valid twinConfig twinUsers := by
    refine ⟨⟨fun row h => ?_, fun row h => ?_⟩, fun row h => ?_, by norm_num [twinConfig], by norm_num [twinConfig]⟩ <;>
      rw [hr row h] <;> simp [twinUsers]
  have hz : NoStoredZero twinUsers := fun row h => by rw [hr row h]; simp
  have hp : ∀ X : CSR ℝ, RegPositive twinConfig X := fun X => ⟨by norm_num [twinConfig], fun _ _ => .inl rfl⟩
  let A : Nat → Fin 2 → ℝ := fun u => if u = 0 then 0 else ![0, 1]
  let B : Nat → Fin 2 → ℝ := fun _ => ![1, 0]
  obtain ⟨tr', hs, -⟩ := C42_epoch_regularised hω hT twinConfig twinUsers hv (hp _) (hp _) ⟨.cg, 1, 1, 1⟩
    (Trainer.create twinConfig twinUsers A B) (.create A B) rfl
  refine ⟨twinConfig, twinUsers, A, B, tr', hv, by norm_num [twinConfig], hz, fun i _ => by simp [twinUsers, CSR.get, CSR.row],
    hs, ?_⟩
  unfold Trainer.step at hs
  rw [if_neg (by simp [Trainer.create])] at hs
  obtain ⟨t₁, h1, hs⟩ := bind_ok hs
  obtain ⟨t₂, h2, hs⟩ := bind_ok hs
  cases hs
  obtain ⟨-, user, h3, rfl⟩ := stepUser_plain (hω.at 0) _ _ t₁ rfl h1
  obtain ⟨-, item, h4, rfl⟩ := stepItem_plain (hω.at 1) _ _ t₂ rfl h2
  have hrow := (stepCg_row ((hω.at 0).at 1) hT h3).2
  have hP : gramP twinConfig (Trainer.create twinConfig twinUsers A B).item = 0 := by
    funext i j
    simp [gramP, twinConfig]
  have e0 := hrow 0 (by simp [Trainer.create, twinUsers, CSR.nrows])
  have e1 := hrow 1 (by simp [Trainer.create, twinUsers, CSR.nrows])
  have hc : (Trainer.create twinConfig twinUsers A B).cfg = twinConfig := rfl
  rw [hc, hP] at e0 e1
  have c0 : cgRow twinConfig ⟨.cg, 1, 1, 1⟩ 0 (Trainer.create twinConfig twinUsers A B).item none
      ((Trainer.create twinConfig twinUsers A B).X.row 0) ((Trainer.create twinConfig twinUsers A B).user.row 0) =
      .ok ![1 / 2, 0] := by
    norm_num [cgRow, computeReg, bias, twinConfig, cgMaxIter, cgLoop, cgEps, applyA, dotProduct, Fin.sum_univ_two,
      Trainer.create, twinUsers, CSR.row, A, B]
  have c1 : cgRow twinConfig ⟨.cg, 1, 1, 1⟩ 0 (Trainer.create twinConfig twinUsers A B).item none
      ((Trainer.create twinConfig twinUsers A B).X.row 1) ((Trainer.create twinConfig twinUsers A B).user.row 1) =
      .ok ![2 / 3, 1 / 3] := by
    norm_num [cgRow, computeReg, bias, twinConfig, cgMaxIter, cgLoop, cgEps, applyA, dotProduct, Fin.sum_univ_two,
      Trainer.create, twinUsers, CSR.row, A, B]
  exact ⟨Except.ok.inj (e0.symm.trans c0), Except.ok.inj (e1.symm.trans c1)⟩

/-- a case that meets the hypotheses of `C95_ials_cholesky` -/
example {ω : Oracle T} (hω : ω.Complete) (hT : 0 < T) : ∃ tr' : Trainer 2,
    (Trainer.create twinConfig twinUsers (fun u => ![u, 1]) (fun _ => ![1, 0])).step ω ⟨.cholesky, 0, 1, 1⟩ = .ok tr' ∧
    tr'.user.row 0 = tr'.user.row 1 := by
  have hr : ∀ row ∈ twinUsers.rows, row = [(0, (1 : ℝ))] := by
    intro row h
    simpa [twinUsers] using h
  have hv : Valid twinConfig twinUsers := by
    refine ⟨⟨fun row h => ?_, fun row h => ?_⟩, fun row h => ?_, by norm_num [twinConfig], by norm_num [twinConfig]⟩ <;>
      rw [hr row h] <;> simp [twinUsers]
  have hp : ∀ X : CSR ℝ, RegPositive twinConfig X := fun X => ⟨by norm_num [twinConfig], fun _ _ => .inl rfl⟩
  obtain ⟨tr', hs, -⟩ := C42_epoch_regularised hω hT twinConfig twinUsers hv (hp _) (hp _) ⟨.cholesky, 0, 1, 1⟩
    (Trainer.create twinConfig twinUsers (fun u => ![u, 1]) (fun _ => ![1, 0])) (.create _ _) rfl
  exact ⟨tr', hs, (C95_ials_cholesky hω twinConfig twinUsers hv (fun row h => by rw [hr row h]; simp) _ rfl _ tr' (.create _ _)
    rfl hs).1 0 1 (by simp [twinUsers, CSR.nrows]) (by simp [twinUsers, CSR.nrows])
    (fun i _ => by simp [twinUsers, CSR.get, CSR.row])⟩

end Irspack.Ials
