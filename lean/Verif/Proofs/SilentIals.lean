import Verif.Proofs.RelabelIals
import Verif.Proofs.Silent

/-! Helper lemmas for C92: iALS with users who have no interactions. -/

namespace Irspack.Ials
open Spec.Silent Matrix

variable {K T T' : Nat}

/-- `F'` has the rows of `F` and `n` more -/
structure Padded (n : Nat) (F F' : Factor K) : Prop where
  size : F'.n = F.n + n
  rows : ∀ r, r < F.n → F'.row r = F.row r

/-- and the additional rows are zero -/
structure PaddedZero (n : Nat) (F F' : Factor K) : Prop extends Padded n F F' where
  zero : ∀ r, F.n ≤ r → r < F.n + n → F'.row r = 0

theorem PaddedZero.gramP {n : Nat} {V V' : Factor K} (h : PaddedZero n V V') (cfg : Config) : gramP cfg V' = gramP cfg V := by
  funext i j
  unfold Ials.gramP
  rw [h.size, Finset.sum_range_add]
  congr 1
  rw [Finset.sum_congr rfl (fun r hr => by rw [h.rows r (Finset.mem_range.mp hr)]), add_eq_left]
  apply Finset.sum_eq_zero
  intro r hr
  rw [h.zero (V.n + r) (by omega) (by have := Finset.mem_range.mp hr; omega)]
  simp

theorem Padded.ents {n : Nat} {V V' : Factor K} (h : Padded n V V') {row : SpVec ℝ} (hr : ∀ e ∈ row, e.1 < V.n) :
    ents V' row = ents V row := by
  unfold Ials.ents
  exact List.map_congr_left (fun e he => by rw [h.rows _ (hr e he)])

theorem Padded.rhs {n : Nat} {V V' : Factor K} (h : Padded n V V') {row : SpVec ℝ} (hr : ∀ e ∈ row, e.1 < V.n) (cfg : Config)
    (b : Vec K) : sysRhs cfg V' row b = sysRhs cfg V row b := by
  unfold sysRhs
  rw [List.map_congr_left (fun e he => by rw [h.rows _ (hr e he)])]

theorem computeReg_nu {cfg : Config} (hnu : cfg.nu = 0) (a b : Nat) : computeReg cfg a b = cfg.reg := by
  unfold computeReg
  rw [hnu, Real.rpow_zero, mul_one]

/-- a half-step on matrices that agree but for `n` more empty rows -/
theorem solverStep_padded {ω : Oracle T} {ω' : Oracle T'} (hω : ω.Complete) (hω' : ω'.Complete) (hT : 0 < T) (hT' : 0 < T')
    {cfg : Config} (ha : 0 ≤ cfg.alpha0) (hr : 0 < cfg.reg) (hnu : cfg.nu = 0) (sc : SolverConfig)
    (hs : sc.solverType ≠ .ialspp) {n m : Nat} {X X' : CSR ℝ} (hnn : ∀ r, NonNegRow (X.row r)) {V V' F F' : Factor K}
    (hrow : ∀ r, r < F.n → X'.row r = X.row r) (hnil : ∀ r, F.n ≤ r → X'.row r = [])
    (hV : PaddedZero m V V') (hin : ∀ r, ∀ e ∈ X.row r, e.1 < V.n) (hF : Padded n F F') :
    ∃ G G', solverStep ω cfg sc (gramP cfg V) X V F = .ok G ∧ solverStep ω' cfg sc (gramP cfg V') X' V' F' = .ok G' ∧
      G.n = F.n ∧ PaddedZero n G G' := by
  classical
  have hreg : ∀ a b, 0 < computeReg cfg a b := fun a b => by rw [computeReg_nu hnu]; exact hr
  have hnn' : ∀ r, NonNegRow (X'.row r) := by
    intro r
    by_cases h : r < F.n
    · rw [hrow r h]; exact hnn r
    · rw [hnil r (by omega)]; intro e he; cases he
  have hP := hV.gramP cfg
  -- what both solvers have in common
  have key : ∀ f f' : Nat → Vec K → Except Err (Vec K),
      (∀ r, r < F.n → f' r (F.row r) = f r (F.row r)) →
      (∀ r, r < F.n → ∃ y, f r (F.row r) = .ok y) →
      (∀ r, F.n ≤ r → r < F.n + n → ∀ x, f' r x = .ok 0) →
      ∃ G G', (parRows ω F.n 1 f F.row).map F.setRows = .ok G ∧ (parRows ω' F'.n 1 f' F'.row).map F'.setRows = .ok G' ∧
        G.n = F.n ∧ PaddedZero n G G' := by
    intro f f' h1 h2 h3
    rcases parRows_cases hω hT F.n 1 Nat.one_pos f F.row with ⟨g, hg, hg'⟩ | ⟨e, r, -, hr1, hr2⟩
    · rcases parRows_cases hω' hT' F'.n 1 Nat.one_pos f' F'.row with ⟨g2, hg2, hg2'⟩ | ⟨e, r, -, hr1, hr2⟩
      · rw [hg, hg2]
        refine ⟨_, _, rfl, rfl, rfl, ⟨⟨hF.size, fun r hr => ?_⟩, fun r hr hr' => ?_⟩⟩
        · have a1 := hg'.1 r hr
          have a2 := hg2'.1 r (by rw [hF.size]; simp only [Factor.setRows] at hr; omega)
          rw [hF.rows r hr, h1 r hr, a1] at a2
          exact (Except.ok.inj a2).symm
        · have a2 := hg2'.1 r (by rw [hF.size]; exact hr')
          rw [h3 r hr hr'] at a2
          exact (Except.ok.inj a2).symm
      · exfalso
        rw [hF.size] at hr1
        by_cases h : r < F.n
        · obtain ⟨y, hy⟩ := h2 r h
          rw [hF.rows r h, h1 r h, hy] at hr2
          cases hr2
        · rw [h3 r (by omega) hr1] at hr2
          cases hr2
    · exfalso
      obtain ⟨y, hy⟩ := h2 r hr1
      rw [hy] at hr2
      cases hr2
  unfold solverStep
  cases hsol : sc.solverType with
  | ialspp => exact absurd hsol hs
  | cholesky =>
    refine key _ _ ?_ ?_ ?_
    · intro r hr
      rw [hrow r hr, hP, choleskyRow_eq cfg _ (gramP_symm cfg V) V _ (hnn r),
        choleskyRow_eq cfg _ (gramP_symm cfg V) V' _ (hnn r), hV.ents (hin r), hV.rhs (hin r), computeReg_nu hnu,
        computeReg_nu hnu]
    · intro r _
      exact choleskyRow_total ha hr.le (hnn r) (hreg _ _)
    · intro r h _ x
      have hrow' : X'.row r = [] := hnil r h
      have hpd : PosDef (sysMat (gramP cfg V) (ents V' (X'.row r)) (computeReg cfg (X'.row r).length V'.n)) := by
        rw [← hP]
        exact rowMat_posDef ha hr.le (hnn' r) (hreg _ _)
      rw [hP, choleskyRow_eq cfg _ (gramP_symm cfg V) V' _ (hnn' r), if_pos hpd, hrow']
      congr 1
      unfold sysRhs
      simp
  | cg =>
    unfold stepCg
    rw [if_neg (by simp), if_neg (by simp)]
    refine key _ _ ?_ ?_ ?_
    · intro r hr
      simp only [Option.map_none]
      rw [hrow r hr, hP]
      by_cases hne : (none : Option (Vec K)).isNone = true ∧ (X.row r).length = 0
      · unfold cgRow
        simp only
        rw [if_pos hne, if_pos hne]
      · rw [cgRow_eq _ _ _ _ _ _ _ hne, cgRow_eq _ _ _ _ _ _ _ hne]
        simp only
        rw [hV.ents (hin r), hV.rhs (hin r), computeReg_nu hnu, computeReg_nu hnu]
    · intro r _
      exact cgRow_total ha hr.le sc none (hnn r) (hreg _ _) _
    · intro r h _ x
      unfold cgRow
      simp only
      rw [if_pos ⟨rfl, by rw [hnil r h]; rfl⟩]

/-- the invariant between epochs of the two runs -/
structure Silenced (n : Nat) (X : CSR ℝ) (tr tr' : Trainer K) : Prop where
  cfg : tr'.cfg = tr.cfg
  mat : tr.X = X
  mat' : tr'.X = withUsers n X
  Xt : tr.Xt = transpose X
  Xt' : tr'.Xt = withItems n (transpose X)
  plain : tr.featureAware = false
  plain' : tr'.featureAware = false
  nUsers : tr.user.n = X.nrows
  nItems : tr.item.n = X.cols
  user : Padded n tr.user tr'.user
  item : Padded 0 tr.item tr'.item

theorem step_silenced {ω : Oracle T} {ω' : Oracle T'} (hω : ω.Complete) (hω' : ω'.Complete) (hT : 0 < T) (hT' : 0 < T')
    (sc : SolverConfig) (hs : sc.solverType ≠ .ialspp) {n : Nat} {X : CSR ℝ} (hX : X.WF)
    (hnn : ∀ row ∈ X.rows, NonNegRow row) {tr tr' : Trainer K} (h : Silenced n X tr tr') (ha : 0 ≤ tr.cfg.alpha0)
    (hr : 0 < tr.cfg.reg) (hnu : tr.cfg.nu = 0) :
    ∃ t t', tr.step ω sc = .ok t ∧ tr'.step ω' sc = .ok t' ∧ Silenced n X t t' ∧ t.cfg = tr.cfg ∧
      PaddedZero n t.user t'.user := by
  have hitem : PaddedZero 0 tr.item tr'.item := ⟨h.item, fun r h1 h2 => absurd h2 (by omega)⟩
  obtain ⟨G, G', g1, g2, g3, g4⟩ := solverStep_padded (hω.at 0 |>.at 1) (hω'.at 0 |>.at 1) hT hT' ha hr hnu sc hs
    (X := X) (X' := withUsers n X) (n := n) (V := tr.item) (V' := tr'.item) (F := tr.user) (F' := tr'.user)
    (fun r => nonNeg_row hnn r) (fun r _ => Sim.withUsers_row n X r)
    (fun r hr => by rw [Sim.withUsers_row]; exact Sim.row_nil X (by rw [← h.nUsers]; omega))
    hitem (fun r e he => by
      rw [h.nItems]
      by_cases hr : r < X.nrows
      · exact hX _ (Sim.row_mem X hr) e he
      · rw [Sim.row_nil X hr] at he; cases he) h.user
  have hcols : (transpose X).cols = X.nrows := Sim.transpose_cols X
  obtain ⟨H, H', e1, e2, e3, e4⟩ := solverStep_padded (hω.at 1 |>.at 1) (hω'.at 1 |>.at 1) hT hT' ha hr hnu sc hs
    (X := transpose X) (X' := withItems n (transpose X)) (n := 0) (V := G) (V' := G') (F := tr.item) (F' := tr'.item)
    (fun r => nonNeg_row (transpose_nonNeg hnn) r) (fun r _ => rfl)
    (fun r hr => Sim.row_nil _ (by
      show ¬ r < (withItems n (transpose X)).nrows
      show ¬ r < (transpose X).nrows
      rw [Sim.transpose_nrows, ← h.nItems]; omega))
    g4 (fun r e he => by
      rw [g3, h.nUsers]
      by_cases hr : r < (transpose X).nrows
      · obtain ⟨i, hi, f, hf, hef⟩ := Sim.mem_transpose X (Sim.row_mem _ hr) he
        rw [hef]; exact hi
      · rw [Sim.row_nil _ hr] at he; cases he) h.item
  have s1 : tr.step ω sc = .ok { tr with user := G, item := H, epoch := tr.epoch + 1 } := by
    unfold Trainer.step Trainer.stepUser Trainer.stepItem
    simp only [h.plain, Bool.false_eq_true, false_and, if_false, bind, Except.bind]
    rw [prepareP_eq (hω.at 0 |>.at 0) hT]
    simp only [h.mat, g1, pure, Except.pure]
    rw [prepareP_eq (hω.at 1 |>.at 0) hT]
    simp only [Bool.false_eq_true, false_and, if_false, h.Xt, e1]
  have s2 : tr'.step ω' sc = .ok { tr' with user := G', item := H', epoch := tr'.epoch + 1 } := by
    unfold Trainer.step Trainer.stepUser Trainer.stepItem
    simp only [h.plain', Bool.false_eq_true, false_and, if_false, bind, Except.bind, h.cfg]
    rw [prepareP_eq (hω'.at 0 |>.at 0) hT']
    simp only [h.mat', g2, pure, Except.pure]
    rw [prepareP_eq (hω'.at 1 |>.at 0) hT']
    simp only [Bool.false_eq_true, false_and, if_false, h.Xt', e2]
  exact ⟨_, _, s1, s2, ⟨h.cfg, h.mat, h.mat', h.Xt, h.Xt', h.plain, h.plain', g3.trans h.nUsers, e3.trans h.nItems,
    g4.toPadded, e4.toPadded⟩, rfl, g4⟩

end Irspack.Ials
