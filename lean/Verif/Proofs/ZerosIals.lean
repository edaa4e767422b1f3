import Verif.Proofs.RelabelIals
import Verif.Proofs.SilentIals
import Verif.Proofs.Zeros

/-! Helper lemmas for C94: iALS on matrices in which zeros are stored. -/

namespace Irspack.Ials
open Spec.Ials Spec.Zeros Matrix

variable {K T T' : Nat}

/-- row by row, for states of which also the rows outside the range are related -/
theorem parRows_alike {A A' : Type} {ω : Oracle T} {ω' : Oracle T'} (hω : ω.Complete) (hω' : ω'.Complete) (hT : 0 < T)
    (hT' : 0 < T') (n : Nat) (f : Nat → A → Except Err A) (f' : Nat → A' → Except Err A') (m : Nat → A) (m' : Nat → A')
    (R : Nat → A → A' → Prop) (h : ∀ r, r < n → RelE (R r) (f r (m r)) (f' r (m' r)))
    (h0 : ∀ r, n ≤ r → R r (m r) (m' r)) :
    RelE (fun a a' => ∀ r, R r (a r) (a' r)) (parRows ω n 1 f m) (parRows ω' n 1 f' m') := by
  rcases parRows_cases hω hT n 1 one_pos f m with ⟨m₁, h1, h2⟩ | ⟨e, r, h1, h2, h3⟩
  · rcases parRows_cases hω' hT' n 1 one_pos f' m' with ⟨m₂, h1', h2'⟩ | ⟨e, r, h1', h2', h3'⟩
    · rw [h1, h1']
      refine .ok (fun r => ?_)
      by_cases hr : r < n
      · have := h r hr
        rw [h2.1 r hr, h2'.1 r hr] at this
        cases this; assumption
      · rw [h2.2 r (by omega), h2'.2 r (by omega)]
        exact h0 r (by omega)
    · have := h r h2'
      rw [h2.1 r h2', h3'] at this
      cases this
  · rcases parRows_cases hω' hT' n 1 one_pos f' m' with ⟨m₂, h1', h2'⟩ | ⟨e', r', h1', h2', h3'⟩
    · have := h r h2
      rw [h3, h2'.1 r h2] at this
      cases this
    · rw [h1, h1']; exact .error _ _

/-- two rows with the same systems -/
structure Alike (cfg : Config) (V : Factor K) (row row' : SpVec ℝ) : Prop where
  reg : computeReg cfg row'.length V.n = computeReg cfg row.length V.n
  mat : ∀ (P : Matrix (Fin K) (Fin K) ℝ) (d : ℝ), sysMat P (ents V row') d = sysMat P (ents V row) d
  rhs : ∀ b : Vec K, sysRhs cfg V row' b = sysRhs cfg V row b
  block : ∀ (lo hi : Nat) (P : Matrix (Dims K lo hi) (Dims K lo hi) ℝ) (d : ℝ),
    sysMat P (blockEnts V row') d = sysMat P (blockEnts V row) d

theorem alike_kept {cfg : Config} (hnu : cfg.nu = 0) (hl : cfg.lossType = .ialspp) (V : Factor K) (row : SpVec ℝ) :
    Alike cfg V row (kept row) where
  reg := by rw [computeReg_nu hnu, computeReg_nu hnu]
  mat := by
    intro P d
    funext i j
    unfold sysMat ents
    rw [List.map_map, List.map_map]
    rw [Sim.kept_sum ((fun e : Vec K × ℝ => e.2 * (e.1 i * e.1 j)) ∘ fun e : Nat × ℝ => (V.row e.1, e.2))
      (fun _ => by simp)]
  rhs := by
    intro b
    unfold sysRhs
    rw [Sim.kept_sum (fun e : Nat × ℝ => (bias cfg + e.2) • V.row e.1) (fun _ => by simp [bias, hl])]
  block := by
    intro lo hi P d
    funext i j
    unfold sysMat blockEnts
    rw [List.map_map, List.map_map]
    rw [Sim.kept_sum (M := ℝ) _ (fun _ => by simp)]

section
variable {ω : Oracle T} {ω' : Oracle T'} (hω : ω.Complete) (hω' : ω'.Complete) (hT : 0 < T) (hT' : 0 < T')
  {X X' : CSR ℝ} {cfg : Config} {V : Factor K} (h : ∀ r, Alike cfg V (X.row r) (X'.row r))
  (hnn : ∀ r, NonNegRow (X.row r)) (hnn' : ∀ r, NonNegRow (X'.row r)) (hreg : 0 ≤ cfg.reg) (ha : 0 ≤ cfg.alpha0)
include hω hω' hT hT' h hnn hnn' hreg ha

theorem stepDimrange_alike (lo hi : Nat) (s s' : Factor K × (Nat → List ℝ))
    (hs : s'.1 = s.1 ∧ PredsOk X V s ∧ PredsOk X' V s') :
    RelE (fun s s' => s'.1 = s.1 ∧ PredsOk X V s ∧ PredsOk X' V s') (stepDimrange ω cfg (gramP cfg V) X V lo hi s)
      (stepDimrange ω' cfg (gramP cfg V) X' V lo hi s') := by
  obtain ⟨h1, h2, h3⟩ := hs
  have hP := gramP_symm cfg V
  have hrel : RelE (fun a a' => ∀ r, (a' r).1 = (a r).1)
      (parRows ω s.1.n 1 (fun r y => dimrangeRow cfg (gramP cfg V) V lo hi (X.row r) (s.1.row r) y)
        (fun r => (fun i => s.1.row r i.1, s.2 r)))
      (parRows ω' s'.1.n 1 (fun r y => dimrangeRow cfg (gramP cfg V) V lo hi (X'.row r) (s'.1.row r) y)
        (fun r => (fun i => s'.1.row r i.1, s'.2 r))) := by
    rw [h1]
    refine parRows_alike hω hω' hT hT' _ _ _ _ _ (fun _ (a b : (Dims K lo hi → ℝ) × List ℝ) => b.1 = a.1) ?_
      (fun _ _ => rfl)
    intro r hr
    have h3r := h3 r (by rw [h1]; exact hr)
    rw [h1] at h3r
    rw [h2 r hr, h3r, dimrangeRow_eq cfg _ hP V lo hi _ (hnn r), dimrangeRow_eq cfg _ hP V lo hi _ (hnn' r)]
    simp only
    have hb := (h r).block lo hi (fun i j : Dims K lo hi => gramP cfg V i.1 j.1) (computeReg cfg (X.row r).length V.n)
    rw [(h r).reg, (h r).mat, (h r).rhs, hb]
    split
    · exact .ok rfl
    · exact .error _ _
  have hok := fun s₁ (hs1 : stepDimrange ω cfg (gramP cfg V) X V lo hi s = .ok s₁) =>
    (stepDimrange_progress hω hT cfg _ hP X V lo hi s s₁ (fun r _ => hnn r) h2 hs1).2
  have hok' := fun s₁ (hs1 : stepDimrange ω' cfg (gramP cfg V) X' V lo hi s' = .ok s₁) =>
    (stepDimrange_progress hω' hT' cfg _ hP X' V lo hi s' s₁ (fun r _ => hnn' r) h3 hs1).2
  exact hrel.map (S := fun s s' => s'.1 = s.1 ∧ PredsOk X V s ∧ PredsOk X' V s')
    (f := fun m => (s.1.setRows (fun r k => if h : lo ≤ k.val ∧ k.val < hi then (m r).1 ⟨k, h⟩
      else s.1.row r k), fun r => (m r).2))
    (f' := fun m => (s'.1.setRows (fun r k => if h : lo ≤ k.val ∧ k.val < hi then (m r).1 ⟨k, h⟩
      else s'.1.row r k), fun r => (m r).2)) (by
      intro a a' haa e1 e2
      refine ⟨?_, hok _ ?_, hok' _ ?_⟩
      · simp only [haa, h1]
      · unfold stepDimrange; rw [e1]; rfl
      · unfold stepDimrange; rw [e2]; rfl)

theorem stepIcdDim_alike (d : Fin K) (s s' : Factor K × (Nat → List ℝ))
    (hs : s'.1 = s.1 ∧ PredsOk X V s ∧ PredsOk X' V s') :
    RelE (fun s s' => s'.1 = s.1 ∧ PredsOk X V s ∧ PredsOk X' V s') (stepIcdDim ω cfg (gramP cfg V) X V d s)
      (stepIcdDim ω' cfg (gramP cfg V) X' V d s') := by
  obtain ⟨h1, h2, h3⟩ := hs
  have hP := gramP_symm cfg V
  have hpos := gramP_nonneg cfg ha V
  have hrel : RelE (fun a a' => ∀ r, (a' r).1 = (a r).1)
      (parRows ω s.1.n 1 (fun r y => icdRow cfg (gramP cfg V) V d (X.row r) (s.1.row r) y)
        (fun r => (s.1.row r d, s.2 r)))
      (parRows ω' s'.1.n 1 (fun r y => icdRow cfg (gramP cfg V) V d (X'.row r) (s'.1.row r) y)
        (fun r => (s'.1.row r d, s'.2 r))) := by
    rw [h1]
    refine parRows_alike hω hω' hT hT' _ _ _ _ _ (fun _ (a b : ℝ × List ℝ) => b.1 = a.1) ?_ (fun _ _ => rfl)
    intro r hr
    have h3r := h3 r (by rw [h1]; exact hr)
    rw [h1] at h3r
    rw [h2 r hr, h3r, icdRow_eq, icdRow_eq]
    simp only
    rw [(h r).reg, (h r).mat, (h r).rhs]
    split
    · exact .error _ _
    · exact .ok rfl
  have hok := fun s₁ (hs1 : stepIcdDim ω cfg (gramP cfg V) X V d s = .ok s₁) =>
    (stepIcdDim_progress hω hT cfg _ hP hpos X V d s s₁ (fun r _ => hnn r)
      (fun r _ => computeReg_nonneg cfg hreg ha _ _) h2 hs1).2
  have hok' := fun s₁ (hs1 : stepIcdDim ω' cfg (gramP cfg V) X' V d s' = .ok s₁) =>
    (stepIcdDim_progress hω' hT' cfg _ hP hpos X' V d s' s₁ (fun r _ => hnn' r)
      (fun r _ => computeReg_nonneg cfg hreg ha _ _) h3 hs1).2
  exact hrel.map (S := fun s s' => s'.1 = s.1 ∧ PredsOk X V s ∧ PredsOk X' V s')
    (f := fun m => (s.1.setRows (fun r => Function.update (s.1.row r) d (m r).1), fun r => (m r).2))
    (f' := fun m => (s'.1.setRows (fun r => Function.update (s'.1.row r) d (m r).1), fun r => (m r).2)) (by
      intro a a' haa e1 e2
      refine ⟨?_, hok _ ?_, hok' _ ?_⟩
      · simp only [haa, h1]
      · unfold stepIcdDim; rw [e1]; rfl
      · unfold stepIcdDim; rw [e2]; rfl)

omit h hnn hnn' in
theorem prediction_alike (F : Factor K) :
    RelE (fun p p' => (F, p').1 = (F, p).1 ∧ PredsOk X V (F, p) ∧ PredsOk X' V (F, p')) (prediction ω X F V)
      (prediction ω' X' F V) := by
  obtain ⟨p, hp⟩ := prediction_total (X := X) (V := V) ha hreg hω hT F
  obtain ⟨p', hp'⟩ := prediction_total (X := X') (V := V) ha hreg hω' hT' F
  rw [hp, hp']
  exact .ok ⟨rfl, prediction_ok hω hT X F V p hp, prediction_ok hω' hT' X' F V p' hp'⟩

theorem solverStep_alike (sc : SolverConfig) (hcg : sc.solverType = .cg → ∀ r, (X'.row r).length = 0 ↔ (X.row r).length = 0)
    (F : Factor K) :
    RelE (fun G G' => G' = G) (solverStep ω cfg sc (gramP cfg V) X V F) (solverStep ω' cfg sc (gramP cfg V) X' V F) := by
  have hP := gramP_symm cfg V
  have lift : ∀ (f f' : Nat → Vec K → Except Err (Vec K)), (∀ r, f' r (F.row r) = f r (F.row r)) →
      RelE (fun G G' => G' = G) ((parRows ω F.n 1 f F.row).map F.setRows) ((parRows ω' F.n 1 f' F.row).map F.setRows) := by
    intro f f' hf
    refine (parRows_alike hω hω' hT hT' F.n f f' F.row F.row (fun _ a b => b = a) ?_ (fun _ _ => rfl)).map ?_
    · intro r _
      rw [hf]
      exact relE_refl _
    · intro a b hab _ _
      have : b = a := funext hab
      rw [this]
  unfold solverStep
  cases hs : sc.solverType with
  | cholesky =>
    refine lift _ _ (fun r => ?_)
    rw [choleskyRow_eq cfg _ hP V _ (hnn r), choleskyRow_eq cfg _ hP V _ (hnn' r), (h r).reg, (h r).mat, (h r).rhs]
  | cg =>
    simp only
    unfold stepCg
    rw [if_neg (by simp), if_neg (by simp)]
    refine lift _ _ (fun r => ?_)
    simp only [Option.map_none]
    have hi := hcg hs r
    by_cases hne : (none : Option (Vec K)).isNone = true ∧ (X.row r).length = 0
    · have hne' : (none : Option (Vec K)).isNone = true ∧ (X'.row r).length = 0 := ⟨rfl, hi.mpr hne.2⟩
      unfold cgRow
      simp only
      rw [if_pos hne, if_pos hne']
    · have hne' : ¬ ((none : Option (Vec K)).isNone = true ∧ (X'.row r).length = 0) := fun h => hne ⟨rfl, hi.mp h.2⟩
      rw [cgRow_eq _ _ _ _ _ _ _ hne, cgRow_eq _ _ _ _ _ _ _ hne']
      simp only
      rw [(h r).reg, (h r).mat, (h r).rhs]
  | ialspp =>
    simp only
    unfold stepIalspp
    refine RelE.foldlM ?_ _ _ _ rfl
    intro G G' it hG
    subst hG
    split
    · unfold ialsppIteration
      refine (prediction_alike ((hω.at it).at 0) ((hω'.at it).at 0) hT hT' hreg ha G').bind ?_
      intro p p' hp _ _
      refine (RelE.foldlM (R := fun s s' => s'.1 = s.1 ∧ PredsOk X V s ∧ PredsOk X' V s') ?_ _ _ _ hp).bind
        (fun s s' hs _ _ => .ok hs.1)
      intro s s' b hs
      exact stepDimrange_alike (((hω.at it).at 1).at b.1) (((hω'.at it).at 1).at b.1) hT hT' h hnn hnn' hreg ha _ _ s s' hs
    · unfold icdIteration
      refine (prediction_alike ((hω.at it).at 0) ((hω'.at it).at 0) hT hT' hreg ha G').bind ?_
      intro p p' hp _ _
      refine (RelE.foldlM (R := fun s s' => s'.1 = s.1 ∧ PredsOk X V s ∧ PredsOk X' V s') ?_ _ _ _ hp).bind
        (fun s s' hs _ _ => .ok hs.1)
      intro s s' b hs
      exact stepIcdDim_alike (((hω.at it).at 1).at b.val) (((hω'.at it).at 1).at b.val) hT hT' h hnn hnn' hreg ha b s s' hs

end

/-- the same trainer, for the matrix with the zeros no longer stored -/
noncomputable def Trainer.cleaned (tr : Trainer K) : Trainer K := { tr with X := withoutZeros tr.X, Xt := withoutZeros tr.Xt }

theorem kept_length_iff {X : CSR ℝ} (h : NoRowOfZeros X) (r : Nat) : ((withoutZeros X).row r).length = 0 ↔ (X.row r).length = 0 := by
  rw [Sim.withoutZeros_row]
  constructor
  · intro hk
    by_contra hne
    have hr : r < X.nrows := by
      by_contra hr
      rw [Sim.row_nil X hr] at hne
      exact hne rfl
    obtain ⟨e, he, h0⟩ := h _ (Sim.row_mem X hr) (by intro hn; rw [hn] at hne; exact hne rfl)
    have := (Sim.mem_kept _ e).mpr ⟨he, h0⟩
    rw [List.length_eq_zero_iff.mp hk] at this
    cases this
  · intro hk
    rw [List.length_eq_zero_iff.mp hk]
    rfl

theorem nonNeg_kept {X : CSR ℝ} (h : ∀ r, NonNegRow (X.row r)) (r : Nat) : NonNegRow ((withoutZeros X).row r) := by
  intro e he
  rw [Sim.withoutZeros_row, Sim.mem_kept] at he
  exact h r e he.1

/-- an epoch without features -/
theorem step_cleaned {ω : Oracle T} {ω' : Oracle T'} (hω : ω.Complete) (hω' : ω'.Complete) (hT : 0 < T) (hT' : 0 < T')
    (sc : SolverConfig) {tr : Trainer K} (hf : tr.featureAware = false) (hnn : ∀ r, NonNegRow (tr.X.row r))
    (hnt : ∀ r, NonNegRow (tr.Xt.row r)) (hnu : tr.cfg.nu = 0) (hl : tr.cfg.lossType = .ialspp) (ha : 0 ≤ tr.cfg.alpha0)
    (hr : 0 < tr.cfg.reg) (hcg : sc.solverType = .cg → NoRowOfZeros tr.X ∧ NoRowOfZeros tr.Xt) :
    ∃ t, tr.step ω sc = .ok t ∧ tr.cleaned.step ω' sc = .ok t.cleaned ∧ t.cfg = tr.cfg ∧ t.X = tr.X ∧ t.Xt = tr.Xt ∧
      t.featureAware = false := by
  have hreg : ∀ a b, 0 < computeReg tr.cfg a b := fun a b => by rw [computeReg_nu hnu]; exact hr
  have half : ∀ {ω : Oracle T} {ω' : Oracle T'}, ω.Complete → ω'.Complete → ∀ (X : CSR ℝ) (V F : Factor K),
      (∀ r, NonNegRow (X.row r)) → (sc.solverType = .cg → NoRowOfZeros X) →
      ∃ G, solverStep ω tr.cfg sc (gramP tr.cfg V) X V F = .ok G ∧
        solverStep ω' tr.cfg sc (gramP tr.cfg V) (withoutZeros X) V F = .ok G := by
    intro ω ω' hω hω' X V F hX hc
    obtain ⟨G, hG⟩ := solverStep_total (cfg := tr.cfg) (X := X) (V := V) ha hr.le hω hT sc F (fun r _ => hX r)
      (fun r _ => hreg _ _)
    have := solverStep_alike hω hω' hT hT' (X := X) (X' := withoutZeros X) (cfg := tr.cfg) (V := V)
      (fun r => by rw [Sim.withoutZeros_row]; exact alike_kept hnu hl V _) hX (nonNeg_kept hX) hr.le ha sc
      (fun h r => kept_length_iff (hc h) r) F
    rw [hG] at this
    refine ⟨G, hG, ?_⟩
    generalize solverStep ω' tr.cfg sc (gramP tr.cfg V) (withoutZeros X) V F = y at this
    cases this with
    | ok h => rw [h]
  obtain ⟨G, g1, g2⟩ := half (hω.at 0 |>.at 1) (hω'.at 0 |>.at 1) tr.X tr.item tr.user hnn (fun h => (hcg h).1)
  obtain ⟨H, e1, e2⟩ := half (hω.at 1 |>.at 1) (hω'.at 1 |>.at 1) tr.Xt G tr.item hnt (fun h => (hcg h).2)
  refine ⟨{ tr with user := G, item := H, epoch := tr.epoch + 1 }, ?_, ?_, rfl, rfl, rfl, hf⟩
  · unfold Trainer.step Trainer.stepUser Trainer.stepItem
    simp only [hf, Bool.false_eq_true, false_and, if_false, bind, Except.bind]
    rw [prepareP_eq (hω.at 0 |>.at 0) hT]
    simp only [g1, pure, Except.pure]
    rw [prepareP_eq (hω.at 1 |>.at 0) hT]
    simp only [Bool.false_eq_true, false_and, if_false, e1]
  · unfold Trainer.step Trainer.stepUser Trainer.stepItem Trainer.cleaned
    simp only [hf, Bool.false_eq_true, false_and, if_false, bind, Except.bind]
    rw [prepareP_eq (hω'.at 0 |>.at 0) hT']
    simp only [g2, pure, Except.pure]
    rw [prepareP_eq (hω'.at 1 |>.at 0) hT']
    simp only [Bool.false_eq_true, false_and, if_false, e2]

end Irspack.Ials
