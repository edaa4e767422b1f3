import Verif.Props.IalsLoss
import Verif.Proofs.IalsSystem

/-!
# C42 (an iALS half-epoch never increases the loss) and C43 (conjugate gradient)
-/

namespace Irspack.Ials

open Spec.Ials Matrix

variable {K T : Nat}

/-! ## C42 -/

theorem specLoss_create (tr : Trainer K) (hu : tr.userF.cols = 0) (hi : tr.itemF.cols = 0) :
    tr.specLoss = loss (paramsOf tr.cfg) (Data.ofCSR tr.X) tr.user.row tr.item.row := by
  unfold Trainer.specLoss featureLoss
  rw [loss_eq_priorLoss, hu, hi]
  have hz : ∀ (F : Nat → Nat → ℝ) (W : Nat → Vec K), predicted 0 F W = fun _ => 0 :=
    fun F W => funext (predicted_zero 0 F W (Or.inl rfl))
  rw [hz, hz]
  simp [weightNormSq]

/-- C42 (epochs).  Full statement: an epoch of any solver never increases the loss that `compute_loss`
reports.  Proved for every trainer that a program can hold, every solver configuration (Cholesky,
conjugate gradient with any number of steps, subspace and coordinate descent with any block size and
number of iterations), every number of threads and every interleaving, provided the epoch ends without
an exception and without non-finite numbers.

Missing: with the iALS++ solver, `alpha0 = 0` and a user without interactions, the code computes `0/0`
(`C42_subspace_empty_row_counterexample`). -/
theorem C42_epoch_never_increases_partial {T₁ T₂ : Nat} {ω : Oracle T} {ω₁ : Oracle T₁} {ω₂ : Oracle T₂}
    (hω : ω.Complete) (hω₁ : ω₁.Complete) (hω₂ : ω₂.Complete) (hT₁ : 0 < T₁) (hT₂ : 0 < T₂)
    (cfg : Config) (X : CSR ℝ) (hv : Valid cfg X) (sc : SolverConfig) (tr tr' : Trainer K)
    (hr : tr.Reached cfg X) (h : tr.step ω sc = .ok tr') :
    ∃ before after, tr.computeLoss ω₁ = .ok before ∧ tr'.computeLoss ω₂ = .ok after ∧
      after ≤ before := by
  obtain ⟨hg, hc, hx⟩ := reached_good hv hr
  have h1 := step_good hω tr tr' hg h (hx ▸ hv.proper) (hx ▸ hv.nonneg) (hc ▸ hv.reg) (hc ▸ hv.alpha0)
  refine ⟨tr.specLoss, tr'.specLoss, computeLoss_eq hω₁ hT₁ tr hg (hx ▸ hv.proper),
    computeLoss_eq hω₂ hT₂ tr' h1.1 (by rw [h1.2.2.1, hx]; exact hv.proper), h1.2.2.2.2.2⟩

/-- C42 (user half-epoch, same scope as above): updating all users, with the items fixed. -/
theorem C42_user_half_never_increases_partial {ω : Oracle T} (hω : ω.Complete)
    (cfg : Config) (X : CSR ℝ) (hv : Valid cfg X) (sc : SolverConfig) (tr tr' : Trainer K)
    (hr : tr.Reached cfg X) (h : tr.stepUser ω sc = .ok tr') :
    tr'.item = tr.item ∧ tr'.specLoss ≤ tr.specLoss := by
  obtain ⟨hg, hc, hx⟩ := reached_good hv hr
  have h1 := stepUser_good hω tr tr' hg h (hx ▸ hv.proper) (hx ▸ hv.nonneg) (hc ▸ hv.reg)
    (hc ▸ hv.alpha0)
  exact ⟨h1.2.2.2.2.2.2.2.1, h1.2.2.2.2.2.2.2.2.2⟩

/-- C42 (item half-epoch, same scope as above): updating all items, with the users fixed. -/
theorem C42_item_half_never_increases_partial {ω : Oracle T} (hω : ω.Complete)
    (cfg : Config) (X : CSR ℝ) (hv : Valid cfg X) (sc : SolverConfig) (tr tr' : Trainer K)
    (hr : tr.Reached cfg X) (h : tr.stepItem ω sc = .ok tr') :
    tr'.user = tr.user ∧ tr'.specLoss ≤ tr.specLoss := by
  obtain ⟨hg, hc, hx⟩ := reached_good hv hr
  have h1 := stepItem_good hω tr tr' hg h (hx ▸ hv.proper) (hx ▸ hv.nonneg) (hc ▸ hv.reg)
    (hc ▸ hv.alpha0)
  exact ⟨h1.2.2.2.2.2.2.2.1, h1.2.2.2.2.2.2.2.2.2⟩

theorem regPos_row {cfg : Config} {X : CSR ℝ} (hv : Valid cfg X) (hp : RegPositive cfg X) {r : Nat}
    (hr : r < X.nrows) : 0 < computeReg cfg (X.row r).length X.cols :=
  computeReg_pos cfg hp.1 hv.alpha0 _ _ (hp.2 _ (Sim.row_mem X hr))

/-- C42 (with regularisation nothing goes wrong).  If the regularisation of every user and every item is
positive, an epoch of any solver of a trainer without features ends normally, so the loss does not
increase. -/
theorem C42_epoch_regularised {ω : Oracle T} (hω : ω.Complete) (hT : 0 < T) (cfg : Config) (X : CSR ℝ)
    (hv : Valid cfg X) (hpu : RegPositive cfg X) (hpi : RegPositive cfg (transpose X))
    (sc : SolverConfig) (tr : Trainer K) (hr : tr.Reached cfg X) (hf : tr.featureAware = false) :
    ∃ tr', tr.step ω sc = .ok tr' ∧ tr'.specLoss ≤ tr.specLoss := by
  obtain ⟨hg, hc, hx⟩ := reached_good hv hr
  have hvt : Valid cfg (transpose X) :=
    ⟨Sim.transpose_proper X hv.proper, transpose_nonNeg hv.nonneg, hv.reg, hv.alpha0⟩
  obtain ⟨user, h1⟩ := solverStep_total (cfg := cfg) (X := X) (V := tr.item) hv.alpha0 hv.reg
    ((hω.at 0).at 1) hT sc tr.user (fun r _ => nonNeg_row hv.nonneg r) (by
      intro r hr'
      rw [hg.vn, hx]
      exact regPos_row hv hpu (by rw [hg.un, hx] at hr'; exact hr'))
  have hn := (solverStep_descent hv.alpha0 hv.reg ((hω.at 0).at 1) hT sc _ _
    (fun r _ => nonNeg_row hv.nonneg r) h1).1
  obtain ⟨item, h2⟩ := solverStep_total (cfg := cfg) (X := transpose X) (V := user) hv.alpha0 hv.reg
    ((hω.at 1).at 1) hT sc tr.item (fun r _ => nonNeg_row hvt.nonneg r) (by
      intro r hr'
      have : (transpose X).cols = X.nrows := rfl
      rw [hn, hg.un, hx, ← this]
      exact regPos_row hvt hpi (by rw [hg.vn, hx] at hr'; rw [Sim.transpose_nrows]; exact hr'))
  have hstep : tr.step ω sc = .ok { tr with user := user, item := item, epoch := tr.epoch + 1 } := by
    have hu1 : tr.stepUser (ω.at 0) sc = .ok { tr with user := user } := by
      unfold Trainer.stepUser
      rw [prepareP_eq ((hω.at 0).at 0) hT]
      simp only [bind, Except.bind]
      rw [if_neg (by simp [hf])]
      simp only [hc, hx, h1, pure, Except.pure]
    have hi1 : Trainer.stepItem (ω.at 1) sc { tr with user := user } =
        .ok { tr with user := user, item := item } := by
      unfold Trainer.stepItem
      rw [prepareP_eq ((hω.at 1).at 0) hT]
      simp only [bind, Except.bind]
      rw [if_neg (by simp [hf])]
      simp only [hg.Xt, hc, hx, h2, pure, Except.pure]
    unfold Trainer.step
    rw [if_neg (by simp [hf]), hu1]
    simp only [bind, Except.bind, hi1, pure, Except.pure]
  exact ⟨_, hstep, (step_good hω tr _ hg hstep (hx ▸ hv.proper) (hx ▸ hv.nonneg) (hc ▸ hv.reg)
    (hc ▸ hv.alpha0)).2.2.2.2.2⟩

theorem stepUser_plain {ω : Oracle T} (hω : ω.Complete) (sc : SolverConfig) (tr tr' : Trainer K)
    (hf : tr.featureAware = false) (h : tr.stepUser ω sc = .ok tr') :
    0 < T ∧ ∃ user, solverStep (ω.at 1) tr.cfg sc (gramP tr.cfg tr.item) tr.X tr.item tr.user = .ok user ∧
      tr' = { tr with user := user } := by
  unfold Trainer.stepUser at h
  obtain ⟨P, hP, h⟩ := bind_ok h
  have hT := pos_of_prepare hP
  rw [prepareP_eq (hω.at 0) hT] at hP
  cases hP
  rw [if_neg (by simp [hf])] at h
  obtain ⟨user, h1, h⟩ := bind_ok h
  cases h
  exact ⟨hT, user, h1, rfl⟩

theorem stepItem_plain {ω : Oracle T} (hω : ω.Complete) (sc : SolverConfig) (tr tr' : Trainer K)
    (hf : tr.featureAware = false) (h : tr.stepItem ω sc = .ok tr') :
    0 < T ∧ ∃ item, solverStep (ω.at 1) tr.cfg sc (gramP tr.cfg tr.user) tr.Xt tr.user tr.item = .ok item ∧
      tr' = { tr with item := item } := by
  unfold Trainer.stepItem at h
  obtain ⟨P, hP, h⟩ := bind_ok h
  have hT := pos_of_prepare hP
  rw [prepareP_eq (hω.at 0) hT] at hP
  cases hP
  rw [if_neg (by simp [hf])] at h
  obtain ⟨item, h1, h⟩ := bind_ok h
  cases h
  exact ⟨hT, item, h1, rfl⟩

theorem loss_lt_of_rows (cfg : Config) (X : CSR ℝ) (hX : Spec.Sim.Proper X) (V : Factor K)
    (A A' : Nat → Vec K) (hV : V.n = X.cols)
    (h : ∀ r, r < X.nrows → A' r = A r ∨ rowQ cfg X V 0 r (A' r) < rowQ cfg X V 0 r (A r)) :
    (loss (paramsOf cfg) (Data.ofCSR X) A' V.row ≤ loss (paramsOf cfg) (Data.ofCSR X) A V.row) ∧
    ((∃ r, r < X.nrows ∧ A' r ≠ A r) →
      loss (paramsOf cfg) (Data.ofCSR X) A' V.row < loss (paramsOf cfg) (Data.ofCSR X) A V.row) := by
  simp only [loss_eq_priorLoss, priorLoss_eq]
  have hrow : ∀ r, r < X.nrows →
      A' r = A r ∨ rowObj (paramsOf cfg) (Data.ofCSR X) 0 V.row r (A' r) <
        rowObj (paramsOf cfg) (Data.ofCSR X) 0 V.row r (A r) := by
    intro r hr
    rcases h r hr with h1 | h1
    · exact Or.inl h1
    · right
      rw [rowObj_ofCSR cfg X hX V hV, rowObj_ofCSR cfg X hX V hV]
      unfold rowQ at h1
      linarith
  have hle : ∀ r ∈ Finset.range (Data.ofCSR X).U, rowObj (paramsOf cfg) (Data.ofCSR X) 0 V.row r (A' r) ≤
        rowObj (paramsOf cfg) (Data.ofCSR X) 0 V.row r (A r) := by
    intro r hr
    rcases hrow r (Finset.mem_range.mp hr) with h1 | h1
    · rw [h1]
    · exact h1.le
  constructor
  · have := Finset.sum_le_sum hle
    linarith
  · rintro ⟨r, hr, hne⟩
    have := Finset.sum_lt_sum hle ⟨r, Finset.mem_range.mpr hr, (hrow r hr).resolve_left hne⟩
    linarith

/-- C42 (Cholesky attains the minimum, users).  After a user half-epoch with the Cholesky solver no
other choice of user embeddings has a smaller loss, and every choice that differs for some user has a
larger one. -/
theorem C42_cholesky_users_optimal {ω : Oracle T} (hω : ω.Complete) (cfg : Config) (X : CSR ℝ)
    (hv : Valid cfg X) (sc : SolverConfig) (hs : sc.solverType = .cholesky) (tr tr' : Trainer K)
    (hr : tr.Reached cfg X) (hf : tr.featureAware = false) (h : tr.stepUser ω sc = .ok tr')
    (A : Nat → Fin K → ℝ) :
    tr'.item = tr.item ∧
    loss (paramsOf cfg) (Data.ofCSR X) tr'.user.row tr'.item.row ≤
      loss (paramsOf cfg) (Data.ofCSR X) A tr'.item.row ∧
    ((∃ u, u < X.nrows ∧ A u ≠ tr'.user.row u) →
      loss (paramsOf cfg) (Data.ofCSR X) tr'.user.row tr'.item.row <
        loss (paramsOf cfg) (Data.ofCSR X) A tr'.item.row) := by
  obtain ⟨hg, hc, hx⟩ := reached_good hv hr
  obtain ⟨hT, user, h1, rfl⟩ := stepUser_plain hω sc tr tr' hf h
  refine ⟨rfl, ?_⟩
  simp only
  rw [hc, hx] at h1
  unfold solverStep at h1
  rw [hs] at h1
  obtain ⟨hn, hrow⟩ := stepCholesky_row (hω.at 1) hT _ _ _ h1
  have := loss_lt_of_rows cfg X hv.proper tr.item A user.row (by rw [hg.vn, hx]) (by
    intro r hr'
    by_cases he : user.row r = A r
    · exact Or.inl he
    · right
      have hm := choleskyRow_min hv.alpha0 hv.reg (nonNeg_row hv.nonneg r) _
        (hrow r (by rw [hg.un, hx]; exact hr'))
      exact rowQ_strict r hm.1 0 _ (by rw [smul_zero]; exact hm.2) _ (fun e => he e.symm))
  exact ⟨this.1, fun ⟨u, hu, hne⟩ => this.2 ⟨u, hu, fun e => hne e.symm⟩⟩

/-- C42 (Cholesky attains the minimum, items). -/
theorem C42_cholesky_items_optimal {ω : Oracle T} (hω : ω.Complete) (cfg : Config) (X : CSR ℝ)
    (hv : Valid cfg X) (sc : SolverConfig) (hs : sc.solverType = .cholesky) (tr tr' : Trainer K)
    (hr : tr.Reached cfg X) (hf : tr.featureAware = false) (h : tr.stepItem ω sc = .ok tr')
    (B : Nat → Fin K → ℝ) :
    tr'.user = tr.user ∧
    loss (paramsOf cfg) (Data.ofCSR X) tr'.user.row tr'.item.row ≤
      loss (paramsOf cfg) (Data.ofCSR X) tr'.user.row B ∧
    ((∃ i, i < X.cols ∧ B i ≠ tr'.item.row i) →
      loss (paramsOf cfg) (Data.ofCSR X) tr'.user.row tr'.item.row <
        loss (paramsOf cfg) (Data.ofCSR X) tr'.user.row B) := by
  obtain ⟨hg, hc, hx⟩ := reached_good hv hr
  obtain ⟨hT, item, h1, rfl⟩ := stepItem_plain hω sc tr tr' hf h
  refine ⟨rfl, ?_⟩
  simp only
  rw [hc, hg.Xt, hx] at h1
  unfold solverStep at h1
  rw [hs] at h1
  obtain ⟨hn, hrow⟩ := stepCholesky_row (hω.at 1) hT _ _ _ h1
  have := loss_lt_of_rows cfg (transpose X) (Sim.transpose_proper X hv.proper) tr.user B item.row
    (by rw [hg.un, hx]; rfl) (by
    intro r hr'
    by_cases he : item.row r = B r
    · exact Or.inl he
    · right
      have hm := choleskyRow_min hv.alpha0 hv.reg (nonNeg_row (transpose_nonNeg hv.nonneg) r) _
        (hrow r (by rw [hg.vn, hx]; rw [Sim.transpose_nrows] at hr'; exact hr'))
      exact rowQ_strict r hm.1 0 _ (by rw [smul_zero]; exact hm.2) _ (fun e => he e.symm))
  rw [ofCSR_transpose X hv.proper, loss_eq_priorLoss, loss_eq_priorLoss, priorLoss_swap, priorLoss_swap,
    ← loss_eq_priorLoss, ← loss_eq_priorLoss, Sim.transpose_nrows] at this
  exact ⟨this.1, fun ⟨u, hu, hne⟩ => this.2 ⟨u, hu, fun e => hne e.symm⟩⟩

/-- C42 (iALS++ does not stall).  If a user half-epoch by subspace or coordinate descent (with at least
one iteration) does not lower the loss, the user embeddings are unchanged and already the best possible
for these items: in particular every latent dimension is covered by some block. -/
theorem C42_subspace_descent_no_stall {ω : Oracle T} (hω : ω.Complete) (cfg : Config) (X : CSR ℝ)
    (hv : Valid cfg X) (sc : SolverConfig) (hs : sc.solverType = .ialspp) (hit : 0 < sc.iteration)
    (tr tr' : Trainer K) (hr : tr.Reached cfg X) (hf : tr.featureAware = false)
    (h : tr.stepUser ω sc = .ok tr')
    (hno : loss (paramsOf cfg) (Data.ofCSR X) tr.user.row tr.item.row ≤
      loss (paramsOf cfg) (Data.ofCSR X) tr'.user.row tr.item.row) :
    (∀ u, u < X.nrows → tr'.user.row u = tr.user.row u) ∧
    ∀ A : Nat → Fin K → ℝ, loss (paramsOf cfg) (Data.ofCSR X) tr.user.row tr.item.row ≤
      loss (paramsOf cfg) (Data.ofCSR X) A tr.item.row := by
  obtain ⟨hg, hc, hx⟩ := reached_good hv hr
  obtain ⟨hT, user, h1, rfl⟩ := stepUser_plain hω sc tr tr' hf h
  simp only at hno ⊢
  rw [hc, hx] at h1
  unfold solverStep at h1
  rw [hs] at h1
  obtain ⟨hn, hrow⟩ := stepIalspp_progress (hω.at 1) hT cfg sc _ (gramP_symm cfg tr.item)
    (gramP_nonneg cfg hv.alpha0 tr.item) X tr.item tr.user user (fun r _ => nonNeg_row hv.nonneg r)
    (fun r _ => computeReg_nonneg cfg hv.reg hv.alpha0 _ _) h1
  have hun : tr.user.n = X.nrows := by rw [hg.un, hx]
  have hvn : tr.item.n = X.cols := by rw [hg.vn, hx]
  have hq : ∀ r x, rowQ cfg X tr.item 0 r x =
      quad (rowMat cfg (gramP cfg tr.item) X tr.item r) (sysRhs cfg tr.item (X.row r) 0) x := by
    intro r x; unfold rowQ; rw [smul_zero]
  have hpr := loss_lt_of_rows cfg X hv.proper tr.item tr.user.row user.row hvn (by
    intro r hr'
    have hp := hrow r (by rw [hun]; exact hr')
    by_cases he : quad (rowMat cfg (gramP cfg tr.item) X tr.item r) (sysRhs cfg tr.item (X.row r) 0)
        (user.row r) = quad (rowMat cfg (gramP cfg tr.item) X tr.item r)
          (sysRhs cfg tr.item (X.row r) 0) (tr.user.row r)
    · exact Or.inl (hp.2 he).1
    · right
      rw [hq, hq]
      exact lt_of_le_of_ne hp.1 he)
  have hsame : ∀ u, u < X.nrows → user.row u = tr.user.row u := by
    intro u hu
    by_contra hne
    exact absurd hno (not_le.mpr (hpr.2 ⟨u, hu, hne⟩))
  refine ⟨hsame, fun A => ?_⟩
  have h2 := priorLoss_le_of_rows cfg X hv.proper tr.item ⟨X.nrows, A⟩ tr.user hvn (fun _ => 0) (fun _ => 0)
    (by
      intro r hr'
      apply rowQ_min hv.alpha0 hv.reg (nonNeg_row hv.nonneg r)
      rw [smul_zero]
      funext k
      exact ((hrow r (by rw [hun]; exact hr')).2 (by rw [hsame r hr'])).2 k hit)
  rw [loss_eq_priorLoss, loss_eq_priorLoss]
  exact h2

/-- C42 (conjugate gradient does not stall).  If a user half-epoch by conjugate gradient leaves the loss
unchanged, every user with interactions already solves their linear system up to the threshold. -/
theorem C42_cg_no_stall {ω : Oracle T} (hω : ω.Complete) (cfg : Config) (X : CSR ℝ)
    (hv : Valid cfg X) (sc : SolverConfig) (hs : sc.solverType = .cg) (hK : 0 < K)
    (tr tr' : Trainer K) (hr : tr.Reached cfg X) (hf : tr.featureAware = false)
    (h : tr.stepUser ω sc = .ok tr')
    (hno : loss (paramsOf cfg) (Data.ofCSR X) tr.user.row tr.item.row ≤
      loss (paramsOf cfg) (Data.ofCSR X) tr'.user.row tr.item.row) (u : Nat) (hu : u < X.nrows)
    (hne : X.row u ≠ []) :
    normSq (systemRhs (paramsOf cfg) (Data.ofCSR X) tr.item.row u -
      systemAt (paramsOf cfg) (Data.ofCSR X) tr.item.row u (tr.user.row u)) ≤ 1 / 10 ^ 20 := by
  obtain ⟨hg, hc, hx⟩ := reached_good hv hr
  rw [system_residual cfg X hv.proper tr.item (by rw [hg.vn, hx])]
  change _ ≤ cgEps
  obtain ⟨hT, user, h1, rfl⟩ := stepUser_plain hω sc tr tr' hf h
  simp only at hno
  rw [hc, hx] at h1
  have hun : tr.user.n = X.nrows := by rw [hg.un, hx]
  have hvn : tr.item.n = X.cols := by rw [hg.vn, hx]
  have hd := solverStep_descent hv.alpha0 hv.reg (hω.at 1) hT sc _ _ (fun r _ => nonNeg_row hv.nonneg r) h1
  unfold solverStep at h1
  rw [hs] at h1
  by_contra hlt
  rw [not_le] at hlt
  have hstrict : rowQ cfg X tr.item 0 u (user.row u) < rowQ cfg X tr.item 0 u (tr.user.row u) := by
    unfold stepCg at h1
    rw [if_neg (by simp)] at h1
    obtain ⟨m, hm, hF⟩ := map_ok h1
    have hrow := (parRows_ok (hω.at 1) hT Nat.one_pos hm).1 u (by rw [hun]; exact hu)
    have he : user.row = m := by rw [hF]; rfl
    rw [← he] at hrow
    simp only [Option.map_none] at hrow
    rw [cgRow_eq cfg sc _ tr.item _ _ _ (by simp [List.length_eq_zero_iff, hne])] at hrow
    have := cgLoop_progress _ (rowMat_symm hv.alpha0 hv.reg u) _ (tr.user.row u) cgEps
      (by unfold cgEps; positivity) (cgMaxIter K sc) (by unfold cgMaxIter; split <;> omega)
      (by simpa [priorRhs] using hlt) (user.row u) hrow
    unfold rowQ
    rw [smul_zero]
    exact this
  have hle : loss (paramsOf cfg) (Data.ofCSR X) user.row tr.item.row <
      loss (paramsOf cfg) (Data.ofCSR X) tr.user.row tr.item.row := by
    rw [loss_eq_priorLoss, loss_eq_priorLoss, priorLoss_eq, priorLoss_eq]
    have : ∑ u ∈ Finset.range (Data.ofCSR X).U, rowObj (paramsOf cfg) (Data.ofCSR X) 0 tr.item.row u (user.row u) <
        ∑ u ∈ Finset.range (Data.ofCSR X).U, rowObj (paramsOf cfg) (Data.ofCSR X) 0 tr.item.row u (tr.user.row u) := by
      apply Finset.sum_lt_sum
      · intro r hr'
        rw [rowObj_ofCSR cfg X hv.proper tr.item hvn, rowObj_ofCSR cfg X hv.proper tr.item hvn]
        have := hd.2 r (by rw [hun]; exact Finset.mem_range.mp hr')
        unfold rowQ at this
        linarith
      · refine ⟨u, Finset.mem_range.mpr hu, ?_⟩
        rw [rowObj_ofCSR cfg X hv.proper tr.item hvn, rowObj_ofCSR cfg X hv.proper tr.item hvn]
        unfold rowQ at hstrict
        linarith
    linarith
  linarith

theorem computeReg_zero {cfg : Config} (ha : cfg.alpha0 = 0) (hn : cfg.reg = 0 ∨ cfg.nu ≠ 0) (n : Nat) :
    computeReg cfg 0 n = 0 := by
  unfold computeReg
  rcases hn with h | h
  · rw [h, zero_mul]
  · rw [ha]
    simp [Real.zero_rpow h]

theorem choleskyRow_err {cfg : Config} {V : Factor K} {row : SpVec ℝ} {e : Err}
    {P : Matrix (Fin K) (Fin K) ℝ} (h : choleskyRow cfg P V row = .error e) : e = .runtimeError := by
  unfold choleskyRow at h
  simp only at h
  split at h
  · cases h; rfl
  · cases h

theorem dimrangeRow_err {cfg : Config} {V : Factor K} {row : SpVec ℝ} {e : Err} {lo hi : Nat} {x : Vec K}
    {s : (Dims K lo hi → ℝ) × List ℝ} {P : Matrix (Fin K) (Fin K) ℝ}
    (h : dimrangeRow cfg P V lo hi row x s = .error e) : e = .nonFinite := by
  unfold dimrangeRow at h
  simp only at h
  split at h
  · cases h; rfl
  · cases h

theorem icdRow_err {cfg : Config} {V : Factor K} {row : SpVec ℝ} {e : Err} {d : Fin K} {x : Vec K}
    {s : ℝ × List ℝ} {P : Matrix (Fin K) (Fin K) ℝ}
    (h : icdRow cfg P V d row x s = .error e) : e = .nonFinite := by
  unfold icdRow at h
  simp only at h
  split at h
  · cases h; rfl
  · cases h

theorem parRows_error_of {A : Type} {ω : Oracle T} (hω : ω.Complete) (hT : 0 < T) {n : Nat}
    {f : Nat → A → Except Err A} {m : Nat → A} {r : Nat} (hr : r < n) {e₀ : Err}
    (h : f r (m r) = .error e₀) (hall : ∀ r e, f r (m r) = .error e → e = e₀) :
    parRows ω n 1 f m = .error e₀ := by
  obtain ⟨e, he⟩ := parRows_throws hω hT Nat.one_pos hr h
  obtain ⟨r', _, h2⟩ := parRows_error hω hT Nat.one_pos he
  rw [he, hall r' e h2]

/-- C42 (error branch).  With `alpha0 = 0` and `nu ≠ 0` (the regularisation of a user without
interactions is zero) the Cholesky solver reports an error if some user has no interactions. -/
theorem C42_cholesky_empty_row_error {ω : Oracle T} (hω : ω.Complete) (hT : 0 < T) (cfg : Config)
    (X : CSR ℝ) (hv : Valid cfg X) (ha : cfg.alpha0 = 0) (hn : cfg.reg = 0 ∨ cfg.nu ≠ 0) (hK : 0 < K)
    (sc : SolverConfig) (hs : sc.solverType = .cholesky) (tr : Trainer K) (hr : tr.Reached cfg X)
    (hf : tr.featureAware = false) (u : Nat) (hu : u < X.nrows) (he : X.row u = []) :
    tr.stepUser ω sc = .error .runtimeError := by
  classical
  obtain ⟨hg, hc, hx⟩ := reached_good hv hr
  unfold Trainer.stepUser
  rw [prepareP_eq (hω.at 0) hT]
  simp only [bind, Except.bind]
  rw [if_neg (by simp [hf])]
  unfold solverStep stepCholesky
  rw [hs]
  simp only
  rw [parRows_error_of (hω.at 1) hT (r := u) (by rw [hg.un, hx]; exact hu) (e₀ := .runtimeError)]
  · rfl
  · rw [hc, hx, choleskyRow_eq cfg _ (gramP_symm cfg _) _ _ (by rw [he]; intro e h; cases h), if_neg]
    rw [he, gramP_zero ha]
    intro h
    haveI : Nonempty (Fin K) := ⟨⟨0, hK⟩⟩
    apply not_posDef_zero (ι := Fin K)
    convert h using 1
    apply Matrix.ext
    intro i j
    simp [sysMat, ents, computeReg_zero ha hn]
  · intro r e h
    exact choleskyRow_err h

theorem stepDimrange_empty {ω : Oracle T} (hω : ω.Complete) (hT : 0 < T) {cfg : Config}
    {X : CSR ℝ} (ha : cfg.alpha0 = 0) (hn : cfg.reg = 0 ∨ cfg.nu ≠ 0) (V : Factor K) (lo hi : Nat)
    (hlo : lo < hi) (hhi : hi ≤ K) (s : Factor K × (Nat → List ℝ)) (u : Nat) (hu : u < s.1.n)
    (he : X.row u = []) : stepDimrange ω cfg (gramP cfg V) X V lo hi s = .error .nonFinite := by
  classical
  unfold stepDimrange
  rw [parRows_error_of hω hT (r := u) hu (e₀ := .nonFinite)]
  · rfl
  · unfold dimrangeRow
    rw [he]
    simp only [List.zip_nil_left, List.foldl_nil, List.length_nil]
    have : llt (addDiagonal (Batch.consume ⟨[], fun i j : Dims K lo hi => gramP cfg V i.1 j.1⟩).target
        (computeReg cfg 0 V.n)) (fun i : Dims K lo hi => (gramP cfg V).mulVec (s.1.row u) i.1 +
          computeReg cfg 0 V.n * s.1.row u i.1) = none := by
      unfold llt
      rw [if_neg]
      intro h
      haveI : Nonempty (Dims K lo hi) := ⟨⟨⟨lo, by omega⟩, le_rfl, hlo⟩⟩
      apply not_posDef_zero (ι := Dims K lo hi)
      convert h using 1
      apply Matrix.ext
      intro i j
      simp [upperSymm, addDiagonal, Batch.consume, gramP, ha, computeReg_zero ha hn]
    rw [this]
  · intro r e h
    exact dimrangeRow_err h

theorem stepIcdDim_empty {ω : Oracle T} (hω : ω.Complete) (hT : 0 < T) {cfg : Config}
    {X : CSR ℝ} (ha : cfg.alpha0 = 0) (hn : cfg.reg = 0 ∨ cfg.nu ≠ 0) (V : Factor K) (d : Fin K)
    (s : Factor K × (Nat → List ℝ)) (u : Nat) (hu : u < s.1.n)
    (he : X.row u = []) : stepIcdDim ω cfg (gramP cfg V) X V d s = .error .nonFinite := by
  unfold stepIcdDim
  rw [parRows_error_of hω hT (r := u) hu (e₀ := .nonFinite)]
  · rfl
  · unfold icdRow
    rw [he]
    simp [gramP, ha, computeReg_zero ha hn]
  · intro r e h
    exact icdRow_err h

/-- C42 (counterexample).  The full statement fails for the iALS++ solver: with `alpha0 = 0`, `nu ≠ 0`
and a user without interactions, subspace and coordinate descent divide zero by zero, for every such
data set, block size and positive number of iterations.  (With the other solvers such a user gets the
embedding 0 or an error.) -/
theorem C42_subspace_empty_row_counterexample {ω : Oracle T} (hω : ω.Complete) (hT : 0 < T)
    (cfg : Config) (X : CSR ℝ) (hv : Valid cfg X) (ha : cfg.alpha0 = 0) (hn : cfg.reg = 0 ∨ cfg.nu ≠ 0)
    (hK : 0 < K) (sc : SolverConfig) (hs : sc.solverType = .ialspp) (hit : 0 < sc.iteration)
    (tr : Trainer K) (hr : tr.Reached cfg X) (hf : tr.featureAware = false) (u : Nat)
    (hu : u < X.nrows) (he : X.row u = []) :
    tr.stepUser ω sc = .error .nonFinite := by
  obtain ⟨hg, hc, hx⟩ := reached_good hv hr
  have hun : u < tr.user.n := by rw [hg.un, hx]; exact hu
  unfold Trainer.stepUser
  rw [prepareP_eq (hω.at 0) hT]
  simp only [bind, Except.bind]
  rw [if_neg (by simp [hf])]
  unfold solverStep
  rw [hs]
  simp only
  unfold stepIalspp
  obtain ⟨n, hn'⟩ := Nat.exists_eq_succ_of_ne_zero (Nat.pos_iff_ne_zero.mp hit)
  rw [hn', List.range_succ_eq_map, List.foldlM_cons]
  rw [hc, hx]
  obtain ⟨preds, hp⟩ := prediction_total (cfg := cfg) (X := X) (V := tr.item) hv.alpha0 hv.reg (((hω.at 1).at 0).at 0) hT tr.user
  by_cases hd : 1 < sc.subspaceDimension
  · rw [if_pos hd]
    unfold ialsppIteration
    obtain ⟨m, hm⟩ : ∃ m, (K + sc.subspaceDimension - 1) / sc.subspaceDimension = m + 1 := by
      have : 0 < (K + sc.subspaceDimension - 1) / sc.subspaceDimension :=
        Nat.div_pos (by omega) (by omega)
      exact ⟨_, (Nat.succ_pred_eq_of_pos this).symm⟩
    rw [hp]
    unfold dimBlocks
    rw [hm, List.range_succ_eq_map, List.map_cons]
    simp only [bind, Except.bind, List.foldlM_cons]
    rw [stepDimrange_empty ((((hω.at 1).at 0).at 1).at _) hT ha hn tr.item _ _ (by omega) (by omega) _ u hun
      (by exact he)]
  · rw [if_neg hd]
    unfold icdIteration
    rw [hp]
    obtain ⟨K', rfl⟩ := Nat.exists_eq_succ_of_ne_zero (Nat.pos_iff_ne_zero.mp hK)
    rw [List.finRange_succ]
    simp only [bind, Except.bind, List.foldlM_cons]
    rw [stepIcdDim_empty ((((hω.at 1).at 0).at 1).at _) hT ha hn tr.item _ _ u hun he]

/-! ## C43 -/

/-- The linear system of the specification is the optimality condition: `x` solves the system of user
`u` exactly if no other embedding of that user has a smaller loss (whatever the other users). -/
theorem C43_system_is_optimality (cfg : Config) (X : CSR ℝ) (hv : Valid cfg X) (B A : Nat → Fin K → ℝ)
    (u : Nat) (hu : u < X.nrows) (x : Fin K → ℝ) :
    systemAt (paramsOf cfg) (Data.ofCSR X) B u x = systemRhs (paramsOf cfg) (Data.ofCSR X) B u ↔
      ∀ y : Fin K → ℝ, loss (paramsOf cfg) (Data.ofCSR X) (Function.update A u x) B ≤
        loss (paramsOf cfg) (Data.ofCSR X) (Function.update A u y) B := by
  have hl : ∀ y : Fin K → ℝ, loss (paramsOf cfg) (Data.ofCSR X) (Function.update A u y) B =
      1 / 2 * rowObj (paramsOf cfg) (Data.ofCSR X) 0 B u y +
      (1 / 2 * ∑ w ∈ (Finset.range X.nrows).erase u, rowObj (paramsOf cfg) (Data.ofCSR X) 0 B w (A w) +
      1 / 2 * ∑ i ∈ Finset.range (Data.ofCSR X).I,
        itemWeight (paramsOf cfg) (Data.ofCSR X) i * normSq (B i - 0)) := by
    intro y
    rw [loss_eq_priorLoss, priorLoss_eq]
    have : (Data.ofCSR X).U = X.nrows := rfl
    rw [this, ← Finset.add_sum_erase _ _ (Finset.mem_range.mpr hu), Function.update_self]
    have h2 : ∑ w ∈ (Finset.range X.nrows).erase u,
        rowObj (paramsOf cfg) (Data.ofCSR X) 0 B w (Function.update A u y w) =
        ∑ w ∈ (Finset.range X.nrows).erase u, rowObj (paramsOf cfg) (Data.ofCSR X) 0 B w (A w) := by
      refine Finset.sum_congr rfl (fun w hw => ?_)
      rw [Function.update_of_ne (Finset.ne_of_mem_erase hw)]
    rw [h2]
    ring
  have hb := rowObj_ofCSR cfg X hv.proper ⟨X.cols, B⟩ rfl 0 u
  simp only [smul_zero] at hb
  have hs := systemAt_eq cfg X hv.proper ⟨X.cols, B⟩ rfl u x
  have hr := systemRhs_eq cfg X hv.proper ⟨X.cols, B⟩ u
  simp only at hs hr
  rw [hs, hr, quad_min_iff (rowMat_symm (V := ⟨X.cols, B⟩) hv.alpha0 hv.reg u)
    (rowMat_nonneg hv.alpha0 hv.reg (nonNeg_row hv.nonneg u))]
  refine forall_congr' (fun y => ?_)
  rw [hl, hl, hb, hb]
  unfold rowMat
  constructor
  · intro h; linarith
  · intro h; linarith

/-- C43.  After a user half-epoch by conjugate gradient with at least `n_components` steps (the default
0 means exactly that many) every user's embedding solves their linear system up to a residual of norm
`1e-10`, for every data set, from every starting point. -/
theorem C43_cg_solves_users {ω : Oracle T} (hω : ω.Complete) (cfg : Config) (X : CSR ℝ)
    (hv : Valid cfg X) (sc : SolverConfig) (hs : sc.solverType = .cg)
    (hm : sc.maxCgSteps = 0 ∨ K ≤ sc.maxCgSteps) (tr tr' : Trainer K) (hr : tr.Reached cfg X)
    (hf : tr.featureAware = false) (h : tr.stepUser ω sc = .ok tr') (u : Nat) (hu : u < X.nrows) :
    normSq (systemRhs (paramsOf cfg) (Data.ofCSR X) tr.item.row u -
      systemAt (paramsOf cfg) (Data.ofCSR X) tr.item.row u (tr'.user.row u)) ≤ 1 / 10 ^ 20 := by
  obtain ⟨hg, hc, hx⟩ := reached_good hv hr
  rw [system_residual cfg X hv.proper tr.item (by rw [hg.vn, hx])]
  change _ ≤ cgEps
  obtain ⟨hT, user, h1, rfl⟩ := stepUser_plain hω sc tr tr' hf h
  rw [hc, hx] at h1
  unfold solverStep at h1
  rw [hs] at h1
  have := (stepCg_row (hω.at 1) hT h1).2 u (by rw [hg.un, hx]; exact hu)
  exact cgRow_residual hv.alpha0 hv.reg sc (by unfold cgMaxIter; split <;> omega) _ _ this

/-- C43 (items). -/
theorem C43_cg_solves_items {ω : Oracle T} (hω : ω.Complete) (cfg : Config) (X : CSR ℝ)
    (hv : Valid cfg X) (sc : SolverConfig) (hs : sc.solverType = .cg)
    (hm : sc.maxCgSteps = 0 ∨ K ≤ sc.maxCgSteps) (tr tr' : Trainer K) (hr : tr.Reached cfg X)
    (hf : tr.featureAware = false) (h : tr.stepItem ω sc = .ok tr') (i : Nat) (hi : i < X.cols) :
    normSq (systemRhs (paramsOf cfg) (Data.ofCSR X).swap tr.user.row i -
      systemAt (paramsOf cfg) (Data.ofCSR X).swap tr.user.row i (tr'.item.row i)) ≤ 1 / 10 ^ 20 := by
  obtain ⟨hg, hc, hx⟩ := reached_good hv hr
  rw [← ofCSR_transpose X hv.proper, system_residual cfg (transpose X) (Sim.transpose_proper X hv.proper)
    tr.user (by rw [hg.un, hx]; rfl)]
  change _ ≤ cgEps
  obtain ⟨hT, item, h1, rfl⟩ := stepItem_plain hω sc tr tr' hf h
  rw [hc, hg.Xt, hx] at h1
  unfold solverStep at h1
  rw [hs] at h1
  have := (stepCg_row (hω.at 1) hT h1).2 i (by rw [hg.vn, hx]; exact hi)
  exact cgRow_residual hv.alpha0 hv.reg sc (by unfold cgMaxIter; split <;> omega) _ _ this

/-- C43 (distance to the optimum).  The embedding found by conjugate gradient is within `1e-10 / λ_u`
of every exact solution, where `λ_u` is the regularisation of the user. -/
theorem C43_cg_near_optimum {ω : Oracle T} (hω : ω.Complete) (cfg : Config) (X : CSR ℝ)
    (hv : Valid cfg X) (sc : SolverConfig) (hs : sc.solverType = .cg)
    (hm : sc.maxCgSteps = 0 ∨ K ≤ sc.maxCgSteps) (tr tr' : Trainer K) (hr : tr.Reached cfg X)
    (hf : tr.featureAware = false) (h : tr.stepUser ω sc = .ok tr') (u : Nat) (hu : u < X.nrows)
    (x : Fin K → ℝ) (hx : systemAt (paramsOf cfg) (Data.ofCSR X) tr.item.row u x =
      systemRhs (paramsOf cfg) (Data.ofCSR X) tr.item.row u) :
    userWeight (paramsOf cfg) (Data.ofCSR X) u ^ 2 * normSq (x - tr'.user.row u) ≤ 1 / 10 ^ 20 := by
  have hres := C43_cg_solves_users hω cfg X hv sc hs hm tr tr' hr hf h u hu
  obtain ⟨hg, hc, hX⟩ := reached_good hv hr
  have hvn : tr.item.n = X.cols := by rw [hg.vn, hX]
  rw [system_residual cfg X hv.proper tr.item hvn] at hres
  rw [systemAt_eq cfg X hv.proper tr.item hvn, systemRhs_eq cfg X hv.proper] at hx
  rw [weight_ofCSR cfg X hv.proper, normSq_eq, ← hvn]
  exact distance_of_residual (computeReg_nonneg cfg hv.reg hv.alpha0 _ _)
    (rowMat_lower hv.alpha0 (nonNeg_row hv.nonneg u)) hx hres

/-- C43 (more steps are never worse).  From the same trainer, a user half-epoch with more conjugate
gradient steps ends with a loss at most as large. -/
theorem C43_more_steps {T₂ : Nat} {ω : Oracle T} {ω₂ : Oracle T₂} (hω : ω.Complete) (hω₂ : ω₂.Complete)
    (cfg : Config) (X : CSR ℝ) (hv : Valid cfg X) (m n sub it : Nat) (hm : 0 < m) (hmn : m ≤ n)
    (tr tr₁ tr₂ : Trainer K) (hr : tr.Reached cfg X) (hf : tr.featureAware = false)
    (h₁ : tr.stepUser ω ⟨.cg, m, sub, it⟩ = .ok tr₁) (h₂ : tr.stepUser ω₂ ⟨.cg, n, sub, it⟩ = .ok tr₂) :
    loss (paramsOf cfg) (Data.ofCSR X) tr₂.user.row tr.item.row ≤
      loss (paramsOf cfg) (Data.ofCSR X) tr₁.user.row tr.item.row := by
  obtain ⟨hg, hc, hx⟩ := reached_good hv hr
  obtain ⟨hT, user, h1, rfl⟩ := stepUser_plain hω _ tr tr₁ hf h₁
  obtain ⟨hT₂, user', h2, rfl⟩ := stepUser_plain hω₂ _ tr tr₂ hf h₂
  rw [hc, hx] at h1 h2
  simp only
  obtain ⟨hn1, hr1⟩ := stepCg_row (hω.at 1) hT h1
  obtain ⟨hn2, hr2⟩ := stepCg_row (hω₂.at 1) hT₂ h2
  rw [loss_eq_priorLoss, loss_eq_priorLoss]
  apply priorLoss_le_of_rows cfg X hv.proper tr.item user user' (by rw [hg.vn, hx])
  intro r hr'
  have e1 := hr1 r (by rw [hg.un, hx]; exact hr')
  have e2 := hr2 r (by rw [hg.un, hx]; exact hr')
  by_cases he : (none : Option (Vec K)).isNone = true ∧ (X.row r).length = 0
  · unfold cgRow at e1 e2
    simp only at e1 e2
    rw [if_pos he] at e1 e2
    have e3 := (Except.ok.inj e1).symm.trans (Except.ok.inj e2)
    rw [e3]
  · rw [cgRow_eq cfg _ _ _ none _ _ he] at e1 e2
    simp only [priorRhs] at e1 e2
    have := cgLoop_mono _ (rowMat_symm (V := tr.item) hv.alpha0 hv.reg r) _ (tr.user.row r) cgEps
      (by unfold cgEps; positivity) (cgMaxIter K ⟨.cg, m, sub, it⟩) (cgMaxIter K ⟨.cg, n, sub, it⟩)
      (by unfold cgMaxIter; simp only; split <;> split <;> omega) _ _ e1 e2
    unfold rowQ
    rw [smul_zero]
    exact this

/-- C43 (orthogonal residuals).  The residuals after `m` and after `n` steps are orthogonal, unless the
threshold was reached earlier and both runs stopped at the same embedding. -/
theorem C43_orthogonal_residuals {T₂ : Nat} {ω : Oracle T} {ω₂ : Oracle T₂} (hω : ω.Complete)
    (hω₂ : ω₂.Complete) (cfg : Config) (X : CSR ℝ) (hv : Valid cfg X) (m n sub it : Nat) (hm : 0 < m)
    (hmn : m < n) (tr tr₁ tr₂ : Trainer K) (hr : tr.Reached cfg X) (hf : tr.featureAware = false)
    (h₁ : tr.stepUser ω ⟨.cg, m, sub, it⟩ = .ok tr₁) (h₂ : tr.stepUser ω₂ ⟨.cg, n, sub, it⟩ = .ok tr₂)
    (u : Nat) (hu : u < X.nrows) :
    tr₁.user.row u = tr₂.user.row u ∨
    score
      (systemRhs (paramsOf cfg) (Data.ofCSR X) tr.item.row u -
        systemAt (paramsOf cfg) (Data.ofCSR X) tr.item.row u (tr₁.user.row u))
      (systemRhs (paramsOf cfg) (Data.ofCSR X) tr.item.row u -
        systemAt (paramsOf cfg) (Data.ofCSR X) tr.item.row u (tr₂.user.row u)) = 0 := by
  obtain ⟨hg, hc, hx⟩ := reached_good hv hr
  have hvn : tr.item.n = X.cols := by rw [hg.vn, hx]
  obtain ⟨hT, user, h1, rfl⟩ := stepUser_plain hω _ tr tr₁ hf h₁
  obtain ⟨hT₂, user', h2, rfl⟩ := stepUser_plain hω₂ _ tr tr₂ hf h₂
  rw [hc, hx] at h1 h2
  simp only
  have e1 := (stepCg_row (hω.at 1) hT h1).2 u (by rw [hg.un, hx]; exact hu)
  have e2 := (stepCg_row (hω₂.at 1) hT₂ h2).2 u (by rw [hg.un, hx]; exact hu)
  rw [systemRhs_eq cfg X hv.proper, systemAt_eq cfg X hv.proper tr.item hvn,
    systemAt_eq cfg X hv.proper tr.item hvn, score_eq]
  by_cases he : (none : Option (Vec K)).isNone = true ∧ (X.row u).length = 0
  · left
    unfold cgRow at e1 e2
    simp only at e1 e2
    rw [if_pos he] at e1 e2
    exact (Except.ok.inj e1).symm.trans (Except.ok.inj e2)
  · rw [cgRow_eq cfg _ _ _ none _ _ he] at e1 e2
    simp only [priorRhs] at e1 e2
    have heps : (0 : ℝ) ≤ cgEps := by unfold cgEps; positivity
    set A := rowMat cfg (gramP cfg tr.item) X tr.item u with hA
    set b := sysRhs cfg tr.item (X.row u) 0 with hb
    obtain ⟨j, _, hj, hy, hruns, hend⟩ := cgLoop_ok A b (tr.user.row u) cgEps heps _ 0 _ e1
    obtain ⟨j', _, hj', hy', hruns', hend'⟩ := cgLoop_ok A b (tr.user.row u) cgEps heps _ 0 _ e2
    rw [hy, hy', ← cgSeq_residual, ← cgSeq_residual]
    have hsym := rowMat_symm (cfg := cfg) (X := X) (V := tr.item) hv.alpha0 hv.reg u
    rcases lt_trichotomy j j' with hlt | heq | hgt
    · right
      rw [dotProduct_comm]
      exact (cgSeq_orthogonal A b _ hsym j' (fun i hi => (hruns' i (Nat.zero_le i) hi).1) j hlt).2.1
    · left; rw [heq]
    · right
      exact (cgSeq_orthogonal A b _ hsym j (fun i hi => (hruns i (Nat.zero_le i) hi).1) j' hgt).2.1

/-! ## Non-vacuity -/

theorem exampleRegPositive : RegPositive exampleCfg exampleX := by
  refine ⟨by norm_num [exampleCfg], fun row _ => Or.inr ?_⟩
  have : (0 : ℝ) ≤ row.length := Nat.cast_nonneg _
  norm_num [exampleCfg, exampleX]
  linarith

theorem exampleRegPositiveT : RegPositive exampleCfg (transpose exampleX) := by
  refine ⟨by norm_num [exampleCfg], fun row _ => Or.inr ?_⟩
  have h : (transpose exampleX).cols = 2 := rfl
  have : (0 : ℝ) ≤ row.length := Nat.cast_nonneg _
  rw [h]
  norm_num [exampleCfg]
  linarith

/-- a trainer of the example data, with three latent dimensions, before any step -/
noncomputable def exampleTrainer : Trainer 3 :=
  Trainer.create exampleCfg exampleX (fun u k => u + k.val) (fun i k => 1 + i * k.val)

/-- The hypotheses of the C42 and C43 theorems are met: with two threads, every solver configuration
performs an epoch (and its user half-epoch) on the example trainer, after any number of earlier
epochs. -/
example (sc : SolverConfig) : ∃ ω : Oracle 2, ω.Complete ∧ Valid exampleCfg exampleX ∧
    exampleTrainer.Reached exampleCfg exampleX ∧ exampleTrainer.featureAware = false ∧
    (∃ tr', exampleTrainer.step ω sc = .ok tr' ∧ tr'.Reached exampleCfg exampleX) ∧
    ∃ tr', exampleTrainer.stepUser (ω.at 0) sc = .ok tr' := by
  obtain ⟨ω, hω⟩ := exists_complete_oracle 2 (by norm_num)
  have hr : exampleTrainer.Reached exampleCfg exampleX := Trainer.Reached.create _ _
  obtain ⟨tr', h, _⟩ := C42_epoch_regularised hω (by norm_num) exampleCfg exampleX exampleValid
    exampleRegPositive exampleRegPositiveT sc exampleTrainer hr rfl
  refine ⟨ω, hω, exampleValid, hr, rfl, ⟨tr', h, Trainer.Reached.step ω sc _ _ hω hr h⟩, ?_⟩
  unfold Trainer.step at h
  rw [if_neg (by simp [exampleTrainer, Trainer.create])] at h
  obtain ⟨tr₁, h1, _⟩ := bind_ok h
  exact ⟨tr₁, h1⟩

/-- The hypotheses of the error theorems are met: `alpha0 = 0` with the second user of the example,
who has no interactions. -/
example : Valid { exampleCfg with alpha0 := 0 } exampleX ∧
    ({ exampleCfg with alpha0 := 0 } : Config).nu ≠ 0 ∧ 1 < exampleX.nrows ∧ exampleX.row 1 = [] := by
  refine ⟨⟨exampleValid.proper, exampleValid.nonneg, exampleValid.reg, le_rfl⟩, ?_, ?_, rfl⟩
  · norm_num [exampleCfg]
  · decide

end Irspack.Ials
