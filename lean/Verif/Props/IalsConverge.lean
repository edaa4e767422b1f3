import Verif.Proofs.IalsPpGain

/-!
# C81: iALS training converges
-/

namespace Irspack.Ials

open Spec.Ials Filter Topology Matrix

variable {K T : Nat}

theorem TrainingRun.reached {cfg : Config} {X : CSR ℝ} {sc : Nat → SolverConfig} {tr : Nat → Trainer K}
    (h : TrainingRun cfg X sc tr) (n : Nat) : (tr n).Reached cfg X := by
  induction n with
  | zero => exact h.start
  | succ n ih =>
    obtain ⟨T, ω, hω, hs⟩ := h.epoch n
    exact .step ω (sc n) _ _ hω ih hs

theorem TrainingRun.next {cfg : Config} {X : CSR ℝ} {sc : Nat → SolverConfig} {tr : Nat → Trainer K}
    (h : TrainingRun cfg X sc tr) (hv : Valid cfg X) (n : Nat) :
    (tr (n + 1)).featureAware = (tr n).featureAware ∧ (tr (n + 1)).specLoss ≤ (tr n).specLoss := by
  obtain ⟨T, ω, hω, hs⟩ := h.epoch n
  obtain ⟨hg, hc, hx⟩ := reached_good hv (h.reached n)
  have := step_good hω _ _ hg hs (hx ▸ hv.proper) (hx ▸ hv.nonneg) (hc ▸ hv.reg) (hc ▸ hv.alpha0)
  exact ⟨this.2.2.2.2.1, this.2.2.2.2.2⟩

theorem TrainingRun.plain {cfg : Config} {X : CSR ℝ} {sc : Nat → SolverConfig} {tr : Nat → Trainer K}
    (h : TrainingRun cfg X sc tr) (hv : Valid cfg X) (hf : (tr 0).featureAware = false) (n : Nat) :
    (tr n).featureAware = false ∧
      (tr n).specLoss = loss (paramsOf cfg) (Data.ofCSR X) (tr n).user.row (tr n).item.row := by
  have hfn : (tr n).featureAware = false := by
    induction n with
    | zero => exact hf
    | succ n ih => rw [(h.next hv n).1, ih]
  obtain ⟨hg, hc, hx⟩ := reached_good hv (h.reached n)
  rw [specLoss_create _ (hg.aware hfn).1 (hg.aware hfn).2, hc, hx]
  exact ⟨hfn, rfl⟩

/-- C81 (the loss converges).  However long one trains, with whatever solvers (also a different one in
every epoch), with or without features: the losses that `compute_loss` reports after 0, 1, 2, … epochs
never increase and tend to a limit that is not negative. -/
theorem C81_loss_converges (cfg : Config) (X : CSR ℝ) (hv : Valid cfg X) (sc : Nat → SolverConfig)
    (tr : Nat → Trainer K) (h : TrainingRun cfg X sc tr) (ℓ : Nat → ℝ)
    (hℓ : ∀ n, ∃ (T : Nat) (ω : Oracle T), ω.Complete ∧ (tr n).computeLoss ω = .ok (ℓ n)) :
    Antitone ℓ ∧ ∃ L, 0 ≤ L ∧ (∀ n, L ≤ ℓ n) ∧ Tendsto ℓ atTop (𝓝 L) := by
  have he : ∀ n, ℓ n = (tr n).specLoss := by
    intro n
    obtain ⟨T, ω, hω, hs⟩ := hℓ n
    obtain ⟨hg, hc, hx⟩ := reached_good hv (h.reached n)
    rcases Nat.eq_zero_or_pos T with rfl | hT
    · rw [C41_zero_threads] at hs; cases hs
    · rw [computeLoss_eq hω hT _ hg (hx ▸ hv.proper)] at hs
      exact (Except.ok.inj hs).symm
  have hanti : Antitone ℓ := antitone_nat_of_succ_le (fun n => by
    rw [he, he]; exact (h.next hv n).2)
  have h0 : ∀ n, 0 ≤ ℓ n := by
    intro n
    obtain ⟨hg, hc, hx⟩ := reached_good hv (h.reached n)
    rw [he]
    unfold Trainer.specLoss
    have := convex_of_valid hv
    rw [← hc, ← hx] at this
    exact featureLoss_nonneg this _ _ _ _ _ _ _ _ _ _ hg.ul hg.il
  have hb : BddBelow (Set.range ℓ) := ⟨0, by rintro _ ⟨n, rfl⟩; exact h0 n⟩
  exact ⟨hanti, ⨅ n, ℓ n, le_ciInf h0, fun n => ciInf_le hb n, tendsto_atTop_ciInf hanti hb⟩

/-- C81 (the embeddings stay bounded).  During the whole training, with any solvers, the squared length
of the embedding of a user or item, times its regularisation, is at most twice the initial loss. -/
theorem C81_bounded (cfg : Config) (X : CSR ℝ) (hv : Valid cfg X) (sc : Nat → SolverConfig)
    (tr : Nat → Trainer K) (h : TrainingRun cfg X sc tr) (hf : (tr 0).featureAware = false) (n : Nat) :
    (∀ u < X.nrows, userWeight (paramsOf cfg) (Data.ofCSR X) u * normSq ((tr n).user.row u) ≤
      2 * loss (paramsOf cfg) (Data.ofCSR X) (tr 0).user.row (tr 0).item.row) ∧
    ∀ i < X.cols, itemWeight (paramsOf cfg) (Data.ofCSR X) i * normSq ((tr n).item.row i) ≤
      2 * loss (paramsOf cfg) (Data.ofCSR X) (tr 0).user.row (tr 0).item.row := by
  have hc := convex_of_valid hv
  have hle : loss (paramsOf cfg) (Data.ofCSR X) (tr n).user.row (tr n).item.row ≤
      loss (paramsOf cfg) (Data.ofCSR X) (tr 0).user.row (tr 0).item.row := by
    rw [← (h.plain hv hf n).2, ← (h.plain hv hf 0).2]
    exact antitone_nat_of_succ_le (f := fun m => (tr m).specLoss) (fun m => (h.next hv m).2)
      (Nat.zero_le n)
  refine ⟨fun u hu => ?_, fun i hi => ?_⟩
  · have := loss_users hc (tr n).user.row (tr n).item.row u hu
    linarith
  · have := loss_items hc (tr n).user.row (tr n).item.row i hi
    linarith

theorem movement_nonneg {p : Params} {D : Data} (h : Convex p D) (A B A' B' : Nat → Vec K) :
    0 ≤ movement p D A B A' B' := by
  unfold movement
  have h1 : 0 ≤ ∑ u ∈ Finset.range D.U, userWeight p D u * normSq (A u - A' u) :=
    Finset.sum_nonneg (fun i _ => mul_nonneg (h.uw i) (normSq_nonneg _))
  have h2 : 0 ≤ ∑ i ∈ Finset.range D.I, itemWeight p D i * normSq (B i - B' i) :=
    Finset.sum_nonneg (fun i _ => mul_nonneg (h.iw i) (normSq_nonneg _))
  linarith

/-- C81 (every move pays).  With the Cholesky or the conjugate-gradient solver, the loss that training has
removed after `N` epochs is at least the sum of the movements of the embeddings in these epochs. -/
theorem C81_movement_paid (cfg : Config) (X : CSR ℝ) (hv : Valid cfg X) (sc : Nat → SolverConfig)
    (hs : ∀ n, (sc n).solverType ≠ .ialspp) (tr : Nat → Trainer K) (h : TrainingRun cfg X sc tr)
    (hf : (tr 0).featureAware = false) (N : Nat) :
    ∑ n ∈ Finset.range N, movement (paramsOf cfg) (Data.ofCSR X) (tr n).user.row (tr n).item.row
      (tr (n + 1)).user.row (tr (n + 1)).item.row ≤
    loss (paramsOf cfg) (Data.ofCSR X) (tr 0).user.row (tr 0).item.row -
      loss (paramsOf cfg) (Data.ofCSR X) (tr N).user.row (tr N).item.row := by
  induction N with
  | zero => simp
  | succ N ih =>
    rw [Finset.sum_range_succ]
    obtain ⟨T, ω, hω, hst⟩ := h.epoch N
    have := epoch_gain hω hv (hs N) (h.reached N) (h.plain hv hf N).1 hst
    linarith

/-- C81 (every move pays, any solver).  With whatever solvers: if `M` bounds the number of sweeps of the
iALS++ solver, the sum of the movements of the embeddings in the first `N` epochs is at most the loss that
training has removed, times the number `M * K` of one-dimensional sub-steps at most made in a half-epoch. -/
theorem C81_movement_any_solver (cfg : Config) (X : CSR ℝ) (hv : Valid cfg X) (sc : Nat → SolverConfig)
    (M : Nat) (hM : ∀ n, (sc n).solverType = .ialspp → (sc n).iteration ≤ M)
    (tr : Nat → Trainer K) (h : TrainingRun cfg X sc tr) (hf : (tr 0).featureAware = false) (N : Nat) :
    ∑ n ∈ Finset.range N, movement (paramsOf cfg) (Data.ofCSR X) (tr n).user.row (tr n).item.row
      (tr (n + 1)).user.row (tr (n + 1)).item.row ≤
    (max 1 (M * K) : Nat) * (loss (paramsOf cfg) (Data.ofCSR X) (tr 0).user.row (tr 0).item.row -
      loss (paramsOf cfg) (Data.ofCSR X) (tr N).user.row (tr N).item.row) := by
  induction N with
  | zero => simp
  | succ N ih =>
    rw [Finset.sum_range_succ]
    obtain ⟨T, ω, hω, hst⟩ := h.epoch N
    have := epoch_move hω hv M (hM N) (h.reached N) (h.plain hv hf N).1 hst
    linarith

/-- C81 (rate).  Among the first `N` epochs there is one in which the embeddings move by at most the
initial loss divided by `N`. -/
theorem C81_rate (cfg : Config) (X : CSR ℝ) (hv : Valid cfg X) (sc : Nat → SolverConfig)
    (hs : ∀ n, (sc n).solverType ≠ .ialspp) (tr : Nat → Trainer K) (h : TrainingRun cfg X sc tr)
    (hf : (tr 0).featureAware = false) (N : Nat) (hN : 0 < N) :
    ∃ n < N, movement (paramsOf cfg) (Data.ofCSR X) (tr n).user.row (tr n).item.row
      (tr (n + 1)).user.row (tr (n + 1)).item.row ≤
      loss (paramsOf cfg) (Data.ofCSR X) (tr 0).user.row (tr 0).item.row / N := by
  by_contra hno
  push Not at hno
  have h1 := C81_movement_paid cfg X hv sc hs tr h hf N
  have h2 : 0 ≤ loss (paramsOf cfg) (Data.ofCSR X) (tr N).user.row (tr N).item.row := by
    have hc := convex_of_valid hv
    unfold loss
    have a := dataTerm_nonneg hc (tr N).user.row (tr N).item.row
    have b : 0 ≤ ∑ u ∈ Finset.range (Data.ofCSR X).U,
        userWeight (paramsOf cfg) (Data.ofCSR X) u * normSq ((tr N).user.row u) :=
      Finset.sum_nonneg (fun i _ => mul_nonneg (hc.uw i) (normSq_nonneg _))
    have c : 0 ≤ ∑ u ∈ Finset.range (Data.ofCSR X).I,
        itemWeight (paramsOf cfg) (Data.ofCSR X) u * normSq ((tr N).item.row u) :=
      Finset.sum_nonneg (fun i _ => mul_nonneg (hc.iw i) (normSq_nonneg _))
    linarith
  have h3 := Finset.sum_lt_sum_of_nonempty (Finset.nonempty_range_iff.mpr hN.ne')
    (fun n hn => hno n (Finset.mem_range.mp hn))
  rw [Finset.sum_const, Finset.card_range, nsmul_eq_mul,
    mul_div_cancel₀ _ (Nat.cast_ne_zero.mpr hN.ne')] at h3
  linarith

theorem userWeight_pos {cfg : Config} {X : CSR ℝ} (hv : Valid cfg X) (hp : RegPositive cfg X) {u : Nat}
    (hu : u < X.nrows) : 0 < userWeight (paramsOf cfg) (Data.ofCSR X) u := by
  rw [weight_ofCSR cfg X hv.proper]
  exact regPos_row hv hp hu

theorem itemWeight_pos {cfg : Config} {X : CSR ℝ} (hv : Valid cfg X) (hp : RegPositive cfg (transpose X))
    {i : Nat} (hi : i < X.cols) : 0 < itemWeight (paramsOf cfg) (Data.ofCSR X) i := by
  have hvt : Valid cfg (transpose X) :=
    ⟨Sim.transpose_proper X hv.proper, transpose_nonNeg hv.nonneg, hv.reg, hv.alpha0⟩
  rw [itemWeight_ofCSR cfg X hv.proper]
  exact regPos_row hvt hp (by rw [Sim.transpose_nrows]; exact hi)

theorem entry_sq_le (v : Vec K) (k : Fin K) : v k ^ 2 ≤ normSq v :=
  Finset.single_le_sum (f := fun k => v k ^ 2) (fun _ _ => sq_nonneg _) (Finset.mem_univ k)

theorem tendsto_zero_of_sq {f : Nat → ℝ} (h : Tendsto (fun n => f n ^ 2) atTop (𝓝 0)) :
    Tendsto f atTop (𝓝 0) := by
  rw [tendsto_zero_iff_abs_tendsto_zero]
  have := (Real.continuous_sqrt.tendsto 0).comp h
  rw [Real.sqrt_zero] at this
  refine this.congr (fun n => ?_)
  simp [Real.sqrt_sq_eq_abs]

/-- C81 (training settles).  With positive regularisation and any solvers (for iALS++ with a bounded number
of sweeps), the change of every component of every embedding from one epoch to the next tends to 0. -/
theorem C81_changes_vanish (cfg : Config) (X : CSR ℝ) (hv : Valid cfg X) (hpu : RegPositive cfg X)
    (hpi : RegPositive cfg (transpose X)) (sc : Nat → SolverConfig)
    (M : Nat) (hM : ∀ n, (sc n).solverType = .ialspp → (sc n).iteration ≤ M) (tr : Nat → Trainer K) (h : TrainingRun cfg X sc tr)
    (hf : (tr 0).featureAware = false) (k : Fin K) :
    (∀ u < X.nrows, Tendsto (fun n => (tr (n + 1)).user.row u k - (tr n).user.row u k) atTop (𝓝 0)) ∧
    ∀ i < X.cols, Tendsto (fun n => (tr (n + 1)).item.row i k - (tr n).item.row i k) atTop (𝓝 0) := by
  have hc := convex_of_valid hv
  set m : Nat → ℝ := fun n => movement (paramsOf cfg) (Data.ofCSR X) (tr n).user.row (tr n).item.row
      (tr (n + 1)).user.row (tr (n + 1)).item.row with hm
  have hm0 : ∀ n, 0 ≤ m n := fun n => movement_nonneg hc _ _ _ _
  have hlim : Tendsto m atTop (𝓝 0) := by
    refine (summable_of_sum_range_le (c := (max 1 (M * K) : Nat) * loss (paramsOf cfg) (Data.ofCSR X)
      (tr 0).user.row (tr 0).item.row) hm0 (fun N => ?_)).tendsto_atTop_zero
    refine (C81_movement_any_solver cfg X hv sc M hM tr h hf N).trans ?_
    refine mul_le_mul_of_nonneg_left ?_ (Nat.cast_nonneg _)
    obtain ⟨hg, hcf, hx⟩ := reached_good hv (h.reached N)
    have h2 : 0 ≤ (tr N).specLoss := by
      unfold Trainer.specLoss
      have := hc
      rw [← hcf, ← hx] at this
      exact featureLoss_nonneg this _ _ _ _ _ _ _ _ _ _ hg.ul hg.il
    rw [(h.plain hv hf N).2] at h2
    linarith
  have key : ∀ (w : ℝ) (f : Nat → ℝ), 0 < w → (∀ n, 1 / 2 * (w * f n ^ 2) ≤ m n) →
      Tendsto f atTop (𝓝 0) := by
    intro w f hw hle
    refine tendsto_zero_of_sq (squeeze_zero (fun n => sq_nonneg _) (g := fun n => 2 / w * m n) ?_ ?_)
    · intro n
      have := hle n
      rw [div_mul_eq_mul_div, le_div_iff₀ hw]
      linarith
    · have := hlim.const_mul (2 / w)
      rwa [mul_zero] at this
  refine ⟨fun u hu => key _ _ (userWeight_pos hv hpu hu) (fun n => ?_),
    fun i hi => key _ _ (itemWeight_pos hv hpi hi) (fun n => ?_)⟩
  · have h1 : ((tr (n + 1)).user.row u k - (tr n).user.row u k) ^ 2 ≤
        normSq ((tr n).user.row u - (tr (n + 1)).user.row u) := by
      have := entry_sq_le ((tr n).user.row u - (tr (n + 1)).user.row u) k
      rw [Pi.sub_apply] at this
      nlinarith
    have h2 := Finset.single_le_sum (f := fun u => userWeight (paramsOf cfg) (Data.ofCSR X) u *
      normSq ((tr n).user.row u - (tr (n + 1)).user.row u))
      (fun u _ => mul_nonneg (hc.uw u) (normSq_nonneg _)) (Finset.mem_range.mpr hu)
    have h3 : 0 ≤ ∑ i ∈ Finset.range (Data.ofCSR X).I, itemWeight (paramsOf cfg) (Data.ofCSR X) i *
        normSq ((tr n).item.row i - (tr (n + 1)).item.row i) :=
      Finset.sum_nonneg (fun i _ => mul_nonneg (hc.iw i) (normSq_nonneg _))
    have h4 := mul_le_mul_of_nonneg_left h1 (hc.uw u)
    have h5 : m n = 1 / 2 * ∑ u ∈ Finset.range X.nrows, userWeight (paramsOf cfg) (Data.ofCSR X) u *
        normSq ((tr n).user.row u - (tr (n + 1)).user.row u) + 1 / 2 * ∑ i ∈ Finset.range (Data.ofCSR X).I,
        itemWeight (paramsOf cfg) (Data.ofCSR X) i *
        normSq ((tr n).item.row i - (tr (n + 1)).item.row i) := rfl
    rw [h5]
    linarith
  · have h1 : ((tr (n + 1)).item.row i k - (tr n).item.row i k) ^ 2 ≤
        normSq ((tr n).item.row i - (tr (n + 1)).item.row i) := by
      have := entry_sq_le ((tr n).item.row i - (tr (n + 1)).item.row i) k
      rw [Pi.sub_apply] at this
      nlinarith
    have h2 := Finset.single_le_sum (f := fun i => itemWeight (paramsOf cfg) (Data.ofCSR X) i *
      normSq ((tr n).item.row i - (tr (n + 1)).item.row i))
      (fun u _ => mul_nonneg (hc.iw u) (normSq_nonneg _)) (Finset.mem_range.mpr hi)
    have h3 : 0 ≤ ∑ i ∈ Finset.range (Data.ofCSR X).U, userWeight (paramsOf cfg) (Data.ofCSR X) i *
        normSq ((tr n).user.row i - (tr (n + 1)).user.row i) :=
      Finset.sum_nonneg (fun i _ => mul_nonneg (hc.uw i) (normSq_nonneg _))
    have h4 := mul_le_mul_of_nonneg_left h1 (hc.iw i)
    have h5 : m n = 1 / 2 * ∑ u ∈ Finset.range (Data.ofCSR X).U, userWeight (paramsOf cfg) (Data.ofCSR X) u *
        normSq ((tr n).user.row u - (tr (n + 1)).user.row u) + 1 / 2 * ∑ i ∈ Finset.range X.cols,
        itemWeight (paramsOf cfg) (Data.ofCSR X) i *
        normSq ((tr n).item.row i - (tr (n + 1)).item.row i) := rfl
    rw [h5]
    linarith

theorem run_upper_users {cfg : Config} {X : CSR ℝ} (hv : Valid cfg X) (hpi : RegPositive cfg (transpose X))
    {sc : Nat → SolverConfig} {tr : Nat → Trainer K} (h : TrainingRun cfg X sc tr)
    (hf : (tr 0).featureAware = false) :
    ∃ L : ℝ, 0 < L ∧ ∀ n, ∀ u < X.nrows, ∀ z : Vec K,
      z ⬝ᵥ (rowMat cfg (gramP cfg (tr n).item) X (tr n).item u).mulVec z ≤ L * (z ⬝ᵥ z) := by
  have hc := convex_of_valid hv
  set L₀ := loss (paramsOf cfg) (Data.ofCSR X) (tr 0).user.row (tr 0).item.row
  have hq : ∀ i < X.cols, 0 ≤ 2 * L₀ / itemWeight (paramsOf cfg) (Data.ofCSR X) i := by
    intro i hi
    have hb := (C81_bounded cfg X hv sc tr h hf 0).2 i hi
    exact div_nonneg ((mul_nonneg (hc.iw i) (normSq_nonneg _)).trans hb) (hc.iw i)
  set C := ∑ i ∈ Finset.range X.cols, 2 * L₀ / itemWeight (paramsOf cfg) (Data.ofCSR X) i
  have hC0 : 0 ≤ C := Finset.sum_nonneg (fun i hi => hq i (Finset.mem_range.mp hi))
  have hC : ∀ n, ∀ i < X.cols, normSq ((tr n).item.row i) ≤ C := by
    intro n i hi
    have hb := (C81_bounded cfg X hv sc tr h hf n).2 i hi
    have h1 := Finset.single_le_sum
      (f := fun i => 2 * L₀ / itemWeight (paramsOf cfg) (Data.ofCSR X) i)
      (fun j hj => hq j (Finset.mem_range.mp hj)) (Finset.mem_range.mpr hi)
    refine le_trans ?_ h1
    rw [le_div_iff₀ (itemWeight_pos hv hpi hi)]
    linarith
  let g : Nat → ℝ := fun u => cfg.alpha0 * (X.cols * C) + ((X.row u).map (fun e => e.2 * C)).sum
        + computeReg cfg (X.row u).length X.cols
  have hg : ∀ u, 0 ≤ g u := by
    intro u
    refine add_nonneg (add_nonneg (mul_nonneg hv.alpha0 (by positivity)) (List.sum_nonneg ?_))
      (computeReg_nonneg cfg hv.reg hv.alpha0 _ _)
    intro x hx
    obtain ⟨e, he, rfl⟩ := List.mem_map.mp hx
    exact mul_nonneg (nonNeg_row hv.nonneg u e he) hC0
  refine ⟨∑ u ∈ Finset.range X.nrows, g u + 1, add_pos_of_nonneg_of_pos
    (Finset.sum_nonneg (fun u _ => hg u)) one_pos, fun n u hu z => ?_⟩
  obtain ⟨hgd, -, hx⟩ := reached_good hv (h.reached n)
  have hvn : (tr n).item.n = X.cols := by rw [hgd.vn, hx]
  have h1 := rowMat_upper (V := (tr n).item) hv.alpha0 (nonNeg_row hv.nonneg u)
    (fun e he => by rw [hvn]; exact Sim.row_bound hv.proper u e he) C (fun i hi => hC n i (by rw [← hvn]; exact hi)) z
  rw [hvn] at h1
  refine h1.trans (mul_le_mul_of_nonneg_right ?_ (dot_self_nonneg z))
  have h2 := Finset.single_le_sum (f := g) (fun j _ => hg j) (Finset.mem_range.mpr hu)
  have h3 : g u = cfg.alpha0 * (X.cols * C) + ((X.row u).map (fun e => e.2 * C)).sum
        + computeReg cfg (X.row u).length X.cols := rfl
  linarith

theorem run_upper_items {cfg : Config} {X : CSR ℝ} (hv : Valid cfg X) (hpu : RegPositive cfg X)
    {sc : Nat → SolverConfig} {tr : Nat → Trainer K} (h : TrainingRun cfg X sc tr)
    (hf : (tr 0).featureAware = false) :
    ∃ L : ℝ, 0 < L ∧ ∀ n, ∀ i < X.cols, ∀ z : Vec K,
      z ⬝ᵥ (rowMat cfg (gramP cfg (tr n).user) (transpose X) (tr n).user i).mulVec z ≤ L * (z ⬝ᵥ z) := by
  have hc := convex_of_valid hv
  set L₀ := loss (paramsOf cfg) (Data.ofCSR X) (tr 0).user.row (tr 0).item.row
  have hq : ∀ i < X.nrows, 0 ≤ 2 * L₀ / userWeight (paramsOf cfg) (Data.ofCSR X) i := by
    intro i hi
    have hb := (C81_bounded cfg X hv sc tr h hf 0).1 i hi
    exact div_nonneg ((mul_nonneg (hc.uw i) (normSq_nonneg _)).trans hb) (hc.uw i)
  set C := ∑ i ∈ Finset.range X.nrows, 2 * L₀ / userWeight (paramsOf cfg) (Data.ofCSR X) i
  have hC0 : 0 ≤ C := Finset.sum_nonneg (fun i hi => hq i (Finset.mem_range.mp hi))
  have hC : ∀ n, ∀ i < X.nrows, normSq ((tr n).user.row i) ≤ C := by
    intro n i hi
    have hb := (C81_bounded cfg X hv sc tr h hf n).1 i hi
    have h1 := Finset.single_le_sum
      (f := fun i => 2 * L₀ / userWeight (paramsOf cfg) (Data.ofCSR X) i)
      (fun j hj => hq j (Finset.mem_range.mp hj)) (Finset.mem_range.mpr hi)
    refine le_trans ?_ h1
    rw [le_div_iff₀ (userWeight_pos hv hpu hi)]
    linarith
  let g : Nat → ℝ := fun u => cfg.alpha0 * (X.nrows * C) + (((transpose X).row u).map (fun e => e.2 * C)).sum
        + computeReg cfg ((transpose X).row u).length X.nrows
  have hg : ∀ u, 0 ≤ g u := by
    intro u
    refine add_nonneg (add_nonneg (mul_nonneg hv.alpha0 (by positivity)) (List.sum_nonneg ?_))
      (computeReg_nonneg cfg hv.reg hv.alpha0 _ _)
    intro x hx
    obtain ⟨e, he, rfl⟩ := List.mem_map.mp hx
    exact mul_nonneg (nonNeg_row hv.transpose.nonneg u e he) hC0
  refine ⟨∑ u ∈ Finset.range X.cols, g u + 1, add_pos_of_nonneg_of_pos
    (Finset.sum_nonneg (fun u _ => hg u)) one_pos, fun n u hu z => ?_⟩
  obtain ⟨hgd, -, hx⟩ := reached_good hv (h.reached n)
  have hvn : (tr n).user.n = X.nrows := by rw [hgd.un, hx]
  have h1 := rowMat_upper (V := (tr n).user) hv.alpha0 (nonNeg_row hv.transpose.nonneg u)
    (fun e he => by rw [hvn]; exact Sim.row_bound hv.transpose.proper u e he) C
    (fun i hi => hC n i (by rw [← hvn]; exact hi)) z
  rw [hvn] at h1
  refine h1.trans (mul_le_mul_of_nonneg_right ?_ (dot_self_nonneg z))
  have h2 := Finset.single_le_sum (f := g) (fun j _ => hg j) (Finset.mem_range.mpr hu)
  have h3 : g u = cfg.alpha0 * (X.nrows * C) + (((transpose X).row u).map (fun e => e.2 * C)).sum
        + computeReg cfg ((transpose X).row u).length X.nrows := rfl
  linarith

theorem run_loss_limit {cfg : Config} {X : CSR ℝ} (hv : Valid cfg X)
    {sc : Nat → SolverConfig} {tr : Nat → Trainer K} (h : TrainingRun cfg X sc tr)
    (hf : (tr 0).featureAware = false) :
    ∃ L, Tendsto (fun n => loss (paramsOf cfg) (Data.ofCSR X) (tr n).user.row (tr n).item.row) atTop (𝓝 L) := by
  have hanti : Antitone (fun n => loss (paramsOf cfg) (Data.ofCSR X) (tr n).user.row (tr n).item.row) :=
    antitone_nat_of_succ_le (fun n => by
      rw [← (h.plain hv hf n).2, ← (h.plain hv hf (n + 1)).2]
      exact (h.next hv n).2)
  have hb : BddBelow (Set.range
      (fun n => loss (paramsOf cfg) (Data.ofCSR X) (tr n).user.row (tr n).item.row)) := by
    refine ⟨0, ?_⟩
    rintro _ ⟨n, rfl⟩
    obtain ⟨hg, hcf, hx⟩ := reached_good hv (h.reached n)
    have hc := convex_of_valid hv
    simp only
    rw [← (h.plain hv hf n).2]
    unfold Trainer.specLoss
    rw [← hcf, ← hx] at hc
    exact featureLoss_nonneg hc _ _ _ _ _ _ _ _ _ _ hg.ul hg.il
  exact ⟨_, tendsto_atTop_ciInf hanti hb⟩

/-- what an epoch leaves to be gained on one side is at most a multiple of what it gained -/
theorem run_near {cfg : Config} {X : CSR ℝ} (hv : Valid cfg X) (hpu : RegPositive cfg X)
    (hpi : RegPositive cfg (transpose X)) {sc : Nat → SolverConfig} {tr : Nat → Trainer K} (M : Nat)
    (hs : ∀ n, (sc n).solverType ≠ .cg)
    (hM : ∀ n, (sc n).solverType = .ialspp → 1 ≤ (sc n).iteration ∧ (sc n).iteration ≤ M)
    (h : TrainingRun cfg X sc tr) (hf : (tr 0).featureAware = false) :
    ∃ C : ℝ, 0 ≤ C ∧ ∀ n,
      (∀ A', loss (paramsOf cfg) (Data.ofCSR X) (tr (n + 1)).user.row (tr n).item.row -
          loss (paramsOf cfg) (Data.ofCSR X) A' (tr n).item.row ≤
        C * (loss (paramsOf cfg) (Data.ofCSR X) (tr n).user.row (tr n).item.row -
          loss (paramsOf cfg) (Data.ofCSR X) (tr (n + 1)).user.row (tr (n + 1)).item.row)) ∧
      ∀ B', loss (paramsOf cfg) (Data.ofCSR X) (tr (n + 1)).user.row (tr (n + 1)).item.row -
          loss (paramsOf cfg) (Data.ofCSR X) (tr (n + 1)).user.row B' ≤
        C * (loss (paramsOf cfg) (Data.ofCSR X) (tr n).user.row (tr n).item.row -
          loss (paramsOf cfg) (Data.ofCSR X) (tr (n + 1)).user.row (tr (n + 1)).item.row) := by
  obtain ⟨L1, hL1, hb1⟩ := run_upper_users hv hpi h hf
  obtain ⟨L2, hL2, hb2⟩ := run_upper_items hv hpu h hf
  have ht : (transpose X).nrows = X.cols := Sim.transpose_nrows X
  have htc : (transpose X).cols = X.nrows := rfl
  set C1 := ∑ r ∈ Finset.range X.nrows, K * ((max 1 (M * K) : Nat) * L1) /
        computeReg cfg (X.row r).length X.cols with hC1
  set C2 := ∑ r ∈ Finset.range (transpose X).nrows, K * ((max 1 (M * K) : Nat) * L2) /
        computeReg cfg ((transpose X).row r).length (transpose X).cols with hC2
  have h1 : 0 ≤ C1 := Finset.sum_nonneg (fun r hr => div_nonneg (by positivity)
    (computeReg_nonneg cfg hv.reg hv.alpha0 _ _))
  have h2 : 0 ≤ C2 := Finset.sum_nonneg (fun r hr => div_nonneg (by positivity)
    (computeReg_nonneg cfg hv.reg hv.alpha0 _ _))
  refine ⟨C1 + C2, by linarith, fun n => ?_⟩
  obtain ⟨T, ω, hω, hst⟩ := h.epoch n
  obtain ⟨hT, un, vn, un', vn', s1, s2⟩ := epoch_plain hω hv (h.reached n) (h.plain hv hf n).1 hst
  have m1 := solverStep_move ((hω.at 0).at 1) hT hv (sc n) M (fun e => (hM n e).2) _ _ un s1
  have m2 := solverStep_move ((hω.at 1).at 1) hT hv.transpose (sc n) M (fun e => (hM n e).2) _ _
    (vn.trans ht.symm) s2
  have hm : (0 : ℝ) < ((max 1 (M * K) : Nat) : ℝ) := by
    exact_mod_cast lt_of_lt_of_le Nat.one_pos (le_max_left 1 (M * K))
  have d1 := loss_gain hv (tr n).item vn (tr n).user.row (tr (n + 1)).user.row (fun _ => 0)
    (fun r hr => nonneg_of_mul_nonneg_right ((mul_nonneg (computeReg_nonneg cfg hv.reg hv.alpha0 _ _)
      (normSq_nonneg _)).trans (m1 r (by rw [un]; exact hr))) hm)
  have d2 := loss_gain hv.transpose (tr (n + 1)).user un' (tr n).item.row (tr (n + 1)).item.row (fun _ => 0)
    (fun r hr => nonneg_of_mul_nonneg_right ((mul_nonneg (computeReg_nonneg cfg hv.reg hv.alpha0 _ _)
      (normSq_nonneg _)).trans (m2 r (by rw [vn, ← ht]; exact hr))) hm)
  rw [ofCSR_transpose X hv.proper, loss_swap, loss_swap] at d2
  simp only [Finset.sum_const_zero, mul_zero] at d1 d2
  refine ⟨fun A' => ?_, fun B' => ?_⟩
  · have := side_near ((hω.at 0).at 1) hT hv hpu vn (sc n) M (hs n) (hM n) _ _ un s1 L1 hL1.le
      (fun r hr => hb1 n r hr) A'
    refine this.trans ?_
    rw [← hC1]
    nlinarith
  · have := side_near ((hω.at 1).at 1) hT hv.transpose hpi (un'.trans htc.symm) (sc n) M (hs n) (hM n) _ _
      (vn.trans ht.symm) s2 L2 hL2.le (fun r hr => hb2 (n + 1) r (by rw [← ht]; exact hr)) B'
    rw [← hC2, ofCSR_transpose X hv.proper, loss_swap, loss_swap, loss_swap] at this
    refine this.trans ?_
    nlinarith

/-- C81 (what training converges to).  With the Cholesky or the iALS++ solver (with at least one and at most
`M` sweeps) and positive regularisation: if the embeddings after the epochs `φ 0 < φ 1 < …` tend to some `A`
and `B`, no change of the user embeddings alone and no change of the item embeddings alone would have a
smaller loss than `A` and `B`, and the losses of all epochs tend to that of `A` and `B`. -/
theorem C81_limits_optimal (cfg : Config) (X : CSR ℝ) (hv : Valid cfg X) (hpu : RegPositive cfg X)
    (hpi : RegPositive cfg (transpose X)) (sc : Nat → SolverConfig) (M : Nat)
    (hs : ∀ n, (sc n).solverType = .cholesky ∨
      (sc n).solverType = .ialspp ∧ 1 ≤ (sc n).iteration ∧ (sc n).iteration ≤ M)
    (tr : Nat → Trainer K) (h : TrainingRun cfg X sc tr)
    (hf : (tr 0).featureAware = false) (φ : Nat → Nat) (hφ : StrictMono φ) (A B : Nat → Fin K → ℝ)
    (hl : EmbeddingsTendTo X tr φ A B) :
    MutuallyOptimal (paramsOf cfg) (Data.ofCSR X) A B ∧
      Tendsto (fun n => loss (paramsOf cfg) (Data.ofCSR X) (tr n).user.row (tr n).item.row) atTop
        (𝓝 (loss (paramsOf cfg) (Data.ofCSR X) A B)) := by
  have hcg : ∀ n, (sc n).solverType ≠ .cg := by
    intro n e
    rcases hs n with h1 | ⟨h1, -⟩ <;> rw [e] at h1 <;> cases h1
  have hM : ∀ n, (sc n).solverType = .ialspp → 1 ≤ (sc n).iteration ∧ (sc n).iteration ≤ M := by
    intro n e
    rcases hs n with h1 | ⟨-, h1⟩
    · rw [e] at h1; cases h1
    · exact h1
  obtain ⟨C, hC, hstep⟩ := run_near hv hpu hpi M hcg hM h hf
  have hφt := hφ.tendsto_atTop
  have hvan := fun k => C81_changes_vanish cfg X hv hpu hpi sc M (fun n e => (hM n e).2) tr h hf k
  have hnextU : ∀ u < X.nrows, ∀ k, Tendsto (fun n => (tr (φ n + 1)).user.row u k) atTop (𝓝 (A u k)) := by
    intro u hu k
    have h2 := (((hvan k).1 u hu).comp hφt).add (hl.1 u hu k)
    rw [zero_add] at h2
    exact h2.congr (fun n => by simp)
  have hnextV : ∀ i < X.cols, ∀ k, Tendsto (fun n => (tr (φ n + 1)).item.row i k) atTop (𝓝 (B i k)) := by
    intro i hi k
    have h2 := (((hvan k).2 i hi).comp hφt).add (hl.2 i hi k)
    rw [zero_add] at h2
    exact h2.congr (fun n => by simp)
  obtain ⟨ℓ, hℓ⟩ := run_loss_limit hv h hf
  have hdrop : Tendsto (fun n => C * (loss (paramsOf cfg) (Data.ofCSR X) (tr (φ n)).user.row
      (tr (φ n)).item.row - loss (paramsOf cfg) (Data.ofCSR X) (tr (φ n + 1)).user.row
      (tr (φ n + 1)).item.row)) atTop (𝓝 0) := by
    have h1 := ((hℓ.sub (hℓ.comp (tendsto_add_atTop_nat 1))).comp hφt).const_mul C
    rw [sub_self, mul_zero] at h1
    exact h1
  have hloss := loss_tendsto (paramsOf cfg) (Data.ofCSR X) (A := fun n => (tr (φ n)).user.row)
    (B := fun n => (tr (φ n)).item.row) hl.1 hl.2
  refine ⟨⟨fun A' => ?_, fun B' => ?_⟩, ?_⟩
  · have h1 := loss_tendsto (paramsOf cfg) (Data.ofCSR X) (A := fun n => (tr (φ n + 1)).user.row)
      (B := fun n => (tr (φ n)).item.row) hnextU hl.2
    have h2 := loss_tendsto (paramsOf cfg) (Data.ofCSR X) (A := fun _ => A') (A' := A')
      (B := fun n => (tr (φ n)).item.row) (fun _ _ _ => tendsto_const_nhds) hl.2
    have := le_of_tendsto_of_tendsto' (h1.sub h2) hdrop (fun n => (hstep (φ n)).1 A')
    linarith
  · have h1 := loss_tendsto (paramsOf cfg) (Data.ofCSR X) (A := fun n => (tr (φ n + 1)).user.row)
      (B := fun n => (tr (φ n + 1)).item.row) hnextU hnextV
    have h2 := loss_tendsto (paramsOf cfg) (Data.ofCSR X) (A := fun n => (tr (φ n + 1)).user.row)
      (B := fun _ => B') (B' := B') hnextU (fun _ _ _ => tendsto_const_nhds)
    have := le_of_tendsto_of_tendsto' (h1.sub h2) hdrop (fun n => (hstep (φ n)).2 B')
    linarith
  · rwa [tendsto_nhds_unique (hℓ.comp hφt) hloss] at hℓ

/-- C81 (there is something to converge to).  With positive regularisation and any solvers, there are
epochs `φ 0 < φ 1 < …` along which the embeddings of all users and items converge. -/
theorem C81_limits_exist (cfg : Config) (X : CSR ℝ) (hv : Valid cfg X) (hpu : RegPositive cfg X)
    (hpi : RegPositive cfg (transpose X)) (sc : Nat → SolverConfig) (tr : Nat → Trainer K)
    (h : TrainingRun cfg X sc tr) (hf : (tr 0).featureAware = false) :
    ∃ (φ : Nat → Nat) (A B : Nat → Fin K → ℝ), StrictMono φ ∧ EmbeddingsTendTo X tr φ A B := by
  classical
  set L₀ := loss (paramsOf cfg) (Data.ofCSR X) (tr 0).user.row (tr 0).item.row
  let x : Nat → (Bool × Nat × Fin K) → ℝ := fun n j =>
    if j.1 then (if j.2.1 < X.nrows then (tr n).user.row j.2.1 j.2.2 else 0)
    else (if j.2.1 < X.cols then (tr n).item.row j.2.1 j.2.2 else 0)
  let c : (Bool × Nat × Fin K) → ℝ := fun j =>
    if j.1 then Real.sqrt (2 * L₀ / userWeight (paramsOf cfg) (Data.ofCSR X) j.2.1)
    else Real.sqrt (2 * L₀ / itemWeight (paramsOf cfg) (Data.ofCSR X) j.2.1)
  have hx : ∀ n, x n ∈ Set.pi Set.univ (fun j => Set.Icc (-c j) (c j)) := by
    intro n j _
    show -c j ≤ x n j ∧ x n j ≤ c j
    rw [← abs_le]
    rcases j with ⟨b, r, k⟩
    have hb := C81_bounded cfg X hv sc tr h hf n
    have key : ∀ (w : ℝ) (v : Vec K), 0 < w → w * normSq v ≤ 2 * L₀ → |v k| ≤ Real.sqrt (2 * L₀ / w) := by
      intro w v hw hle
      apply Real.abs_le_sqrt
      rw [le_div_iff₀ hw]
      have := mul_le_mul_of_nonneg_left (entry_sq_le v k) hw.le
      linarith
    cases b with
    | true =>
      show |if r < X.nrows then (tr n).user.row r k else 0| ≤ Real.sqrt _
      by_cases hr : r < X.nrows
      · rw [if_pos hr]; exact key _ _ (userWeight_pos hv hpu hr) (hb.1 r hr)
      · rw [if_neg hr, abs_zero]; exact Real.sqrt_nonneg _
    | false =>
      show |if r < X.cols then (tr n).item.row r k else 0| ≤ Real.sqrt _
      by_cases hr : r < X.cols
      · rw [if_pos hr]; exact key _ _ (itemWeight_pos hv hpi hr) (hb.2 r hr)
      · rw [if_neg hr, abs_zero]; exact Real.sqrt_nonneg _
  obtain ⟨a, -, φ, hφ, hlim⟩ := (isCompact_univ_pi (fun j => isCompact_Icc)).tendsto_subseq hx
  rw [tendsto_pi_nhds] at hlim
  refine ⟨φ, fun u k => a (true, u, k), fun i k => a (false, i, k), hφ, fun u hu k => ?_, fun i hi k => ?_⟩
  · refine (hlim (true, u, k)).congr (fun n => ?_)
    show (if u < X.nrows then (tr (φ n)).user.row u k else 0) = _
    rw [if_pos hu]
  · refine (hlim (false, i, k)).congr (fun n => ?_)
    show (if i < X.cols then (tr (φ n)).item.row i k else 0) = _
    rw [if_pos hi]

/-- C81 (conjugate gradients come to rest).  With the conjugate-gradient solver (the default) and positive
regularisation there is an epoch after which training changes no embedding any more; from then on every
embedding solves its own linear system up to a squared residual of `10⁻²⁰`. -/
theorem C81_cg_stops (cfg : Config) (X : CSR ℝ) (hv : Valid cfg X) (hpu : RegPositive cfg X)
    (hpi : RegPositive cfg (transpose X)) (sc : Nat → SolverConfig)
    (hs : ∀ n, (sc n).solverType = .cg) (tr : Nat → Trainer K) (h : TrainingRun cfg X sc tr)
    (hf : (tr 0).featureAware = false) :
    ∃ N, ∀ n ≥ N,
      (∀ u < X.nrows, (tr n).user.row u = (tr N).user.row u ∧
        normSq (systemRhs (paramsOf cfg) (Data.ofCSR X) (tr n).item.row u -
          systemAt (paramsOf cfg) (Data.ofCSR X) (tr n).item.row u ((tr n).user.row u)) ≤ 1 / 10 ^ 20) ∧
      ∀ i < X.cols, (tr n).item.row i = (tr N).item.row i ∧
        normSq (systemRhs (paramsOf cfg) (Data.ofCSR X).swap (tr n).user.row i -
          systemAt (paramsOf cfg) (Data.ofCSR X).swap (tr n).user.row i ((tr n).item.row i)) ≤ 1 / 10 ^ 20 := by
  obtain ⟨L1, hL1, hb1⟩ := run_upper_users hv hpi h hf
  obtain ⟨L2, hL2, hb2⟩ := run_upper_items hv hpu h hf
  let ℓ : Nat → ℝ := fun n => loss (paramsOf cfg) (Data.ofCSR X) (tr n).user.row (tr n).item.row
  have hanti : Antitone ℓ := antitone_nat_of_succ_le (fun n => by
    show loss _ _ _ _ ≤ loss _ _ _ _
    rw [← (h.plain hv hf n).2, ← (h.plain hv hf (n + 1)).2]
    exact (h.next hv n).2)
  have hbd : BddBelow (Set.range ℓ) := by
    refine ⟨0, ?_⟩
    rintro _ ⟨n, rfl⟩
    obtain ⟨hg, hcf, hx⟩ := reached_good hv (h.reached n)
    have hc := convex_of_valid hv
    show 0 ≤ loss _ _ _ _
    rw [← (h.plain hv hf n).2]
    unfold Trainer.specLoss
    rw [← hcf, ← hx] at hc
    exact featureLoss_nonneg hc _ _ _ _ _ _ _ _ _ _ hg.ul hg.il
  have hlim := tendsto_atTop_ciInf hanti hbd
  have hdrop : Tendsto (fun n => ℓ n - ℓ (n + 1)) atTop (𝓝 0) := by
    have := hlim.sub (hlim.comp (tendsto_add_atTop_nat 1))
    rw [sub_self] at this
    exact this
  have heps : (0 : ℝ) < cgEps := by unfold cgEps; positivity
  have hev : ∀ᶠ n in atTop, ℓ n - ℓ (n + 1) < cgEps / (2 * (L1 + L2)) :=
    hdrop.eventually_lt_const (by positivity)
  obtain ⟨N, hN⟩ := eventually_atTop.mp hev
  have key : ∀ n ≥ N + 1, (∀ u < X.nrows, (tr (n + 1)).user.row u = (tr n).user.row u ∧
        normSq (systemRhs (paramsOf cfg) (Data.ofCSR X) (tr n).item.row u -
          systemAt (paramsOf cfg) (Data.ofCSR X) (tr n).item.row u ((tr n).user.row u)) ≤ cgEps) ∧
      ∀ i < X.cols, (tr (n + 1)).item.row i = (tr n).item.row i ∧
        normSq (systemRhs (paramsOf cfg) (Data.ofCSR X).swap (tr (n + 1)).user.row i -
          systemAt (paramsOf cfg) (Data.ofCSR X).swap (tr (n + 1)).user.row i ((tr n).item.row i)) ≤ cgEps := by
    intro n hn
    obtain ⟨m, rfl⟩ : ∃ m, n = m + 1 := ⟨n - 1, by omega⟩
    obtain ⟨T0, ω0, hω0, hst0⟩ := h.epoch m
    obtain ⟨hT0, un0, vn0, -, -, s10, s20⟩ :=
      epoch_plain hω0 hv (h.reached m) (h.plain hv hf m).1 hst0
    obtain ⟨T, ω, hω, hst⟩ := h.epoch (m + 1)
    obtain ⟨hT, un, vn, un', vn', s1, s2⟩ :=
      epoch_plain hω hv (h.reached (m + 1)) (h.plain hv hf (m + 1)).1 hst
    have ht : (transpose X).nrows = X.cols := Sim.transpose_nrows X
    have hd := hN (m + 1) (by omega)
    rw [lt_div_iff₀ (by positivity)] at hd
    have d1 := loss_gain hv (tr (m + 1)).item vn (tr (m + 1)).user.row (tr (m + 1 + 1)).user.row
      (fun _ => 0) (fun r hr => (mul_nonneg (computeReg_nonneg cfg hv.reg hv.alpha0 _ _)
        (normSq_nonneg _)).trans (solverStep_gain ((hω.at 0).at 1) hT hv.alpha0 hv.reg _
          (by rw [hs]; decide) _ _ (fun r _ => nonNeg_row hv.nonneg r) s1 r (by rw [un]; exact hr)))
    have d2 := loss_gain hv.transpose (tr (m + 1 + 1)).user un' (tr (m + 1)).item.row
      (tr (m + 1 + 1)).item.row
      (fun _ => 0) (fun r hr => (mul_nonneg (computeReg_nonneg cfg hv.reg hv.alpha0 _ _)
        (normSq_nonneg _)).trans (solverStep_gain ((hω.at 1).at 1) hT hv.alpha0 hv.reg _
          (by rw [hs]; decide) _ _ (fun r _ => nonNeg_row hv.transpose.nonneg r) s2 r
          (by rw [vn, ← ht]; exact hr)))
    have hsw := d2
    rw [ofCSR_transpose X hv.proper, loss_swap, loss_swap] at hsw
    have e1 : ℓ (m + 1) = loss (paramsOf cfg) (Data.ofCSR X) (tr (m + 1)).user.row (tr (m + 1)).item.row := rfl
    have e2 : ℓ (m + 1 + 1) = loss (paramsOf cfg) (Data.ofCSR X) (tr (m + 1 + 1)).user.row
      (tr (m + 1 + 1)).item.row := rfl
    rw [e1, e2] at hd
    simp only [Finset.sum_const_zero, mul_zero] at d1 d2 hsw
    refine ⟨side_stop ((hω.at 0).at 1) hT hv (hs _) vn un s1 L1 hL1 (fun r hr => hb1 (m + 1) r hr)
      (fun r hr he => side_empty ((hω0.at 0).at 1) hT0 (hs _) un0 s10 r hr he) ?_, ?_⟩
    · nlinarith
    · have := side_stop ((hω.at 1).at 1) hT hv.transpose (hs _) un' (by rw [vn, ht]) s2 L2 hL2
        (fun r hr => hb2 (m + 1 + 1) r (by rw [← ht]; exact hr))
        (fun r hr he => side_empty ((hω0.at 1).at 1) hT0 (hs _) (by rw [vn0, ht]) s20 r hr he) (by
          rw [ofCSR_transpose X hv.proper, loss_swap, loss_swap]
          nlinarith)
      rw [ofCSR_transpose X hv.proper, ht] at this
      exact this
  have hconst : ∀ n ≥ N + 2, (∀ u < X.nrows, (tr n).user.row u = (tr (N + 2)).user.row u) ∧
      ∀ i < X.cols, (tr n).item.row i = (tr (N + 2)).item.row i := by
    intro n hn
    induction n, hn using Nat.le_induction with
    | base => exact ⟨fun _ _ => rfl, fun _ _ => rfl⟩
    | succ n hn ih =>
      have hk := key n (by omega)
      exact ⟨fun u hu => by rw [(hk.1 u hu).1, ih.1 u hu], fun i hi => by rw [(hk.2 i hi).1, ih.2 i hi]⟩
  refine ⟨N + 2, fun n hn => ⟨fun u hu => ⟨(hconst n hn).1 u hu, ?_⟩, fun i hi => ⟨(hconst n hn).2 i hi, ?_⟩⟩⟩
  · exact ((key n (by omega)).1 u hu).2
  · obtain ⟨m, rfl⟩ : ∃ m, n = m + 1 := ⟨n - 1, by omega⟩
    have hk := (key m (by omega)).2 i hi
    rw [hk.1]
    exact hk.2

theorem exists_run {T : Nat} {ω : Oracle T} (hω : ω.Complete) (hT : 0 < T) (cfg : Config) (X : CSR ℝ)
    (hv : Valid cfg X) (hpu : RegPositive cfg X) (hpi : RegPositive cfg (transpose X))
    (sc : Nat → SolverConfig) (tr₀ : Trainer K) (hr : tr₀.Reached cfg X) (hf : tr₀.featureAware = false) :
    ∃ tr : Nat → Trainer K, tr 0 = tr₀ ∧ TrainingRun cfg X sc tr := by
  classical
  have hnext : ∀ (n : Nat) (s : { t : Trainer K // t.Reached cfg X ∧ t.featureAware = false }),
      ∃ s' : { t : Trainer K // t.Reached cfg X ∧ t.featureAware = false },
        s.1.step ω (sc n) = .ok s'.1 := by
    intro n s
    obtain ⟨tr', h, -⟩ := C42_epoch_regularised hω hT cfg X hv hpu hpi (sc n) s.1 s.2.1 s.2.2
    obtain ⟨hg, hc, hx⟩ := reached_good hv s.2.1
    have := step_good hω _ _ hg h (by rw [hx]; exact hv.proper) (by rw [hx]; exact hv.nonneg)
      (by rw [hc]; exact hv.reg) (by rw [hc]; exact hv.alpha0)
    exact ⟨⟨tr', .step ω _ _ _ hω s.2.1 h, by rw [this.2.2.2.2.1, s.2.2]⟩, h⟩
  choose f hfn using hnext
  let run : Nat → { t : Trainer K // t.Reached cfg X ∧ t.featureAware = false } :=
    fun n => Nat.rec ⟨tr₀, hr, hf⟩ (fun n s => f n s) n
  exact ⟨fun n => (run n).1, rfl, hr, fun n => ⟨T, ω, hω, hfn n (run n)⟩⟩

/-- C81 (training never stops by itself).  With positive regularisation any trainer without features can
be trained for ever with any solver configurations. -/
theorem C81_runs_exist {T : Nat} {ω : Oracle T} (hω : ω.Complete) (hT : 0 < T) (cfg : Config) (X : CSR ℝ)
    (hv : Valid cfg X) (hpu : RegPositive cfg X) (hpi : RegPositive cfg (transpose X))
    (sc : Nat → SolverConfig) (u₀ v₀ : Nat → Vec K) :
    ∃ tr : Nat → Trainer K, tr 0 = Trainer.create cfg X u₀ v₀ ∧ TrainingRun cfg X sc tr :=
  exists_run hω hT cfg X hv hpu hpi sc _ (.create u₀ v₀) rfl

/-- The hypotheses are met: a run of the example with the Cholesky solver that starts from embeddings with
a positive loss, and epochs along which it converges. -/
example : ∃ (tr : Nat → Trainer 1) (sc : Nat → SolverConfig) (φ : Nat → Nat) (A B : Nat → Fin 1 → ℝ),
    TrainingRun exampleCfg exampleX sc tr ∧ (tr 0).featureAware = false ∧
    (∀ n, (sc n).solverType = .cholesky) ∧ RegPositive exampleCfg exampleX ∧
    RegPositive exampleCfg (transpose exampleX) ∧ Valid exampleCfg exampleX ∧
    StrictMono φ ∧ EmbeddingsTendTo exampleX tr φ A B := by
  obtain ⟨ω, hω⟩ := exists_complete_oracle 2 (by norm_num)
  obtain ⟨tr, h0, h⟩ := C81_runs_exist (K := 1) hω (by norm_num) exampleCfg exampleX exampleValid
    exampleRegPositive exampleRegPositiveT (fun _ => ⟨.cholesky, 3, 64, 3⟩) (fun _ _ => 1) (fun i _ => i + 1)
  have hf : (tr 0).featureAware = false := by rw [h0]; rfl
  obtain ⟨φ, A, B, hφ, hl⟩ := C81_limits_exist exampleCfg exampleX exampleValid exampleRegPositive
    exampleRegPositiveT _ tr h hf
  exact ⟨tr, _, φ, A, B, h, hf, fun _ => rfl, exampleRegPositive, exampleRegPositiveT, exampleValid, hφ, hl⟩

/-- and a run with iALS++ that changes its block size from epoch to epoch: its limit is optimal for the users
alone and for the items alone -/
example : ∃ (tr : Nat → Trainer 3) (A B : Nat → Fin 3 → ℝ), (tr 0).item.row 1 0 = 2 ∧
    TrainingRun exampleCfg exampleX (fun n => ⟨.ialspp, 3, n % 3, 2⟩) tr ∧
    MutuallyOptimal (paramsOf exampleCfg) (Data.ofCSR exampleX) A B := by
  obtain ⟨ω, hω⟩ := exists_complete_oracle 2 (by norm_num)
  obtain ⟨tr, h0, h⟩ := C81_runs_exist (K := 3) hω (by norm_num) exampleCfg exampleX exampleValid
    exampleRegPositive exampleRegPositiveT (fun n => ⟨.ialspp, 3, n % 3, 2⟩) (fun _ _ => 1) (fun i _ => i + 1)
  have hf : (tr 0).featureAware = false := by rw [h0]; rfl
  obtain ⟨φ, A, B, hφ, hl⟩ := C81_limits_exist exampleCfg exampleX exampleValid exampleRegPositive
    exampleRegPositiveT _ tr h hf
  refine ⟨tr, A, B, ?_, h, (C81_limits_optimal exampleCfg exampleX exampleValid exampleRegPositive
    exampleRegPositiveT _ 2 (fun n => Or.inr ⟨rfl, Nat.le_succ 1, le_rfl⟩) tr h hf φ hφ A B hl).1⟩
  rw [h0]
  show ((1 : Nat) : ℝ) + 1 = 2
  norm_num

/-- and such a run with conjugate gradients, which therefore comes to rest -/
example : ∃ (tr : Nat → Trainer 1) (N : Nat), (tr 0).item.row 1 0 = 2 ∧
    ∀ n ≥ N, ∀ u < exampleX.nrows, (tr n).user.row u = (tr N).user.row u := by
  obtain ⟨ω, hω⟩ := exists_complete_oracle 2 (by norm_num)
  obtain ⟨tr, h0, h⟩ := C81_runs_exist (K := 1) hω (by norm_num) exampleCfg exampleX exampleValid
    exampleRegPositive exampleRegPositiveT (fun _ => ⟨.cg, 3, 64, 3⟩) (fun _ _ => 1) (fun i _ => i + 1)
  have hf : (tr 0).featureAware = false := by rw [h0]; rfl
  obtain ⟨N, hN⟩ := C81_cg_stops exampleCfg exampleX exampleValid exampleRegPositive exampleRegPositiveT _
    (fun _ => rfl) tr h hf
  refine ⟨tr, N, ?_, fun n hn u hu => ((hN n hn).1 u hu).1⟩
  rw [h0]
  show ((1 : Nat) : ℝ) + 1 = 2
  norm_num

end Irspack.Ials
