import Verif.Props.IalsConverge
import Verif.Props.IalsFeature
import Verif.Proofs.IalsJoint
import Verif.Proofs.IalsFeatureStop

/-!
# C81: feature-aware iALS training converges
-/

namespace Irspack.Ials

open Spec.Ials Filter Topology Matrix

variable {K T : Nat}

theorem featureValid : Valid (featureCfg (1 / 2) 1) exampleX :=
  ⟨exampleValid.proper, exampleValid.nonneg, exampleValid.reg, by norm_num [featureCfg]⟩

theorem featureRegPositive : RegPositive (featureCfg (1 / 2) 1) exampleX := by
  refine ⟨by norm_num [featureCfg, exampleCfg], fun row _ => Or.inr ?_⟩
  have : (0 : ℝ) ≤ row.length := Nat.cast_nonneg _
  norm_num [featureCfg, exampleX]
  linarith

theorem featureRegPositiveT : RegPositive (featureCfg (1 / 2) 1) (transpose exampleX) := by
  refine ⟨by norm_num [featureCfg, exampleCfg], fun row _ => Or.inr ?_⟩
  have h : (transpose exampleX).cols = 2 := rfl
  have : (0 : ℝ) ≤ row.length := Nat.cast_nonneg _
  rw [h]
  norm_num [featureCfg]
  linarith

theorem featureTrainer_created (alpha0 nu : ℝ) :
    Trainer.createWithFeatures (featureCfg alpha0 nu) exampleX ⟨exampleX.nrows, 2, fun u f => u + f⟩
      ⟨exampleX.cols, 1, fun i _ => 1 + i⟩ (fun u k => u + k.val) (fun i k => 1 + i * k.val) =
    .ok (featureTrainer alpha0 nu) := by
  unfold Trainer.createWithFeatures
  rw [if_neg (by simp), if_neg (by simp [featureCfg])]
  rfl

section run
variable {cfg : Config} {X : CSR ℝ} {sc : Nat → SolverConfig} {tr : Nat → Trainer K}

/-- what stays the same during training, and the two halves of every epoch -/
theorem TrainingRun.features (h : TrainingRun cfg X sc tr) (hv : Valid cfg X) (n : Nat) :
    (tr n).userF = (tr 0).userF ∧ (tr n).itemF = (tr 0).itemF ∧ (tr n).epoch = (tr 0).epoch + n ∧
    (tr n).featureAware = (tr 0).featureAware := by
  induction n with
  | zero => exact ⟨rfl, rfl, rfl, rfl⟩
  | succ n ih =>
    obtain ⟨T, ω, hω, hs⟩ := h.epoch n
    obtain ⟨-, -, -, -, f1, f2, f3, -⟩ := epoch_halves hω hv (h.reached n) hs
    refine ⟨f1.trans ih.1, f2.trans ih.2.1, ?_, (h.next hv n).1.trans ih.2.2.2⟩
    rw [f3, ih.2.2.1]
    omega

theorem TrainingRun.specLoss_eq (h : TrainingRun cfg X sc tr) (hv : Valid cfg X) (n : Nat) :
    (tr n).specLoss = lossWithFeatures cfg X (tr 0).userF (tr 0).itemF (tr n).userW.val (tr n).itemW.val
      (tr n).user.row (tr n).item.row := by
  obtain ⟨hg, hc, hx⟩ := reached_good hv (h.reached n)
  obtain ⟨f1, f2, -⟩ := h.features hv n
  unfold Trainer.specLoss lossWithFeatures
  rw [hc, hx, f1, f2]

/-- the halves of epoch `n` with everything written for the run -/
theorem TrainingRun.halves (h : TrainingRun cfg X sc tr) (hv : Valid cfg X) (n : Nat) :
    (tr n).user.n = X.nrows ∧ (tr n).item.n = X.cols ∧
    Half cfg (sc n) X (tr n).item (tr 0).userF cfg.lambdaUser ((tr 0).epoch + n < cfg.warmup)
      (tr n).user (tr (n + 1)).user (tr n).userW (tr (n + 1)).userW ∧
    Half cfg (sc n) (transpose X) (tr (n + 1)).user (tr 0).itemF cfg.lambdaItem
      ((tr 0).epoch + n < cfg.warmup) (tr n).item (tr (n + 1)).item (tr n).itemW (tr (n + 1)).itemW := by
  obtain ⟨T, ω, hω, hs⟩ := h.epoch n
  obtain ⟨un, vn, -, -, -, -, -, -, h1, h2⟩ := epoch_halves hω hv (h.reached n) hs
  obtain ⟨f1, f2, f3, -⟩ := h.features hv n
  rw [f1, f3] at h1
  rw [f2, f3] at h2
  exact ⟨un, vn, h1, h2⟩

theorem TrainingRun.solver (h : TrainingRun cfg X sc tr) (hv : Valid cfg X)
    (hf : (tr 0).featureAware = true) (n : Nat) : (sc n).solverType ≠ .ialspp := by
  obtain ⟨T, ω, hω, hs⟩ := h.epoch n
  obtain ⟨-, -, -, -, -, -, -, h1, -⟩ := epoch_halves hω hv (h.reached n) hs
  exact h1 (by rw [(h.features hv n).2.2.2]; exact hf)

theorem TrainingRun.lambda (h : TrainingRun cfg X sc tr) (hv : Valid cfg X) :
    ((tr 0).userF.cols ≠ 0 → 0 < cfg.lambdaUser) ∧ ((tr 0).itemF.cols ≠ 0 → 0 < cfg.lambdaItem) := by
  obtain ⟨hg, hc, -⟩ := reached_good hv h.start
  rw [← hc]
  exact ⟨hg.ul, hg.il⟩

theorem TrainingRun.nonneg (h : TrainingRun cfg X sc tr) (hv : Valid cfg X) (n : Nat) :
    0 ≤ (tr n).specLoss := by
  rw [h.specLoss_eq hv n]
  exact featureLoss_nonneg (convex_of_valid hv) _ _ _ _ _ _ _ _ _ _ (h.lambda hv).1 (h.lambda hv).2

theorem TrainingRun.descending (h : TrainingRun cfg X sc tr) (hv : Valid cfg X) :
    Antitone (fun n => (tr n).specLoss) :=
  antitone_nat_of_succ_le (fun n => (h.next hv n).2)

end run

theorem featureLoss_parts {p : Params} {D : Data} (h : Convex p D) (lu li : ℝ) (nU nI : Nat)
    (FU FI : Nat → Nat → ℝ) (WU WI A B : Nat → Vec K) (hu : nU ≠ 0 → 0 < lu) (hi : nI ≠ 0 → 0 < li) :
    (∀ u < D.U, userWeight p D u * normSq (A u - predicted nU FU WU u) ≤
      2 * featureLoss p D lu li nU FU WU nI FI WI A B) ∧
    ∀ f < nU, lu * normSq (WU f) ≤ 2 * featureLoss p D lu li nU FU WU nI FI WI A B := by
  have h1 := dataTerm_nonneg h A B
  have h2 : 0 ≤ ∑ i ∈ Finset.range D.I, itemWeight p D i * normSq (B i - predicted nI FI WI i) :=
    Finset.sum_nonneg (fun i _ => mul_nonneg (h.iw i) (normSq_nonneg _))
  have h3 : 0 ≤ ∑ i ∈ Finset.range D.U, userWeight p D i * normSq (A i - predicted nU FU WU i) :=
    Finset.sum_nonneg (fun i _ => mul_nonneg (h.uw i) (normSq_nonneg _))
  have key : ∀ (n : Nat) (l : ℝ) (W : Nat → Vec K), (n ≠ 0 → 0 < l) → 0 ≤ l * weightNormSq n W := by
    intro n l W hl
    by_cases hn : n = 0
    · subst hn; simp [weightNormSq]
    · exact mul_nonneg (hl hn).le (Finset.sum_nonneg (fun _ _ => normSq_nonneg _))
  have h4 := key nU lu WU hu
  have h5 := key nI li WI hi
  refine ⟨fun u hu' => ?_, fun f hf => ?_⟩
  · have := Finset.single_le_sum (f := fun u => userWeight p D u * normSq (A u - predicted nU FU WU u))
      (fun u _ => mul_nonneg (h.uw u) (normSq_nonneg _)) (Finset.mem_range.mpr hu')
    unfold featureLoss priorLoss
    linarith
  · have h6 : normSq (WU f) ≤ weightNormSq nU WU :=
      Finset.single_le_sum (f := fun f => normSq (WU f)) (fun f _ => normSq_nonneg _) (Finset.mem_range.mpr hf)
    have := mul_le_mul_of_nonneg_left h6 (hu (by omega)).le
    unfold featureLoss priorLoss
    linarith

/-- C81 (with features, everything stays bounded).  During the whole training with features, the squared
distance of the embedding of a user (an item) from the one predicted from its features, times its
regularisation, and the squared length of the weights of a feature, times `lambda_user_feature`
(`lambda_item_feature`), are at most twice the initial loss. -/
theorem C81_features_bounded (cfg : Config) (X : CSR ℝ) (hv : Valid cfg X) (sc : Nat → SolverConfig)
    (tr : Nat → Trainer K) (h : TrainingRun cfg X sc tr) (FU FI : Features) (hFU : (tr 0).userF = FU)
    (hFI : (tr 0).itemF = FI) (n : Nat) :
    (∀ u < X.nrows, userWeight (paramsOf cfg) (Data.ofCSR X) u *
      normSq ((tr n).user.row u - predicted FU.cols FU.val (tr n).userW.val u) ≤ 2 * (tr 0).specLoss) ∧
    (∀ i < X.cols, itemWeight (paramsOf cfg) (Data.ofCSR X) i *
      normSq ((tr n).item.row i - predicted FI.cols FI.val (tr n).itemW.val i) ≤ 2 * (tr 0).specLoss) ∧
    (∀ f < FU.cols, cfg.lambdaUser * normSq ((tr n).userW.val f) ≤ 2 * (tr 0).specLoss) ∧
    ∀ f < FI.cols, cfg.lambdaItem * normSq ((tr n).itemW.val f) ≤ 2 * (tr 0).specLoss := by
  subst hFU hFI
  have hle := h.descending hv (Nat.zero_le n)
  simp only at hle
  have he := h.specLoss_eq hv n
  obtain ⟨lu, li⟩ := h.lambda hv
  have p1 := featureLoss_parts (convex_of_valid hv) cfg.lambdaUser cfg.lambdaItem (tr 0).userF.cols
    (tr 0).itemF.cols (tr 0).userF.val (tr 0).itemF.val (tr n).userW.val (tr n).itemW.val (tr n).user.row
    (tr n).item.row lu li
  have p2 := featureLoss_parts (convex_of_valid hv).swap cfg.lambdaItem cfg.lambdaUser (tr 0).itemF.cols
    (tr 0).userF.cols (tr 0).itemF.val (tr 0).userF.val (tr n).itemW.val (tr n).userW.val (tr n).item.row
    (tr n).user.row li lu
  rw [featureLoss_swap] at p2
  unfold lossWithFeatures at he
  rw [← he] at p1 p2
  exact ⟨fun u hu => (p1.1 u hu).trans (by linarith), fun i hi => (p2.1 i hi).trans (by linarith),
    fun f hf => (p1.2 f hf).trans (by linarith), fun f hf => (p2.2 f hf).trans (by linarith)⟩

/-- C81 (with features, every move pays).  The loss that `N` epochs of feature-aware training remove is at
least the sum of the movements of the embeddings and of the feature weights in these epochs. -/
theorem C81_features_movement_paid (cfg : Config) (X : CSR ℝ) (hv : Valid cfg X) (sc : Nat → SolverConfig)
    (tr : Nat → Trainer K) (h : TrainingRun cfg X sc tr) (hf : (tr 0).featureAware = true)
    (FU FI : Features) (hFU : (tr 0).userF = FU) (hFI : (tr 0).itemF = FI) (N : Nat) :
    ∑ n ∈ Finset.range N,
      (movement (paramsOf cfg) (Data.ofCSR X) (tr n).user.row (tr n).item.row
        (tr (n + 1)).user.row (tr (n + 1)).item.row +
      weightMovement cfg.lambdaUser cfg.lambdaItem FU.cols FI.cols (tr n).userW.val (tr n).itemW.val
        (tr (n + 1)).userW.val (tr (n + 1)).itemW.val) ≤
    lossWithFeatures cfg X FU FI (tr 0).userW.val (tr 0).itemW.val (tr 0).user.row (tr 0).item.row -
      lossWithFeatures cfg X FU FI (tr N).userW.val (tr N).itemW.val (tr N).user.row (tr N).item.row := by
  subst hFU hFI
  induction N with
  | zero => simp
  | succ N ih =>
    rw [Finset.sum_range_succ]
    obtain ⟨un, vn, h1, h2⟩ := h.halves hv N
    have un' := (h.halves hv (N + 1)).1
    have g1 := h1.gain hv (h.solver hv hf N) vn un cfg.lambdaItem (tr 0).itemF.cols (tr 0).itemF.val
      (tr N).itemW.val
    have g2 := h2.gain hv.transpose (h.solver hv hf N) un' (vn.trans (Sim.transpose_nrows X).symm)
      cfg.lambdaUser (tr 0).userF.cols (tr 0).userF.val (tr (N + 1)).userW.val
    rw [ofCSR_transpose X hv.proper, featureLoss_swap, featureLoss_swap, Sim.transpose_nrows] at g2
    have e1 : (Data.ofCSR X).U = X.nrows := rfl
    have e2 : (Data.ofCSR X).I = X.cols := rfl
    have e3 : ∀ i, userWeight (paramsOf cfg) (Data.ofCSR X).swap i = itemWeight (paramsOf cfg) (Data.ofCSR X) i :=
      fun i => rfl
    simp only [e3] at g2
    have e4 : movement (paramsOf cfg) (Data.ofCSR X) (tr N).user.row (tr N).item.row
        (tr (N + 1)).user.row (tr (N + 1)).item.row +
      weightMovement cfg.lambdaUser cfg.lambdaItem (tr 0).userF.cols (tr 0).itemF.cols (tr N).userW.val
        (tr N).itemW.val (tr (N + 1)).userW.val (tr (N + 1)).itemW.val ≤
      lossWithFeatures cfg X (tr 0).userF (tr 0).itemF (tr N).userW.val (tr N).itemW.val (tr N).user.row
        (tr N).item.row -
      lossWithFeatures cfg X (tr 0).userF (tr 0).itemF (tr (N + 1)).userW.val (tr (N + 1)).itemW.val
        (tr (N + 1)).user.row (tr (N + 1)).item.row := by
      unfold movement weightMovement lossWithFeatures
      rw [e1, e2]
      linarith
    linarith

theorem weightMovement_nonneg {lu li : ℝ} {nU nI : Nat} (hu : nU ≠ 0 → 0 < lu) (hi : nI ≠ 0 → 0 < li)
    (WU WI WU' WI' : Nat → Vec K) : 0 ≤ weightMovement lu li nU nI WU WI WU' WI' := by
  have key : ∀ (n : Nat) (l : ℝ) (W : Nat → Vec K), (n ≠ 0 → 0 < l) → 0 ≤ l * weightNormSq n W := by
    intro n l W hl
    by_cases hn : n = 0
    · subst hn; simp [weightNormSq]
    · exact mul_nonneg (hl hn).le (Finset.sum_nonneg (fun _ _ => normSq_nonneg _))
  unfold weightMovement
  have h1 := key nU lu (fun f => WU f - WU' f) hu
  have h2 := key nI li (fun f => WI f - WI' f) hi
  linarith

/-- C81 (with features, rate).  Among the first `N` epochs there is one in which the embeddings and the
feature weights together move by at most the initial loss divided by `N`. -/
theorem C81_features_rate (cfg : Config) (X : CSR ℝ) (hv : Valid cfg X) (sc : Nat → SolverConfig)
    (tr : Nat → Trainer K) (h : TrainingRun cfg X sc tr) (hf : (tr 0).featureAware = true)
    (FU FI : Features) (hFU : (tr 0).userF = FU) (hFI : (tr 0).itemF = FI) (N : Nat) (hN : 0 < N) :
    ∃ n < N, movement (paramsOf cfg) (Data.ofCSR X) (tr n).user.row (tr n).item.row
        (tr (n + 1)).user.row (tr (n + 1)).item.row +
      weightMovement cfg.lambdaUser cfg.lambdaItem FU.cols FI.cols (tr n).userW.val (tr n).itemW.val
        (tr (n + 1)).userW.val (tr (n + 1)).itemW.val ≤
      lossWithFeatures cfg X FU FI (tr 0).userW.val (tr 0).itemW.val (tr 0).user.row (tr 0).item.row / N := by
  by_contra hno
  push Not at hno
  have h1 := C81_features_movement_paid cfg X hv sc tr h hf FU FI hFU hFI N
  have h2 := h.nonneg hv N
  rw [h.specLoss_eq hv N, hFU, hFI] at h2
  have h3 := Finset.sum_lt_sum_of_nonempty (Finset.nonempty_range_iff.mpr hN.ne')
    (fun n hn => hno n (Finset.mem_range.mp hn))
  rw [Finset.sum_const, Finset.card_range, nsmul_eq_mul,
    mul_div_cancel₀ _ (Nat.cast_ne_zero.mpr hN.ne')] at h3
  linarith

/-- C81 (with features, training settles).  With positive regularisation the change of every component of
every embedding and of every feature weight from one epoch to the next tends to 0. -/
theorem C81_features_changes_vanish (cfg : Config) (X : CSR ℝ) (hv : Valid cfg X) (hpu : RegPositive cfg X)
    (hpi : RegPositive cfg (transpose X)) (sc : Nat → SolverConfig)
    (tr : Nat → Trainer K) (h : TrainingRun cfg X sc tr) (hf : (tr 0).featureAware = true)
    (FU FI : Features) (hFU : (tr 0).userF = FU) (hFI : (tr 0).itemF = FI) (k : Fin K) :
    (∀ u < X.nrows, Tendsto (fun n => (tr (n + 1)).user.row u k - (tr n).user.row u k) atTop (𝓝 0)) ∧
    (∀ i < X.cols, Tendsto (fun n => (tr (n + 1)).item.row i k - (tr n).item.row i k) atTop (𝓝 0)) ∧
    (∀ f < FU.cols, Tendsto (fun n => (tr (n + 1)).userW.val f k - (tr n).userW.val f k) atTop (𝓝 0)) ∧
    ∀ f < FI.cols, Tendsto (fun n => (tr (n + 1)).itemW.val f k - (tr n).itemW.val f k) atTop (𝓝 0) := by
  have hc := convex_of_valid hv
  obtain ⟨lu, li⟩ := h.lambda hv
  rw [hFU] at lu
  rw [hFI] at li
  set m : Nat → ℝ := fun n => movement (paramsOf cfg) (Data.ofCSR X) (tr n).user.row (tr n).item.row
      (tr (n + 1)).user.row (tr (n + 1)).item.row +
      weightMovement cfg.lambdaUser cfg.lambdaItem FU.cols FI.cols (tr n).userW.val (tr n).itemW.val
        (tr (n + 1)).userW.val (tr (n + 1)).itemW.val with hm
  have hm0 : ∀ n, 0 ≤ m n := fun n => add_nonneg (movement_nonneg hc _ _ _ _)
    (weightMovement_nonneg lu li _ _ _ _)
  have hlim : Tendsto m atTop (𝓝 0) := by
    refine (summable_of_sum_range_le (c := lossWithFeatures cfg X FU FI (tr 0).userW.val (tr 0).itemW.val
      (tr 0).user.row (tr 0).item.row) hm0 (fun N => ?_)).tendsto_atTop_zero
    refine (C81_features_movement_paid cfg X hv sc tr h hf FU FI hFU hFI N).trans ?_
    have h2 := h.nonneg hv N
    rw [h.specLoss_eq hv N, hFU, hFI] at h2
    linarith
  have key : ∀ (w : ℝ) (f : Nat → ℝ), 0 < w → (∀ n, 1 / 2 * (w * f n ^ 2) ≤ m n) →
      Tendsto f atTop (𝓝 0) := by
    intro w f hw hle
    refine tendsto_zero_of_sq (squeeze_zero (fun n => sq_nonneg _) (g := fun n => 2 / w * m n) ?_ ?_)
    · intro n
      have := hle n
      rw [div_mul_eq_mul_div, le_div_iff₀ hw]
      linarith
    · have := hlim.const_mul (2 / w)
      rwa [mul_zero] at this
  have hu0 : ∀ n, 0 ≤ ∑ u ∈ Finset.range X.nrows, userWeight (paramsOf cfg) (Data.ofCSR X) u *
      normSq ((tr n).user.row u - (tr (n + 1)).user.row u) := fun n =>
    Finset.sum_nonneg (fun i _ => mul_nonneg (hc.uw i) (normSq_nonneg _))
  have hi0 : ∀ n, 0 ≤ ∑ u ∈ Finset.range X.cols, itemWeight (paramsOf cfg) (Data.ofCSR X) u *
      normSq ((tr n).item.row u - (tr (n + 1)).item.row u) := fun n =>
    Finset.sum_nonneg (fun i _ => mul_nonneg (hc.iw i) (normSq_nonneg _))
  have nn : ∀ (n : Nat) (l : ℝ) (W : Nat → Vec K), (n ≠ 0 → 0 < l) → 0 ≤ l * weightNormSq n W := by
    intro n l W hl
    by_cases hn : n = 0
    · subst hn; simp [weightNormSq]
    · exact mul_nonneg (hl hn).le (Finset.sum_nonneg (fun _ _ => normSq_nonneg _))
  have hwu0 : ∀ n, 0 ≤ cfg.lambdaUser * weightNormSq FU.cols
      (fun f => (tr n).userW.val f - (tr (n + 1)).userW.val f) := fun n => nn _ _ _ lu
  have hwi0 : ∀ n, 0 ≤ cfg.lambdaItem * weightNormSq FI.cols
      (fun f => (tr n).itemW.val f - (tr (n + 1)).itemW.val f) := fun n => nn _ _ _ li
  have hme : ∀ n, m n = 1 / 2 * ∑ u ∈ Finset.range X.nrows, userWeight (paramsOf cfg) (Data.ofCSR X) u *
        normSq ((tr n).user.row u - (tr (n + 1)).user.row u) + 1 / 2 * ∑ i ∈ Finset.range X.cols,
        itemWeight (paramsOf cfg) (Data.ofCSR X) i *
        normSq ((tr n).item.row i - (tr (n + 1)).item.row i) +
      (1 / 2 * (cfg.lambdaUser * weightNormSq FU.cols
        (fun f => (tr n).userW.val f - (tr (n + 1)).userW.val f)) +
       1 / 2 * (cfg.lambdaItem * weightNormSq FI.cols
        (fun f => (tr n).itemW.val f - (tr (n + 1)).itemW.val f))) := fun n => rfl
  have hsq : ∀ x y : Vec K, (y k - x k) ^ 2 ≤ normSq (x - y) := by
    intro x y
    have := entry_sq_le (x - y) k
    rw [Pi.sub_apply] at this
    nlinarith
  refine ⟨fun u hu => key _ _ (userWeight_pos hv hpu hu) (fun n => ?_),
    fun i hi => key _ _ (itemWeight_pos hv hpi hi) (fun n => ?_),
    fun f hf' => key _ _ (lu (by omega)) (fun n => ?_), fun f hf' => key _ _ (li (by omega)) (fun n => ?_)⟩
  · have h2 := Finset.single_le_sum (f := fun u => userWeight (paramsOf cfg) (Data.ofCSR X) u *
      normSq ((tr n).user.row u - (tr (n + 1)).user.row u))
      (fun u _ => mul_nonneg (hc.uw u) (normSq_nonneg _)) (Finset.mem_range.mpr hu)
    have h4 := mul_le_mul_of_nonneg_left (hsq ((tr n).user.row u) ((tr (n + 1)).user.row u)) (hc.uw u)
    rw [hme]
    linarith [hi0 n, hwu0 n, hwi0 n]
  · have h2 := Finset.single_le_sum (f := fun i => itemWeight (paramsOf cfg) (Data.ofCSR X) i *
      normSq ((tr n).item.row i - (tr (n + 1)).item.row i))
      (fun u _ => mul_nonneg (hc.iw u) (normSq_nonneg _)) (Finset.mem_range.mpr hi)
    have h4 := mul_le_mul_of_nonneg_left (hsq ((tr n).item.row i) ((tr (n + 1)).item.row i)) (hc.iw i)
    rw [hme]
    linarith [hu0 n, hwu0 n, hwi0 n]
  · have h2 : normSq ((tr n).userW.val f - (tr (n + 1)).userW.val f) ≤ weightNormSq FU.cols
        (fun f => (tr n).userW.val f - (tr (n + 1)).userW.val f) :=
      Finset.single_le_sum (f := fun f => normSq ((tr n).userW.val f - (tr (n + 1)).userW.val f))
        (fun f _ => normSq_nonneg _) (Finset.mem_range.mpr hf')
    have h4 := mul_le_mul_of_nonneg_left ((hsq ((tr n).userW.val f) ((tr (n + 1)).userW.val f)).trans h2)
      (lu (by omega)).le
    rw [hme]
    linarith [hu0 n, hi0 n, hwi0 n]
  · have h2 : normSq ((tr n).itemW.val f - (tr (n + 1)).itemW.val f) ≤ weightNormSq FI.cols
        (fun f => (tr n).itemW.val f - (tr (n + 1)).itemW.val f) :=
      Finset.single_le_sum (f := fun f => normSq ((tr n).itemW.val f - (tr (n + 1)).itemW.val f))
        (fun f _ => normSq_nonneg _) (Finset.mem_range.mpr hf')
    have h4 := mul_le_mul_of_nonneg_left ((hsq ((tr n).itemW.val f) ((tr (n + 1)).itemW.val f)).trans h2)
      (li (by omega)).le
    rw [hme]
    linarith [hu0 n, hi0 n, hwu0 n]

/-- C81 (with features, what training converges to).  With the Cholesky solver and positive regularisation:
if after the epochs `φ 0 < φ 1 < …` the embeddings tend to `A` and `B` and the feature weights to `WU` and
`WI`, then no change of the user embeddings together with the weights of the user features, and no change of
the item embeddings together with the weights of the item features, would have a smaller loss; and the losses
of all epochs tend to the loss of this limit. -/
theorem C81_features_limits_optimal (cfg : Config) (X : CSR ℝ) (hv : Valid cfg X) (hpu : RegPositive cfg X)
    (hpi : RegPositive cfg (transpose X)) (sc : Nat → SolverConfig)
    (hs : ∀ n, (sc n).solverType = .cholesky)
    (tr : Nat → Trainer K) (h : TrainingRun cfg X sc tr) (hf : (tr 0).featureAware = true)
    (FU FI : Features) (hFU : (tr 0).userF = FU) (hFI : (tr 0).itemF = FI)
    (φ : Nat → Nat) (hφ : StrictMono φ) (A B WU WI : Nat → Fin K → ℝ)
    (hl : EmbeddingsTendTo X tr φ A B) (hlw : WeightsTendTo FU FI tr φ WU WI) :
    SidesOptimal cfg X FU FI WU WI A B ∧
      Tendsto (fun n => lossWithFeatures cfg X FU FI (tr n).userW.val (tr n).itemW.val (tr n).user.row
        (tr n).item.row) atTop (𝓝 (lossWithFeatures cfg X FU FI WU WI A B)) := by
  have hφt := hφ.tendsto_atTop
  have hvan := fun k => C81_features_changes_vanish cfg X hv hpu hpi sc tr h hf FU FI hFU hFI k
  have hnext : ∀ {f : Nat → ℝ} {a : ℝ}, Tendsto (fun n => f (n + 1) - f n) atTop (𝓝 0) →
      Tendsto (fun n => f (φ n)) atTop (𝓝 a) → Tendsto (fun n => f (φ n + 1)) atTop (𝓝 a) := by
    intro f a h1 h2
    have h3 := (h1.comp hφt).add h2
    rw [zero_add] at h3
    exact h3.congr (fun n => by simp)
  have nU : ∀ u < X.nrows, ∀ k, Tendsto (fun n => (tr (φ n + 1)).user.row u k) atTop (𝓝 (A u k)) :=
    fun u hu k => hnext (f := fun n => (tr n).user.row u k) ((hvan k).1 u hu) (hl.1 u hu k)
  have nV : ∀ i < X.cols, ∀ k, Tendsto (fun n => (tr (φ n + 1)).item.row i k) atTop (𝓝 (B i k)) :=
    fun u hu k => hnext (f := fun n => (tr n).item.row u k) ((hvan k).2.1 u hu) (hl.2 u hu k)
  have nWU : ∀ f < FU.cols, ∀ k, Tendsto (fun n => (tr (φ n + 1)).userW.val f k) atTop (𝓝 (WU f k)) :=
    fun u hu k => hnext (f := fun n => (tr n).userW.val u k) ((hvan k).2.2.1 u hu) (hlw.1 u hu k)
  have nWI : ∀ f < FI.cols, ∀ k, Tendsto (fun n => (tr (φ n + 1)).itemW.val f k) atTop (𝓝 (WI f k)) :=
    fun u hu k => hnext (f := fun n => (tr n).itemW.val u k) ((hvan k).2.2.2 u hu) (hlw.2 u hu k)
  have hlim : ∀ {WU₀ WI₀ A₀ B₀ : Nat → Nat → Fin K → ℝ} {WU' WI' A' B' : Nat → Fin K → ℝ},
      (∀ f < FU.cols, ∀ k, Tendsto (fun n => WU₀ n f k) atTop (𝓝 (WU' f k))) →
      (∀ f < FI.cols, ∀ k, Tendsto (fun n => WI₀ n f k) atTop (𝓝 (WI' f k))) →
      (∀ u < X.nrows, ∀ k, Tendsto (fun n => A₀ n u k) atTop (𝓝 (A' u k))) →
      (∀ i < X.cols, ∀ k, Tendsto (fun n => B₀ n i k) atTop (𝓝 (B' i k))) →
      Tendsto (fun n => lossWithFeatures cfg X FU FI (WU₀ n) (WI₀ n) (A₀ n) (B₀ n)) atTop
        (𝓝 (lossWithFeatures cfg X FU FI WU' WI' A' B')) := fun a b c d =>
    featureLoss_tendsto (paramsOf cfg) (Data.ofCSR X) cfg.lambdaUser cfg.lambdaItem FU.val FI.val a b c d
  obtain ⟨lu, li⟩ := h.lambda hv
  -- after the warm-up, what an epoch of Cholesky achieves
  have hwarm : ∀ᶠ n in atTop, cfg.warmup ≤ (tr 0).epoch + φ n := by
    filter_upwards [hφt.eventually_ge_atTop cfg.warmup] with n hn
    omega
  have hch : ∀ᶠ n in atTop,
      ((∀ A', lossWithFeatures cfg X FU FI (tr (φ n)).userW.val (tr (φ n)).itemW.val
          (tr (φ n + 1)).user.row (tr (φ n)).item.row ≤
        lossWithFeatures cfg X FU FI (tr (φ n)).userW.val (tr (φ n)).itemW.val A' (tr (φ n)).item.row) ∧
      ∀ W', lossWithFeatures cfg X FU FI (tr (φ n + 1)).userW.val (tr (φ n)).itemW.val
          (tr (φ n + 1)).user.row (tr (φ n)).item.row ≤
        lossWithFeatures cfg X FU FI W' (tr (φ n)).itemW.val (tr (φ n + 1)).user.row (tr (φ n)).item.row) ∧
      (∀ B', lossWithFeatures cfg X FU FI (tr (φ n + 1)).userW.val (tr (φ n)).itemW.val
          (tr (φ n + 1)).user.row (tr (φ n + 1)).item.row ≤
        lossWithFeatures cfg X FU FI (tr (φ n + 1)).userW.val (tr (φ n)).itemW.val
          (tr (φ n + 1)).user.row B') ∧
      ∀ W', lossWithFeatures cfg X FU FI (tr (φ n + 1)).userW.val (tr (φ n + 1)).itemW.val
          (tr (φ n + 1)).user.row (tr (φ n + 1)).item.row ≤
        lossWithFeatures cfg X FU FI (tr (φ n + 1)).userW.val W' (tr (φ n + 1)).user.row
          (tr (φ n + 1)).item.row := by
    filter_upwards [hwarm] with n hn
    obtain ⟨un, vn, h1, h2⟩ := h.halves hv (φ n)
    have un' := (h.halves hv (φ n + 1)).1
    have g1 := h1.cholesky hv (hs _) vn lu (not_lt.mpr hn) un cfg.lambdaItem (tr 0).itemF.cols
      (tr 0).itemF.val (tr (φ n)).itemW.val
    have g2 := h2.cholesky hv.transpose (hs _) un' li (not_lt.mpr hn)
      (vn.trans (Sim.transpose_nrows X).symm) cfg.lambdaUser (tr 0).userF.cols
      (tr 0).userF.val (tr (φ n + 1)).userW.val
    simp only [ofCSR_transpose X hv.proper, featureLoss_swap] at g2
    rw [hFU, hFI] at g1 g2
    exact ⟨g1, g2⟩
  have passage : ∀ {f g : Nat → ℝ} {a b : ℝ}, Tendsto f atTop (𝓝 a) → Tendsto g atTop (𝓝 b) →
      (∀ᶠ n in atTop, f n ≤ g n) → a ≤ b := fun h1 h2 h3 => le_of_tendsto_of_tendsto h1 h2 h3
  rw [hFU] at lu
  rw [hFI] at li
  have cst : ∀ (V : Nat → Fin K → ℝ) (N : Nat), ∀ u < N, ∀ k,
      Tendsto (fun _ : Nat => V u k) atTop (𝓝 (V u k)) := fun _ _ _ _ _ => tendsto_const_nhds
  have hc := convex_of_valid hv
  refine ⟨⟨?_, ?_⟩, ?_⟩
  · refine joint_of_separate hc cfg.lambdaUser cfg.lambdaItem FU.cols FI.cols FU.val FI.val WU WI A B lu ?_ ?_
    · intro A'
      exact passage (hlim hlw.1 hlw.2 nU hl.2)
        (hlim (A₀ := fun _ => A') hlw.1 hlw.2 (cst A' _) hl.2) (hch.mono (fun n hn => hn.1.1 A'))
    · intro W'
      exact passage (hlim nWU hlw.2 nU hl.2)
        (hlim (WU₀ := fun _ => W') (cst W' _) hlw.2 nU hl.2) (hch.mono (fun n hn => hn.1.2 W'))
  · have := joint_of_separate hc.swap cfg.lambdaItem cfg.lambdaUser FI.cols FU.cols FI.val FU.val WI WU B A li
      (by
        intro B'
        rw [featureLoss_swap, featureLoss_swap]
        exact passage (hlim nWU hlw.2 nU nV)
          (hlim (B₀ := fun _ => B') nWU hlw.2 nU (cst B' _)) (hch.mono (fun n hn => hn.2.1 B')))
      (by
        intro W'
        rw [featureLoss_swap, featureLoss_swap]
        exact passage (hlim nWU nWI nU nV)
          (hlim (WI₀ := fun _ => W') nWU (cst W' _) nU nV) (hch.mono (fun n hn => hn.2.2 W')))
    intro W' B'
    have := this W' B'
    rw [featureLoss_swap, featureLoss_swap] at this
    exact this
  · have hanti := h.descending hv
    have hb : BddBelow (Set.range (fun n => (tr n).specLoss)) :=
      ⟨0, by rintro _ ⟨n, rfl⟩; exact h.nonneg hv n⟩
    have hℓ := tendsto_atTop_ciInf hanti hb
    have e : (fun n => (tr n).specLoss) = fun n => lossWithFeatures cfg X FU FI (tr n).userW.val
        (tr n).itemW.val (tr n).user.row (tr n).item.row := by
      funext n; rw [h.specLoss_eq hv n, hFU, hFI]
    rw [e] at hℓ
    have h1 := hlim hlw.1 hlw.2 hl.1 hl.2
    rwa [tendsto_nhds_unique (hℓ.comp hφt) h1] at hℓ

/-- every component is bounded by a constant during the whole training -/
theorem run_features_bound {cfg : Config} {X : CSR ℝ} (hv : Valid cfg X) (hpu : RegPositive cfg X)
    (hpi : RegPositive cfg (transpose X)) {sc : Nat → SolverConfig} {tr : Nat → Trainer K}
    (h : TrainingRun cfg X sc tr) :
    ∃ C : Nat → ℝ, (∀ u < X.nrows, ∀ n k, |(tr n).user.row u k| ≤ C u) ∧
      (∀ i < X.cols, ∀ n k, |(tr n).item.row i k| ≤ C i) ∧
      (∀ f < (tr 0).userF.cols, ∀ n k, |(tr n).userW.val f k| ≤ C f) ∧
      ∀ f < (tr 0).itemF.cols, ∀ n k, |(tr n).itemW.val f k| ≤ C f := by
  have hb := C81_features_bounded cfg X hv sc tr h _ _ rfl rfl
  obtain ⟨lu, li⟩ := h.lambda hv
  set L₀ := (tr 0).specLoss
  have key : ∀ (w : ℝ) (v : Vec K) (k : Fin K), 0 < w → w * normSq v ≤ 2 * L₀ → |v k| ≤ Real.sqrt (2 * L₀ / w) := by
    intro w v k hw hle
    apply Real.abs_le_sqrt
    rw [le_div_iff₀ hw]
    have := mul_le_mul_of_nonneg_left (entry_sq_le v k) hw.le
    linarith
  have pred : ∀ (nF : Nat) (F : Nat → Nat → ℝ) (W : Nat → Vec K) (c : ℝ) (r : Nat) (k : Fin K),
      (∀ f < nF, |W f k| ≤ c) → |predicted nF F W r k| ≤ ∑ f ∈ Finset.range nF, |F r f| * c := by
    intro nF F W c r k hW
    unfold predicted
    refine (Finset.abs_sum_le_sum_abs _ _).trans (Finset.sum_le_sum (fun f hf => ?_))
    rw [abs_mul]
    exact mul_le_mul_of_nonneg_left (hW f (Finset.mem_range.mp hf)) (abs_nonneg _)
  set cU := Real.sqrt (2 * L₀ / cfg.lambdaUser)
  set cI := Real.sqrt (2 * L₀ / cfg.lambdaItem)
  have wU : ∀ f < (tr 0).userF.cols, ∀ n k, |(tr n).userW.val f k| ≤ cU :=
    fun f hf n k => key _ _ k (lu (by omega)) ((hb n).2.2.1 f hf)
  have wI : ∀ f < (tr 0).itemF.cols, ∀ n k, |(tr n).itemW.val f k| ≤ cI :=
    fun f hf n k => key _ _ k (li (by omega)) ((hb n).2.2.2 f hf)
  set eU : Nat → ℝ := fun u => Real.sqrt (2 * L₀ / userWeight (paramsOf cfg) (Data.ofCSR X) u) +
    ∑ f ∈ Finset.range (tr 0).userF.cols, |(tr 0).userF.val u f| * cU
  set eI : Nat → ℝ := fun u => Real.sqrt (2 * L₀ / itemWeight (paramsOf cfg) (Data.ofCSR X) u) +
    ∑ f ∈ Finset.range (tr 0).itemF.cols, |(tr 0).itemF.val u f| * cI
  have n1 : 0 ≤ cU := Real.sqrt_nonneg _
  have n2 : 0 ≤ cI := Real.sqrt_nonneg _
  have n3 : ∀ u, 0 ≤ eU u := fun u => add_nonneg (Real.sqrt_nonneg _)
    (Finset.sum_nonneg (fun f _ => mul_nonneg (abs_nonneg _) n1))
  have n4 : ∀ u, 0 ≤ eI u := fun u => add_nonneg (Real.sqrt_nonneg _)
    (Finset.sum_nonneg (fun f _ => mul_nonneg (abs_nonneg _) n2))
  refine ⟨fun r => eU r + eI r + cU + cI, fun u hu n k => ?_, fun i hi n k => ?_, fun f hf n k => ?_,
    fun f hf n k => ?_⟩
  · have h1 := key _ _ k (userWeight_pos hv hpu hu) ((hb n).1 u hu)
    have h2 := pred _ (tr 0).userF.val (tr n).userW.val cU u k (fun f hf => wU f hf n k)
    rw [Pi.sub_apply] at h1
    have h3 := abs_sub_abs_le_abs_sub ((tr n).user.row u k)
      (predicted (tr 0).userF.cols (tr 0).userF.val (tr n).userW.val u k)
    have : |(tr n).user.row u k| ≤ eU u := by
      show _ ≤ _ + _
      linarith
    linarith [n4 u]
  · have h1 := key _ _ k (itemWeight_pos hv hpi hi) ((hb n).2.1 i hi)
    have h2 := pred _ (tr 0).itemF.val (tr n).itemW.val cI i k (fun f hf => wI f hf n k)
    rw [Pi.sub_apply] at h1
    have h3 := abs_sub_abs_le_abs_sub ((tr n).item.row i k)
      (predicted (tr 0).itemF.cols (tr 0).itemF.val (tr n).itemW.val i k)
    have : |(tr n).item.row i k| ≤ eI i := by
      show _ ≤ _ + _
      linarith
    linarith [n3 i]
  · linarith [wU f hf n k, n3 f, n4 f]
  · linarith [wI f hf n k, n3 f, n4 f]

/-- C81 (with features, there is something to converge to).  With positive regularisation there are epochs
`φ 0 < φ 1 < …` along which the embeddings of all users and items and the weights of all features converge. -/
theorem C81_features_limits_exist (cfg : Config) (X : CSR ℝ) (hv : Valid cfg X) (hpu : RegPositive cfg X)
    (hpi : RegPositive cfg (transpose X)) (sc : Nat → SolverConfig) (tr : Nat → Trainer K)
    (h : TrainingRun cfg X sc tr) (FU FI : Features) (hFU : (tr 0).userF = FU) (hFI : (tr 0).itemF = FI) :
    ∃ (φ : Nat → Nat) (A B WU WI : Nat → Fin K → ℝ), StrictMono φ ∧ EmbeddingsTendTo X tr φ A B ∧
      WeightsTendTo FU FI tr φ WU WI := by
  classical
  obtain ⟨C, b1, b2, b3, b4⟩ := run_features_bound hv hpu hpi h
  rw [hFU] at b3
  rw [hFI] at b4
  let x : Nat → (Fin 4 × Nat × Fin K) → ℝ := fun n j =>
    if j.1 = 0 then (if j.2.1 < X.nrows then (tr n).user.row j.2.1 j.2.2 else 0)
    else if j.1 = 1 then (if j.2.1 < X.cols then (tr n).item.row j.2.1 j.2.2 else 0)
    else if j.1 = 2 then (if j.2.1 < FU.cols then (tr n).userW.val j.2.1 j.2.2 else 0)
    else (if j.2.1 < FI.cols then (tr n).itemW.val j.2.1 j.2.2 else 0)
  have hx : ∀ n, x n ∈ Set.pi Set.univ (fun j : Fin 4 × Nat × Fin K => Set.Icc (-|C j.2.1|) |C j.2.1|) := by
    intro n j _
    show -|C j.2.1| ≤ x n j ∧ x n j ≤ |C j.2.1|
    rw [← abs_le]
    rcases j with ⟨b, r, k⟩
    have fin : ∀ {P : Prop} [Decidable P] {a : ℝ}, (P → |a| ≤ C r) → |if P then a else 0| ≤ |C r| := by
      intro P _ a ha
      by_cases hP : P
      · rw [if_pos hP]; exact (ha hP).trans (le_abs_self _)
      · rw [if_neg hP, abs_zero]; exact abs_nonneg _
    show |if b = 0 then _ else if b = 1 then _ else if b = 2 then _ else _| ≤ |C r|
    by_cases e0 : b = 0
    · rw [if_pos e0]; exact fin (fun hr => b1 r hr n k)
    rw [if_neg e0]
    by_cases e1 : b = 1
    · rw [if_pos e1]; exact fin (fun hr => b2 r hr n k)
    rw [if_neg e1]
    by_cases e2 : b = 2
    · rw [if_pos e2]; exact fin (fun hr => b3 r hr n k)
    rw [if_neg e2]
    exact fin (fun hr => b4 r hr n k)
  obtain ⟨a, -, φ, hφ, hlim⟩ := (isCompact_univ_pi (fun j => isCompact_Icc)).tendsto_subseq hx
  rw [tendsto_pi_nhds] at hlim
  refine ⟨φ, fun u k => a (0, u, k), fun i k => a (1, i, k), fun f k => a (2, f, k), fun f k => a (3, f, k), hφ,
    ⟨fun u hu k => ?_, fun i hi k => ?_⟩, fun f hf k => ?_, fun f hf k => ?_⟩
  · refine (hlim (0, u, k)).congr (fun n => ?_)
    show x (φ n) (0, u, k) = _
    simp [x, hu]
  · refine (hlim (1, i, k)).congr (fun n => ?_)
    show x (φ n) (1, i, k) = _
    simp [x, hi]
  · refine (hlim (2, f, k)).congr (fun n => ?_)
    show x (φ n) (2, f, k) = _
    simp [x, hf]
  · refine (hlim (3, f, k)).congr (fun n => ?_)
    show x (φ n) (3, f, k) = _
    simp [x, hf]

/-- C81 (with features, training never stops by itself).  With positive regularisation a feature-aware
trainer can be trained for ever with the Cholesky and the conjugate-gradient solver. -/
theorem C81_features_runs_exist {T : Nat} {ω : Oracle T} (hω : ω.Complete) (hT : 0 < T) (cfg : Config)
    (X : CSR ℝ) (hv : Valid cfg X) (hpu : RegPositive cfg X) (hpi : RegPositive cfg (transpose X))
    (sc : Nat → SolverConfig) (hs : ∀ n, (sc n).solverType ≠ .ialspp) (userF itemF : Features)
    (u₀ v₀ : Nat → Vec K) (tr₀ : Trainer K)
    (hc : Trainer.createWithFeatures cfg X userF itemF u₀ v₀ = .ok tr₀) :
    ∃ tr : Nat → Trainer K, tr 0 = tr₀ ∧ TrainingRun cfg X sc tr := by
  classical
  have hr : tr₀.Reached cfg X := .features userF itemF u₀ v₀ _ hc
  have hf : tr₀.featureAware = true := by
    unfold Trainer.createWithFeatures at hc
    split at hc
    · cases hc
    · split at hc
      · cases hc
      · cases hc; rfl
  have hnext : ∀ (n : Nat) (s : { t : Trainer K // t.Reached cfg X ∧ t.featureAware = true }),
      ∃ s' : { t : Trainer K // t.Reached cfg X ∧ t.featureAware = true },
        s.1.step ω (sc n) = .ok s'.1 := by
    intro n s
    obtain ⟨tr', h⟩ := C47_epoch_succeeds hω hT cfg X hv hpu hpi (sc n) (hs n) s.1 s.2.1 s.2.2
    obtain ⟨hg, hc, hx⟩ := reached_good hv s.2.1
    have := step_good hω _ _ hg h (by rw [hx]; exact hv.proper) (by rw [hx]; exact hv.nonneg)
      (by rw [hc]; exact hv.reg) (by rw [hc]; exact hv.alpha0)
    exact ⟨⟨tr', .step ω _ _ _ hω s.2.1 h, by rw [this.2.2.2.2.1, s.2.2]⟩, h⟩
  choose f hfn using hnext
  let run : Nat → { t : Trainer K // t.Reached cfg X ∧ t.featureAware = true } :=
    fun n => Nat.rec ⟨tr₀, hr, hf⟩ (fun n s => f n s) n
  exact ⟨fun n => (run n).1, rfl, hr, fun n => ⟨T, ω, hω, hfn n (run n)⟩⟩

theorem Half.descend {cfg : Config} {sc : SolverConfig} {X : CSR ℝ} (hv : Valid cfg X)
    (hs : sc.solverType ≠ .ialspp) {V : Factor K} (hV : V.n = X.cols) {feat : Features} {lam : ℝ}
    (hlam : feat.cols ≠ 0 → 0 < lam) {warm : Prop} {F F' : Factor K}
    (hF : F.n = X.nrows) {W W' : Weight K} (h : Half cfg sc X V feat lam warm F F' W W')
    (li : ℝ) (nI : Nat) (FI : Nat → Nat → ℝ) (WI : Nat → Vec K) :
    featureLoss (paramsOf cfg) (Data.ofCSR X) lam li feat.cols feat.val W'.val nI FI WI F'.row V.row ≤
    featureLoss (paramsOf cfg) (Data.ofCSR X) lam li feat.cols feat.val W.val nI FI WI F.row V.row := by
  have g := h.gain hv hs hV hF li nI FI WI
  have h1 : 0 ≤ ∑ u ∈ Finset.range X.nrows, userWeight (paramsOf cfg) (Data.ofCSR X) u *
        normSq (F.row u - F'.row u) :=
    Finset.sum_nonneg (fun u _ => mul_nonneg ((convex_of_valid hv).uw u) (normSq_nonneg _))
  have h2 : 0 ≤ lam * weightNormSq feat.cols (fun f => W.val f - W'.val f) := by
    by_cases h0 : feat.cols = 0
    · rw [h0]; simp [weightNormSq]
    · exact mul_nonneg (hlam h0).le (Finset.sum_nonneg (fun _ _ => normSq_nonneg _))
  linarith

theorem run_features_upper {cfg : Config} {X : CSR ℝ} (hv : Valid cfg X) (hpu : RegPositive cfg X)
    (hpi : RegPositive cfg (transpose X)) {sc : Nat → SolverConfig} {tr : Nat → Trainer K}
    (h : TrainingRun cfg X sc tr) :
    ∃ L : ℝ, 0 < L ∧ (∀ n, ∀ u < X.nrows, ∀ z : Vec K,
        z ⬝ᵥ (rowMat cfg (gramP cfg (tr n).item) X (tr n).item u).mulVec z ≤ L * (z ⬝ᵥ z)) ∧
      ∀ n, ∀ i < (transpose X).nrows, ∀ z : Vec K,
        z ⬝ᵥ (rowMat cfg (gramP cfg (tr n).user) (transpose X) (tr n).user i).mulVec z ≤ L * (z ⬝ᵥ z) := by
  obtain ⟨C, b1, b2, -, -⟩ := run_features_bound hv hpu hpi h
  have key : ∀ (N : Nat) (R : Nat → Nat → Vec K), (∀ i < N, ∀ n k, |R n i k| ≤ C i) → ∀ n, ∀ i < N,
      normSq (R n i) ≤ ∑ i ∈ Finset.range N, K * C i ^ 2 := by
    intro N R hb n i hi
    have h1 : normSq (R n i) ≤ K * C i ^ 2 := by
      unfold normSq
      refine (Finset.sum_le_card_nsmul Finset.univ (fun k => R n i k ^ 2) (C i ^ 2) (fun k _ => ?_)).trans ?_
      · exact sq_le_sq' (abs_le.mp (hb i hi n k)).1 (abs_le.mp (hb i hi n k)).2
      · simp
    exact h1.trans (Finset.single_le_sum (f := fun i => K * C i ^ 2) (fun j _ => by positivity)
      (Finset.mem_range.mpr hi))
  obtain ⟨L1, hL1, q1⟩ := upper_of_bound hv (fun n => (tr n).item) (fun n => (h.halves hv n).2.1)
    (∑ i ∈ Finset.range X.cols, K * C i ^ 2) (Finset.sum_nonneg (fun _ _ => by positivity))
    (key X.cols (fun n => (tr n).item.row) b2)
  obtain ⟨L2, hL2, q2⟩ := upper_of_bound hv.transpose (fun n => (tr n).user) (fun n => (h.halves hv n).1)
    (∑ i ∈ Finset.range X.nrows, K * C i ^ 2) (Finset.sum_nonneg (fun _ _ => by positivity))
    (key X.nrows (fun n => (tr n).user.row) b1)
  refine ⟨L1 + L2, by linarith, fun n u hu z => (q1 n u hu z).trans ?_, fun n u hu z => (q2 n u hu z).trans ?_⟩
  · exact mul_le_mul_of_nonneg_right (by linarith) (dot_self_nonneg z)
  · exact mul_le_mul_of_nonneg_right (by linarith) (dot_self_nonneg z)

/-- C81 (with features, conjugate gradients come to rest).  With positive regularisation, any number of
warm-up epochs and any cap on the inner iterations, there is an epoch after which feature-aware training with
conjugate gradients (the default solver) changes no embedding and no weight.  From then on every embedding
solves its linear system, which draws it towards what its features predict, up to the solver's tolerance, and
no change of the weights of the user features, or of the item features, has a smaller loss. -/
theorem C81_features_cg_stops (cfg : Config) (X : CSR ℝ) (hv : Valid cfg X) (hpu : RegPositive cfg X)
    (hpi : RegPositive cfg (transpose X)) (sc : Nat → SolverConfig)
    (hs : ∀ n, (sc n).solverType = .cg) (tr : Nat → Trainer K) (h : TrainingRun cfg X sc tr)
    (FU FI : Features) (hFU : (tr 0).userF = FU) (hFI : (tr 0).itemF = FI) :
    ∃ N, ∀ n ≥ N,
      (∀ u < X.nrows, (tr n).user.row u = (tr N).user.row u ∧
        rowResidual (paramsOf cfg) (Data.ofCSR X) FU.cols FU.val (tr n).userW.val (tr n).user.row
          (tr n).item.row u ≤ 1 / 10 ^ 20) ∧
      (∀ i < X.cols, (tr n).item.row i = (tr N).item.row i ∧
        rowResidual (paramsOf cfg) (Data.ofCSR X).swap FI.cols FI.val (tr n).itemW.val (tr n).item.row
          (tr n).user.row i ≤ 1 / 10 ^ 20) ∧
      (∀ f < FU.cols, (tr n).userW.val f = (tr N).userW.val f) ∧
      (∀ f < FI.cols, (tr n).itemW.val f = (tr N).itemW.val f) ∧
      (∀ WU', lossWithFeatures cfg X FU FI (tr n).userW.val (tr n).itemW.val (tr n).user.row (tr n).item.row ≤
        lossWithFeatures cfg X FU FI WU' (tr n).itemW.val (tr n).user.row (tr n).item.row) ∧
      ∀ WI', lossWithFeatures cfg X FU FI (tr n).userW.val (tr n).itemW.val (tr n).user.row (tr n).item.row ≤
        lossWithFeatures cfg X FU FI (tr n).userW.val WI' (tr n).user.row (tr n).item.row := by
  subst hFU hFI
  obtain ⟨L, hL, hb1, hb2⟩ := run_features_upper hv hpu hpi h
  obtain ⟨lu, li⟩ := h.lambda hv
  have hanti := h.descending hv
  have hlim := tendsto_atTop_ciInf hanti ⟨0, by rintro _ ⟨n, rfl⟩; exact h.nonneg hv n⟩
  have hdrop : Tendsto (fun n => (tr n).specLoss - (tr (n + 1)).specLoss) atTop (𝓝 0) := by
    have := hlim.sub (hlim.comp (tendsto_add_atTop_nat 1))
    rw [sub_self] at this
    exact this
  have heps : (0 : ℝ) < cgEps := by unfold cgEps; positivity
  have hev : ∀ᶠ n in atTop, (tr n).specLoss - (tr (n + 1)).specLoss < cgEps / (2 * L) :=
    hdrop.eventually_lt_const (by positivity)
  obtain ⟨N₀, hN₀⟩ := eventually_atTop.mp hev
  set N := N₀ + cfg.warmup with hN
  have ht : (transpose X).nrows = X.cols := Sim.transpose_nrows X
  have hni : ∀ n, (sc n).solverType ≠ .ialspp := fun n => by rw [hs]; decide
  have hw : ∀ n ≥ N, ¬ ((tr 0).epoch + n < cfg.warmup) := fun n hn => by omega
  -- an epoch late enough moves no embedding
  have key : ∀ n ≥ N + 1, (∀ u < X.nrows, (tr (n + 1)).user.row u = (tr n).user.row u ∧
        rowResidual (paramsOf cfg) (Data.ofCSR X) (tr 0).userF.cols (tr 0).userF.val (tr n).userW.val
          (tr n).user.row (tr n).item.row u ≤ cgEps) ∧
      ∀ i < X.cols, (tr (n + 1)).item.row i = (tr n).item.row i ∧
        rowResidual (paramsOf cfg) (Data.ofCSR X).swap (tr 0).itemF.cols (tr 0).itemF.val (tr n).itemW.val
          (tr n).item.row (tr (n + 1)).user.row i ≤ cgEps := by
    intro n hn
    obtain ⟨m, rfl⟩ : ∃ m, n = m + 1 := ⟨n - 1, by omega⟩
    obtain ⟨un0, vn0, p1, p2⟩ := h.halves hv m
    obtain ⟨un, vn, h1, h2⟩ := h.halves hv (m + 1)
    have un' := (h.halves hv (m + 1 + 1)).1
    have hd := hN₀ (m + 1) (by omega)
    rw [lt_div_iff₀ (by positivity), h.specLoss_eq hv, h.specLoss_eq hv] at hd
    unfold lossWithFeatures at hd
    have d1 := h1.descend hv (hni _) vn lu un cfg.lambdaItem (tr 0).itemF.cols (tr 0).itemF.val
      (tr (m + 1)).itemW.val
    have d2 := h2.descend hv.transpose (hni _) un' li (vn.trans ht.symm) cfg.lambdaUser (tr 0).userF.cols
      (tr 0).userF.val (tr (m + 1 + 1)).userW.val
    rw [ofCSR_transpose X hv.proper, featureLoss_swap, featureLoss_swap] at d2
    refine ⟨h1.stop hv (hs _) vn lu (hw _ (by omega)) un L hL (hb1 (m + 1))
      (fun h0 r hr he => p1.empty (hs _) un0 h0 r hr he) cfg.lambdaItem (tr 0).itemF.cols (tr 0).itemF.val
      (tr (m + 1)).itemW.val ?_, ?_⟩
    · nlinarith
    · have := h2.stop hv.transpose (hs _) un' li (hw _ (by omega)) (vn.trans ht.symm) L hL (hb2 (m + 1 + 1))
        (fun h0 r hr he => p2.empty (hs _) (vn0.trans ht.symm) h0 r hr he) cfg.lambdaUser (tr 0).userF.cols
        (tr 0).userF.val (tr (m + 1 + 1)).userW.val (by
          rw [ofCSR_transpose X hv.proper, featureLoss_swap, featureLoss_swap]
          nlinarith)
      rw [ofCSR_transpose X hv.proper, ht] at this
      exact this
  -- the weights are the best ones for the embeddings, by a margin
  have wU : ∀ n ≥ N, ∀ W'', cfg.lambdaUser * weightNormSq (tr 0).userF.cols
        (fun f => W'' f - (tr (n + 1)).userW.val f) ≤
      sideLoss X.nrows (tr 0).userF.cols (userWeight (paramsOf cfg) (Data.ofCSR X)) (tr 0).userF.val
        cfg.lambdaUser (tr (n + 1)).user.row W'' -
      sideLoss X.nrows (tr 0).userF.cols (userWeight (paramsOf cfg) (Data.ofCSR X)) (tr 0).userF.val
        cfg.lambdaUser (tr (n + 1)).user.row (tr (n + 1)).userW.val := fun n hn W'' => by
    obtain ⟨un, vn, h1, h2⟩ := h.halves hv n
    exact h1.weights hv vn (hw n hn) W''
  have wI : ∀ n ≥ N, ∀ W'', cfg.lambdaItem * weightNormSq (tr 0).itemF.cols
        (fun f => W'' f - (tr (n + 1)).itemW.val f) ≤
      sideLoss X.cols (tr 0).itemF.cols (itemWeight (paramsOf cfg) (Data.ofCSR X)) (tr 0).itemF.val
        cfg.lambdaItem (tr (n + 1)).item.row W'' -
      sideLoss X.cols (tr 0).itemF.cols (itemWeight (paramsOf cfg) (Data.ofCSR X)) (tr 0).itemF.val
        cfg.lambdaItem (tr (n + 1)).item.row (tr (n + 1)).itemW.val := fun n hn W'' => by
    obtain ⟨un, vn, h1, h2⟩ := h.halves hv n
    have := h2.weights hv.transpose (h.halves hv (n + 1)).1 (hw n hn) W''
    rw [ofCSR_transpose X hv.proper, ht] at this
    exact this
  have nn : ∀ (n : Nat) (l : ℝ) (W : Nat → Vec K), (n ≠ 0 → 0 < l) → 0 ≤ l * weightNormSq n W := by
    intro n l W hl
    by_cases hn : n = 0
    · subst hn; simp [weightNormSq]
    · exact mul_nonneg (hl hn).le (Finset.sum_nonneg (fun _ _ => normSq_nonneg _))
  -- so they rest one epoch after the embeddings
  have wstep : ∀ n ≥ N + 2, (∀ f < (tr 0).userF.cols, (tr (n + 1)).userW.val f = (tr n).userW.val f) ∧
      ∀ f < (tr 0).itemF.cols, (tr (n + 1)).itemW.val f = (tr n).itemW.val f := by
    intro n hn
    obtain ⟨m, rfl⟩ : ∃ m, n = m + 1 := ⟨n - 1, by omega⟩
    have hk := key (m + 1) (by omega)
    refine ⟨eq_of_weightNormSq lu ?_, eq_of_weightNormSq li ?_⟩
    · have a1 := wU m (by omega) (tr (m + 1 + 1)).userW.val
      have a2 := wU (m + 1) (by omega) (tr (m + 1)).userW.val
      have a3 := nn _ _ (fun f => (tr (m + 1)).userW.val f - (tr (m + 1 + 1)).userW.val f) lu
      rw [sideLoss_congr (fun r hr => (hk.1 r hr).1), sideLoss_congr (fun r hr => (hk.1 r hr).1)] at a2
      linarith
    · have a1 := wI m (by omega) (tr (m + 1 + 1)).itemW.val
      have a2 := wI (m + 1) (by omega) (tr (m + 1)).itemW.val
      have a3 := nn _ _ (fun f => (tr (m + 1)).itemW.val f - (tr (m + 1 + 1)).itemW.val f) li
      rw [sideLoss_congr (fun r hr => (hk.2 r hr).1), sideLoss_congr (fun r hr => (hk.2 r hr).1)] at a2
      linarith
  have hconst : ∀ n ≥ N + 3, (∀ u < X.nrows, (tr n).user.row u = (tr (N + 3)).user.row u) ∧
      (∀ i < X.cols, (tr n).item.row i = (tr (N + 3)).item.row i) ∧
      (∀ f < (tr 0).userF.cols, (tr n).userW.val f = (tr (N + 3)).userW.val f) ∧
      ∀ f < (tr 0).itemF.cols, (tr n).itemW.val f = (tr (N + 3)).itemW.val f := by
    intro n hn
    induction n, hn using Nat.le_induction with
    | base => exact ⟨fun _ _ => rfl, fun _ _ => rfl, fun _ _ => rfl, fun _ _ => rfl⟩
    | succ n hn ih =>
      have hk := key n (by omega)
      have hk' := wstep n (by omega)
      exact ⟨fun u hu => by rw [(hk.1 u hu).1, ih.1 u hu], fun i hi => by rw [(hk.2 i hi).1, ih.2.1 i hi],
        fun f hf => by rw [hk'.1 f hf, ih.2.2.1 f hf], fun f hf => by rw [hk'.2 f hf, ih.2.2.2 f hf]⟩
  refine ⟨N + 3, fun n hn => ⟨fun u hu => ⟨(hconst n hn).1 u hu, ?_⟩, fun i hi => ⟨(hconst n hn).2.1 i hi, ?_⟩,
    (hconst n hn).2.2.1, (hconst n hn).2.2.2, fun W' => ?_, fun W' => ?_⟩⟩
  · exact ((key n (by omega)).1 u hu).2
  · obtain ⟨m, rfl⟩ : ∃ m, n = m + 1 := ⟨n - 1, by omega⟩
    have hk := (key m (by omega)).2 i hi
    have hp := predicted_congr (F := (tr 0).itemF.val) (wstep m (by omega)).2 i
    have hr := hk.2
    unfold rowResidual at hr ⊢
    rw [hk.1, hp]
    exact hr
  · obtain ⟨m, rfl⟩ : ∃ m, n = m + 1 := ⟨n - 1, by omega⟩
    have a1 := wU m (by omega) W'
    have a3 := nn _ _ (fun f => W' f - (tr (m + 1)).userW.val f) lu
    unfold lossWithFeatures
    rw [featureLoss_user, featureLoss_user]
    have e : (Data.ofCSR X).U = X.nrows := rfl
    rw [e]
    linarith
  · obtain ⟨m, rfl⟩ : ∃ m, n = m + 1 := ⟨n - 1, by omega⟩
    have a1 := wI m (by omega) W'
    have a3 := nn _ _ (fun f => W' f - (tr (m + 1)).itemW.val f) li
    unfold lossWithFeatures
    rw [featureLoss_item, featureLoss_item]
    have e : (Data.ofCSR X).I = X.cols := rfl
    rw [e]
    linarith

/-- The hypotheses are met: the example trainer with two user features and one item feature can be trained for
ever with Cholesky, and has a limit point, at which neither side can be improved … -/
example : ∃ (tr : Nat → Trainer 3) (φ : Nat → Nat) (A B WU WI : Nat → Fin 3 → ℝ),
    tr 0 = featureTrainer (1 / 2) 1 ∧ StrictMono φ ∧ EmbeddingsTendTo exampleX tr φ A B ∧
    SidesOptimal (featureCfg (1 / 2) 1) exampleX ⟨exampleX.nrows, 2, fun u f => u + f⟩
      ⟨exampleX.cols, 1, fun i _ => 1 + i⟩ WU WI A B := by
  obtain ⟨ω, hω⟩ := exists_complete_oracle 2 (by norm_num)
  have hv := featureValid
  obtain ⟨tr, h0, h⟩ := C81_features_runs_exist hω (by norm_num) (featureCfg (1 / 2) 1) exampleX hv
    featureRegPositive featureRegPositiveT (fun _ => ⟨.cholesky, 3, 1, 1⟩) (fun _ => by decide) _ _ _ _
    (featureTrainer (1 / 2) 1) (featureTrainer_created _ _)
  have hU : (tr 0).userF = ⟨exampleX.nrows, 2, fun u f => u + f⟩ := by rw [h0]; rfl
  have hI : (tr 0).itemF = ⟨exampleX.cols, 1, fun i _ => 1 + i⟩ := by rw [h0]; rfl
  obtain ⟨φ, A, B, WU, WI, hφ, hl, hlw⟩ := C81_features_limits_exist _ _ hv featureRegPositive
    featureRegPositiveT _ tr h _ _ hU hI
  exact ⟨tr, φ, A, B, WU, WI, h0, hφ, hl, (C81_features_limits_optimal _ _ hv featureRegPositive
    featureRegPositiveT _ (fun _ => rfl) tr h (by rw [h0]; rfl) _ _ hU hI φ hφ A B WU WI hl hlw).1⟩

/-- … and with conjugate gradients it comes to rest. -/
example : ∃ tr : Nat → Trainer 3, tr 0 = featureTrainer (1 / 2) 1 ∧
    ∃ N, ∀ n ≥ N, ∀ u < 2, (tr n).user.row u = (tr N).user.row u := by
  obtain ⟨ω, hω⟩ := exists_complete_oracle 2 (by norm_num)
  have hv := featureValid
  obtain ⟨tr, h0, h⟩ := C81_features_runs_exist hω (by norm_num) (featureCfg (1 / 2) 1) exampleX hv
    featureRegPositive featureRegPositiveT (fun _ => ⟨.cg, 3, 1, 1⟩) (fun _ => by decide) _ _ _ _
    (featureTrainer (1 / 2) 1) (featureTrainer_created _ _)
  obtain ⟨N, hN⟩ := C81_features_cg_stops _ _ hv featureRegPositive featureRegPositiveT _ (fun _ => rfl) tr h
    _ _ rfl rfl
  exact ⟨tr, h0, N, fun n hn u hu => ((hN n hn).1 u hu).1⟩

end Irspack.Ials
