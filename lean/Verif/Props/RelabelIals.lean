import Verif.Proofs.RelabelIals
import Verif.Spec.IalsRun
import Verif.Props.IalsConverge

/-!
# C87: iALS learns the same from renumbered users and items

If the initial embeddings go with the users and items they belong to, so do the learnt ones.
-/

namespace Irspack.Ials
open Spec.Relabel Spec.Ials

variable {K T T' : Nat}

open Classical in
theorem observed_sum {X X' : CSR ℝ} {σ π : Nat → Nat} (h : Renamed X X' σ π) (hX : Spec.Sim.Proper X)
    (hX' : Spec.Sim.Proper X') (hz : Spec.Sim.NoStoredZero X) (hz' : Spec.Sim.NoStoredZero X') {M : Type} [AddCommMonoid M]
    (u : Nat) (hu : u < X.nrows) (f f' : Nat → M) (hf : ∀ i, i < X.cols → f' (π i) = f i) :
    ∑ i ∈ (Finset.range X'.cols).filter (fun i => (Data.ofCSR X').S (σ u) i), f' i =
      ∑ i ∈ (Finset.range X.cols).filter (fun i => (Data.ofCSR X).S u i), f i := by
  rw [Finset.sum_filter, Finset.sum_filter, h.items]
  refine (h.renamesItems.sum _ _ (fun i hi => ?_)).symm
  have : (Data.ofCSR X').S (σ u) (π i) ↔ (Data.ofCSR X).S u i := by
    rw [C41_observed_iff_nonzero X hX hz, C41_observed_iff_nonzero X' hX' hz', h.entries u i hu hi]
  simp only [this, hf i hi]

theorem userWeight_rename {X X' : CSR ℝ} {σ π : Nat → Nat} (h : Renamed X X' σ π) (hX : Spec.Sim.Proper X)
    (hX' : Spec.Sim.Proper X') (hz : Spec.Sim.NoStoredZero X) (hz' : Spec.Sim.NoStoredZero X') (p : Params)
    (u : Nat) (hu : u < X.nrows) :
    userWeight p (Data.ofCSR X') (σ u) = userWeight p (Data.ofCSR X) u := by
  have hc : (Data.ofCSR X').userCount (σ u) = (Data.ofCSR X).userCount u := by
    unfold Data.userCount
    have := observed_sum h hX hX' hz hz' u hu (fun _ => 1) (fun _ => 1) (fun _ _ => rfl)
    rw [Finset.card_eq_sum_ones, Finset.card_eq_sum_ones]
    exact this
  have hI : (Data.ofCSR X').I = (Data.ofCSR X).I := h.items
  unfold userWeight
  rw [hc, hI]

theorem itemWeight_rename {X X' : CSR ℝ} {σ π : Nat → Nat} (h : Renamed X X' σ π) (hX : Spec.Sim.Proper X)
    (hX' : Spec.Sim.Proper X') (hz : Spec.Sim.NoStoredZero X) (hz' : Spec.Sim.NoStoredZero X') (p : Params)
    (i : Nat) (hi : i < X.cols) :
    itemWeight p (Data.ofCSR X') (π i) = itemWeight p (Data.ofCSR X) i := by
  have := userWeight_rename (renamed_transpose h hX hX') (Sim.transpose_proper X hX) (Sim.transpose_proper X' hX')
    (Sim.transpose_noZero X hz) (Sim.transpose_noZero X' hz') p i (by rw [Sim.transpose_nrows]; exact hi)
  rw [ofCSR_transpose X hX, ofCSR_transpose X' hX'] at this
  exact this

/-- C87 (the loss).  The training loss of embeddings is the loss of the same embeddings of the renumbered
users and items. -/
theorem C87_ials_loss {ω : Oracle T} {ω' : Oracle T'} (hω : ω.Complete) (hω' : ω'.Complete) (hT : 0 < T) (hT' : 0 < T')
    (cfg : Config) {X X' : CSR ℝ} {σ π : Nat → Nat} (h : Renamed X X' σ π) (hX : Spec.Sim.Proper X)
    (hX' : Spec.Sim.Proper X') (hz : Spec.Sim.NoStoredZero X) (hz' : Spec.Sim.NoStoredZero X')
    (A B A' B' : Nat → Fin K → ℝ) (hA : ∀ u, u < X.nrows → A' (σ u) = A u) (hB : ∀ i, i < X.cols → B' (π i) = B i) :
    (Trainer.create cfg X' A' B').computeLoss ω' = (Trainer.create cfg X A B).computeLoss ω := by
  rw [C41_loss_is_documented hω hT cfg X hX, C41_loss_is_documented hω' hT' cfg X' hX']
  congr 1
  have hU : (Data.ofCSR X').U = X.nrows := h.users
  have hI : (Data.ofCSR X').I = X.cols := h.items
  have hU0 : (Data.ofCSR X).U = X.nrows := rfl
  have hI0 : (Data.ofCSR X).I = X.cols := rfl
  have hS : ∀ u i, u < X.nrows → i < X.cols → ((Data.ofCSR X').S (σ u) (π i) ↔ (Data.ofCSR X).S u i) := by
    intro u i hu hi
    rw [C41_observed_iff_nonzero X hX hz, C41_observed_iff_nonzero X' hX' hz', h.entries u i hu hi]
  have hdata : dataTerm (paramsOf cfg) (Data.ofCSR X') A' B' = dataTerm (paramsOf cfg) (Data.ofCSR X) A B := by
    unfold dataTerm
    split
    · unfold originalTerm
      rw [hU, hI, hU0, hI0]
      refine (h.renamesUsers.sum _ _ (fun u hu => h.renamesItems.sum _ _ (fun i hi => ?_))).symm
      have he : (Data.ofCSR X').X (σ u) (π i) = (Data.ofCSR X).X u i := h.entries u i hu hi
      rw [hA u hu, hB i hi, he]
      by_cases hs : (Data.ofCSR X).S u i
      · simp only [if_pos hs, if_pos ((hS u i hu hi).mpr hs)]
      · simp only [if_neg hs, if_neg (fun e => hs ((hS u i hu hi).mp e))]
    · unfold ialsppTerm
      rw [hU, hU0]
      congr 1
      · refine (h.renamesUsers.sum _ _ (fun u hu => ?_)).symm
        refine (observed_sum h hX hX' hz hz' u hu _ _ (fun i hi => ?_)).symm
        have he : (Data.ofCSR X').X (σ u) (π i) = (Data.ofCSR X).X u i := h.entries u i hu hi
        rw [hA u hu, hB i hi, he]
      · rw [hI, hI0]
        congr 1
        refine (h.renamesUsers.sum _ _ (fun u hu => h.renamesItems.sum _ _ (fun i hi => ?_))).symm
        rw [hA u hu, hB i hi]
  unfold loss
  rw [hdata, hU, hI, hU0, hI0]
  congr 3
  · refine (h.renamesUsers.sum _ _ (fun u hu => ?_)).symm
    rw [userWeight_rename h hX hX' hz hz' _ u hu, hA u hu]
  · refine (h.renamesItems.sum _ _ (fun i hi => ?_)).symm
    rw [itemWeight_rename h hX hX' hz hz' _ i hi, hB i hi]

/-- C87 (an epoch).  Two trainers without features whose embeddings correspond, for matrices with the same
interactions under other numbers: an epoch of any solver either succeeds for both and leaves embeddings that
correspond, or throws for both, whatever the threads do. -/
theorem C87_ials_epoch {ω : Oracle T} {ω' : Oracle T'} (hω : ω.Complete) (hω' : ω'.Complete) (hT : 0 < T) (hT' : 0 < T')
    (cfg : Config) {X X' : CSR ℝ} {σ π : Nat → Nat} (h : Renamed X X' σ π) (hv : Valid cfg X) (hv' : Valid cfg X')
    (hz : Spec.Sim.NoStoredZero X) (hz' : Spec.Sim.NoStoredZero X') (sc : SolverConfig)
    (A B A' B' : Nat → Fin K → ℝ) (hA : ∀ u, u < X.nrows → A' (σ u) = A u) (hB : ∀ i, i < X.cols → B' (π i) = B i) :
    (∃ tr tr', (Trainer.create cfg X A B).step ω sc = .ok tr ∧ (Trainer.create cfg X' A' B').step ω' sc = .ok tr' ∧
      (∀ u, u < X.nrows → tr'.user.row (σ u) = tr.user.row u) ∧ ∀ i, i < X.cols → tr'.item.row (π i) = tr.item.row i) ∨
    ∃ e e', (Trainer.create cfg X A B).step ω sc = .error e ∧ (Trainer.create cfg X' A' B').step ω' sc = .error e' := by
  have hR : TRel X σ π (Trainer.create cfg X A B) (Trainer.create cfg X' A' B') := {
    user := ⟨rfl, h.users, hA⟩
    item := ⟨rfl, h.items, hB⟩
    aware := rfl
    epoch := rfl
    userF := ⟨rfl, rfl, fun _ _ _ _ => rfl⟩
    itemF := ⟨rfl, rfl, fun _ _ _ _ => rfl⟩
    userW := rfl
    itemW := rfl
    userC := rfl
    itemC := rfl }
  have := step_rel hω hω' hT hT' h hz hz' hv hv' sc (create_good cfg X A B) (create_good cfg X' A' B') rfl rfl rfl rfl hR
  generalize (Trainer.create cfg X A B).step ω sc = x at this
  generalize (Trainer.create cfg X' A' B').step ω' sc = x' at this
  cases this with
  | ok hr => exact Or.inl ⟨_, _, rfl, rfl, hr.user.rows, hr.item.rows⟩
  | error e e' => exact Or.inr ⟨e, e', rfl, rfl⟩

theorem run_rel (cfg : Config) {X X' : CSR ℝ} {σ π : Nat → Nat} (h : Renamed X X' σ π) (hv : Valid cfg X)
    (hv' : Valid cfg X') (hz : Spec.Sim.NoStoredZero X) (hz' : Spec.Sim.NoStoredZero X') (sc : Nat → SolverConfig)
    (tr tr' : Nat → Trainer K) (hrun : TrainingRun cfg X sc tr) (hrun' : TrainingRun cfg X' sc tr')
    (h0 : TRel X σ π (tr 0) (tr' 0)) (n : Nat) : TRel X σ π (tr n) (tr' n) := by
  induction n with
  | zero => exact h0
  | succ n ih =>
    obtain ⟨T, ω, hω, hs⟩ := hrun.epoch n
    obtain ⟨T', ω', hω', hs'⟩ := hrun'.epoch n
    obtain ⟨hg, hc, hx⟩ := reached_good hv (hrun.reached n)
    obtain ⟨hg', hc', hx'⟩ := reached_good hv' (hrun'.reached n)
    have hpos : ∀ {T : Nat} {ω : Oracle T} {t t' : Trainer K}, t.step ω (sc n) = .ok t' → 0 < T := by
      intro T ω t t' he
      unfold Trainer.step at he
      split at he
      · cases he
      · obtain ⟨t₁, h1, _⟩ := bind_ok he
        unfold Trainer.stepUser at h1
        obtain ⟨P, hP, _⟩ := bind_ok h1
        exact pos_of_prepare hP
    have := step_rel hω hω' (hpos hs) (hpos hs') h hz hz' hv hv' (sc n) hg hg' hc hc' hx hx' ih
    rw [hs, hs'] at this
    cases this with
    | ok hr => exact hr

/-- C87 (training).  Two training runs on the same interactions under other numbers, started from embeddings
that correspond: after any number of epochs the embeddings, and so the scores of every user for every item,
correspond.  Solvers may change from epoch to epoch; threads and interleavings may differ between the runs. -/
theorem C87_ials_training (cfg : Config) {X X' : CSR ℝ} {σ π : Nat → Nat} (h : Renamed X X' σ π) (hv : Valid cfg X)
    (hv' : Valid cfg X') (hz : Spec.Sim.NoStoredZero X) (hz' : Spec.Sim.NoStoredZero X')
    (A B A' B' : Nat → Fin K → ℝ) (hA : ∀ u, u < X.nrows → A' (σ u) = A u) (hB : ∀ i, i < X.cols → B' (π i) = B i)
    (sc : Nat → SolverConfig) (tr tr' : Nat → Trainer K) (hrun : TrainingRun cfg X sc tr)
    (hrun' : TrainingRun cfg X' sc tr') (h0 : tr 0 = Trainer.create cfg X A B)
    (h0' : tr' 0 = Trainer.create cfg X' A' B') (n : Nat) :
    (∀ u, u < X.nrows → (tr' n).user.row (σ u) = (tr n).user.row u) ∧
    (∀ i, i < X.cols → (tr' n).item.row (π i) = (tr n).item.row i) ∧
    ∀ u i, u < X.nrows → i < X.cols → score ((tr' n).user.row (σ u)) ((tr' n).item.row (π i)) =
      score ((tr n).user.row u) ((tr n).item.row i) := by
  have hR : TRel X σ π (tr 0) (tr' 0) := by
    rw [h0, h0']
    exact {
      user := ⟨rfl, h.users, hA⟩
      item := ⟨rfl, h.items, hB⟩
      aware := rfl
      epoch := rfl
      userF := ⟨rfl, rfl, fun _ _ _ _ => rfl⟩
      itemF := ⟨rfl, rfl, fun _ _ _ _ => rfl⟩
      userW := rfl
      itemW := rfl
      userC := rfl
      itemC := rfl }
  have hn := run_rel cfg h hv hv' hz hz' sc tr tr' hrun hrun' hR n
  exact ⟨hn.user.rows, hn.item.rows, fun u i hu hi => by rw [hn.user.rows u hu, hn.item.rows i hi]⟩

/-- C87 (training with features).  The same for trainers with user and item features that go with the users and
items they describe; the learnt feature weights are then equal. -/
theorem C87_ials_features (cfg : Config) {X X' : CSR ℝ} {σ π : Nat → Nat} (h : Renamed X X' σ π) (hv : Valid cfg X)
    (hv' : Valid cfg X') (hz : Spec.Sim.NoStoredZero X) (hz' : Spec.Sim.NoStoredZero X')
    (A B A' B' : Nat → Fin K → ℝ) (hA : ∀ u, u < X.nrows → A' (σ u) = A u) (hB : ∀ i, i < X.cols → B' (π i) = B i)
    (FU FU' FI FI' : Features) (hU : FU'.rows = FU.rows ∧ FU'.cols = FU.cols) (hI : FI'.rows = FI.rows ∧ FI'.cols = FI.cols)
    (hFU : ∀ u f, u < X.nrows → f < FU.cols → FU'.val (σ u) f = FU.val u f)
    (hFI : ∀ i f, i < X.cols → f < FI.cols → FI'.val (π i) f = FI.val i f)
    (sc : Nat → SolverConfig) (tr tr' : Nat → Trainer K) (hrun : TrainingRun cfg X sc tr)
    (hrun' : TrainingRun cfg X' sc tr') (h0 : Trainer.createWithFeatures cfg X FU FI A B = .ok (tr 0))
    (h0' : Trainer.createWithFeatures cfg X' FU' FI' A' B' = .ok (tr' 0)) (n : Nat) :
    (∀ u, u < X.nrows → (tr' n).user.row (σ u) = (tr n).user.row u) ∧
    (∀ i, i < X.cols → (tr' n).item.row (π i) = (tr n).item.row i) ∧
    (tr' n).userW = (tr n).userW ∧ (tr' n).itemW = (tr n).itemW := by
  have hR : TRel X σ π (tr 0) (tr' 0) := by
    unfold Trainer.createWithFeatures at h0 h0'
    split at h0
    · cases h0
    split at h0
    · cases h0
    split at h0'
    · cases h0'
    split at h0'
    · cases h0'
    rw [← Except.ok.inj h0, ← Except.ok.inj h0']
    exact {
      user := ⟨rfl, h.users, hA⟩
      item := ⟨rfl, h.items, hB⟩
      aware := rfl
      epoch := rfl
      userF := ⟨hU.1, hU.2, fun r hr f hf => hFU r f hr hf⟩
      itemF := ⟨hI.1, hI.2, fun r hr f hf => hFI r f hr hf⟩
      userW := by simp only [hU.2]
      itemW := by simp only [hI.2]
      userC := rfl
      itemC := rfl }
  have hn := run_rel cfg h hv hv' hz hz' sc tr tr' hrun hrun' hR n
  exact ⟨hn.user.rows, hn.item.rows, hn.userW, hn.itemW⟩

/-! ### the hypotheses can be met -/

/-- the example matrix with both users and both items exchanged -/
def exampleX' : CSR ℝ := ⟨2, [[], [(1, 2), (0, 1)]]⟩

theorem exampleX_renamed : Renamed exampleX exampleX' (fun u => 1 - u) (fun i => 1 - i) := by
  refine ⟨rfl, rfl, ⟨fun i h => ?_, fun i j hi hj e => ?_⟩, ⟨fun i h => ?_, fun i j hi hj e => ?_⟩, ?_⟩
  · simp [exampleX, CSR.nrows] at h ⊢
  · simp [exampleX, CSR.nrows] at hi hj; omega
  · simp [exampleX] at h ⊢
  · simp [exampleX] at hi hj; omega
  · intro u i hu hi
    simp only [exampleX, CSR.nrows, List.length_cons, List.length_nil] at hu hi
    have hu2 : u = 0 ∨ u = 1 := by omega
    have hi2 : i = 0 ∨ i = 1 := by omega
    rcases hu2 with rfl | rfl <;> rcases hi2 with rfl | rfl <;>
      simp [exampleX, exampleX', CSR.get, CSR.row, SpVec.get]

theorem exampleX'_valid : Valid exampleCfg exampleX' ∧ Spec.Sim.NoStoredZero exampleX' ∧ Spec.Sim.NoStoredZero exampleX := by
  refine ⟨⟨⟨?_, ?_⟩, ?_, ?_, ?_⟩, ?_, ?_⟩
  · intro row hr e he
    simp only [exampleX', List.mem_cons, List.not_mem_nil, or_false] at hr
    rcases hr with rfl | rfl
    · simp at he
    · simp only [List.mem_cons, List.not_mem_nil, or_false] at he
      rcases he with rfl | rfl <;> simp [exampleX']
  · intro row hr
    simp only [exampleX', List.mem_cons, List.not_mem_nil, or_false] at hr
    rcases hr with rfl | rfl <;> simp
  · intro row hr e he
    simp only [exampleX', List.mem_cons, List.not_mem_nil, or_false] at hr
    rcases hr with rfl | rfl
    · simp at he
    · simp only [List.mem_cons, List.not_mem_nil, or_false] at he
      rcases he with rfl | rfl <;> norm_num
  · norm_num [exampleCfg]
  · norm_num [exampleCfg]
  · intro row hr e he
    simp only [exampleX', List.mem_cons, List.not_mem_nil, or_false] at hr
    rcases hr with rfl | rfl
    · simp at he
    · simp only [List.mem_cons, List.not_mem_nil, or_false] at he
      rcases he with rfl | rfl <;> norm_num
  · intro row hr e he
    simp only [exampleX, List.mem_cons, List.not_mem_nil, or_false] at hr
    rcases hr with rfl | rfl
    · simp only [List.mem_cons, List.not_mem_nil, or_false] at he
      rcases he with rfl | rfl <;> norm_num
    · simp at he

/-- one epoch by any solver, with different numbers of threads -/
example (sc : SolverConfig) : ∃ (ω : Oracle 2) (ω' : Oracle 3), ω.Complete ∧ ω'.Complete ∧
    (∃ tr tr', exampleTrainer.step ω sc = .ok tr ∧
      (Trainer.create exampleCfg exampleX' (fun u k => ((1 - u : Nat) : ℝ) + k.val)
        (fun i k => 1 + ((1 - i : Nat) : ℝ) * k.val)).step ω' sc = .ok tr' ∧
      tr'.user.row 1 = tr.user.row 0 ∧ tr'.item.row 0 = tr.item.row 1) := by
  obtain ⟨ω, hω⟩ := exists_complete_oracle 2 (by norm_num)
  obtain ⟨ω', hω'⟩ := exists_complete_oracle 3 (by norm_num)
  obtain ⟨hv', hz', hz⟩ := exampleX'_valid
  refine ⟨ω, ω', hω, hω', ?_⟩
  rcases C87_ials_epoch hω hω' (by norm_num) (by norm_num) exampleCfg exampleX_renamed exampleValid hv' hz hz' sc
    (fun u k => (u : ℝ) + (k : Fin 3).val) (fun i k => 1 + (i : ℝ) * (k : Fin 3).val)
    (fun u k => ((1 - u : Nat) : ℝ) + (k : Fin 3).val) (fun i k => 1 + ((1 - i : Nat) : ℝ) * (k : Fin 3).val)
    (by
      intro u hu
      have : u = 0 ∨ u = 1 := by simp [exampleX, CSR.nrows] at hu; omega
      rcases this with rfl | rfl <;> rfl)
    (by
      intro u hu
      have : u = 0 ∨ u = 1 := by simp [exampleX] at hu; omega
      rcases this with rfl | rfl <;> rfl) with
    ⟨tr, tr', h1, h2, h3, h4⟩ | ⟨e, e', h1, _⟩
  · exact ⟨tr, tr', h1, h2, h3 0 (by decide), h4 1 (by decide)⟩
  · obtain ⟨tr, h, _⟩ := C42_epoch_regularised hω (by norm_num) exampleCfg exampleX exampleValid
      exampleRegPositive exampleRegPositiveT sc exampleTrainer (Trainer.Reached.create _ _) rfl
    exact absurd (h.symm.trans h1) (by simp)

end Irspack.Ials
