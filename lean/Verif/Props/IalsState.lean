import Verif.Props.IalsFeature

/-!
# C48 (pickling and saved states) and C49 (rescaled regularisation)
-/

namespace Irspack.Ials

open Spec.Ials Matrix

variable {K T : Nat}

/-! ## C48 -/

/-- What a user of a trained model can ask it: scores of known users, embeddings of new users and items
with and without features, embeddings predicted from features. -/
structure SameAnswers (a b : Trainer K) : Prop where
  blockScores : ∀ {T : Nat} (ω : Oracle T) (x y : Nat), a.userScores ω x y = b.userScores ω x y
  scores : ∀ users, getScore a users = getScore b users
  user : ∀ {T : Nat} (ω : Oracle T) (sc : SolverConfig) (X : CSR ℝ),
    a.transformUser ω sc X = b.transformUser ω sc X
  item : ∀ {T : Nat} (ω : Oracle T) (sc : SolverConfig) (X : CSR ℝ),
    a.transformItem ω sc X = b.transformItem ω sc X
  userFeature : ∀ feat, a.transformUserFeature feat = b.transformUserFeature feat
  itemFeature : ∀ feat, a.transformItemFeature feat = b.transformItemFeature feat
  userWithFeature : ∀ {T : Nat} (ω : Oracle T) (sc : SolverConfig) (X : CSR ℝ) (feat : Features),
    a.transformUserWithFeature ω sc X feat = b.transformUserWithFeature ω sc X feat
  itemWithFeature : ∀ {T : Nat} (ω : Oracle T) (sc : SolverConfig) (X : CSR ℝ) (feat : Features),
    a.transformItemWithFeature ω sc X feat = b.transformItemWithFeature ω sc X feat

theorem sameAnswers_of {a b : Trainer K} (hc : a.cfg = b.cfg) (hu : a.user = b.user)
    (hi : a.item = b.item) (hw : a.userW = b.userW) (hv : a.itemW = b.itemW) : SameAnswers a b where
  blockScores ω x y := by unfold Trainer.userScores; rw [hu, hi]
  scores users := by unfold getScore; rw [hu, hi]
  user ω sc X := by unfold Trainer.transformUser; rw [hc, hi]
  item ω sc X := by unfold Trainer.transformItem; rw [hc, hu]
  userFeature feat := by unfold Trainer.transformUserFeature; rw [hw]
  itemFeature feat := by unfold Trainer.transformItemFeature; rw [hv]
  userWithFeature ω sc X feat := by
    unfold Trainer.transformUserWithFeature Trainer.transformUserFeature; rw [hc, hi, hw]
  itemWithFeature ω sc X feat := by
    unfold Trainer.transformItemWithFeature Trainer.transformItemFeature; rw [hc, hu, hv]

/-- C48 (model configuration).  Unpickling a pickled model configuration gives it back. -/
theorem C48_config_roundtrip (c : Config) : Config.setstate c.getstate = c := rfl

/-- C48 (solver configuration).  Unpickling a pickled solver configuration, including its thread count,
gives it back. -/
theorem C48_solver_config_roundtrip (n : Nat) (c : SolverConfig) :
    SolverConfig.setstate (c.getstate n) = (n, c) := rfl

/-- C48 (trainer).  On every machine that knows how many processors it has, whatever their number,
unpickling a pickled trainer gives a trainer with the same configuration, factors and
feature weights, which pickles to the same state and answers every prediction request in the same
way. -/
theorem C48_trainer_pickle (tr : Trainer K) (procs : Nat) (hp : 0 < procs) :
    ∃ tr' : Trainer K, Trainer.setstate procs tr.getstate = .ok tr' ∧ tr'.cfg = tr.cfg ∧ tr'.user = tr.user ∧
      tr'.item = tr.item ∧ tr'.userW = tr.userW ∧ tr'.itemW = tr.itemW ∧ tr'.getstate = tr.getstate ∧
      SameAnswers tr' tr := by
  refine ⟨{ Trainer.restored tr.cfg tr.user tr.item with userW := tr.userW, itemW := tr.itemW }, ?_, rfl, rfl,
    rfl, rfl, rfl, rfl, sameAnswers_of rfl rfl rfl rfl rfl⟩
  cases procs with
  | zero => exact absurd hp (Nat.lt_irrefl 0)
  | succ n => rfl

/-- C48 (trainer, unknown number of processors).  Where the standard library cannot tell the number of
processors it reports 0, and then no pickled trainer can be unpickled. -/
theorem C48_unknown_processors (tr : Trainer K) :
    Trainer.setstate 0 tr.getstate = .error .invalidArgument := rfl

/-- C48 (old pickles).  A pickle of a version without features has the first three components only; it is
accepted and gives the same scores and the same embeddings from interactions. -/
theorem C48_old_pickle (tr : Trainer K) (procs : Nat) (hp : 0 < procs) :
    ∃ tr' : Trainer K, Trainer.setstate procs (tr.getstate.take 3) = .ok tr' ∧ tr'.cfg = tr.cfg ∧
      tr'.user = tr.user ∧ tr'.item = tr.item ∧
      (∀ users, getScore tr' users = getScore tr users) ∧
      (∀ {T : Nat} (ω : Oracle T) (x y : Nat), tr'.userScores ω x y = tr.userScores ω x y) ∧
      (∀ {T : Nat} (ω : Oracle T) (sc : SolverConfig) (X : CSR ℝ),
        tr'.transformUser ω sc X = tr.transformUser ω sc X) ∧
      ∀ {T : Nat} (ω : Oracle T) (sc : SolverConfig) (X : CSR ℝ),
        tr'.transformItem ω sc X = tr.transformItem ω sc X := by
  refine ⟨Trainer.restored tr.cfg tr.user tr.item, ?_, rfl, rfl, rfl, fun _ => rfl, fun _ _ _ => rfl,
    fun _ _ _ => rfl, fun _ _ _ => rfl⟩
  show Trainer.deserialize procs tr.cfg tr.user tr.item = _
  unfold Trainer.deserialize
  rw [if_neg hp.ne']

/-- C48 (malformed states).  A state with another number of components is rejected. -/
theorem C48_malformed_state (procs : Nat) (s : List (StateVal K)) (h : s.length ≠ 3 ∧ s.length ≠ 5) :
    Trainer.setstate procs s = .error .runtimeError := by
  unfold Trainer.setstate
  split
  · simp at h
  · simp at h
  · rfl

/-- C48 (saved states).  Whatever happened to a trainer since a state of it was saved (any number of
further epochs, with any solver, threads and interleavings), loading that state restores the factors and
feature weights of the moment it was saved, and with them the answers to every prediction request. -/
theorem C48_save_load (cfg : Config) (X : CSR ℝ) (hv : Valid cfg X) (tr later : Trainer K)
    (hr : tr.Reached cfg X) (hl : later.Reached cfg X) :
    (later.loadState tr.saveState).user = tr.user ∧ (later.loadState tr.saveState).item = tr.item ∧
      (later.loadState tr.saveState).userW = tr.userW ∧
      (later.loadState tr.saveState).itemW = tr.itemW ∧
      SameAnswers (later.loadState tr.saveState) tr :=
  ⟨rfl, rfl, rfl, rfl, sameAnswers_of (by
    rw [(reached_good hv hr).2.1]
    exact (reached_good hv hl).2.1) rfl rfl rfl rfl⟩

/-- C48 (saved states, loss).  For two states of the same trainer object (same data and same features)
the reported loss is restored as well. -/
theorem C48_save_load_loss {T' : Nat} {ω : Oracle T} {ω' : Oracle T'} (hω : ω.Complete)
    (hω' : ω'.Complete) (hT : 0 < T) (hT' : 0 < T') (cfg : Config) (X : CSR ℝ) (hv : Valid cfg X)
    (tr later : Trainer K) (hr : tr.Reached cfg X) (hl : later.Reached cfg X)
    (huf : later.userF = tr.userF) (hif : later.itemF = tr.itemF)
    (hfa : later.featureAware = tr.featureAware) :
    (later.loadState tr.saveState).computeLoss ω = tr.computeLoss ω' := by
  obtain ⟨hg, hc, hx⟩ := reached_good hv hr
  obtain ⟨hg', hc', hx'⟩ := reached_good hv hl
  have e1 : ∀ {T : Nat} (ω : Oracle T), (later.loadState tr.saveState).computeLoss ω =
      tr.computeLoss ω := by
    intro T ω
    unfold Trainer.computeLoss
    have h1 : (later.loadState tr.saveState).cfg = tr.cfg := hc'.trans hc.symm
    have h2 : (later.loadState tr.saveState).user = tr.user := rfl
    have h3 : (later.loadState tr.saveState).item = tr.item := rfl
    have h4 : (later.loadState tr.saveState).userW = tr.userW := rfl
    have h5 : (later.loadState tr.saveState).itemW = tr.itemW := rfl
    have h6 : (later.loadState tr.saveState).X = tr.X := hx'.trans hx.symm
    have h7 : (later.loadState tr.saveState).Xt = tr.Xt := by
      show later.Xt = tr.Xt
      rw [hg'.Xt, hg.Xt, hx, hx']
    have h8 : (later.loadState tr.saveState).userF = tr.userF := huf
    have h9 : (later.loadState tr.saveState).itemF = tr.itemF := hif
    have h10 : (later.loadState tr.saveState).featureAware = tr.featureAware := hfa
    have h11 : lossUser (later.loadState tr.saveState) = lossUser tr := by
      funext u; unfold lossUser; rw [h1, h2, h3, h4, h6, h10]
    have h12 : lossItem (later.loadState tr.saveState) = lossItem tr := by
      funext u; unfold lossItem; rw [h1, h2, h3, h5, h7, h10]
    rw [h11, h12, h1, h2, h3, h4, h5, h6, h7, h8, h9, h10]
  rw [e1 ω, computeLoss_eq hω hT tr hg (hx ▸ hv.proper), computeLoss_eq hω' hT' tr hg (hx ▸ hv.proper)]

/-- C48 (old saved states).  A saved state without feature weights restores the factors and leaves the
weights alone. -/
theorem C48_load_without_weights (tr later : Trainer K) :
    later.loadState ⟨tr.user, tr.item, none⟩ = { later with user := tr.user, item := tr.item } := rfl

/-! ## C49 -/

theorem nnzCol_eq (X : CSR ℝ) :
    nnzCol X = (List.range X.cols).map (fun j => ((transpose X).row j).length) := by
  unfold nnzCol
  apply List.map_congr_left
  intro j hj
  rw [Sim.transpose_row _ (List.mem_range.mp hj), List.length_flatMap]
  have hrows : X.rows = (List.range X.nrows).map X.row := by
    apply List.ext_getElem
    · simp [CSR.nrows]
    · intro n h1 h2
      simp only [List.getElem_map, List.getElem_range, CSR.row]
      rw [List.getD_eq_getElem?_getD, List.getElem?_eq_getElem h1, Option.getD_some]
  conv_lhs => rw [hrows, List.map_map]
  congr 1
  apply List.map_congr_left
  intro i _
  simp only [Function.comp]
  generalize X.row i = l
  induction l with
  | nil => rfl
  | cons e l ih =>
    by_cases he : e.1 = j
    · rw [List.filter_cons_of_pos (by simp [he]), List.filterMap_cons]
      simp [he, ih]
    · rw [List.filter_cons_of_neg (by simp [he]), List.filterMap_cons]
      simp [he, ih]

/-- The total weight of the regularisation terms of the documented loss. -/
noncomputable def totalWeight (p : Params) (D : Data) : ℝ :=
  ∑ u ∈ Finset.range D.U, userWeight p D u + ∑ i ∈ Finset.range D.I, itemWeight p D i

theorem totalWeight_eq (cfg : Config) (X : CSR ℝ) (hX : Spec.Sim.Proper X) :
    totalWeight (paramsOf cfg) (Data.ofCSR X) = cfg.reg * computeRegScale X cfg.alpha0 cfg.nu := by
  unfold totalWeight computeRegScale
  rw [mul_add]
  congr 1
  · rw [Finset.sum_congr rfl (fun u _ => weight_ofCSR cfg X hX u)]
    unfold computeReg nnzRow
    rw [← Finset.mul_sum, ← list_range_sum, List.map_map]
    have hrows : X.rows = (List.range X.nrows).map X.row := by
      apply List.ext_getElem
      · simp [CSR.nrows]
      · intro n h1 h2
        simp only [List.getElem_map, List.getElem_range, CSR.row]
        rw [List.getD_eq_getElem?_getD, List.getElem?_eq_getElem h1, Option.getD_some]
    conv_rhs => rw [hrows, List.map_map]
    congr 2
    apply List.map_congr_left
    intro u _
    simp only [Function.comp]
    rw [add_comm]
  · rw [Finset.sum_congr rfl (fun i _ => itemWeight_ofCSR cfg X hX i), nnzCol_eq]
    unfold computeReg
    rw [← Finset.mul_sum, ← list_range_sum, List.map_map]
    congr 2
    apply List.map_congr_left
    intro u _
    simp only [Function.comp]
    rw [add_comm]

theorem nnz_scaleX (s : Scaling) (eps : ℝ) (X : CSR ℝ) (alpha0 nu : ℝ) :
    computeRegScale (scaleX s eps X) alpha0 nu = computeRegScale X alpha0 nu := by
  have h1 : nnzRow (scaleX s eps X) = nnzRow X := by
    cases s <;> simp [scaleX, nnzRow, Function.comp_def]
  have h2 : nnzCol (scaleX s eps X) = nnzCol X := by
    cases s
    · rfl
    · unfold nnzCol scaleX
      simp only [List.map_map]
      apply List.map_congr_left
      intro j _
      congr 1
      apply List.map_congr_left
      intro row _
      simp only [Function.comp]
      rw [List.filter_map, List.length_map]
      rfl
  unfold computeRegScale
  rw [h1, h2, scaleX_cols, scaleX_nrows]

theorem new_ok {a : RecArgs} {r : Recommender} (h : Recommender.new a = .ok r) :
    r.args = a ∧ scaledReg a.X a.alpha0 a.reg a.nu a.nuStar = .ok r.scaledReg := by
  unfold Recommender.new at h
  obtain ⟨st, _, h⟩ := bind_ok h
  obtain ⟨reg, hreg, h⟩ := bind_ok h
  by_cases hc : (a.userF.isSome = true ∨ a.itemF.isSome = true) ∧ a.solverName = "IALSPP"
  · rw [if_pos hc] at h
    cases h
  · rw [if_neg hc] at h
    cases h
    exact ⟨rfl, hreg⟩

/-- C49.  With `nu_star` given, the total weight of the regularisation terms of the model that is
trained equals the total weight that `nu = nu_star` with the original `reg` would have had, on the same
(scaled) data. -/
theorem C49_same_total_weight (a : RecArgs) (nuStar : ℝ) (hs : a.nuStar = some nuStar)
    (hX : Spec.Sim.Proper a.X) (r : Recommender) (h : Recommender.new a = .ok r) :
    totalWeight (paramsOf r.config) (Data.ofCSR (scaleX a.scaling a.epsilon a.X)) =
      totalWeight { paramsOf r.config with reg := a.reg, nu := nuStar }
        (Data.ofCSR (scaleX a.scaling a.epsilon a.X)) := by
  obtain ⟨h1, h2⟩ := new_ok h
  have hXs := scaleX_proper a.scaling a.epsilon a.X hX
  rw [hs] at h2
  unfold scaledReg at h2
  simp only at h2
  split at h2
  · cases h2
  · rename_i hne
    have h3 := Except.ok.inj h2
    have e1 := totalWeight_eq r.config _ hXs
    have e2 := totalWeight_eq { r.config with reg := a.reg, nu := nuStar } _ hXs
    rw [show paramsOf { r.config with reg := a.reg, nu := nuStar } =
      { paramsOf r.config with reg := a.reg, nu := nuStar } from rfl] at e2
    rw [e1, e2, nnz_scaleX, nnz_scaleX]
    simp only [Recommender.config, h1, ← h3]
    rw [div_mul_cancel₀ _ hne]

/-- C49 (without `nu_star`, or with `nu_star = nu`) the regularisation is the one that was passed. -/
theorem C49_unchanged (a : RecArgs) (hs : a.nuStar = none ∨ a.nuStar = some a.nu) (r : Recommender)
    (h : Recommender.new a = .ok r) : r.config.reg = a.reg ∧ r.config.nu = a.nu := by
  obtain ⟨h1, h2⟩ := new_ok h
  refine ⟨?_, by simp [Recommender.config, h1]⟩
  rcases hs with hs | hs
  · rw [hs] at h2
    exact (Except.ok.inj h2).symm
  · rw [hs] at h2
    unfold scaledReg at h2
    simp only at h2
    split at h2
    · cases h2
    · rename_i hne
      have h3 := Except.ok.inj h2
      show r.scaledReg = a.reg
      rw [← h3, mul_div_assoc, div_self hne, mul_one]

/-- C49 (it is defined).  The rescaling fails only if no user and no item has any weight: with
`alpha0 ≥ 0` and one stored entry it succeeds. -/
theorem C49_defined (a : RecArgs) (ha : 0 ≤ a.alpha0) (u : Nat) (hu : u < a.X.nrows)
    (hne : a.X.row u ≠ []) : ∃ reg, scaledReg a.X a.alpha0 a.reg a.nu a.nuStar = .ok reg := by
  unfold scaledReg
  cases a.nuStar with
  | none => exact ⟨_, rfl⟩
  | some nuStar =>
    simp only
    rw [if_neg]
    · exact ⟨_, rfl⟩
    · apply ne_of_gt
      unfold computeRegScale
      apply add_pos_of_pos_of_nonneg
      · have hmem : ((a.X.row u).length : Nat) ∈ nnzRow a.X :=
          List.mem_map.mpr ⟨_, Sim.row_mem a.X hu, rfl⟩
        have hpos : 0 < (((a.X.row u).length : ℝ) + a.alpha0 * a.X.cols) ^ a.nu := by
          apply Real.rpow_pos_of_pos
          have : 0 < (a.X.row u).length := List.length_pos_of_ne_nil hne
          have : (0 : ℝ) < (a.X.row u).length := by exact_mod_cast this
          positivity
        refine lt_of_lt_of_le hpos (List.single_le_sum ?_ _ (List.mem_map.mpr ⟨_, hmem, rfl⟩))
        intro y hy
        obtain ⟨n, _, rfl⟩ := List.mem_map.mp hy
        exact Real.rpow_nonneg (by positivity) _
      · apply List.sum_nonneg
        intro y hy
        obtain ⟨n, _, rfl⟩ := List.mem_map.mp hy
        exact Real.rpow_nonneg (by positivity) _

/-- C49 (error branch).  With `alpha0 = 0`, `nu > 0` and no stored entries, Python raises
`ZeroDivisionError`. -/
theorem C49_no_interactions (X : CSR ℝ) (he : ∀ row ∈ X.rows, row = []) (reg nu nuStar : ℝ)
    (hnu : 0 < nu) : scaledReg X 0 reg nu (some nuStar) = .error .zeroDivisionError := by
  unfold scaledReg
  simp only
  rw [if_pos]
  unfold computeRegScale
  have h1 : ((nnzRow X).map (fun n : Nat => ((n : ℝ) + 0 * X.cols) ^ nu)).sum = 0 := by
    apply List.sum_eq_zero
    intro y hy
    obtain ⟨n, hn, rfl⟩ := List.mem_map.mp hy
    obtain ⟨row, hrow, rfl⟩ := List.mem_map.mp hn
    rw [he row hrow]
    simp [Real.zero_rpow hnu.ne']
  have h2 : ((nnzCol X).map (fun n : Nat => ((n : ℝ) + 0 * X.nrows) ^ nu)).sum = 0 := by
    apply List.sum_eq_zero
    intro y hy
    obtain ⟨n, hn, rfl⟩ := List.mem_map.mp hy
    obtain ⟨j, _, rfl⟩ := List.mem_map.mp hn
    have : (X.rows.map (fun row => (row.filter (fun e => e.1 == j)).length)).sum = 0 := by
      apply List.sum_eq_zero
      intro z hz
      obtain ⟨row, hrow, rfl⟩ := List.mem_map.mp hz
      rw [he row hrow]
      rfl
    rw [this]
    simp [Real.zero_rpow hnu.ne']
  rw [h1, h2, add_zero]

/-! ## Non-vacuity -/

/-- C48: two states of one trainer, before and after an epoch. -/
example : ∃ (ω : Oracle 2) (later : Trainer 3), ω.Complete ∧
    (featureTrainer (1 / 2) 1).Reached (featureCfg (1 / 2) 1) exampleX ∧
    (featureTrainer (1 / 2) 1).step ω ⟨.cg, 3, 2, 1⟩ = .ok later ∧
    later.Reached (featureCfg (1 / 2) 1) exampleX := by
  obtain ⟨ω, hω⟩ := exists_complete_oracle 2 (by norm_num)
  have hv : Valid (featureCfg (1 / 2) 1) exampleX :=
    ⟨exampleValid.proper, exampleValid.nonneg, exampleValid.reg, by norm_num [featureCfg]⟩
  obtain ⟨later, hl⟩ := C47_epoch_succeeds hω (by norm_num) _ _ hv
    (by
      refine ⟨by norm_num [featureCfg, exampleCfg], fun row _ => Or.inr ?_⟩
      have : (0 : ℝ) ≤ row.length := Nat.cast_nonneg _
      norm_num [featureCfg, exampleX]
      linarith)
    (by
      refine ⟨by norm_num [featureCfg, exampleCfg], fun row _ => Or.inr ?_⟩
      have h : (transpose exampleX).cols = 2 := rfl
      have : (0 : ℝ) ≤ row.length := Nat.cast_nonneg _
      rw [h]
      norm_num [featureCfg]
      linarith) ⟨.cg, 3, 2, 1⟩ (by simp) _ (featureTrainer_reached _ _) rfl
  exact ⟨ω, later, hω, featureTrainer_reached _ _, hl,
    Trainer.Reached.step ω _ _ _ hω (featureTrainer_reached _ _) hl⟩

/-- C49: the example data with `nu = 1`, `nu_star = 0`. -/
example : ∃ reg, scaledReg exampleX (1 / 2) 1 1 (some 0) = .ok reg :=
  C49_defined { exampleArgs "cg" with nuStar := some 0 } (by norm_num [exampleArgs]) 0 (by decide)
    (by simp [exampleArgs, exampleX, CSR.row])

end Irspack.Ials
