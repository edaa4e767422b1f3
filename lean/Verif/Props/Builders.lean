import Verif.Proofs.IalsScale
import Verif.Proofs.Builders

/-!
# C78: hyperparameters reach the trainer
-/

namespace Irspack.Props

open Irspack Irspack.Ials Irspack.Ials.Builders Irspack.Spec.Builders Irspack.Proofs.Builders

/-- C78 (model configurations).  A configuration built by any chain of setter calls with values of the right
kinds, whether setters hand back the builder itself or a copy, and whatever other builders exist, has in each
setting the value of the last call naming it (rounded to single precision for real settings), and the
documented default if no call names it. -/
theorem C78_model_config (cast : ℝ → ℝ) (p : Returned) (objs : List Builder) (calls : List (Field × PyVal))
    (h : ∀ c ∈ calls, Fits (kind c.1) c.2) :
    ∃ c : Config, modelChain cast p objs calls = .ok c ∧
      ∀ f, setting c f = kept cast (kind f) ((lastValue f calls).getD (default f)) := by
  obtain ⟨objs', ref', b, h1, h2, h3, -⟩ := chain_ok (laws cast) p calls (objs ++ [Builder.new cast])
    objs.length (Builder.new cast) (by simp) h
  refine ⟨b.build, ?_, ?_⟩
  · simp [modelChain, h1, buildAt, h2]
  · intro f
    have := h3 f
    rw [setting_new] at this
    rw [this]
    cases lastValue f calls <;> rfl

/-- C78 (solver configurations).  The same for the solver settings. -/
theorem C78_solver_config (p : Returned) (objs : List SBuilder) (calls : List (SField × PyVal))
    (h : ∀ c ∈ calls, Fits (skind c.1) c.2) :
    ∃ c : Nat × SolverConfig, solverChain p objs calls = .ok c ∧
      ∀ f, ssetting c f = (lastValue f calls).getD (sdefault f) := by
  obtain ⟨objs', ref', b, h1, h2, h3, -⟩ := chain_ok (slaws id) p calls (objs ++ [SBuilder.new])
    objs.length SBuilder.new (by simp) h
  refine ⟨b.build, ?_, ?_⟩
  · simp [solverChain, h1, buildAt, h2]
  · intro f
    have := h3 f
    rw [ssetting_new] at this
    rw [this]
    cases lastValue f calls with
    | none => rfl
    | some v => cases f <;> cases v <;> rfl

/-- C78 (refused values).  A chain with a value of the wrong kind anywhere (a negative or fractional count,
an integer out of range, a loss type where a solver type is expected) raises a type error. -/
theorem C78_refused (cast : ℝ → ℝ) (p : Returned) (objs : List Builder) (calls : List (Field × PyVal))
    (sobjs : List SBuilder) (scalls : List (SField × PyVal)) :
    ((∃ c ∈ calls, ¬ Fits (kind c.1) c.2) → modelChain cast p objs calls = .error .typeError) ∧
    ((∃ c ∈ scalls, ¬ Fits (skind c.1) c.2) → solverChain p sobjs scalls = .error .typeError) := by
  constructor
  · intro h
    simp [modelChain, chain_err (laws cast) p calls (objs ++ [Builder.new cast]) objs.length
      (Builder.new cast) (by simp) h]
  · intro h
    simp [solverChain, chain_err (slaws id) p scalls (sobjs ++ [SBuilder.new]) sobjs.length
      SBuilder.new (by simp) h]

/-- the last value given to a setting does not depend on the order of calls for different settings -/
theorem lastValue_perm {F : Type} [DecidableEq F] {calls calls' : List (F × PyVal)}
    (hp : calls.Perm calls') (hn : (calls.map (·.1)).Nodup) (f : F) :
    lastValue f calls = lastValue f calls' := by
  unfold lastValue
  have hp' := hp.filter (fun c => decide (c.1 = f))
  have hlen : (calls.filter (fun c => decide (c.1 = f))).length ≤ 1 := by
    have : (calls.filter (fun c => decide (c.1 = f))).length = (calls.map (·.1)).count f := by
      rw [List.count, List.countP_map, List.countP_eq_length_filter]
      rfl
    rw [this]
    exact List.nodup_iff_count_le_one.mp hn f
  cases hl : calls.filter (fun c => decide (c.1 = f)) with
  | nil =>
    rw [hl] at hp'
    rw [List.nil_perm.mp hp']
  | cons a as =>
    rw [hl] at hp' hlen
    have : as = [] := by
      cases as with
      | nil => rfl
      | cons _ _ => simp at hlen
    subst this
    rw [List.singleton_perm.mp hp']

/-- C78 (order of the calls).  Calls for different settings can be made in any order. -/
theorem C78_order (cast : ℝ → ℝ) (p p' : Returned) (objs objs' : List Builder)
    (calls calls' : List (Field × PyVal)) (hp : calls.Perm calls') (hn : (calls.map (·.1)).Nodup) :
    modelChain cast p objs calls = modelChain cast p' objs' calls' := by
  by_cases h : ∀ c ∈ calls, Fits (kind c.1) c.2
  · obtain ⟨c, h1, h2⟩ := C78_model_config cast p objs calls h
    obtain ⟨d, g1, g2⟩ := C78_model_config cast p' objs' calls' (fun c hc => h c (hp.mem_iff.mpr hc))
    rw [h1, g1, setting_inj (c := c) (d := d)]
    intro f
    rw [h2, g2, lastValue_perm hp hn]
  · push Not at h
    rw [(C78_refused cast p objs calls [] []).1 h]
    obtain ⟨c, hc, hf⟩ := h
    rw [(C78_refused cast p' objs' calls' [] []).1 ⟨c, hp.mem_iff.mp hc, hf⟩]

/-- C78 (other builders).  A chain of calls changes no other builder. -/
theorem C78_other_builders (cast : ℝ → ℝ) (p : Returned) (objs objs' : List Builder) (ref ref' i : Nat)
    (calls : List (Field × PyVal)) (hr : ref < objs.length) (hi : i < objs.length) (hne : i ≠ ref)
    (h : chain (Builder.set cast) p objs ref calls = .ok (objs', ref')) : objs'[i]? = objs[i]? := by
  have hb : objs[ref]? = some objs[ref] := List.getElem?_eq_getElem hr
  by_cases hf : ∀ c ∈ calls, Fits (kind c.1) c.2
  · obtain ⟨o, r, b, h1, -, -, -, -, h6⟩ := chain_ok (laws cast) p calls objs ref _ hb hf
    rw [h1] at h
    cases h
    exact h6 i hi hne
  · push Not at hf
    rw [chain_err (laws cast) p calls objs ref _ hb hf] at h
    cases h

/-- the hyperparameters that are counts fit a machine word, and the seed a C++ `int` -/
structure InRange (a : RecArgs) (nThreads : Nat) : Prop where
  nComponents : a.nComponents < 2 ^ 64
  maxCgSteps : a.maxCgSteps < 2 ^ 64
  subspaceDimension : a.subspaceDimension < 2 ^ 64
  predictionMaxCgSteps : a.predictionMaxCgSteps < 2 ^ 64
  predictionIteration : a.predictionIteration < 2 ^ 64
  warmup : a.warmup < 2 ^ 64
  nThreads : nThreads < 2 ^ 64
  seed : -(2 ^ 31) ≤ a.randomSeed ∧ a.randomSeed < 2 ^ 31

theorem fits_size {n : Nat} (h : n < 2 ^ 64) : Fits .size (.int n) :=
  ⟨n, rfl, by omega, by exact_mod_cast h⟩

theorem fits_model {r : Recommender} {nThreads : Nat} (hr : InRange r.args nThreads) :
    ∀ c ∈ modelCalls (argsOf r nThreads), Fits (kind c.1) c.2 := by
  intro c hc
  simp only [modelCalls, List.mem_cons, List.not_mem_nil, or_false] at hc
  rcases hc with rfl | rfl | rfl | rfl | rfl | rfl | rfl | rfl | rfl | rfl
  · exact fits_size hr.nComponents
  · exact .inr ⟨_, rfl⟩
  · exact .inr ⟨_, rfl⟩
  · exact .inr ⟨_, rfl⟩
  · exact .inr ⟨_, rfl⟩
  · exact ⟨_, rfl⟩
  · exact ⟨_, rfl, hr.seed⟩
  · exact .inr ⟨_, rfl⟩
  · exact .inr ⟨_, rfl⟩
  · exact fits_size hr.warmup

theorem fits_one : Fits .size (.int 1) := fits_size (n := 1) (by norm_num)

theorem fits_train {r : Recommender} {nThreads : Nat} (hr : InRange r.args nThreads) :
    ∀ c ∈ trainCalls (argsOf r nThreads), Fits (skind c.1) c.2 := by
  intro c hc
  simp only [trainCalls, List.mem_cons, List.not_mem_nil, or_false] at hc
  rcases hc with rfl | rfl | rfl | rfl | rfl
  · exact fits_size hr.nThreads
  · exact ⟨_, rfl⟩
  · exact fits_size hr.maxCgSteps
  · exact fits_one
  · exact fits_size hr.subspaceDimension

theorem fits_prediction {r : Recommender} {nThreads : Nat} (hr : InRange r.args nThreads) :
    ∀ c ∈ predictionCalls (argsOf r nThreads), Fits (skind c.1) c.2 := by
  intro c hc
  simp only [predictionCalls, List.mem_cons, List.not_mem_nil, or_false] at hc
  rcases hc with rfl | rfl | rfl | rfl | rfl
  · exact fits_size hr.nThreads
  · exact ⟨_, rfl⟩
  · exact fits_size hr.predictionMaxCgSteps
  · exact fits_size hr.subspaceDimension
  · exact fits_size hr.predictionIteration

theorem new_args {a : RecArgs} {r : Recommender} (h : Recommender.new a = .ok r) :
    r.args = a ∧ strToSolverType a.solverName = .ok r.solverType := by
  unfold Recommender.new at h
  cases h1 : strToSolverType a.solverName with
  | error e => rw [h1] at h; cases h
  | ok st =>
    rw [h1] at h
    cases h2 : Ials.scaledReg a.X a.alpha0 a.reg a.nu a.nuStar with
    | error e => rw [h2] at h; cases h
    | ok reg =>
      rw [h2] at h
      by_cases h3 : (a.userF.isSome = true ∨ a.itemF.isSome = true) ∧ a.solverName = "IALSPP"
      · simp only [bind, Except.bind, h3, and_self, if_true] at h; cases h
      · simp only [bind, Except.bind, h3, if_false] at h
        cases h
        exact ⟨rfl, rfl⟩

theorem configs_core (cast : ℝ → ℝ) (p : Returned) (r : Recommender) (nThreads : Nat)
    (hr : InRange r.args nThreads) :
    trainerConfigs cast p (argsOf r nThreads) = .ok
      { model :=
          { K := r.args.nComponents, alpha0 := cast r.args.alpha0, reg := cast r.scaledReg
            nu := cast r.args.nu, initStdev := cast r.args.initStd, randomSeed := r.args.randomSeed
            lossType := r.args.lossType, lambdaUser := cast r.args.lambdaUser
            lambdaItem := cast r.args.lambdaItem, warmup := r.args.warmup }
        train := (nThreads,
          { solverType := r.solverType, maxCgSteps := r.args.maxCgSteps
            subspaceDimension := r.args.subspaceDimension, iteration := 1 })
        prediction := (nThreads,
          { solverType := r.solverType, maxCgSteps := r.args.predictionMaxCgSteps
            subspaceDimension := r.args.subspaceDimension
            iteration := r.args.predictionIteration }) } := by
  obtain ⟨c, h1, h2⟩ := C78_model_config cast p [] (modelCalls (argsOf r nThreads))
    (fits_model hr)
  obtain ⟨s, g1, g2⟩ := C78_solver_config p [] (trainCalls (argsOf r nThreads))
    (fits_train hr)
  obtain ⟨q, k1, k2⟩ := C78_solver_config p [] (predictionCalls (argsOf r nThreads))
    (fits_prediction hr)
  unfold trainerConfigs
  rw [h1, g1, k1]
  have e1 : c = _ := setting_inj (d :=
    { K := r.args.nComponents, alpha0 := cast r.args.alpha0, reg := cast r.scaledReg, nu := cast r.args.nu
      initStdev := cast r.args.initStd, randomSeed := r.args.randomSeed, lossType := r.args.lossType
      lambdaUser := cast r.args.lambdaUser, lambdaItem := cast r.args.lambdaItem
      warmup := r.args.warmup }) (fun f => by
        rw [h2 f]; cases f <;> simp [lastValue, modelCalls, argsOf, setting, kept, kind])
  have e2 : s = _ := ssetting_inj (d := (nThreads,
    { solverType := r.solverType, maxCgSteps := r.args.maxCgSteps
      subspaceDimension := r.args.subspaceDimension, iteration := 1 }))
      (fun f => by
        rw [g2 f]; cases f <;> simp [lastValue, trainCalls, argsOf, ssetting])
  have e3 : q = _ := ssetting_inj (d := (nThreads,
    { solverType := r.solverType, maxCgSteps := r.args.predictionMaxCgSteps
      subspaceDimension := r.args.subspaceDimension, iteration := r.args.predictionIteration }))
      (fun f => by
        rw [k2 f]; cases f <;> simp [lastValue, predictionCalls, argsOf, ssetting])
  rw [e1, e2, e3]
  rfl

/-- C78 (recommender).  The trainer of an iALS recommender works with the hyperparameters the recommender was
given, none of them replaced by a native default or by another one, and each real one rounded once; the
training solver runs one iALS++ pass per epoch, and the prediction solver the configured number of steps and
passes. -/
theorem C78_recommender (cast : ℝ → ℝ) (p : Returned) (a : RecArgs) (nThreads : Nat) (r : Recommender)
    (h : Recommender.new a = .ok r) (hr : InRange a nThreads) :
    trainerConfigs cast p (argsOf r nThreads) = .ok
      { model :=
          { K := a.nComponents, alpha0 := cast a.alpha0, reg := cast r.scaledReg, nu := cast a.nu
            initStdev := cast a.initStd, randomSeed := a.randomSeed, lossType := a.lossType
            lambdaUser := cast a.lambdaUser, lambdaItem := cast a.lambdaItem, warmup := a.warmup }
        train := (nThreads,
          { solverType := r.solverType, maxCgSteps := a.maxCgSteps
            subspaceDimension := a.subspaceDimension, iteration := 1 })
        prediction := (nThreads,
          { solverType := r.solverType, maxCgSteps := a.predictionMaxCgSteps
            subspaceDimension := a.subspaceDimension, iteration := a.predictionIteration }) } ∧
      strToSolverType a.solverName = .ok r.solverType := by
  have ha := new_args h
  obtain ⟨rfl, hs⟩ := ha
  refine ⟨?_, hs⟩
  exact configs_core cast p r nThreads hr

/-- C78 (exact arithmetic).  Without rounding these are the configurations with which the other theorems on
iALS work. -/
theorem C78_configs_of_the_model (p : Returned) (a : RecArgs) (nThreads : Nat) (r : Recommender)
    (h : Recommender.new a = .ok r) (hr : InRange r.args nThreads) :
    trainerConfigs id p (argsOf r nThreads) =
      .ok ⟨r.config, (nThreads, r.trainSolver), (nThreads, r.predictionSolver)⟩ := by
  have ha := (new_args h).1
  subst ha
  rw [(C78_recommender id p r.args nThreads r h hr).1]
  rfl

/-- C78 (names).  Solver and loss types are found by name in any capitalisation, and no other name is
accepted. -/
theorem C78_names (t : String) :
    (∀ s, strToSolverType t = .ok s ↔
      t.toUpper = (match s with | .cg => "CG" | .cholesky => "CHOLESKY" | .ialspp => "IALSPP")) ∧
    (∀ l, strToLossType t = .ok l ↔
      t.toUpper = (match l with | .original => "ORIGINAL" | .ialspp => "IALSPP")) := by
  constructor
  · intro s
    unfold strToSolverType
    by_cases h1 : t.toUpper = "CG"
    · cases s <;> simp [h1]
    · by_cases h2 : t.toUpper = "CHOLESKY"
      · cases s <;> simp [h2]
      · by_cases h3 : t.toUpper = "IALSPP" <;> cases s <;> simp [h1, h2, h3]
  · intro l
    unfold strToLossType
    by_cases h1 : t.toUpper = "ORIGINAL"
    · cases l <;> simp [h1]
    · by_cases h2 : t.toUpper = "IALSPP" <;> cases l <;> simp [h1, h2]

/-- C78 (features and iALS++).  A recommender with features never runs an epoch with the iALS++ solver,
however the solver's name is capitalised: the constructor refuses the name in capitals, and otherwise the
first epoch raises an error. -/
theorem C78_features_need_another_solver {T : Nat} (a : RecArgs) (hf : a.userF.isSome ∨ a.itemF.isSome)
    (hs : a.solverName.toUpper = "IALSPP") :
    (a.solverName = "IALSPP" → ∀ r, Recommender.new a ≠ .ok r) ∧
    ∀ r, Recommender.new a = .ok r → ∀ (K : Nat) (u₀ v₀ : Nat → Vec K) (tr : Trainer K),
      r.createTrainer u₀ v₀ = .ok tr → ∀ ω : Oracle T, tr.step ω r.trainSolver = .error .invalidArgument := by
  have hst : strToSolverType a.solverName = .ok .ialspp := ((C78_names a.solverName).1 .ialspp).mpr hs
  have key : ∀ r, Recommender.new a = .ok r → r.args = a ∧ r.solverType = .ialspp ∧
      a.solverName ≠ "IALSPP" := by
    intro r h
    unfold Recommender.new at h
    rw [hst] at h
    cases h2 : Ials.scaledReg a.X a.alpha0 a.reg a.nu a.nuStar with
    | error e => rw [h2] at h; cases h
    | ok reg =>
      rw [h2] at h
      by_cases h3 : (a.userF.isSome = true ∨ a.itemF.isSome = true) ∧ a.solverName = "IALSPP"
      · simp only [bind, Except.bind, h3, and_self, if_true] at h; cases h
      · simp only [bind, Except.bind, h3, if_false] at h
        cases h
        exact ⟨rfl, rfl, fun hh => h3 ⟨hf, hh⟩⟩
  refine ⟨fun hn r h => (key r h).2.2 hn, ?_⟩
  intro r h K u₀ v₀ tr ht ω
  obtain ⟨rfl, h2, -⟩ := key r h
  have hfa : tr.featureAware = true := by
    have ht := createTrainer_ok ht
    unfold Recommender.trainerOn at ht
    cases hu : r.args.userF with
    | none =>
      cases hi : r.args.itemF with
      | none => simp [hu, hi] at hf
      | some i =>
        simp only [hu, hi, Trainer.createWithFeatures] at ht
        split at ht
        · cases ht
        · split at ht
          · cases ht
          · cases ht; rfl
    | some u =>
      simp only [hu, Trainer.createWithFeatures] at ht
      split at ht
      · cases ht
      · split at ht
        · cases ht
        · cases ht; rfl
  unfold Trainer.step
  rw [if_pos ⟨hfa, by simp [Recommender.trainSolver, h2]⟩]

/-! ## Concrete cases -/

/-- a chain that sets `K` twice: the last value counts, `nu` is the native default -/
example : ∃ c : Config, modelChain id .copy [] [(.K, .int 8), (.reg, .int 2), (.K, .int 32)] = .ok c ∧
    c.K = 32 ∧ c.reg = 2 ∧ c.nu = 1 := by
  refine ⟨_, rfl, rfl, ?_, rfl⟩
  norm_num [Builder.build, mkConfig]

/-- a negative number of components is refused -/
example : modelChain id .same [] [(.K, .int (-1))] = .error .typeError :=
  (C78_refused id .same [] [(.K, .int (-1))] [] []).1 ⟨_, List.mem_singleton_self _, by
    rintro ⟨n, h, h0, -⟩
    cases h
    omega⟩

theorem new_eq {a : RecArgs} {st : SolverType} {reg : ℝ} (h1 : strToSolverType a.solverName = .ok st)
    (h2 : Ials.scaledReg a.X a.alpha0 a.reg a.nu a.nuStar = .ok reg)
    (h3 : ¬ ((a.userF.isSome = true ∨ a.itemF.isSome = true) ∧ a.solverName = "IALSPP")) :
    Recommender.new a = .ok ⟨a, st, reg⟩ := by
  unfold Recommender.new
  rw [h1, h2]
  simp only [bind, Except.bind, h3, if_false]
  rfl

/-- an iALS recommender with the constructor's defaults and a lower-case solver name -/
noncomputable def exIalsArgs : RecArgs :=
  { X := ⟨2, [[(0, 1)], [(1, 1)]]⟩, nComponents := 20, alpha0 := 0, reg := 1 / 1000, nu := 1
    scaling := .none, epsilon := 1, initStd := 1 / 10, solverName := "ialspp", maxCgSteps := 3
    subspaceDimension := 64, lossType := .ialspp, nuStar := none, randomSeed := 42
    predictionMaxCgSteps := 5, predictionIteration := 7
    userF := some ⟨2, 1, fun _ _ => 1⟩, itemF := none, lambdaUser := 1, lambdaItem := 0, warmup := 0 }

/-- it meets the hypotheses of the theorems -/
example : ∃ r, Recommender.new exIalsArgs = .ok r ∧ InRange exIalsArgs 4 ∧
    (exIalsArgs.userF.isSome ∨ exIalsArgs.itemF.isSome) ∧ exIalsArgs.solverName.toUpper = "IALSPP" ∧
    ∃ tr : Trainer 20, r.createTrainer (fun _ _ => 0) (fun _ _ => 0) = .ok tr := by
  have hn : "ialspp".toUpper = "IALSPP" := by decide +kernel
  have hs : strToSolverType "ialspp" = .ok .ialspp := ((C78_names "ialspp").1 .ialspp).mpr hn
  refine ⟨⟨exIalsArgs, .ialspp, 1 / 1000⟩, ?_, ?_, .inl rfl, hn, ?_⟩
  · exact new_eq hs rfl (fun h => absurd h.2 (by decide +kernel))
  · constructor <;> norm_num [exIalsArgs]
  · rw [createTrainer_eq (by intro h; cases h)]
    simp [Recommender.trainerOn, exIalsArgs, Trainer.createWithFeatures, scaleX, CSR.nrows,
      Recommender.config]
    rw [if_neg (by norm_num)]
    exact ⟨_, rfl⟩

end Irspack.Props
