import Verif.Props.Builders
import Verif.Props.IalsState
import Verif.Props.IalsStep
import Verif.Props.LibRecommender
import Verif.Spec.IalsArgs

/-!
# C84: the arguments of `IALSRecommender` mean what they are called
-/

namespace Irspack.RecClasses

open Ials Ials.Builders Spec.Ials Props

theorem upper_list (s t : String) : s.toUpper = t → s.toList.map Char.toUpper = t.toList := by
  rintro rfl
  simp [String.toUpper, String.toList_map]

theorem toReal_num (q : ℚ) : toReal (.num q) = .ok (q : ℝ) := rfl

theorem toOptReal_eq (q : Option ℚ) : toOptReal (optionalNum q) = .ok (q.map (fun q : ℚ => (q : ℝ))) := by
  cases q <;> rfl

/-- the arguments of the recommender, with their types -/
noncomputable def IalsSettings.recArgs (s : IalsSettings) (name : String) (X : CSR ℝ)
    (userF itemF : Option Features) : RecArgs where
  X := X
  nComponents := s.nComponents
  alpha0 := s.alpha0
  reg := s.reg
  nu := s.nu
  scaling := if s.logScaling then .log else .none
  epsilon := s.epsilon
  initStd := s.initStd
  solverName := name
  maxCgSteps := s.maxCgSteps
  subspaceDimension := s.subspaceDimension
  lossType := if s.original then .original else .ialspp
  nuStar := s.nuStar.map (fun q : ℚ => (q : ℝ))
  randomSeed := s.seed
  predictionMaxCgSteps := s.predictionMaxCgSteps
  predictionIteration := s.predictionIteration
  userF := userF
  itemF := itemF
  lambdaUser := s.lambdaUser
  lambdaItem := s.lambdaItem
  warmup := s.warmup

theorem Says.construct {e : Env} {given : Args} {name : String} {s : IalsSettings} (h : Says e given name s) :
    construct ials given = .ok (ials.params.map (fun d => (d.1, valueOf given d.1 d.2))) := by
  obtain ⟨l, hl, hl'⟩ := h.loss
  refine construct_of_checks (fun a ha => ?_) ?_
  · have := h.only a ha
    simp only [ials, List.map_cons, List.map_nil, List.mem_cons, List.not_mem_nil, or_false] at this ⊢
    tauto
  · have c1 : Check.error (ials.params.map (fun d => (d.1, valueOf given d.1 d.2)))
        (.oneOf "confidence_scaling" ["none", "log"] .keyError) = none := by
      show (match some (valueOf given "confidence_scaling" (.str "none")) with
        | some (.str s) => if s ∈ ["none", "log"] then none else some Err.keyError
        | _ => some Err.keyError) = none
      rw [h.scaling.eq]
      cases s.logScaling <;> rfl
    have c2 : Check.error (ials.params.map (fun d => (d.1, valueOf given d.1 d.2)))
        (.upperOneOf "solver_type" ["CHOLESKY", "CG", "IALSPP"] .attributeError) = none := by
      show (match some (valueOf given "solver_type" (.str "CG")) with
        | some (.str s) => if s.toList.map Char.toUpper ∈ ["CHOLESKY", "CG", "IALSPP"].map String.toList then none
          else some Err.attributeError
        | _ => some Err.attributeError) = none
      rw [h.solver.1.eq]
      show (if name.toList.map Char.toUpper ∈ ["CHOLESKY", "CG", "IALSPP"].map String.toList then none
          else some Err.attributeError) = none
      rw [upper_list _ _ h.solver.2]
      cases s.solver <;> rfl
    have c3 : Check.error (ials.params.map (fun d => (d.1, valueOf given d.1 d.2)))
        (.upperOneOf "loss_type" ["ORIGINAL", "IALSPP"] .attributeError) = none := by
      show (match some (valueOf given "loss_type" (.str "IALSPP")) with
        | some (.str s) => if s.toList.map Char.toUpper ∈ ["ORIGINAL", "IALSPP"].map String.toList then none
          else some Err.attributeError
        | _ => some Err.attributeError) = none
      rw [hl.eq]
      show (if l.toList.map Char.toUpper ∈ ["ORIGINAL", "IALSPP"].map String.toList then none
          else some Err.attributeError) = none
      rw [upper_list _ _ hl']
      cases s.original <;> rfl
    show [_, _, _].findSome? _ = none
    simp only [List.findSome?_cons, List.findSome?_nil, c1, c2, c3]

/-- the attributes of the recommender -/
def IalsSettings.self (s : IalsSettings) (name l : String) : Args :=
  [("train_epochs", .num s.epochs), ("n_components", .num s.nComponents),
   ("alpha0", .num s.alpha0), ("reg", .num s.reg), ("nu", .num s.nu),
   ("confidence_scaling", .str (if s.logScaling then "log" else "none")), ("epsilon", .num s.epsilon),
   ("init_std", .num s.initStd), ("solver_type", .str name), ("max_cg_steps", .num s.maxCgSteps),
   ("ialspp_subspace_dimension", .num s.subspaceDimension), ("random_seed", .num s.seed),
   ("n_threads", .num s.threads), ("loss_type", .str l), ("nu_star", optionalNum s.nuStar),
   ("prediction_time_max_cg_steps", .num s.predictionMaxCgSteps),
   ("prediction_time_ialspp_iteration", .num s.predictionIteration),
   ("lambda_user_feature", .num s.lambdaUser), ("lambda_item_feature", .num s.lambdaItem),
   ("feature_warmup_epochs", .num s.warmup)]

theorem ialsArgs_eq (s : IalsSettings) (name l : String)
    (hl : l.toUpper = if s.original then "ORIGINAL" else "IALSPP") (X : CSR ℝ) (userF itemF : Option Features) :
    ialsArgs X userF itemF (s.self name l) = .ok (s.recArgs name X userF itemF) := by
  have h1 : strToLossType l = .ok (if s.original then .original else .ialspp) := by
    rw [(C78_names l).2, hl]
    cases s.original <;> rfl
  have h2 : toScaling (.str (if s.logScaling then "log" else "none")) =
      .ok (if s.logScaling then .log else .none) := by
    cases s.logScaling <;> rfl
  show (toSize (.num s.nComponents) >>= fun a1 => toReal (.num s.alpha0) >>= fun a2 => toReal (.num s.reg) >>= fun a3 =>
    toReal (.num s.nu) >>= fun a4 => toScaling (.str (if s.logScaling then "log" else "none")) >>= fun a5 =>
    toReal (.num s.epsilon) >>= fun a6 => toReal (.num s.initStd) >>= fun a7 => toStr (.str name) >>= fun a8 =>
    toSize (.num s.maxCgSteps) >>= fun a9 => toSize (.num s.subspaceDimension) >>= fun a10 =>
    strToLossType l >>= fun a11 => toOptReal (optionalNum s.nuStar) >>= fun a12 => toInt (.num s.seed) >>= fun a13 =>
    toSize (.num s.predictionMaxCgSteps) >>= fun a14 => toSize (.num s.predictionIteration) >>= fun a15 =>
    toReal (.num s.lambdaUser) >>= fun a16 => toReal (.num s.lambdaItem) >>= fun a17 =>
    toSize (.num s.warmup) >>= fun a18 =>
    (Except.ok ⟨X, a1, a2, a3, a4, a5, a6, a7, a8, a9, a10, a11, a12, a13, a14, a15, userF, itemF, a16, a17, a18⟩ :
      Except Err RecArgs)) = _
  rw [h1, h2, toOptReal_eq, toInt_int]
  simp only [toSize_nat, toReal_num]
  rfl

theorem ialsMake_eq {e : Env} {given : Args} {name : String} {s : IalsSettings} (h : Says e given name s)
    (X : CSR ℝ) (userF itemF : Option Features) :
    ialsMake e X userF itemF given =
      (Recommender.new (s.recArgs name X userF itemF)).map (fun r => ⟨r, s.threads, s.epochs⟩) := by
  obtain ⟨l, hl, hl'⟩ := h.loss
  unfold ialsMake
  rw [h.construct]
  have h1 : ialsInit e (ials.params.map (fun d => (d.1, valueOf given d.1 d.2))) = .ok (s.self name l) := by
    unfold IalsSettings.self
    rw [← h.epochs.eq, ← h.nComponents.eq, ← h.alpha0.eq, ← h.reg.eq, ← h.nu.eq, ← h.scaling.eq, ← h.epsilon.eq,
      ← h.initStd.eq, ← h.solver.1.eq, ← h.maxCgSteps.eq, ← h.subspaceDimension.eq, ← h.seed.eq, ← hl.eq,
      ← h.nuStar.eq, ← h.predictionMaxCgSteps.eq, ← h.predictionIteration.eq, ← h.lambdaUser.eq, ← h.lambdaItem.eq,
      ← h.warmup.eq]
    show (e.nThreads (valueOf given "n_threads" .none) >>= fun t => Except.ok _) = _
    rw [h.threads.eq]
    rfl
  show (ialsInit e (ials.params.map (fun d => (d.1, valueOf given d.1 d.2))) >>= fun self =>
      ialsArgs X userF itemF self >>= fun a => Recommender.new a >>= fun r =>
      attr self "n_threads" >>= fun t => toSize t >>= fun t => attr self "train_epochs" >>= fun n =>
      toSize n >>= fun n => (Except.ok ⟨r, t, n⟩ : Except Err IalsMade)) = _
  rw [h1]
  show (ialsArgs X userF itemF (s.self name l) >>= fun a => Recommender.new a >>= fun r =>
      toSize (.num s.threads) >>= fun t =>
      toSize (.num s.epochs) >>= fun n => (Except.ok ⟨r, t, n⟩ : Except Err IalsMade)) = _
  rw [ialsArgs_eq s name l hl', toSize_nat, toSize_nat]
  show (Recommender.new (s.recArgs name X userF itemF) >>= fun r => (Except.ok ⟨r, _, _⟩ : Except Err IalsMade)) = _
  cases Recommender.new (s.recArgs name X userF itemF) <;> rfl

theorem bind_of_ok {α β : Type} {x : Except Err α} {a : α} (f : α → Except Err β) (h : x = .ok a) :
    (x >>= f) = f a := by
  rw [h]
  rfl

theorem scaleX_settings (s : IalsSettings) (X : CSR ℝ) :
    scaleX (if s.logScaling then .log else .none) (s.epsilon : ℝ) X = s.confidences X := by
  unfold IalsSettings.confidences IalsSettings.confidence
  cases s.logScaling with
  | true => rfl
  | false => simp [scaleX]

theorem scaled_settings {s : IalsSettings} {X : CSR ℝ} (hl : s.Scalable X) :
    scaled (if s.logScaling then .log else .none) (s.epsilon : ℝ) X = .ok (s.confidences X) := by
  rw [scaled_of, scaleX_settings]
  intro h
  refine hl ?_
  cases hs : s.logScaling with
  | true => rfl
  | false => rw [hs] at h; cases h

theorem computeRegScale_nonneg (X : CSR ℝ) {alpha0 nu : ℝ} (h : 0 ≤ alpha0) : 0 ≤ computeRegScale X alpha0 nu := by
  unfold computeRegScale
  apply add_nonneg <;> apply List.sum_nonneg <;>
  · intro x hx
    obtain ⟨n, -, rfl⟩ := List.mem_map.mp hx
    positivity

/-- the recommender that is made, and its regularisation -/
theorem new_settings {s : IalsSettings} {name : String} (hs : name.toUpper = solverName s.solver) {X : CSR ℝ}
    (hX : Spec.Sim.Proper X) (userF itemF : Option Features)
    (hd : s.nuStar = none ∨ (0 ≤ s.alpha0 ∧ ∃ u < X.nrows, X.row u ≠ []))
    (hf : ¬ ((userF.isSome = true ∨ itemF.isSome = true) ∧ name = "IALSPP")) :
    ∃ reg : ℝ, s.RegIs (s.confidences X) reg ∧ (0 ≤ s.reg → 0 ≤ s.alpha0 → 0 ≤ reg) ∧
      Recommender.new (s.recArgs name X userF itemF) = .ok ⟨s.recArgs name X userF itemF, s.solver, reg⟩ := by
  have h1 : strToSolverType name = .ok s.solver := by
    rw [(C78_names name).1, hs]
    cases s.solver <;> rfl
  have h2 : ∃ reg, scaledReg X s.alpha0 s.reg s.nu (s.nuStar.map (fun q : ℚ => (q : ℝ))) = .ok reg := by
    rcases hd with hd | ⟨h0, u, hu, hne⟩
    · rw [hd]; exact ⟨_, rfl⟩
    · exact C49_defined (s.recArgs name X userF itemF) (by
        show (0 : ℝ) ≤ s.alpha0
        exact_mod_cast h0) u hu hne
  obtain ⟨reg, h2⟩ := h2
  have h3 : Recommender.new (s.recArgs name X userF itemF) = .ok ⟨s.recArgs name X userF itemF, s.solver, reg⟩ :=
    new_eq (a := s.recArgs name X userF itemF) h1 h2 hf
  have hp : ∀ r : Recommender, r.args = s.recArgs name X userF itemF →
      paramsOf r.config = s.params r.scaledReg := by
    intro r hr
    unfold paramsOf Recommender.config IalsSettings.params
    rw [hr]
    unfold IalsSettings.recArgs
    cases s.original <;> rfl
  refine ⟨reg, ⟨fun hn => ?_, fun ν hν => ?_⟩, fun hr ha => ?_, h3⟩
  rotate_left 2
  · have hr' : (0 : ℝ) ≤ s.reg := by exact_mod_cast hr
    have ha' : (0 : ℝ) ≤ s.alpha0 := by exact_mod_cast ha
    unfold scaledReg at h2
    cases hn : s.nuStar with
    | none =>
      rw [hn] at h2
      rw [← Except.ok.inj h2]
      exact hr'
    | some ν =>
      rw [hn] at h2
      simp only [Option.map_some] at h2
      split at h2
      · cases h2
      · rw [← Except.ok.inj h2]
        exact div_nonneg (mul_nonneg hr' (computeRegScale_nonneg X ha')) (computeRegScale_nonneg X ha')
  · rw [hn] at h2
    exact (Except.ok.inj h2).symm
  · have h4 := C49_same_total_weight (s.recArgs name X userF itemF) (ν : ℝ) (by
      show s.nuStar.map (fun q : ℚ => (q : ℝ)) = _
      rw [hν]; rfl) hX _ h3
    rw [hp _ rfl] at h4
    rw [← scaleX_settings]
    exact h4

theorem inRange_settings {s : IalsSettings} (hr : s.Fit) (name : String) (X : CSR ℝ) (userF itemF : Option Features) :
    InRange (s.recArgs name X userF itemF) s.threads :=
  ⟨hr.nComponents, hr.maxCgSteps, hr.subspaceDimension, hr.predictionMaxCgSteps, hr.predictionIteration,
    hr.warmup, hr.threads, hr.seed⟩

/-- the epochs of a trainer of known dimension -/
theorem ialsEpochs_eq (run : IalsRun) (c : Configs) {K : Nat} (n : Nat) : ∀ (k : Nat) (tr : Trainer K),
    epochs (ialsNext run c) n (⟨K, tr⟩, k) =
    ((List.range' k n).foldlM (fun (t : Trainer K) k => t.step (run.oracle c.train.1 k) c.train.2) tr).map
      (fun t => ((⟨K, t⟩ : (K : Nat) × Trainer K), k + n)) := by
  induction n with
  | zero => intro k tr; rfl
  | succ n ih =>
    intro k tr
    rw [List.range'_succ, List.foldlM_cons]
    show ((((tr.step (run.oracle c.train.1 k) c.train.2) >>= fun t => Except.ok (⟨K, t⟩ : (K : Nat) × Trainer K)) >>=
      fun t => Except.ok (t, k + 1)) >>= epochs _ n) = _
    cases h : tr.step (run.oracle c.train.1 k) c.train.2 with
    | error e => rfl
    | ok t =>
      show epochs (ialsNext run c) n ((⟨K, t⟩ : (K : Nat) × Trainer K), k + 1) = _
      rw [ih (k + 1) t, show k + 1 + n = k + (n + 1) by omega]
      rfl

theorem trainerConfigs_settings {s : IalsSettings} (hr : s.Fit) (p : Returned) (name : String) (X : CSR ℝ)
    (userF itemF : Option Features) (reg : ℝ) :
    trainerConfigs id p (argsOf ⟨s.recArgs name X userF itemF, s.solver, reg⟩ s.threads) = .ok (s.configs reg) := by
  rw [configs_core id p _ s.threads (inRange_settings hr name X userF itemF)]
  rfl

theorem ialsTrainer_plain {s : IalsSettings} (hr : s.Fit) (run : IalsRun) (name : String) (X : CSR ℝ)
    (hl : s.Scalable X) (reg : ℝ) :
    ialsTrainer run ⟨⟨s.recArgs name X none none, s.solver, reg⟩, s.threads, s.epochs⟩ =
      .ok (s.configs reg, ⟨s.nComponents, Trainer.create (s.config reg) (s.confidences X) (run.user₀ s.nComponents)
        (run.item₀ s.nComponents)⟩) := by
  unfold ialsTrainer
  rw [bind_of_ok _ (trainerConfigs_settings hr _ _ _ _ _ _)]
  exact bind_of_ok _ (scaled_settings hl)

theorem ialsRounds_eq (run : IalsRun) (c : Configs) {K : Nat} (n : Nat) (tr : Trainer K) :
    (epochs (ialsNext run c) n (⟨K, tr⟩, 0) >>= fun r =>
      (Except.ok (c, r.1) : Except Err (Configs × ((K : Nat) × Trainer K)))) =
    (rounds n (fun k (t : Trainer K) => t.step (run.oracle c.train.1 k) c.train.2) tr).map
      (fun t => (c, ⟨K, t⟩)) := by
  rw [ialsEpochs_eq]
  unfold rounds
  rw [List.range_eq_range']
  generalize List.foldlM (m := Except Err) (fun (t : Trainer K) k => t.step (run.oracle c.train.1 k) c.train.2) tr
    (List.range' 0 n) = res
  cases res <;> rfl

theorem ialsFit_of {run : IalsRun} {e : Env} {X : CSR ℝ} {userF itemF : Option Features} {given : Args}
    {m : IalsMade} {ct : Configs × ((K : Nat) × Trainer K)} (h : ialsMake e X userF itemF given = .ok m)
    (h' : ialsTrainer run m = .ok ct) :
    ialsFit run e X userF itemF given = (epochs (ialsNext run ct.1) m.trainEpochs (ct.2, 0) >>= fun r =>
        (Except.ok (ct.1, r.1) : Except Err (Configs × ((K : Nat) × Trainer K)))) := by
  unfold ialsFit
  rw [bind_of_ok _ h, bind_of_ok _ h']
  rfl

theorem bind_pure_eq_map {α β : Type} (x : Except Err α) (f : α → β) : (x >>= fun a => pure (f a)) = x.map f := by
  cases x <;> rfl

theorem ialsTrainer_features {s : IalsSettings} (hr : s.Fit) (run : IalsRun) (name : String) (X : CSR ℝ)
    (hl : s.Scalable X) (reg : ℝ)
    (userF itemF : Option Features) (hf : userF.isSome = true ∨ itemF.isSome = true) :
    ialsTrainer run ⟨⟨s.recArgs name X userF itemF, s.solver, reg⟩, s.threads, s.epochs⟩ =
      (Trainer.createWithFeatures (s.config reg) (s.confidences X) (userF.getD (noFeatures X.nrows))
        (itemF.getD (noFeatures X.cols)) (run.user₀ s.nComponents) (run.item₀ s.nComponents)).map
        (fun tr => (s.configs reg, ⟨s.nComponents, tr⟩)) := by
  unfold ialsTrainer
  rw [bind_of_ok _ (trainerConfigs_settings hr _ _ _ _ _ _)]
  refine (bind_of_ok _ (scaled_settings hl)).trans ?_
  cases userF with
  | none =>
    cases itemF with
    | none => simp at hf
    | some b => exact bind_pure_eq_map (Trainer.createWithFeatures (s.config reg) _ _ _ _ _) _
  | some a =>
    cases itemF with
    | none => exact bind_pure_eq_map (Trainer.createWithFeatures (s.config reg) _ _ _ _ _) _
    | some b => exact bind_pure_eq_map (Trainer.createWithFeatures (s.config reg) _ _ _ _ _) _

theorem ialsFit_error {run : IalsRun} {e : Env} {X : CSR ℝ} {userF itemF : Option Features} {given : Args}
    {err : Err} (h : ialsMake e X userF itemF given = .error err) :
    ialsFit run e X userF itemF given = .error err := by
  unfold ialsFit
  rw [h]
  rfl

theorem ialsFit_trainer_error {run : IalsRun} {e : Env} {X : CSR ℝ} {userF itemF : Option Features} {given : Args}
    {m : IalsMade} {err : Err} (h : ialsMake e X userF itemF given = .ok m) (h' : ialsTrainer run m = .error err) :
    ialsFit run e X userF itemF given = .error err := by
  unfold ialsFit
  rw [bind_of_ok _ h, h']
  rfl

end Irspack.RecClasses

namespace Irspack.Props

open RecClasses Ials Ials.Builders Spec.Ials

/-- C84 (`learn`).  Whatever arguments are given and left out, in any order, `IALSRecommender(X, …).learn()`
trains a model of the named dimension on the named confidences for the named number of epochs, with the native
configurations of the named settings; the regularisation is the named one, or the one that `nu_star` asks for. -/
theorem C84_learn (run : IalsRun) (e : Env) (X : CSR ℝ) (hX : Spec.Sim.Proper X) (given : Args) (name : String)
    (s : IalsSettings) (h : Says e given name s) (hr : s.Fit) (hl : s.Scalable X)
    (hd : s.nuStar = none ∨ (0 ≤ s.alpha0 ∧ ∃ u < X.nrows, X.row u ≠ [])) :
    ∃ reg : ℝ, s.RegIs (s.confidences X) reg ∧ (0 ≤ s.reg → 0 ≤ s.alpha0 → 0 ≤ reg) ∧
      ialsFit run e X none none given =
        (rounds s.epochs (fun k (tr : Trainer s.nComponents) =>
            tr.step (run.oracle s.threads k) (s.configs reg).train.2)
          (Trainer.create (s.config reg) (s.confidences X) (run.user₀ s.nComponents) (run.item₀ s.nComponents))).map
          (fun tr => (s.configs reg, ⟨s.nComponents, tr⟩)) := by
  obtain ⟨reg, h1, h1', h2⟩ := new_settings h.solver.2 hX none none hd (by simp)
  refine ⟨reg, h1, h1', ?_⟩
  have h3 : ialsMake e X none none given = .ok ⟨⟨s.recArgs name X none none, s.solver, reg⟩, s.threads, s.epochs⟩ := by
    rw [ialsMake_eq h, h2]
    rfl
  rw [ialsFit_of h3 (ialsTrainer_plain hr run name X hl reg)]
  exact ialsRounds_eq run (s.configs reg) s.epochs _

/-- C84 (features).  The same with features of users or items: the named weights of the features and warm-up
epochs are in the configuration, and a side without features gets a matrix without columns.  With the solver
`"IALSPP"` a `ValueError` is raised. -/
theorem C84_learn_with_features (run : IalsRun) (e : Env) (X : CSR ℝ) (hX : Spec.Sim.Proper X) (given : Args)
    (name : String) (s : IalsSettings) (h : Says e given name s) (hr : s.Fit) (hl : s.Scalable X)
    (hd : s.nuStar = none ∨ (0 ≤ s.alpha0 ∧ ∃ u < X.nrows, X.row u ≠ []))
    (userF itemF : Option Features) (hf : userF.isSome ∨ itemF.isSome) :
    (name = "IALSPP" → ialsFit run e X userF itemF given = .error .valueError) ∧
    (name ≠ "IALSPP" → ∃ reg : ℝ, s.RegIs (s.confidences X) reg ∧
      ialsFit run e X userF itemF given =
        (Trainer.createWithFeatures (s.config reg) (s.confidences X) (userF.getD (noFeatures X.nrows))
            (itemF.getD (noFeatures X.cols)) (run.user₀ s.nComponents) (run.item₀ s.nComponents) >>= fun tr =>
          (rounds s.epochs (fun k (tr : Trainer s.nComponents) =>
            tr.step (run.oracle s.threads k) (s.configs reg).train.2) tr).map
          (fun tr => (s.configs reg, ⟨s.nComponents, tr⟩)))) := by
  constructor
  · intro hn
    apply ialsFit_error
    rw [ialsMake_eq h]
    obtain ⟨reg, -, -, h2⟩ := new_settings h.solver.2 hX none none hd (by simp)
    have h3 := (new_ok h2).2
    have h4 : strToSolverType name = .ok s.solver := by
      rw [(C78_names name).1, h.solver.2]
      cases s.solver <;> rfl
    unfold Recommender.new
    rw [show strToSolverType (s.recArgs name X userF itemF).solverName = .ok s.solver from h4,
      show scaledReg (s.recArgs name X userF itemF).X (s.recArgs name X userF itemF).alpha0
        (s.recArgs name X userF itemF).reg (s.recArgs name X userF itemF).nu
        (s.recArgs name X userF itemF).nuStar = .ok reg from h3]
    simp only [bind, Except.bind]
    rw [if_pos ⟨hf, hn⟩]
    rfl
  · intro hn
    obtain ⟨reg, h1, h1', h2⟩ := new_settings h.solver.2 hX userF itemF hd (fun hh => hn hh.2)
    refine ⟨reg, h1, ?_⟩
    have h3 : ialsMake e X userF itemF given =
        .ok ⟨⟨s.recArgs name X userF itemF, s.solver, reg⟩, s.threads, s.epochs⟩ := by
      rw [ialsMake_eq h, h2]
      rfl
    have h4 := ialsTrainer_features hr run name X hl reg userF itemF hf
    cases h5 : Trainer.createWithFeatures (s.config reg) (s.confidences X) (userF.getD (noFeatures X.nrows))
        (itemF.getD (noFeatures X.cols)) (run.user₀ s.nComponents) (run.item₀ s.nComponents) with
    | error err =>
      rw [h5] at h4
      rw [ialsFit_trainer_error h3 h4]
      rfl
    | ok tr =>
      rw [h5] at h4
      rw [ialsFit_of h3 h4]
      exact ialsRounds_eq run (s.configs reg) s.epochs tr

/-- C84 (what is learnt).  For non-negative data and hyperparameters, the learnt embeddings have a documented loss,
with the named `alpha0`, `nu`, loss type and confidences, no larger than the initial ones. -/
theorem C84_learnt_loss (run : IalsRun) (e : Env) (X : CSR ℝ)
    (hX : Spec.Sim.Proper X) (given : Args) (name : String) (s : IalsSettings) (h : Says e given name s) (hr : s.Fit)
    (hl : s.Scalable X) (hω : ∀ k, (run.oracle s.threads k).Complete)
    (hd : s.nuStar = none ∨ (0 ≤ s.alpha0 ∧ ∃ u < X.nrows, X.row u ≠ []))
    (h0 : 0 ≤ s.alpha0) (hreg0 : 0 ≤ s.reg) (hx : ∀ row ∈ X.rows, ∀ c ∈ row, 0 ≤ s.confidence c.2)
    (c : Configs) (tr : Trainer s.nComponents)
    (ht : ialsFit run e X none none given = .ok (c, ⟨s.nComponents, tr⟩)) :
    ∃ reg : ℝ, s.RegIs (s.confidences X) reg ∧
      loss (s.params reg) (Data.ofCSR (s.confidences X)) tr.user.row tr.item.row ≤
        loss (s.params reg) (Data.ofCSR (s.confidences X)) (run.user₀ s.nComponents) (run.item₀ s.nComponents) := by
  obtain ⟨reg, h1, h1', h2⟩ := C84_learn run e X hX given name s h hr hl hd
  have hreg := h1' hreg0 h0
  refine ⟨reg, h1, ?_⟩
  rw [h2] at ht
  have hpar : paramsOf (s.config reg) = s.params reg := by
    unfold paramsOf IalsSettings.config IalsSettings.params
    cases s.original <;> rfl
  have hXs : Spec.Sim.Proper (s.confidences X) := by
    rw [← scaleX_settings]
    exact scaleX_proper _ _ X hX
  have hv : Valid (s.config reg) (s.confidences X) := by
    refine ⟨hXs, ?_, hreg, by show (0 : ℝ) ≤ s.alpha0; exact_mod_cast h0⟩
    intro row hrow c hc
    obtain ⟨row', hrow', rfl⟩ := List.mem_map.mp hrow
    obtain ⟨c', hc', rfl⟩ := List.mem_map.mp hc
    exact hx row' hrow' c' hc'
  set start := Trainer.create (s.config reg) (s.confidences X) (run.user₀ s.nComponents) (run.item₀ s.nComponents)
    with hstart
  have key : ∀ (l : List Nat) (t t' : Trainer s.nComponents), t.Reached (s.config reg) (s.confidences X) →
      t.featureAware = false →
      l.foldlM (fun (t : Trainer s.nComponents) k => t.step (run.oracle s.threads k) (s.configs reg).train.2) t = .ok t' →
      t'.Reached (s.config reg) (s.confidences X) ∧ t'.featureAware = false ∧ t'.specLoss ≤ t.specLoss := by
    intro l
    induction l with
    | nil =>
      intro t t' hR hF hh
      cases hh
      exact ⟨hR, hF, le_refl _⟩
    | cons k l ih =>
      intro t t' hR hF hh
      rw [List.foldlM_cons] at hh
      obtain ⟨t₁, hs, hh⟩ := bind_ok hh
      obtain ⟨hg, hc, hx'⟩ := reached_good hv hR
      have hgood := step_good (hω k) t t₁ hg hs (hx' ▸ hv.proper) (hx' ▸ hv.nonneg) (hc ▸ hv.reg)
        (hc ▸ hv.alpha0)
      obtain ⟨i1, i2, i3⟩ := ih t₁ t' (Trainer.Reached.step _ _ _ _ (hω k) hR hs)
        (hgood.2.2.2.2.1.trans hF) hh
      exact ⟨i1, i2, i3.trans hgood.2.2.2.2.2⟩
  have ht' : (List.range s.epochs).foldlM (fun (t : Trainer s.nComponents) k =>
      t.step (run.oracle s.threads k) (s.configs reg).train.2) start = .ok tr := by
    unfold rounds at ht
    cases hres : (List.range s.epochs).foldlM (fun (t : Trainer s.nComponents) k =>
      t.step (run.oracle s.threads k) (s.configs reg).train.2) start with
    | error err => rw [hres] at ht; cases ht
    | ok t =>
      rw [hres] at ht
      have := Except.ok.inj ht
      simp only [Prod.mk.injEq, Sigma.mk.injEq, heq_eq_eq, true_and] at this
      rw [this.2]
  have hR : start.Reached (s.config reg) (s.confidences X) := Trainer.Reached.create _ _
  obtain ⟨r1, r2, r3⟩ := key _ start tr hR rfl ht'
  have value : ∀ t : Trainer s.nComponents, t.Reached (s.config reg) (s.confidences X) → t.featureAware = false →
      t.specLoss = loss (s.params reg) (Data.ofCSR (s.confidences X)) t.user.row t.item.row := by
    intro t hR hF
    obtain ⟨hg, hc, hx'⟩ := reached_good hv hR
    rw [specLoss_create _ (hg.aware hF).1 (hg.aware hF).2, hc, hx', hpar]
  rw [value tr r1 r2, value start hR rfl] at r3
  exact r3

/-- C84 (`learn` succeeds).  With positive `alpha0` and `reg`, non-negative confidences, some users and items, and at
least one thread, every solver trains for any number of epochs. -/
theorem C84_learn_succeeds (run : IalsRun) (e : Env) (X : CSR ℝ)
    (hX : Spec.Sim.Proper X) (given : Args) (name : String) (s : IalsSettings) (h : Says e given name s) (hr : s.Fit)
    (hl : s.Scalable X) (hω : ∀ k, (run.oracle s.threads k).Complete)
    (hn : s.nuStar = none) (h0 : 0 < s.alpha0) (hreg0 : 0 < s.reg) (hT : 0 < s.threads)
    (hx : ∀ row ∈ X.rows, ∀ c ∈ row, 0 ≤ s.confidence c.2) (hU : 0 < X.nrows) (hI : 0 < X.cols) :
    ∃ (c : Configs) (tr : Trainer s.nComponents), ialsFit run e X none none given = .ok (c, ⟨s.nComponents, tr⟩) := by
  obtain ⟨reg, h1, -, h2⟩ := C84_learn run e X hX given name s h hr hl (.inl hn)
  have hreg : reg = s.reg := h1.1 hn
  have hXs : Spec.Sim.Proper (s.confidences X) := by
    rw [← scaleX_settings]
    exact scaleX_proper _ _ X hX
  have ha : (0 : ℝ) < s.alpha0 := by exact_mod_cast h0
  have hr0 : (0 : ℝ) < reg := by rw [hreg]; exact_mod_cast hreg0
  have hv : Valid (s.config reg) (s.confidences X) := by
    refine ⟨hXs, ?_, hr0.le, ha.le⟩
    intro row hrow c hc
    obtain ⟨row', hrow', rfl⟩ := List.mem_map.mp hrow
    obtain ⟨c', hc', rfl⟩ := List.mem_map.mp hc
    exact hx row' hrow' c' hc'
  have hp : ∀ Y : CSR ℝ, 0 < Y.cols → RegPositive (s.config reg) Y := by
    intro Y hY
    refine ⟨hr0, fun row _ => .inr ?_⟩
    have : (0 : ℝ) < Y.cols := by exact_mod_cast hY
    show (0 : ℝ) < s.alpha0 * Y.cols + row.length
    positivity
  have hU' : 0 < (transpose (s.confidences X)).cols := by
    show 0 < (X.rows.map _).length
    rw [List.length_map]
    exact hU
  have key : ∀ (l : List Nat) (t : Trainer s.nComponents), t.Reached (s.config reg) (s.confidences X) →
      t.featureAware = false → ∃ t',
      l.foldlM (fun (t : Trainer s.nComponents) k => t.step (run.oracle s.threads k) (s.configs reg).train.2) t = .ok t' := by
    intro l
    induction l with
    | nil => intro t _ _; exact ⟨t, rfl⟩
    | cons k l ih =>
      intro t hR hF
      obtain ⟨t₁, hs, -⟩ := C42_epoch_regularised (hω k) hT _ _ hv (hp _ hI) (hp _ hU')
        (s.configs reg).train.2 t hR hF
      obtain ⟨hg, hc, hx'⟩ := reached_good hv hR
      have hgood := step_good (hω k) t t₁ hg hs (hx' ▸ hv.proper) (hx' ▸ hv.nonneg) (hc ▸ hv.reg)
        (hc ▸ hv.alpha0)
      obtain ⟨t', ht'⟩ := ih t₁ (Trainer.Reached.step _ _ _ _ (hω k) hR hs) (hgood.2.2.2.2.1.trans hF)
      refine ⟨t', ?_⟩
      rw [List.foldlM_cons, hs]
      exact ht'
  obtain ⟨tr, htr⟩ := key (List.range s.epochs) _ (Trainer.Reached.create _ _) rfl
  refine ⟨s.configs reg, tr, ?_⟩
  rw [h2]
  unfold rounds
  rw [htr]
  rfl

/-- C84 (refusals).  An argument that the class does not have is a `TypeError`; an unknown scaling is a
`KeyError`, an unknown solver or loss an `AttributeError`. -/
theorem C84_refused (run : IalsRun) (e : Env) (X : CSR ℝ) (userF itemF : Option Features) (given : Args) :
    ((∃ a ∈ given, a.1 ∉ ials.params.map (·.1)) → ialsFit run e X userF itemF given = .error .typeError) ∧
    (∀ (v l scaling : String), Only given (ials.params.map (·.1)) →
      Argument given "confidence_scaling" (.str "none") (.str scaling) →
      Argument given "solver_type" (.str "CG") (.str v) →
      Argument given "loss_type" (.str "IALSPP") (.str l) →
      (scaling ≠ "none" → scaling ≠ "log" → ialsFit run e X userF itemF given = .error .keyError) ∧
      (scaling = "none" ∨ scaling = "log" →
        (v.toUpper ≠ "CG" ∧ v.toUpper ≠ "CHOLESKY" ∧ v.toUpper ≠ "IALSPP" ∨
          l.toUpper ≠ "ORIGINAL" ∧ l.toUpper ≠ "IALSPP") →
        ialsFit run e X userF itemF given = .error .attributeError)) := by
  have key : ∀ err, construct ials given = .error err → ialsFit run e X userF itemF given = .error err := by
    intro err hc
    apply ialsFit_error
    unfold ialsMake
    rw [hc]
    rfl
  constructor
  · rintro ⟨a, ha, hn⟩
    apply key
    unfold construct
    rw [if_neg]
    intro h
    rw [List.all_eq_true] at h
    exact hn (of_decide_eq_true (h _ ha))
  · intro v l scaling hn hs hv hl
    have hc : ∀ err, ials.checks.findSome? (Check.error (ials.params.map (fun d => (d.1, valueOf given d.1 d.2)))) =
        some err → construct ials given = .error err := by
      intro err h
      unfold construct
      rw [if_pos (by rw [List.all_eq_true]; intro a ha; exact decide_eq_true (hn a ha))]
      simp only [h]
    have c1 : Check.error (ials.params.map (fun d => (d.1, valueOf given d.1 d.2)))
        (.oneOf "confidence_scaling" ["none", "log"] .keyError) =
        if scaling ∈ ["none", "log"] then none else some Err.keyError := by
      show (match some (valueOf given "confidence_scaling" (.str "none")) with
        | some (.str s) => if s ∈ ["none", "log"] then none else some Err.keyError
        | _ => some Err.keyError) = _
      rw [hs.eq]
    have c2 : Check.error (ials.params.map (fun d => (d.1, valueOf given d.1 d.2)))
        (.upperOneOf "solver_type" ["CHOLESKY", "CG", "IALSPP"] .attributeError) =
        if v.toList.map Char.toUpper ∈ ["CHOLESKY", "CG", "IALSPP"].map String.toList then none
          else some Err.attributeError := by
      show (match some (valueOf given "solver_type" (.str "CG")) with
        | some (.str s) => if s.toList.map Char.toUpper ∈ ["CHOLESKY", "CG", "IALSPP"].map String.toList then none
          else some Err.attributeError
        | _ => some Err.attributeError) = _
      rw [hv.eq]
    have c3 : Check.error (ials.params.map (fun d => (d.1, valueOf given d.1 d.2)))
        (.upperOneOf "loss_type" ["ORIGINAL", "IALSPP"] .attributeError) =
        if l.toList.map Char.toUpper ∈ ["ORIGINAL", "IALSPP"].map String.toList then none
          else some Err.attributeError := by
      show (match some (valueOf given "loss_type" (.str "IALSPP")) with
        | some (.str s) => if s.toList.map Char.toUpper ∈ ["ORIGINAL", "IALSPP"].map String.toList then none
          else some Err.attributeError
        | _ => some Err.attributeError) = _
      rw [hl.eq]
    have hch : ials.checks = [.oneOf "confidence_scaling" ["none", "log"] .keyError,
      .upperOneOf "solver_type" ["CHOLESKY", "CG", "IALSPP"] .attributeError,
      .upperOneOf "loss_type" ["ORIGINAL", "IALSPP"] .attributeError] := rfl
    have hup : ∀ s t : String, s.toList.map Char.toUpper = t.toList ↔ s.toUpper = t := by
      intro s t
      refine ⟨fun h => ?_, upper_list s t⟩
      apply String.toList_injective
      rw [← h]
      simp [String.toUpper, String.toList_map]
    rw [hch] at hc
    simp only [List.findSome?_cons, List.findSome?_nil, c1, c2, c3, List.map_cons, List.map_nil, List.mem_cons,
      List.not_mem_nil, or_false, hup] at hc
    constructor
    · intro h1 h2
      refine key _ (hc _ ?_)
      rw [if_neg (by simp [h1, h2])]
    · intro h1 h2
      refine key _ (hc _ ?_)
      rw [if_pos h1]
      rcases h2 with ⟨h2, h3, h4⟩ | ⟨h2, h3⟩
      · rw [if_neg (by simp [h2, h3, h4])]
      · rw [if_neg (c := l.toUpper = "ORIGINAL" ∨ _) (by simp [h2, h3])]
        by_cases hv' : v.toUpper = "CHOLESKY" ∨ v.toUpper = "CG" ∨ v.toUpper = "IALSPP"
        · rw [if_pos hv']
        · rw [if_neg hv']

/-! ## Concrete cases -/

/-- `IALSRecommender(X, reg=0.5, solver_type="cholesky", alpha0=0.25, n_components=2)` on two processors -/
def exampleIalsSettings : IalsSettings where
  nComponents := 2
  alpha0 := 1 / 4
  reg := 1 / 2
  nu := 1
  logScaling := false
  epsilon := 1
  initStd := 1 / 10
  solver := .cholesky
  maxCgSteps := 3
  subspaceDimension := 64
  original := false
  nuStar := none
  seed := 42
  threads := 2
  epochs := 16
  predictionMaxCgSteps := 5
  predictionIteration := 7
  lambdaUser := 0
  lambdaItem := 0
  warmup := 0

/-- these arguments say these settings -/
theorem exampleSays : Says exampleEnv2 [("reg", .num (1 / 2)), ("solver_type", .str "cholesky"),
    ("alpha0", .num (1 / 4)), ("n_components", .num 2)] "cholesky" exampleIalsSettings where
  only := by
    intro a ha
    simp only [List.mem_cons, List.not_mem_nil, or_false] at ha
    rcases ha with rfl | rfl | rfl | rfl <;> simp
  nComponents := .inl (by norm_num [exampleIalsSettings]; rfl)
  alpha0 := .inl rfl
  reg := .inl rfl
  nu := .inr ⟨rfl, rfl⟩
  scaling := .inr ⟨rfl, rfl⟩
  epsilon := .inr ⟨rfl, rfl⟩
  initStd := .inr ⟨rfl, rfl⟩
  solver := ⟨.inl rfl, by decide +kernel⟩
  maxCgSteps := .inr ⟨rfl, by norm_num [exampleIalsSettings]⟩
  subspaceDimension := .inr ⟨rfl, by norm_num [exampleIalsSettings]⟩
  loss := ⟨"IALSPP", .inr ⟨rfl, rfl⟩, by decide +kernel⟩
  nuStar := .inr ⟨rfl, rfl⟩
  seed := .inr ⟨rfl, by norm_num [exampleIalsSettings]⟩
  threads := .inr ⟨.inr ⟨rfl, rfl⟩, rfl⟩
  epochs := .inr ⟨rfl, by norm_num [exampleIalsSettings]⟩
  predictionMaxCgSteps := .inr ⟨rfl, by norm_num [exampleIalsSettings]⟩
  predictionIteration := .inr ⟨rfl, by norm_num [exampleIalsSettings]⟩
  lambdaUser := .inr ⟨rfl, rfl⟩
  lambdaItem := .inr ⟨rfl, rfl⟩
  warmup := .inr ⟨rfl, by norm_num [exampleIalsSettings]⟩

theorem exampleFit : exampleIalsSettings.Fit := by
  constructor <;> norm_num [exampleIalsSettings]

/-- the hypotheses of the theorems are met, by a run that trains 16 epochs with Cholesky at the named values -/
example (run : IalsRun) : ∃ reg : ℝ, reg = 1 / 2 ∧
    ialsFit run exampleEnv2 ⟨2, [[(0, 1)], [(1, 1)]]⟩ none none [("reg", .num (1 / 2)), ("solver_type", .str "cholesky"),
      ("alpha0", .num (1 / 4)), ("n_components", .num 2)] =
    (rounds 16 (fun k (tr : Trainer 2) => tr.step (run.oracle 2 k) ⟨.cholesky, 3, 64, 1⟩)
      (Trainer.create (exampleIalsSettings.config reg) (exampleIalsSettings.confidences ⟨2, [[(0, 1)], [(1, 1)]]⟩)
        (run.user₀ 2) (run.item₀ 2))).map (fun tr => (exampleIalsSettings.configs reg, ⟨2, tr⟩)) := by
  obtain ⟨reg, h1, -, h2⟩ := C84_learn run exampleEnv2 ⟨2, [[(0, 1)], [(1, 1)]]⟩ (by
    constructor <;> simp) _ _ _ exampleSays exampleFit (by intro h; cases h) (.inl rfl)
  refine ⟨reg, ?_, h2⟩
  rw [h1.1 rfl]
  norm_num [exampleIalsSettings]

/-- a run of this recommender that ends well -/
example : ∃ (run : IalsRun) (c : Configs) (tr : Trainer 2), (∀ k, (run.oracle 2 k).Complete) ∧
    ialsFit run exampleEnv2 ⟨2, [[(0, 1)], [(1, 1)]]⟩ none none [("reg", .num (1 / 2)), ("solver_type", .str "cholesky"),
      ("alpha0", .num (1 / 4)), ("n_components", .num 2)] = .ok (c, ⟨2, tr⟩) := by
  classical
  obtain ⟨ω, hω⟩ := exists_complete_oracle 2 (by norm_num)
  let run : IalsRun := ⟨.same, fun _ _ _ => 1, fun _ _ _ => 1, fun T _ => if h : 2 = T then h ▸ ω else fun _ _ _ => []⟩
  have hrun : ∀ k, (run.oracle 2 k).Complete := fun k => by simpa [run] using hω
  obtain ⟨c, tr, h⟩ := C84_learn_succeeds run exampleEnv2 ⟨2, [[(0, 1)], [(1, 1)]]⟩ (by constructor <;> simp) _ _ _
    exampleSays exampleFit (by intro h; cases h) hrun rfl (by norm_num [exampleIalsSettings]) (by norm_num [exampleIalsSettings])
    (by norm_num [exampleIalsSettings]) (by simp [IalsSettings.confidence, exampleIalsSettings])
    (by simp [CSR.nrows]) (by simp)
  exact ⟨run, c, tr, hrun, h⟩

end Irspack.Props
