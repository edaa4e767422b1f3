import Verif.Model.LibRecommender
import Verif.Props.Ease
import Verif.Props.SimRecommender
import Verif.Props.Slim
import Verif.Spec.LibRecommender

/-!
# C83: the arguments of the other recommenders mean what they are called
-/

namespace Irspack.RecClasses

theorem toInt_int (z : ℤ) : toInt (.num z) = .ok z := by simp [toInt]

theorem toInt_nat (n : Nat) : toInt (.num n) = .ok (n : ℤ) := by simp [toInt]

theorem epochs_eq {S : Type} (step : Nat → S → Except Err S) (n : Nat) :
    ∀ (k : Nat) (s : S), epochs (fun q : S × Nat => do
        let s ← step q.2 q.1
        return (s, q.2 + 1)) n (s, k) =
      ((List.range' k n).foldlM (fun s k => step k s) s).map (fun s => (s, k + n)) := by
  induction n with
  | zero => intro k s; rfl
  | succ n ih =>
    intro k s
    rw [List.range'_succ, List.foldlM_cons]
    show ((step k s >>= fun s => Except.ok (s, k + 1)) >>= epochs _ n) = _
    cases h : step k s with
    | error e => rfl
    | ok s' =>
      show epochs _ n (s', k + 1) = _
      rw [ih (k + 1) s', show k + 1 + n = k + (n + 1) by omega]
      rfl

theorem bprEpochs_eq {S : Type} (lib : FmLib S) (X : CSR ℝ) (v : Val) (n : Nat) :
    ∀ (k : Nat) (fm : S), epochs (bprEpoch lib X) n (fm, v) =
      ((List.range' k n).foldlM (fun fm _ => lib.fitPartial fm X [("num_threads", v)]) fm).map (fun fm => (fm, v)) := by
  induction n with
  | zero => intro k fm; rfl
  | succ n ih =>
    intro k fm
    rw [List.range'_succ, List.foldlM_cons]
    show ((lib.fitPartial fm X [("num_threads", v)] >>= fun s => Except.ok (s, v)) >>= epochs _ n) = _
    cases h : lib.fitPartial fm X [("num_threads", v)] with
    | error e => rfl
    | ok s' => exact ih (k + 1) s'

theorem slimFit_eq (r : SlimRun) (e : Env) (X : CSC ℝ) (given : Args) (a l : ℚ) (b : Bool) (n : Nat) (tol : ℚ)
    (K : Option Nat) (T : Nat)
    (hn : Only given ["alpha", "l1_ratio", "positive_only", "n_iter", "tol", "top_k", "n_threads"])
    (ha : Argument given "alpha" (.num (1 / 20)) (.num a)) (hl : Argument given "l1_ratio" (.num (1 / 100)) (.num l))
    (hb : Argument given "positive_only" (.bool true) (.bool b)) (hi : Argument given "n_iter" (.num 100) (.num n))
    (ht : Argument given "tol" (.num (1 / 10000)) (.num tol)) (hk : Argument given "top_k" .none (optionalSize K))
    (hT : ThreadsAre e given T) :
    slimFit r e X given = (Slim.slim (T := T) (slimSettings r X.rows a l b n tol K) X r.shuffles r.srt
      (r.sched T)).map
      (fun s => ⟨T, s⟩) := by
  have h1 : construct slim given = _ := construct_of_checks hn rfl
  unfold slimFit
  rw [h1]
  show ((e.nThreads (valueOf given "n_threads" .none) >>= fun t => Except.ok
    [("alpha", valueOf given "alpha" (.num (1 / 20))), ("l1_ratio", valueOf given "l1_ratio" (.num (1 / 100))),
     ("positive_only", valueOf given "positive_only" (.bool true)), ("n_threads", t),
     ("n_iter", valueOf given "n_iter" (.num 100)), ("tol", valueOf given "tol" (.num (1 / 10000))),
     ("top_k", valueOf given "top_k" .none)]) >>= slimLearn r X) = _
  rw [hT.eq, ha.eq, hl.eq, hb.eq, hi.eq, ht.eq, hk.eq]
  have h2 : (if optionalSize K = .none then Val.num (-1) else optionalSize K) = .num (keepAllIfNone K : ℤ) := by
    cases K with
    | none => simp [optionalSize, keepAllIfNone]
    | some k => simp [optionalSize, keepAllIfNone]
  show slimEntry r X b (.num T) (.num n) (.num (X.rows * a * (1 - l))) (.num (X.rows * a * l)) (.num tol)
    (if optionalSize K = .none then Val.num (-1) else optionalSize K) = _
  rw [h2]
  unfold slimEntry
  rw [toSize_nat, toSize_nat, toInt_int]
  simp only [toReal, bind, Except.bind, pure, Except.pure]
  have e1 : ((((X.rows : ℚ) * a * (1 - l) : ℚ)) : ℝ) = X.rows * a * (1 - l) := by push_cast; rfl
  have e2 : ((((X.rows : ℚ) * a * l : ℚ)) : ℝ) = X.rows * a * l := by push_cast; rfl
  rw [e1, e2]
  unfold slimSettings
  generalize Slim.slim (T := T) _ X r.shuffles r.srt (r.sched T) = res
  cases res <;> rfl

end Irspack.RecClasses

namespace Irspack.Props

open RecClasses WorkQueue Spec.Slim Spec.Ease

/-! ## SLIM -/

/-- C83 (`SLIMRecommender`).  Whatever arguments are given and left out, the solver runs with the documented
penalties `n_users · alpha · (1 - l1_ratio)` and `n_users · alpha · l1_ratio`, the named sign constraint,
number of sweeps, tolerance and number of threads, and keeps all weights if `top_k` is `None`. -/
theorem C83_slim (r : SlimRun) (e : Env) (X : CSC ℝ) (given : Args) (a l : ℚ) (b : Bool) (n : Nat) (tol : ℚ)
    (K : Option Nat) (T : Nat)
    (hn : Only given ["alpha", "l1_ratio", "positive_only", "n_iter", "tol", "top_k", "n_threads"])
    (ha : Argument given "alpha" (.num (1 / 20)) (.num a)) (hl : Argument given "l1_ratio" (.num (1 / 100)) (.num l))
    (hb : Argument given "positive_only" (.bool true) (.bool b)) (hi : Argument given "n_iter" (.num 100) (.num n))
    (ht : Argument given "tol" (.num (1 / 10000)) (.num tol)) (hk : Argument given "top_k" .none (optionalSize K))
    (hT : ThreadsAre e given T) :
    (∀ res, slimFit r e X given = .ok res ↔ ∃ s : State T (Slim.Worker ℝ) Unit, res = ⟨T, s⟩ ∧
      Slim.slim (slimSettings r X.rows a l b n tol K) X r.shuffles r.srt (r.sched T) = .ok s) ∧
    (slimFit r e X given = .error .invalidArgument ↔
      T = 0 ∨ n = 0 ∨ X.rows * a * (1 - l) < 0 ∨ X.rows * a * l < 0) ∧
    ∀ err, slimFit r e X given = .error err → err = .invalidArgument := by
  rw [slimFit_eq r e X given a l b n tol K T hn ha hl hb hi ht hk hT]
  have e1 : ((((X.rows : ℚ) * a * (1 - l) : ℚ)) : ℝ) = X.rows * a * (1 - l) := by push_cast; rfl
  have e2 : ((((X.rows : ℚ) * a * l : ℚ)) : ℝ) = X.rows * a * l := by push_cast; rfl
  have c1 : (X.rows * a * (1 - l) < 0) ↔ ((X.rows : ℝ) * a * (1 - l) < 0) := by rw [← e1]; norm_cast
  have c2 : (X.rows * a * l < 0) ↔ ((X.rows : ℝ) * a * l < 0) := by rw [← e2]; norm_cast
  rw [c1, c2]
  unfold Slim.slim slimSettings
  simp only
  by_cases h1 : T = 0
  · simp [h1, Except.map, eq_comm]
  by_cases h2 : n = 0
  · simp [h1, h2, Except.map, eq_comm]
  by_cases h3 : (X.rows : ℝ) * a * (1 - l) < 0
  · simp [h1, h2, h3, Except.map, eq_comm]
  by_cases h4 : (X.rows : ℝ) * a * l < 0
  · simp [h1, h2, h3, h4, Except.map, eq_comm]
  · simp [h1, h2, h3, h4, Except.map, eq_comm]

/-- C83 (`SLIMRecommender`, refusals).  With the other arguments as in `C83_slim`, an `n_iter` that is not a
whole number from 0 on, or a `top_k` that is neither `None` nor a whole number, is a `TypeError`: it is
neither rounded nor replaced by a default. -/
theorem C83_slim_not_whole (r : SlimRun) (e : Env) (X : CSC ℝ) (given : Args) (a l : ℚ) (b : Bool) (n : Val) (tol : ℚ)
    (k : Val) (T : Nat)
    (hn : Only given ["alpha", "l1_ratio", "positive_only", "n_iter", "tol", "top_k", "n_threads"])
    (ha : Argument given "alpha" (.num (1 / 20)) (.num a)) (hl : Argument given "l1_ratio" (.num (1 / 100)) (.num l))
    (hb : Argument given "positive_only" (.bool true) (.bool b)) (hi : Argument given "n_iter" (.num 100) n)
    (ht : Argument given "tol" (.num (1 / 10000)) (.num tol)) (hk : Argument given "top_k" .none k)
    (hT : ThreadsAre e given T)
    (hbad : (∀ m : Nat, n ≠ .num m) ∨ (k ≠ .none ∧ ∀ z : ℤ, k ≠ .num z)) :
    slimFit r e X given = .error .typeError := by
  have h1 : construct slim given = _ := construct_of_checks hn rfl
  unfold slimFit
  rw [h1]
  show ((e.nThreads (valueOf given "n_threads" .none) >>= fun t => Except.ok
    [("alpha", valueOf given "alpha" (.num (1 / 20))), ("l1_ratio", valueOf given "l1_ratio" (.num (1 / 100))),
     ("positive_only", valueOf given "positive_only" (.bool true)), ("n_threads", t),
     ("n_iter", valueOf given "n_iter" (.num 100)), ("tol", valueOf given "tol" (.num (1 / 10000))),
     ("top_k", valueOf given "top_k" .none)]) >>= slimLearn r X) = _
  rw [hT.eq, ha.eq, hl.eq, hb.eq, hi.eq, ht.eq, hk.eq]
  show slimEntry r X b (.num T) n (.num (X.rows * a * (1 - l))) (.num (X.rows * a * l)) (.num tol)
    (if k = .none then Val.num (-1) else k) = _
  unfold slimEntry
  rw [toSize_nat]
  have hsize : (∀ m : Nat, n ≠ .num m) → toSize n = .error .typeError := by
    intro h
    cases n with
    | num q =>
      refine if_neg ?_
      rintro ⟨h1, h2⟩
      refine h q.num.toNat ?_
      rw [← Rat.coe_int_num_of_den_eq_one h1]
      congr 1
      simp only [Rat.num_intCast]
      exact_mod_cast (Int.toNat_of_nonneg h2).symm
    | _ => rfl
  have hsize' : ∀ err, toSize n = .error err → err = .typeError := by
    intro err h
    unfold toSize at h
    split at h
    · split at h
      · cases h
      · cases h; rfl
    · cases h; rfl
  rcases hbad with h | ⟨h0, h⟩
  · rw [hsize h]
    rfl
  · have hint : toInt k = .error .typeError := by
      cases k with
      | num q =>
        refine if_neg ?_
        intro h1
        exact h q.num (by rw [Rat.coe_int_num_of_den_eq_one h1])
      | _ => rfl
    rw [if_neg h0, hint]
    cases hh : toSize n with
    | error err => rw [hsize' err hh]; rfl
    | ok m => rfl

/-- C83 (`SLIMRecommender`, meaning).  With exact arithmetic (tolerance of `isZero` zero) the learnt weights
have a documented loss, at the named `alpha` and `l1_ratio`, no larger than that of no weights; they are
non-negative if `positive_only`, and at most `top_k` per item. -/
theorem C83_slim_weights (r : SlimRun) (e : Env) (X : CSC ℝ) (hX : Slim.Proper X) (given : Args) (a l : ℚ)
    (b : Bool) (n : Nat) (tol : ℚ) (K : Option Nat) (T : Nat)
    (hn : Only given ["alpha", "l1_ratio", "positive_only", "n_iter", "tol", "top_k", "n_threads"])
    (ha : Argument given "alpha" (.num (1 / 20)) (.num a)) (hl : Argument given "l1_ratio" (.num (1 / 100)) (.num l))
    (hb : Argument given "positive_only" (.bool true) (.bool b)) (hi : Argument given "n_iter" (.num 100) (.num n))
    (ht : Argument given "tol" (.num (1 / 10000)) (.num tol)) (hk : Argument given "top_k" .none (optionalSize K))
    (hT : ThreadsAre e given T) (hB : 0 < r.blockSize)
    (hsh : ∀ c, (r.shuffles c).Perm (List.range X.cols.length)) (hsrt : ∀ w, (r.srt w).Perm w)
    (ha0 : 0 ≤ a) (hl0 : 0 ≤ l) (hl1 : l ≤ 1)
    (s : State T (Slim.Worker ℝ) Unit) (hs : slimFit r e X given = .ok ⟨T, s⟩) (hfin : Finished s) :
    (b = true → ∀ f j, 0 ≤ Slim.weights s f j) ∧
    (∀ k, K = some k → ∀ j < X.cols.length,
      ((Finset.range X.cols.length).filter (fun f => Slim.weights s f j ≠ 0)).card ≤ k) ∧
    (K = none → r.prec = 0 → documentedLoss X.get X.rows X.cols.length (a : ℝ) (l : ℝ) (Slim.weights s) ≤
      documentedLoss X.get X.rows X.cols.length (a : ℝ) (l : ℝ) (fun _ _ => 0)) := by
  obtain ⟨h, -, -⟩ := C83_slim r e X given a l b n tol K T hn ha hl hb hi ht hk hT
  obtain ⟨s', hs', h⟩ := (h _).mp hs
  cases hs'
  refine ⟨fun hb f j => ?_, fun k hK j hj => ?_, fun hK hp => ?_⟩
  · exact C39_nonnegative _ hb X r.shuffles r.srt hsrt _ s h f j
  · have := C39_at_most_top_k _ (by rw [hK]; exact Int.natCast_nonneg k) X r.shuffles r.srt hB _ s h hfin j hj
    rw [hK] at this
    exact Int.ofNat_le.mp this
  · subst hK
    have hset : slimSettings r X.rows (a : ℝ) (l : ℝ) b n (tol : ℝ) none =
        Slim.recommenderConfig X.rows (a : ℝ) (l : ℝ) b n (tol : ℝ) none r.blockSize 0 := by
      unfold slimSettings Slim.recommenderConfig
      rw [hp]
      rfl
    rw [hset] at h
    exact C37_learned_loss_partial X hX (a : ℝ) (l : ℝ) (tol : ℝ) (by exact_mod_cast ha0) (by exact_mod_cast hl0)
      (by exact_mod_cast hl1) b n r.blockSize hB r.shuffles hsh r.srt _ s h hfin

/-! ## DenseSLIM and EDLAE -/

/-- C83 (`DenseSLIMRecommender`).  For any positive `reg`, given or left out, the learnt matrix is the only
minimiser of the documented loss at that `reg`. -/
theorem C83_dense_slim {U F : Nat} (X : Matrix (Fin U) (Fin F) ℝ) (given : Args) (reg : ℚ)
    (hn : Only given ["reg"]) (hr : Argument given "reg" (.num 1) (.num reg)) (h0 : 0 < reg) :
    ∃ W, denseSlimFit X given = .ok W ∧ ZeroDiagonal W ∧
      ∀ B, ZeroDiagonal B → B ≠ W → loss X (fun _ => (reg : ℝ)) W < loss X (fun _ => (reg : ℝ)) B := by
  obtain ⟨W, h1, h2, h3⟩ := C40_dense_slim_optimal X (reg : ℝ) (by exact_mod_cast h0)
  refine ⟨W, ?_, h2, fun B hB hne => (h3 B hB).2 hne⟩
  have hc : construct denseSlim given = _ := construct_of_checks hn rfl
  unfold denseSlimFit
  rw [hc]
  show (toReal (valueOf given "reg" (.num 1)) >>= fun r => Ease.denseSlim X r) = _
  rw [hr.eq]
  exact h1

/-- C83 (`EDLAERecommender`).  The same with the penalty that the named dropout probability adds. -/
theorem C83_edlae {U F : Nat} (X : Matrix (Fin U) (Fin F) ℝ) (given : Args) (reg p : ℚ)
    (hn : Only given ["reg", "dropout_p"]) (hr : Argument given "reg" (.num 1) (.num reg))
    (hp : Argument given "dropout_p" (.num (1 / 10)) (.num p)) :
    (0 < reg → 0 ≤ p → p < 1 → ∃ W, edlaeFit X given = .ok W ∧ ZeroDiagonal W ∧
      ∀ B, ZeroDiagonal B → B ≠ W →
        loss X (dropoutPenalty X (reg : ℝ) (p : ℝ)) W < loss X (dropoutPenalty X (reg : ℝ) (p : ℝ)) B) ∧
    (p = 1 → edlaeFit X given = .error .zeroDivisionError) := by
  have hc : construct edlae given = _ := construct_of_checks hn rfl
  have he : edlaeFit X given = Ease.edlae X (reg : ℝ) (p : ℝ) := by
    unfold edlaeFit
    rw [hc]
    show (toReal (valueOf given "reg" (.num 1)) >>= fun r =>
      toReal (valueOf given "dropout_p" (.num (1 / 10))) >>= fun p => Ease.edlae X r p) = _
    rw [hr.eq, hp.eq]
    rfl
  rw [he]
  constructor
  · intro h0 h1 h2
    obtain ⟨W, h1, h2, h3⟩ := C40_edlae_optimal X (reg : ℝ) (p : ℝ) (by exact_mod_cast h0) (by exact_mod_cast h1)
      (by exact_mod_cast h2)
    exact ⟨W, h1, h2, fun B hB hne => (h3 B hB).2 hne⟩
  · rintro rfl
    have := C40_edlae_full_dropout X (reg : ℝ)
    simpa using this

/-! ## TruncatedSVD and NMF -/

/-- C83 (`TruncatedSVDRecommender`).  scikit-learn's decomposition is asked for the named number of
components, but for fewer than there are items, with the named seed, and for nothing else; data with less
than two items is refused. -/
theorem C83_truncated_svd {M : Type} (svd : Args → CSR ℝ → Except Err M) (X : CSR ℝ) (given : Args) (k : Nat)
    (seed : Val) (hn : Only given ["n_components", "random_seed"])
    (hk : Argument given "n_components" (.num 4) (.num k)) (hs : Argument given "random_seed" (.num 0) seed) :
    (1 < X.cols → ∃ asked, Exactly asked [("n_components", .num (min k (X.cols - 1) : Nat)), ("random_state", seed)] ∧
      svdFit svd X given = svd asked X) ∧
    (X.cols ≤ 1 → svdFit svd X given = .error .assertionError) := by
  have hc : construct truncatedSvd given = _ := construct_of_checks hn rfl
  have he : svdFit svd X given = (Score.truncatedComponents X.cols k >>= fun k =>
      svd [("n_components", .num k), ("random_state", seed)] X) := by
    unfold svdFit
    rw [hc]
    show (toSize (valueOf given "n_components" (.num 4)) >>= fun k => Score.truncatedComponents X.cols k >>= fun k =>
      svd [("n_components", .num k), ("random_state", valueOf given "random_seed" (.num 0))] X) = _
    rw [hk.eq, hs.eq, toSize_nat]
    rfl
  rw [he]
  constructor
  · intro h
    refine ⟨_, fun _ => rfl, ?_⟩
    unfold Score.truncatedComponents
    rw [if_pos h]
    show svd [("n_components", .num ((if k ≥ X.cols then X.cols - 1 else k : Nat) : ℚ)), _] X = _
    congr 4
    congr 1
    split <;> omega
  · intro h
    unfold Score.truncatedComponents
    rw [if_neg (by omega)]
    rfl

/-- C83 (`NMFRecommender`).  scikit-learn's `NMF` is made with the named arguments, `alpha` under the name
that the installed version uses, and the fixed seed 42; the factors are those of `fit_transform` after `fit`
on the training data. -/
theorem C83_nmf {S M : Type} (lib : NmfLib S M) (old : Bool) (X : CSR ℝ) (given : Args) (k a l loss init : Val)
    (hn : Only given ["n_components", "alpha", "l1_ratio", "beta_loss", "init"])
    (hk : Argument given "n_components" (.num 64) k) (ha : Argument given "alpha" (.num (1 / 100)) a)
    (hl : Argument given "l1_ratio" (.num (1 / 100)) l) (hb : Argument given "beta_loss" (.str "frobenius") loss)
    (hi : Argument given "init" .none init) :
    ∃ asked, Exactly asked [("n_components", k), (if old then "alpha" else "alpha_W", a), ("l1_ratio", l),
        ("beta_loss", loss), ("init", init), ("random_state", .num 42)] ∧
      nmfFit lib old X given = (lib.make asked >>= fun m => lib.fit m X >>= fun m => lib.fitTransform m X) := by
  have hc : construct nmf given = _ := construct_of_checks hn rfl
  refine ⟨[("n_components", k), ("init", init), ("l1_ratio", l), ("beta_loss", loss), ("random_state", .num 42),
    (if old then "alpha" else "alpha_W", a)], ?_, ?_⟩
  · intro name
    cases old <;>
    · simp only [List.lookup_cons, List.lookup_nil]
      by_cases h1 : name == "n_components"
      · simp [h1]
      by_cases h2 : name == "l1_ratio"
      · rw [beq_iff_eq] at h2; subst h2; rfl
      by_cases h3 : name == "beta_loss"
      · rw [beq_iff_eq] at h3; subst h3; rfl
      by_cases h4 : name == "init"
      · rw [beq_iff_eq] at h4; subst h4; rfl
      by_cases h5 : name == "random_state"
      · rw [beq_iff_eq] at h5; subst h5; rfl
      simp [h1, h2, h3, h4, h5]
  · unfold nmfFit
    rw [hc]
    show (lib.make [("n_components", valueOf given "n_components" (.num 64)), ("init", valueOf given "init" .none),
      ("l1_ratio", valueOf given "l1_ratio" (.num (1 / 100))),
      ("beta_loss", valueOf given "beta_loss" (.str "frobenius")), ("random_state", .num 42),
      (if old then "alpha" else "alpha_W", valueOf given "alpha" (.num (1 / 100)))] >>= fun m =>
      lib.fit m X >>= fun m => lib.fitTransform m X) = _
    rw [hk.eq, ha.eq, hl.eq, hb.eq, hi.eq]

/-! ## BPRFM -/

/-- C83 (`BPRFMRecommender`).  LightFM is made with the named dimension, penalties and loss, and
`fit_partial` is called on the training data `train_epochs` times with the named number of threads. -/
theorem C83_bpr {S : Type} (lib : FmLib S) (e : Env) (X : CSR ℝ) (given : Args) (k ia ua : Val) (loss : String)
    (n T : Nat)
    (hn : Only given ["n_components", "item_alpha", "user_alpha", "loss", "n_threads", "train_epochs"])
    (hk : Argument given "n_components" (.num 128) k)
    (hia : Argument given "item_alpha" (.num (1 / 1000000000)) ia)
    (hua : Argument given "user_alpha" (.num (1 / 1000000000)) ua)
    (hl : Argument given "loss" (.str "bpr") (.str loss)) (he : Argument given "train_epochs" (.num 128) (.num n))
    (hT : ThreadsAre e given T) :
    (loss = "bpr" ∨ loss = "warp" → ∃ asked each, Exactly asked [("no_components", k), ("item_alpha", ia),
        ("user_alpha", ua), ("loss", .str loss)] ∧ Exactly each [("num_threads", .num T)] ∧
      bprFit lib e X given = (lib.make asked >>= rounds n (fun _ fm => lib.fitPartial fm X each))) ∧
    (loss ≠ "bpr" → loss ≠ "warp" → bprFit lib e X given = .error .valueError) := by
  constructor
  · intro hloss
    have hc : construct bprfm given = _ := construct_of_checks hn (findSome_single (by
      show (match some (valueOf given "loss" (.str "bpr")) with
        | some (.str s) => if s ∈ ["bpr", "warp"] then none else some Err.valueError
        | _ => some Err.valueError) = none
      rw [hl.eq]
      rcases hloss with rfl | rfl <;> rfl))
    refine ⟨_, _, fun _ => rfl, fun _ => rfl, ?_⟩
    unfold bprFit
    rw [hc]
    show (e.nThreads (valueOf given "n_threads" .none) >>= fun t =>
      (lib.make [("no_components", valueOf given "n_components" (.num 128)),
        ("item_alpha", valueOf given "item_alpha" (.num (1 / 1000000000))),
        ("user_alpha", valueOf given "user_alpha" (.num (1 / 1000000000))),
        ("loss", valueOf given "loss" (.str "bpr"))] >>= fun fm => Except.ok (fm, t)) >>= fun tr =>
      toSize (valueOf given "train_epochs" (.num 128)) >>= fun n => epochs (bprEpoch lib X) n tr >>= fun tr =>
      Except.ok tr.1) = _
    rw [hT.eq, hk.eq, hia.eq, hua.eq, hl.eq, he.eq, toSize_nat]
    cases lib.make [("no_components", k), ("item_alpha", ia), ("user_alpha", ua), ("loss", .str loss)] with
    | error err => rfl
    | ok fm =>
      show (epochs (bprEpoch lib X) n (fm, .num T) >>= fun tr => Except.ok tr.1) = rounds n _ fm
      rw [bprEpochs_eq lib X (.num T) n 0 fm]
      unfold rounds
      rw [List.range_eq_range']
      cases List.foldlM (m := Except Err) (fun fm _ => lib.fitPartial fm X [("num_threads", .num T)]) fm
        (List.range' 0 n) <;> rfl
  · intro h1 h2
    have : construct bprfm given = .error .valueError := by
      unfold construct
      rw [if_pos (by rw [List.all_eq_true]; intro a ha; exact decide_eq_true (hn a ha))]
      have : Check.error (bprfm.params.map (fun d => (d.1, valueOf given d.1 d.2)))
          (.oneOf "loss" ["bpr", "warp"] .valueError) = some .valueError := by
        show (match some (valueOf given "loss" (.str "bpr")) with
          | some (.str s) => if s ∈ ["bpr", "warp"] then none else some Err.valueError
          | _ => some Err.valueError) = some .valueError
        rw [hl.eq]
        show (if loss ∈ ["bpr", "warp"] then none else some Err.valueError) = some .valueError
        rw [if_neg (by simp [h1, h2])]
      have hch : bprfm.checks = [.oneOf "loss" ["bpr", "warp"] .valueError] := rfl
      simp only [hch, List.findSome?_cons, this]
    unfold bprFit
    rw [this]
    rfl

/-! ## Mult-VAE -/

/-- C83 (`MultVAERecommender`).  The network has one hidden layer of `enc_hidden_dims` units in the encoder
and one of `dec_hidden_dims` units in the decoder (as many as in the encoder if `None`), a latent space of
`dim_z` dimensions and one output per item; it is trained for `train_epochs` epochs with the named annealing,
size of minibatches, learning rate and dropout. -/
theorem C83_multvae {O : Type} (lib : VaeLib O) (orders : Nat → List Nat) (X : CSR ℝ) (given : Args)
    (z enc : Nat) (dec : Option Nat) (drop l2 goal lr : ℚ) (anneal size n : Nat)
    (hn : Only given ["dim_z", "enc_hidden_dims", "dec_hidden_dims", "dropout_p", "l2_regularizer",
      "kl_anneal_goal", "anneal_end_epoch", "minibatch_size", "train_epochs", "learning_rate"])
    (h1 : Argument given "dim_z" (.num 16) (.num z)) (h2 : Argument given "enc_hidden_dims" (.num 256) (.num enc))
    (h3 : Argument given "dec_hidden_dims" .none (optionalSize dec))
    (h4 : Argument given "dropout_p" (.num (1 / 2)) (.num drop))
    (h5 : Argument given "l2_regularizer" (.num 0) (.num l2))
    (h6 : Argument given "kl_anneal_goal" (.num (1 / 5)) (.num goal))
    (h7 : Argument given "anneal_end_epoch" (.num 50) (.num anneal))
    (h8 : Argument given "minibatch_size" (.num 512) (.num size))
    (h9 : Argument given "train_epochs" (.num 300) (.num n))
    (h10 : Argument given "learning_rate" (.num (1 / 1000)) (.num lr)) :
    ∃ layout : VaeLayout, layout.encoder = [enc, 2 * z] ∧ layout.decoder = [dec.getD enc, X.cols] ∧
      layout.latent = z ∧
      (size = 0 → vaeFit lib orders X given = .error .zeroDivisionError) ∧
      (size ≠ 0 → vaeFit lib orders X given =
        rounds n (fun k => MultVAE.runEpoch ⟨goal, anneal, size, l2⟩ X (lib.update layout lr drop) (orders k))
          ⟨lib.init layout, lib.adamInit lr (lib.init layout), 0, 1⟩) := by
  have hc : construct multVae given = _ := construct_of_checks hn rfl
  refine ⟨⟨[enc, 2 * z], [dec.getD enc, X.cols], z⟩, rfl, rfl, rfl, ?_⟩
  set layout : VaeLayout := ⟨[enc, 2 * z], [dec.getD enc, X.cols], z⟩ with hlay
  have ht : vaeTrainer X.cols [.num z, .num enc, optionalSize dec, .num drop, .num l2, .num goal, .num anneal,
      .num size, .num lr] = .ok ⟨⟨goal, anneal, size, l2⟩, layout, drop, lr⟩ := by
    have hd : toSize (if optionalSize dec = .none then .num enc else optionalSize dec) = .ok (dec.getD enc) := by
      cases dec with
      | none => simp [optionalSize, toSize_nat]
      | some d => simp [optionalSize, toSize_nat]
    show (toSize (.num z) >>= fun z => toSize (.num enc) >>= fun a =>
      toSize (if optionalSize dec = .none then .num enc else optionalSize dec) >>= fun b =>
      toSize (.num anneal) >>= fun an => toSize (.num size) >>= fun si =>
      Except.ok (VaeTrainer.mk ⟨goal, an, si, l2⟩ (vaeLayout X.cols z [a] [b]) drop lr)) = _
    rw [hd]
    simp only [toSize_nat, bind, Except.bind]
    rfl
  have he : vaeFit lib orders X given =
      (MultVAE.create ⟨goal, anneal, size, l2⟩ (lib.init layout) (lib.adamInit lr (lib.init layout)) >>= fun s =>
        epochs (fun (q : MultVAE.State O × Nat) => do
          let s ← MultVAE.runEpoch ⟨goal, anneal, size, l2⟩ X (lib.update layout lr drop) (orders q.2) q.1
          return (s, q.2 + 1)) n (s, 0) >>= fun r => Except.ok r.1) := by
    unfold vaeFit
    rw [hc]
    show (vaeTrainer X.cols [valueOf given "dim_z" (.num 16), valueOf given "enc_hidden_dims" (.num 256),
      valueOf given "dec_hidden_dims" .none, valueOf given "dropout_p" (.num (1 / 2)),
      valueOf given "l2_regularizer" (.num 0), valueOf given "kl_anneal_goal" (.num (1 / 5)),
      valueOf given "anneal_end_epoch" (.num 50), valueOf given "minibatch_size" (.num 512),
      valueOf given "learning_rate" (.num (1 / 1000))] >>= fun tr =>
      MultVAE.create tr.cfg (lib.init tr.layout) (lib.adamInit tr.learningRate (lib.init tr.layout)) >>= fun s =>
      toSize (valueOf given "train_epochs" (.num 300)) >>= fun n =>
      epochs (fun (q : MultVAE.State O × Nat) => do
          let s ← MultVAE.runEpoch tr.cfg X (lib.update tr.layout tr.learningRate tr.dropout) (orders q.2) q.1
          return (s, q.2 + 1)) n (s, 0) >>= fun r => Except.ok r.1) = _
    rw [h1.eq, h2.eq, h3.eq, h4.eq, h5.eq, h6.eq, h7.eq, h8.eq, h9.eq, h10.eq, ht, toSize_nat]
    rfl
  rw [he]
  unfold MultVAE.create
  constructor
  · intro h
    rw [if_pos h]
    rfl
  · intro h
    rw [if_neg h]
    show (epochs _ n (_, 0) >>= fun r => Except.ok r.1) = _
    rw [epochs_eq (fun k => MultVAE.runEpoch ⟨goal, anneal, size, l2⟩ X (lib.update layout lr drop) (orders k)) n 0]
    unfold rounds
    rw [List.range_eq_range']
    cases List.foldlM (m := Except Err) (fun s k => MultVAE.runEpoch ⟨goal, anneal, size, l2⟩ X
      (lib.update layout lr drop) (orders k) s) ⟨lib.init layout, lib.adamInit lr (lib.init layout), 0, 1⟩
      (List.range' 0 n) <;> rfl

/-! ## What is refused -/

/-- C83 (refusals).  An argument that the class does not have is a `TypeError`; so is a misspelt one. -/
theorem C83_unknown_argument {S M O : Type} (r : SlimRun) (e : Env) (X : CSC ℝ) (Y : CSR ℝ) {U F : Nat}
    (Z : Matrix (Fin U) (Fin F) ℝ) (svd : Args → CSR ℝ → Except Err M) (nlib : NmfLib S M) (old : Bool)
    (flib : FmLib S) (vlib : VaeLib O) (orders : Nat → List Nat) (given : Args) (name : String) (v : Val)
    (hg : (name, v) ∈ given) :
    (name ∉ ["alpha", "l1_ratio", "positive_only", "n_iter", "tol", "top_k", "n_threads"] →
      slimFit r e X given = .error .typeError) ∧
    (name ≠ "reg" → denseSlimFit Z given = .error .typeError) ∧
    (name ∉ ["reg", "dropout_p"] → edlaeFit Z given = .error .typeError) ∧
    (name ∉ ["n_components", "random_seed"] → svdFit svd Y given = .error .typeError) ∧
    (name ∉ ["n_components", "alpha", "l1_ratio", "beta_loss", "init"] →
      nmfFit nlib old Y given = .error .typeError) ∧
    (name ∉ ["n_components", "item_alpha", "user_alpha", "loss", "n_threads", "train_epochs"] →
      bprFit flib e Y given = .error .typeError) ∧
    (name ∉ ["dim_z", "enc_hidden_dims", "dec_hidden_dims", "dropout_p", "l2_regularizer",
      "kl_anneal_goal", "anneal_end_epoch", "minibatch_size", "train_epochs", "learning_rate"] →
      vaeFit vlib orders Y given = .error .typeError) := by
  have key : ∀ c : RecClass, name ∉ c.params.map (·.1) → construct c given = .error .typeError := by
    intro c hc
    unfold construct
    rw [if_neg]
    intro h
    rw [List.all_eq_true] at h
    exact hc (of_decide_eq_true (h _ hg))
  refine ⟨fun h => ?_, fun h => ?_, fun h => ?_, fun h => ?_, fun h => ?_, fun h => ?_, fun h => ?_⟩
  · unfold slimFit; rw [key RecClasses.slim h]; rfl
  · unfold denseSlimFit; rw [key RecClasses.denseSlim (by simpa [RecClasses.denseSlim] using h)]; rfl
  · unfold edlaeFit; rw [key RecClasses.edlae h]; rfl
  · unfold svdFit; rw [key RecClasses.truncatedSvd h]; rfl
  · unfold nmfFit; rw [key RecClasses.nmf h]; rfl
  · unfold bprFit; rw [key RecClasses.bprfm h]; rfl
  · unfold vaeFit; rw [key RecClasses.multVae h]; rfl

/-! ## Concrete cases -/

/-- one thread takes everything -/
noncomputable def exampleSlimRun : SlimRun where
  blockSize := 8
  prec := 0
  shuffles _ := [0, 1]
  srt l := l
  sched T := List.flatten (List.replicate 3 (List.finRange T))

/-- two users, two items -/
noncomputable def exampleSlimX : CSC ℝ := ⟨2, [[(0, 1), (1, 2)], [(0, 1)]]⟩

/-- `SLIMRecommender(X, top_k=3, alpha=0.5)` on two processors, the other arguments left out -/
example : ∃ s : State 2 (Slim.Worker ℝ) Unit,
    slimFit exampleSlimRun exampleEnv2 exampleSlimX [("top_k", .num 3), ("alpha", .num (1 / 2))] = .ok ⟨2, s⟩ := by
  obtain ⟨h, -, -⟩ := C83_slim exampleSlimRun exampleEnv2 exampleSlimX [("top_k", .num 3), ("alpha", .num (1 / 2))]
    (1 / 2) (1 / 100) true 100 (1 / 10000) (some 3) 2
    (by intro a ha; simp at ha; rcases ha with rfl | rfl <;> simp) (.inl rfl) (.inr ⟨rfl, rfl⟩) (.inr ⟨rfl, rfl⟩)
    (.inr ⟨rfl, by norm_num⟩) (.inr ⟨rfl, rfl⟩) (.inl (by simp [optionalSize])) (.inr ⟨.inr ⟨rfl, rfl⟩, rfl⟩)
  have : ∃ s : State 2 (Slim.Worker ℝ) Unit, Slim.slim (slimSettings exampleSlimRun exampleSlimX.rows ((1 / 2 : ℚ) : ℝ)
      ((1 / 100 : ℚ) : ℝ) true 100 ((1 / 10000 : ℚ) : ℝ) (some 3)) exampleSlimX exampleSlimRun.shuffles
      exampleSlimRun.srt (exampleSlimRun.sched 2) = .ok s := by
    unfold Slim.slim slimSettings exampleSlimX
    simp only
    rw [if_neg (by norm_num), if_neg (by norm_num), if_neg (by norm_num), if_neg (by norm_num)]
    exact ⟨_, rfl⟩
  obtain ⟨s, hs⟩ := this
  exact ⟨s, (h _).mpr ⟨s, rfl, hs⟩⟩

/-- `EDLAERecommender(X, dropout_p=0.5)` -/
example : ∃ W, edlaeFit (U := 2) (F := 2) (fun _ _ => 1) [("dropout_p", .num (1 / 2))] = .ok W :=
  let ⟨W, h, _⟩ := (C83_edlae (U := 2) (F := 2) (fun _ _ => 1) [("dropout_p", .num (1 / 2))] 1 (1 / 2)
    (by intro a ha; simp at ha; subst ha; simp) (.inr ⟨rfl, rfl⟩) (.inl rfl)).1 (by norm_num) (by norm_num) (by norm_num)
  ⟨W, h⟩

/-- `TruncatedSVDRecommender(X, n_components=10)` on data with two items asks for one component and seed 0. -/
example : svdFit (fun a _ => .ok a) ⟨2, [[(0, 1)], [(1, 1)]]⟩ [("n_components", .num 10)] =
    .ok [("n_components", .num 1), ("random_state", .num 0)] := by
  decide +kernel

/-- `BPRFMRecommender(X, loss="warp", train_epochs=2, item_alpha=0.5)`, with a library that writes down what it
is asked for. -/
example : bprFit (S := List Args) ⟨fun a => .ok [a], fun s _ a => .ok (s ++ [a])⟩ exampleEnv2 ⟨1, [[(0, 1)]]⟩
    [("loss", .str "warp"), ("train_epochs", .num 2), ("item_alpha", .num (1 / 2))] =
    .ok [[("no_components", .num 128), ("item_alpha", .num (1 / 2)), ("user_alpha", .num (1 / 1000000000)),
      ("loss", .str "warp")], [("num_threads", .num 2)], [("num_threads", .num 2)]] := by
  rfl

/-- `NMFRecommender(X, alpha=0.5)` with scikit-learn 1.x, likewise. -/
example : nmfFit (S := Args) (M := Unit) ⟨fun a => .ok a, fun s _ => .ok s, fun s _ => .ok (s, ())⟩ false
    ⟨1, [[(0, 1)]]⟩ [("alpha", .num (1 / 2))] =
    .ok ([("n_components", .num 64), ("init", .none), ("l1_ratio", .num (1 / 100)), ("beta_loss", .str "frobenius"),
      ("random_state", .num 42), ("alpha_W", .num (1 / 2))], ()) := by
  rfl

/-- `MultVAERecommender(X, dim_z=4, enc_hidden_dims=8, train_epochs=0)`: the decoder gets 8 hidden units too. -/
example (lib : VaeLib Unit) (orders : Nat → List Nat) : ∃ layout : VaeLayout, layout.encoder = [8, 8] ∧
    layout.decoder = [8, 3] ∧ vaeFit lib orders ⟨3, [[(0, 1)]]⟩
      [("dim_z", .num 4), ("enc_hidden_dims", .num 8), ("train_epochs", .num 0)] = .ok ⟨lib.init layout, (), 0, 1⟩ := by
  obtain ⟨layout, h1, h2, -, -, h⟩ := C83_multvae lib orders ⟨3, [[(0, 1)]]⟩
    [("dim_z", .num 4), ("enc_hidden_dims", .num 8), ("train_epochs", .num 0)] 4 8 none (1 / 2) 0 (1 / 5) (1 / 1000)
    50 512 0 (by intro a ha; simp at ha; rcases ha with rfl | rfl | rfl <;> simp) (.inl (by first | (norm_num; done) | (norm_num; rfl)))
    (.inl (by first | (norm_num; done) | (norm_num; rfl))) (.inr ⟨rfl, rfl⟩) (.inr ⟨rfl, rfl⟩) (.inr ⟨rfl, by norm_num⟩) (.inr ⟨rfl, rfl⟩)
    (.inr ⟨rfl, by norm_num⟩) (.inr ⟨rfl, by norm_num⟩) (.inl (by first | (norm_num; done) | (norm_num; rfl))) (.inr ⟨rfl, rfl⟩)
  exact ⟨layout, h1, h2, h (by norm_num)⟩

/-- `SLIMRecommender(X, top_k=2.5)` is refused -/
example : slimFit exampleSlimRun exampleEnv2 exampleSlimX [("top_k", .num (5 / 2))] = .error .typeError :=
  C83_slim_not_whole exampleSlimRun exampleEnv2 exampleSlimX [("top_k", .num (5 / 2))]
    (1 / 20) (1 / 100) true (.num 100) (1 / 10000) (.num (5 / 2)) 2
    (by intro a ha; simp at ha; subst ha; simp) (.inr ⟨rfl, rfl⟩) (.inr ⟨rfl, rfl⟩) (.inr ⟨rfl, rfl⟩)
    (.inr ⟨rfl, rfl⟩) (.inr ⟨rfl, rfl⟩) (.inl (by simp)) (.inr ⟨.inr ⟨rfl, rfl⟩, rfl⟩)
    (.inr ⟨by simp, fun z h => by
      have h : (5 / 2 : ℚ) = z := by injection h
      have : (5 : ℚ) = 2 * z := by linarith
      have : (5 : ℤ) = 2 * z := by exact_mod_cast this
      omega⟩)

end Irspack.Props
