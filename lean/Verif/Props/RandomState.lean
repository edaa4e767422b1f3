import Verif.Proofs.RandomState
import Verif.Spec.Workflow
import Mathlib.Data.Char

/-!
# C76: seeds and random states

`run np fl e req arg` is a call of `rowwise_train_test_split`, `split_dataframe_partial_user_holdout`,
`holdout_specific_interactions` or `mf_example_data` with `random_state=arg`, in a process whose random
generators are a `World`.  `np` are the random libraries, `e` the orders of Python sets and of equal sort
keys in this process.
-/

namespace Irspack.RandomState

open Irspack Irspack.Split Irspack.Spec

section
variable {G M U I T : Type} [LinearOrder U] [LinearOrder I] [LinearOrder T]

theorem local_specificUsers (np : Random G M) (fl : ℝ → ℝ) (users : List U) (vTrain ratioVal : ℝ) :
    ∃ f, Local (specificUsersWith np fl users vTrain ratioVal) f ∧
      (Shuffles np → ∀ g, ∃ sh : Nat → List U → List U, (∀ k l, (sh k l).Perm l) ∧
        ∀ (o : Oracle U I T) (ratioTest : ℝ), o.shuffle = sh → vTrain = fl (fl (1 - ratioVal) - ratioTest) →
          ¬ vTrain < -1e-10 → (f g).1 = specificUsers fl o users ratioVal ratioTest) := by
  classical
  by_cases hc : fl (1 - vTrain) ≥ 1
  · have heq : (fun id => (Act.pure (users, ([] : List U))).bind fun s =>
        if fl (1 - vTrain) = 0 then Act.lift (.error .zeroDivisionError) else
          (splitListWith np s.1 (truncZ (fl (fl (s.1.length * ratioVal) / fl (1 - vTrain)))) id).bind
            fun s' => .pure (s.2, s'.2, s'.1)) = specificUsersWith np fl users vTrain ratioVal := by
      funext id
      unfold specificUsersWith
      simp only [if_pos hc]
    refine ⟨_, heq ▸ local_bind (local_pure (users, ([] : List U))) (fun s =>
      local_ite (fl (1 - vTrain) = 0) (local_lift _) (local_bind (local_splitList np s.1 _)
        (fun s' => local_pure (s.2, s'.2, s'.1)))), fun h g => ?_⟩
    refine ⟨fun _ l => permute (np.shuffle g l.length).1 l, fun _ l => permute_perm (h.shuffle _ _), ?_⟩
    rintro o ratioTest ho rfl hv
    unfold specificUsers
    simp only [if_neg hv, if_pos hc, seqF, ho]
    split_ifs <;> rfl
  · have heq : (fun id => (splitListWith np users (truncZ (fl (vTrain * users.length))) id).bind fun s =>
        if fl (1 - vTrain) = 0 then Act.lift (.error .zeroDivisionError) else
          (splitListWith np s.1 (truncZ (fl (fl (s.1.length * ratioVal) / fl (1 - vTrain)))) id).bind
            fun s' => .pure (s.2, s'.2, s'.1)) = specificUsersWith np fl users vTrain ratioVal := by
      funext id
      unfold specificUsersWith
      simp only [if_neg hc]
    refine ⟨_, heq ▸ local_bind (local_splitList np users _) (fun s =>
      local_ite (fl (1 - vTrain) = 0) (local_lift _) (local_bind (local_splitList np s.1 _)
        (fun s' => local_pure (s.2, s'.2, s'.1)))), fun h g => ?_⟩
    refine ⟨fun k l => if k = 0 then permute (np.shuffle g l.length).1 l
      else permute (np.shuffle (np.shuffle g users.length).2 l.length).1 l, ?_, ?_⟩
    · intro k l
      dsimp only
      split_ifs
      · exact permute_perm (h.shuffle _ _)
      · exact permute_perm (h.shuffle _ _)
    rintro o ratioTest ho rfl hv
    unfold specificUsers
    simp only [if_neg hv, if_neg hc, seqF, ho, splitListF, if_true]
    split_ifs <;> first | contradiction | rfl

/-- The shape of every call. -/
theorem run_shape (np : Random G M) (hS : Shuffles np) (fl : ℝ → ℝ) (e : Orders U I T)
    (req : Request U I T) :
    ∃ pre f, Shape np (run np fl e req) pre f ∧
      (pre = none → ∀ g, ReturnsModel fl e req (f g).1) ∧
      ∀ er, pre = some er → ReturnsModel fl e req (.error er) := by
  classical
  cases req with
  | rowwise X r n c =>
    refine ⟨_, _, shape_bind_pure np (shape_convert np (local_rowwise np fl X r n c))
      (fun s => Result.pair s.1 s.2), fun _ g => ?_, by rintro _ ⟨⟩⟩
    exact ⟨rowOrder np (np.randint g).1 X, fun k => rowOrder_perm np hS _ X k, rfl⟩
  | holdout p df =>
    cases hsz : holdoutSizes fl p (df.map Row.user).dedup.length with
    | error er =>
      have heq : (fun _ => Act.lift (G := G) (.error er)) = partialUserHoldoutSeeded np fl e p df := by
        funext arg w
        simp only [partialUserHoldoutSeeded, hsz, Act.bind, Act.lift]
      refine ⟨_, _, shape_bind_pure np (heq ▸ shape_error np er (fun g => (.error er, g)))
        Result.datasets, (by rintro ⟨⟩), ?_⟩
      rintro _ ⟨⟩
      refine ⟨fun _ l => l, fun _ _ n => List.range n, fun _ _ => List.Perm.refl _,
        fun _ _ _ => List.Perm.refl _, ?_⟩
      simp only [partialUserHoldout, hsz]
      rfl
    | ok sizes =>
      obtain ⟨nVal, nTest, ratio⟩ := sizes
      obtain ⟨f, hl, hr⟩ := local_holdout np hS fl e p df nVal nTest ratio hsz
      have heq : (fun arg => (convert np arg).bind (holdoutWith np fl e p df nVal nTest ratio))
          = partialUserHoldoutSeeded np fl e p df := by
        funext arg w
        simp only [partialUserHoldoutSeeded, hsz, Act.bind, Act.lift]
      refine ⟨_, _, shape_bind_pure np (heq ▸ shape_convert np hl) Result.datasets, fun _ g => ?_,
        by rintro _ ⟨⟩⟩
      obtain ⟨sh, rs, h1, h2, h3⟩ := hr g
      exact ⟨sh, rs, h1, h2, by rw [h3]⟩
  | specific df v t =>
    by_cases hv : fl (fl (1 - v) - t) < -1e-10
    · have heq : (fun _ => Act.lift (G := G) (.error .valueError)) = holdoutSpecificSeeded np fl df v t := by
        funext arg
        simp only [holdoutSpecificSeeded, if_pos hv]
      refine ⟨_, _, shape_bind_pure np (heq ▸ shape_error np .valueError (fun g => (.error .valueError, g)))
        Result.datasets, (by rintro ⟨⟩), ?_⟩
      rintro _ ⟨⟩
      refine ⟨fun _ l => l, fun _ _ => List.Perm.refl _, ?_⟩
      simp only [holdoutSpecific, specificUsers, if_pos hv]
      rfl
    · obtain ⟨f, hl, hr⟩ := local_specificUsers (I := I) (T := T) np fl
        (((df.filter (fun r => r.2)).map (fun r => r.1.user)).dedup.insertionSort (· ≤ ·))
        (fl (fl (1 - v) - t)) v
      have heq : (fun arg => (convert np arg).bind fun id =>
          (specificUsersWith np fl (((df.filter (fun r => r.2)).map (fun r => r.1.user)).dedup.insertionSort
            (· ≤ ·)) (fl (fl (1 - v) - t)) v id).bind fun s => .lift (specificDatasets df s))
          = holdoutSpecificSeeded np fl df v t := by
        funext arg
        simp only [holdoutSpecificSeeded, if_neg hv]
      refine ⟨_, _, shape_bind_pure np (heq ▸ shape_convert np (local_bind hl
        (fun s => local_lift (specificDatasets df s)))) Result.datasets, fun _ g => ?_, by rintro _ ⟨⟩⟩
      obtain ⟨sh, h1, h2⟩ := hr hS g
      refine ⟨sh, h1, ?_⟩
      have h3 := h2 ⟨sh, fun _ _ n => List.range n, e.setOrderU, e.setOrderI, e.sortValues⟩ t rfl rfl hv
      simp only [seqF, holdoutSpecific]
      rw [h3]
      cases specificUsers fl (⟨sh, fun _ _ n => List.range n, e.setOrderU, e.setOrderI,
          e.sortValues⟩ : Oracle U I T)
        (((df.filter (fun r => r.2)).map (fun r => r.1.user)).dedup.insertionSort (· ≤ ·)) v t with
      | error er => rfl
      | ok s => rfl
  | sample nU nI nC t =>
    refine ⟨_, _, shape_bind_pure np (shape_convert np (local_bind (local_draw (fun g => np.randn g nU nC))
      (fun gu => local_bind (local_draw (fun g => np.randn g nI nC))
        (fun gi => local_bind (local_draw (fun g => np.binomial g nU nI
          (SampleData.probability nU nI nC gu gi t)))
          (fun b => local_pure (SampleData.mfExampleData nU nI nC gu gi t (fun u i _ => b u i)))))))
      Result.matrix, fun _ g => ?_, by rintro _ ⟨⟩⟩
    exact ⟨_, _, _, rfl⟩

/-- The same integer seed gives the same result in every state of the process: whatever was drawn
before, from whatever generator, and whatever other random states exist.  The two calls see the same
order of Python sets (see `C76_set_order_counterexample`). -/
theorem C76_seed_partial (np : Random G M) (hS : Shuffles np) (fl : ℝ → ℝ) (e : Orders U I T)
    (req : Request U I T) (s : Int) (w w' : World G) :
    (run np fl e req (.int s) w).1 = (run np fl e req (.int s) w').1 := by
  obtain ⟨pre, f, h, -⟩ := run_shape np hS fl e req
  cases pre with
  | some er => rw [h.early er rfl, h.early er rfl]
  | none =>
    cases hg : np.ofSeed s with
    | none => rw [h.badSeed rfl s w hg, h.badSeed rfl s w' hg]
    | some g => rw [h.int rfl s w g hg, h.int rfl s w' g hg]

/-- A `RandomState` object: the result and the state the object is left in are determined by the state
it was in, and a fresh object made from a seed gives the result of the seed. -/
theorem C76_generator_partial (np : Random G M) (hS : Shuffles np) (fl : ℝ → ℝ) (e : Orders U I T)
    (req : Request U I T) (w w' : World G) (id id' : Nat) (g : G) (hg : w.objs[id]? = some g)
    (hg' : w'.objs[id']? = some g) :
    (run np fl e req (.gen id) w).1 = (run np fl e req (.gen id') w').1 ∧
      (run np fl e req (.gen id) w).2.objs[id]? = (run np fl e req (.gen id') w').2.objs[id']? ∧
      ∀ s, np.ofSeed s = some g → (run np fl e req (.gen id) w).1 = (run np fl e req (.int s) w').1 := by
  obtain ⟨pre, f, h, -⟩ := run_shape np hS fl e req
  have hl := (List.getElem?_eq_some_iff.mp hg).1
  have hl' := (List.getElem?_eq_some_iff.mp hg').1
  cases pre with
  | some er =>
    rw [h.early er rfl, h.early er rfl]
    refine ⟨rfl, by rw [hg, hg'], fun s _ => by rw [h.early er rfl]⟩
  | none =>
    rw [h.gen rfl id w g hg, h.gen rfl id' w' g hg']
    refine ⟨rfl, by simp [hl, hl'], fun s hs => by rw [h.int rfl s w' g hs]⟩

/-- A call touches nothing but the generator it is given: numpy's global generator and every other
`RandomState` object are as before, and so is the given one if the call gets a seed.  Entropy is read
only for `None`. -/
theorem C76_isolated (np : Random G M) (hS : Shuffles np) (fl : ℝ → ℝ) (e : Orders U I T)
    (req : Request U I T) (arg : Arg) (w : World G) :
    (run np fl e req arg w).2.global = w.global ∧
      (∀ id < w.objs.length, arg ≠ .gen id → (run np fl e req arg w).2.objs[id]? = w.objs[id]?) ∧
      w.objs.length ≤ (run np fl e req arg w).2.objs.length ∧
      (arg ≠ .none → (run np fl e req arg w).2.entropy = w.entropy) := by
  obtain ⟨pre, f, h, -⟩ := run_shape np hS fl e req
  cases pre with
  | some er => rw [h.early er rfl]; exact ⟨rfl, fun _ _ _ => rfl, le_rfl, fun _ => rfl⟩
  | none =>
    cases arg with
    | none =>
      rw [h.noArg rfl w]
      exact ⟨rfl, fun id hid _ => by simp [List.getElem?_append_left hid], by simp, by simp⟩
    | int s =>
      cases hg : np.ofSeed s with
      | none => rw [h.badSeed rfl s w hg]; exact ⟨rfl, fun _ _ _ => rfl, le_rfl, fun _ => rfl⟩
      | some g =>
        rw [h.int rfl s w g hg]
        exact ⟨rfl, fun id hid _ => by simp [List.getElem?_append_left hid], by simp, fun _ => rfl⟩
    | gen i =>
      cases hg : w.objs[i]? with
      | none => rw [h.dangling rfl i w hg]; exact ⟨rfl, fun _ _ _ => rfl, le_rfl, fun _ => rfl⟩
      | some g =>
        rw [h.gen rfl i w g hg]
        refine ⟨rfl, fun id hid hne => ?_, by simp, fun _ => rfl⟩
        have : i ≠ id := fun h => hne (by rw [h])
        simp [List.getElem?_set_ne this]
    | other => rw [h.other rfl w]; exact ⟨rfl, fun _ _ _ => rfl, le_rfl, fun _ => rfl⟩

/-- Histories: any calls in between that do not get the object `id` leave its next result unchanged. -/
theorem C76_history_partial (np : Random G M) (hS : Shuffles np) (fl : ℝ → ℝ) (e : Orders U I T)
    (req : Request U I T) (id : Nat) (w : World G) (hid : id < w.objs.length)
    (calls : List (Request U I T × Arg)) (hc : ∀ c ∈ calls, c.2 ≠ .gen id) :
    (run np fl e req (.gen id) (after np fl e calls w)).1 = (run np fl e req (.gen id) w).1 ∧
      (after np fl e calls w).global = w.global := by
  have key : ∀ (calls : List (Request U I T × Arg)) (w : World G), id < w.objs.length →
      (∀ c ∈ calls, c.2 ≠ .gen id) →
      (after np fl e calls w).objs[id]? = w.objs[id]? ∧ (after np fl e calls w).global = w.global := by
    intro calls
    induction calls with
    | nil => intro w _ _; exact ⟨rfl, rfl⟩
    | cons c calls ih =>
      intro w hid hc
      obtain ⟨h1, h2, h3, -⟩ := C76_isolated np hS fl e c.1 c.2 w
      have h4 := ih (run np fl e c.1 c.2 w).2 (by omega) (fun d hd => hc d (List.mem_cons_of_mem _ hd))
      have h5 := h2 id hid (hc c List.mem_cons_self)
      unfold after at h4 ⊢
      rw [List.foldl_cons]
      exact ⟨h4.1.trans h5, h4.2.trans h1⟩
  obtain ⟨h1, h2⟩ := key calls w hid hc
  have hg : w.objs[id]? = some w.objs[id] := List.getElem?_eq_getElem hid
  exact ⟨(C76_generator_partial np hS fl e req _ w id id w.objs[id] (h1.trans hg) hg).1, h2⟩

/-- Every outcome is one that the models of C22-C27 and C71 describe, with permutations as shuffles; the
only other outcomes are errors for unusable random states, which change nothing. -/
theorem C76_models (np : Random G M) (hS : Shuffles np) (fl : ℝ → ℝ) (e : Orders U I T)
    (req : Request U I T) (arg : Arg) (w : World G) (ha : ∀ id, arg = .gen id → id < w.objs.length) :
    ReturnsModel fl e req (run np fl e req arg w).1 ∨
      (run np fl e req arg w = (.error .valueError, w) ∧
        (arg = .other ∨ ∃ s, arg = .int s ∧ np.ofSeed s = none)) := by
  obtain ⟨pre, f, h, h1, h2⟩ := run_shape np hS fl e req
  cases pre with
  | some er => rw [h.early er rfl]; exact Or.inl (h2 er rfl)
  | none =>
    cases arg with
    | none => rw [h.noArg rfl w]; exact Or.inl (h1 rfl _)
    | int s =>
      cases hg : np.ofSeed s with
      | none => exact Or.inr ⟨h.badSeed rfl s w hg, Or.inr ⟨s, rfl, hg⟩⟩
      | some g => rw [h.int rfl s w g hg]; exact Or.inl (h1 rfl _)
    | gen id =>
      have hid := ha id rfl
      rw [h.gen rfl id w _ (List.getElem?_eq_getElem hid)]
      exact Or.inl (h1 rfl _)
    | other => exact Or.inr ⟨h.other rfl w, Or.inl rfl⟩

/-- An argument that is no random state is never accepted. -/
theorem C76_rejects (np : Random G M) (hS : Shuffles np) (fl : ℝ → ℝ) (e : Orders U I T)
    (req : Request U I T) (w : World G) (x : Result U I) : (run np fl e req .other w).1 ≠ .ok x := by
  obtain ⟨pre, f, h, -⟩ := run_shape np hS fl e req
  cases pre with
  | some er => rw [h.early er rfl]; rintro ⟨⟩
  | none => rw [h.other rfl w]; rintro ⟨⟩

/-- Except for the user hold-out, the order of sets does not matter: the result of a seed is the same in
every process. -/
theorem C76_processes_partial (np : Random G M) (fl : ℝ → ℝ) (e e' : Orders U I T) (req : Request U I T)
    (hreq : ∀ p df, req ≠ .holdout p df) (arg : Arg) (w : World G) :
    run np fl e req arg w = run np fl e' req arg w := by
  cases req with
  | holdout p df => exact absurd rfl (hreq p df)
  | rowwise X r n c => rfl
  | specific df v t => rfl
  | sample nU nI nC t => rfl

end
/-! ### Concrete cases -/

/-- A small random library: the state counts the draws, and odd states reverse. -/
def exRandom : Random Nat Nat where
  ofSeed := fun s => if 0 ≤ s ∧ s < 2 ^ 32 then some s.toNat else none
  ofEntropy := fun n => 1000 + n
  shuffle := fun g n => (if g % 2 = 0 then List.range n else (List.range n).reverse, g + 1)
  randint := fun g => (g, g + 1)
  randn := fun g _ _ => (fun u i => u + i + g, g + 1)
  binomial := fun g _ _ _ => (fun u i => decide ((u + i + g) % 2 = 0), g + 1)
  mtOfSeed := Int.toNat
  mtShuffle := fun g n => (if g % 2 = 0 then List.range n else (List.range n).reverse, g + 1)

/-- Its shuffles are permutations. -/
theorem exRandom_shuffles : Shuffles exRandom := by
  constructor
  · intro g n
    simp only [exRandom]
    split_ifs
    · exact List.Perm.refl _
    · exact List.reverse_perm _
  · intro g n
    simp only [exRandom]
    split_ifs
    · exact List.Perm.refl _
    · exact List.reverse_perm _

/-- The frame: user 0 interacted with items `a` and `b`. -/
def exPair : List (Row Nat Char Nat) := [⟨0, 'a', 0, 1⟩, ⟨0, 'b', 0, 1⟩]

/-- One validation user, one interaction held out at random. -/
noncomputable def exOneOut : HoldoutParams where
  timeBased := false
  useRating := false
  nValUser := some 1
  nTestUser := some 0
  valUserRatio := 0
  testUserRatio := 0
  heldoutRatioVal := 0
  nHeldoutVal := some 1
  heldoutRatioTest := 0
  nHeldoutTest := some 1
  ceil := false

/-- A process in which the items are listed by `setI`. -/
def exOrders (setI : List Char → List Char) : Orders Nat Char Nat where
  setOrderU := id
  setOrderI := setI
  sortValues := fun l => l.insertionSort (fun a b => a.user < b.user ∨ (a.user = b.user ∧ a.time ≤ b.time))

theorem ex_sizes : holdoutSizes id exOneOut (exPair.map Row.user).dedup.length = .ok (1, 0, 0) := by
  have : (exPair.map Row.user).dedup.length = 1 := by decide
  rw [this]
  simp [holdoutSizes, exOneOut]

theorem ex_users (i : Nat) : holdoutUsersWith exRandom id (exPair.map Row.user).dedup 1 0 0 i =
    (splitListWith exRandom (exPair.map Row.user).dedup (1 + 0) i).bind
      (fun s => .pure (s.1, s.2, [])) := by
  unfold holdoutUsersWith
  simp [not_le.mpr one_pos]

theorem ex_run (setI : List Char → List Char) (w : World Nat) :
    run exRandom id (exOrders setI) (.holdout exOneOut exPair) (.int 0) w =
      ((((holdoutWith exRandom id (exOrders setI) exOneOut exPair 1 0 0 0 ⟨0, [0], 0⟩).1).map .datasets),
        (run exRandom id (exOrders setI) (.holdout exOneOut exPair) (.int 0) w).2) := by
  have h : (run exRandom id (exOrders setI) (.holdout exOneOut exPair) (.int 0) w).1 =
      (holdoutWith exRandom id (exOrders setI) exOneOut exPair 1 0 0 0 ⟨0, [0], 0⟩).1.map .datasets := by
    rw [C76_seed_partial exRandom exRandom_shuffles id (exOrders setI) (.holdout exOneOut exPair) 0 w
      ⟨0, [], 0⟩]
    simp only [run, partialUserHoldoutSeeded, ex_sizes, Act.bind, Act.lift, Act.pure]
    have hc : convert exRandom (.int 0) ⟨0, [], 0⟩ = (.ok 0, ⟨0, [0], 0⟩) := rfl
    simp only [hc]
    cases (holdoutWith exRandom id (exOrders setI) exOneOut exPair 1 0 0 0 ⟨0, [0], 0⟩).1 <;> rfl
  rw [← h]

theorem ex_plain : ∃ H, (holdoutWith exRandom id (exOrders id) exOneOut exPair 1 0 0 0 ⟨0, [0], 0⟩).1 = .ok H ∧
    H.val.userIds = [0] ∧ H.items = ['a', 'b'] ∧ storedCols H.val.xTest 0 = [1] := by
  simp only [holdoutWith, ex_users]
  exact ⟨_, rfl, rfl, rfl, rfl⟩

theorem ex_reversed : ∃ H, (holdoutWith exRandom id (exOrders List.reverse) exOneOut exPair 1 0 0 0
    ⟨0, [0], 0⟩).1 = .ok H ∧
    H.val.userIds = [0] ∧ H.items = ['b', 'a'] ∧ storedCols H.val.xTest 0 = [1] := by
  simp only [holdoutWith, ex_users]
  exact ⟨_, rfl, rfl, rfl, rfl⟩

/-- The same seed, the same frame, two processes that list the set of the items `a`, `b` in different
orders (as two runs of Python do, because the hashes of strings differ from run to run): one holds out
`a`, the other `b`. -/
theorem C76_set_order_counterexample (w : World Nat) :
    ∃ H H', (run exRandom id (exOrders id) (.holdout exOneOut exPair) (.int 0) w).1 = .ok (.datasets H) ∧
      (run exRandom id (exOrders List.reverse) (.holdout exOneOut exPair) (.int 0) w).1
        = .ok (.datasets H') ∧
      (HeldOut H.val H.items 0 'b' ∧ ¬ HeldOut H.val H.items 0 'a') ∧
      (HeldOut H'.val H'.items 0 'a' ∧ ¬ HeldOut H'.val H'.items 0 'b') := by
  obtain ⟨H, h1, h2, h3, h4⟩ := ex_plain
  obtain ⟨H', h1', h2', h3', h4'⟩ := ex_reversed
  have one : ∀ (P : UserPair Nat Char) (x y : Char), x ≠ y → P.userIds = [0] → storedCols P.xTest 0 = [1] →
      HeldOut P [x, y] 0 y ∧ ¬ HeldOut P [x, y] 0 x := by
    intro P x y hxy hu hc
    refine ⟨⟨0, 1, by rw [hu]; rfl, rfl, by rw [hc]; exact List.mem_singleton_self 1⟩, ?_⟩
    rintro ⟨k, j, hk, hj, hm⟩
    rw [hu] at hk
    obtain rfl : k = 0 := by
      by_contra hne
      rw [List.getElem?_eq_none (by simp; omega)] at hk
      cases hk
    rw [hc] at hm
    obtain rfl : j = 1 := by simpa using hm
    simp at hj
    exact hxy hj.symm
  refine ⟨H, H', ?_, ?_, ?_, ?_⟩
  · rw [ex_run, h1]; rfl
  · rw [ex_run, h1']; rfl
  · rw [h3]; exact one H.val 'a' 'b' (by decide) h2 h4
  · rw [h3']; exact one H'.val 'b' 'a' (by decide) h2' h4'

/-- Training a Mult-VAE model draws from numpy's global generator: it is advanced, and two processes (or
two moments of one process) that differ only in its state train on different minibatches. -/
theorem C76_multvae_counterexample :
    ∃ (cfg : MultVAE.Config) (X : CSR ℝ)
      (upd : MultVAE.Params → Nat → ℝ → List (Nat → ℝ) → ℝ → MultVAE.Params × ℝ) (s : MultVAE.State ℝ)
      (w w' : World Nat), w.objs = w'.objs ∧ (multVaeEpoch exRandom cfg X upd s w).2.global ≠ w.global ∧
      ∃ r r', (multVaeEpoch exRandom cfg X upd s w).1 = .ok r ∧
        (multVaeEpoch exRandom cfg X upd s w').1 = .ok r' ∧ r.opt ≠ r'.opt := by
  let p : MultVAE.Params := ⟨0, [], ⟨0, fun _ _ => 0, fun _ => 0⟩, [], ⟨0, fun _ _ => 0, fun _ => 0⟩⟩
  let X : CSR ℝ := ⟨2, [[(0, 1)], [(1, 1)]]⟩
  let cfg : MultVAE.Config := ⟨1, 1, 1, 0⟩
  have hX : X.nrows = 2 := rfl
  have ht : MultVAE.totalAnneal cfg X.nrows ≠ 0 := by
    rw [hX]; simp [MultVAE.totalAnneal, cfg]
  have hb : MultVAE.minibatches 1 [0, 1] = [[0], [1]] := by decide
  have hb' : MultVAE.minibatches 1 [1, 0] = [[1], [0]] := by decide
  refine ⟨cfg, X, fun p _ _ b _ => (p, b.headD (fun _ => 0) 0), ⟨p, 0, 0, 0⟩, ⟨0, [], 0⟩, ⟨1, [], 0⟩, rfl,
    by show (1 : Nat) ≠ 0; decide, ⟨p, 0, 2, 2⟩, ⟨p, 1, 2, 2⟩, ?_, ?_, by simp⟩
  · show MultVAE.runEpoch cfg X _ [0, 1] _ = _
    show (MultVAE.minibatches 1 [0, 1]).foldlM _ _ = _
    rw [hb]
    simp only [List.foldlM, MultVAE.update, if_neg ht]
    show Except.ok _ = _
    simp [X, CSR.row, MultVAE.denseRow, SpVec.get]
  · show MultVAE.runEpoch cfg X _ [1, 0] _ = _
    show (MultVAE.minibatches 1 [1, 0]).foldlM _ _ = _
    rw [hb']
    simp only [List.foldlM, MultVAE.update, if_neg ht]
    show Except.ok _ = _
    simp [X, CSR.row, MultVAE.denseRow, SpVec.get]

/-- The hypotheses of the theorems hold: the library shuffles, the process has one random state, object 0,
and the calls in between use other ones. -/
example : Shuffles exRandom ∧ 0 < (⟨0, [7, 8], 0⟩ : World Nat).objs.length ∧
    (∀ c ∈ [((.sample 2 2 1 0.5 : Request Nat Char Nat), Arg.gen 1), (.holdout exOneOut exPair, .int 3)],
      c.2 ≠ .gen 0) ∧ exRandom.ofSeed 7 = some 7 ∧ exRandom.ofSeed (-1) = none :=
  ⟨exRandom_shuffles, by decide, by decide, rfl, rfl⟩

end Irspack.RandomState
