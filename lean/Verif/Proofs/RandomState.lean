import Verif.Spec.RandomState
import Verif.Proofs.Split

/-!
# Lemmas for C76: computations that draw from one generator only
-/

namespace Irspack.RandomState

open Irspack Irspack.Split

section
variable {G M A B : Type}

/-- `act id` only uses object `id`, by the function `f` of its state. -/
def Local (act : Nat → Act G A) (f : G → Except Err A × G) : Prop :=
  ∀ id (w : World G) g, w.objs[id]? = some g →
    act id w = ((f g).1, { w with objs := w.objs.set id (f g).2 })

theorem set_same {l : List G} {id : Nat} {g : G} (h : l[id]? = some g) : l.set id g = l := by
  obtain ⟨hl, rfl⟩ := List.getElem?_eq_some_iff.mp h
  exact List.set_getElem_self hl

theorem local_lift (x : Except Err A) : Local (fun _ => Act.lift (G := G) x) (fun g => (x, g)) := by
  intro id w g h
  simp only [Act.lift]
  rw [set_same h]

theorem local_pure (a : A) : Local (fun _ => Act.pure (G := G) a) (fun g => (.ok a, g)) :=
  local_lift (.ok a)

theorem local_draw (f : G → A × G) :
    Local (fun id => draw id f) (fun g => (.ok (f g).1, (f g).2)) := by
  intro id w g h
  simp only [draw, h]

/-- Sequencing of state functions. -/
def seqF (f : G → Except Err A × G) (k : A → G → Except Err B × G) (g : G) : Except Err B × G :=
  match (f g).1 with
  | .ok a => k a (f g).2
  | .error e => (.error e, (f g).2)

theorem local_bind {a : Nat → Act G A} {f : G → Except Err A × G} (ha : Local a f)
    {k : A → Nat → Act G B} {fk : A → G → Except Err B × G} (hk : ∀ x, Local (k x) (fk x)) :
    Local (fun id => (a id).bind (fun x => k x id)) (seqF f fk) := by
  intro id w g h
  have hl : id < w.objs.length := (List.getElem?_eq_some_iff.mp h).1
  unfold Act.bind
  simp only
  rw [ha id w g h]
  unfold seqF
  cases (f g).1 with
  | error e => rfl
  | ok x =>
    simp only
    rw [hk x id _ (f g).2 (by simp [hl])]
    simp only [List.set_set]

theorem local_ite (c : Prop) [Decidable c] {a b : Nat → Act G A} {f f' : G → Except Err A × G}
    (ha : Local a f) (hb : Local b f') :
    Local (fun id => if c then a id else b id) (fun g => if c then f g else f' g) := by
  intro id w g h
  by_cases hc : c
  · simp only [if_pos hc]; exact ha id w g h
  · simp only [if_neg hc]; exact hb id w g h

/-- A call: perhaps an error before the random state is looked at, otherwise a computation on the
generator. -/
structure Shape (np : Random G M) (api : Arg → Act G A) (pre : Option Err)
    (f : G → Except Err A × G) : Prop where
  early : ∀ e, pre = some e → ∀ arg w, api arg w = (.error e, w)
  gen : pre = Option.none → ∀ id w g, w.objs[id]? = some g →
    api (.gen id) w = ((f g).1, { w with objs := w.objs.set id (f g).2 })
  int : pre = Option.none → ∀ s w g, np.ofSeed s = some g →
    api (.int s) w = ((f g).1, { w with objs := w.objs ++ [(f g).2] })
  noArg : pre = Option.none → ∀ w, api .none w = ((f (np.ofEntropy w.entropy)).1,
    { w with objs := w.objs ++ [(f (np.ofEntropy w.entropy)).2], entropy := w.entropy + 1 })
  badSeed : pre = Option.none → ∀ s w, np.ofSeed s = none → api (.int s) w = (.error .valueError, w)
  dangling : pre = Option.none → ∀ id w, w.objs[id]? = none → api (.gen id) w = (.error .notModelled, w)
  other : pre = Option.none → ∀ w, api .other w = (.error .valueError, w)

theorem set_append_last (l : List G) (a b : G) : (l ++ [a]).set l.length b = l ++ [b] := by
  rw [List.set_append_right _ _ (Nat.le_refl _)]
  simp

theorem shape_convert (np : Random G M) {act : Nat → Act G A} {f : G → Except Err A × G}
    (h : Local act f) : Shape np (fun arg => (convert np arg).bind act) none f where
  early := by rintro e ⟨⟩
  gen := by
    intro _ id w g hg
    have hl : id < w.objs.length := (List.getElem?_eq_some_iff.mp hg).1
    simp only [Act.bind, convert, if_pos hl]
    exact h id w g hg
  int := by
    intro _ s w g hg
    simp only [Act.bind, convert, hg]
    rw [h w.objs.length _ g (by simp)]
    simp only [set_append_last]
  noArg := by
    intro _ w
    simp only [Act.bind, convert]
    rw [h w.objs.length _ (np.ofEntropy w.entropy) (by simp)]
    simp only [set_append_last]
  badSeed := by
    intro _ s w hs
    simp only [Act.bind, convert, hs]
  dangling := by
    intro _ id w hd
    have hl : ¬ id < w.objs.length := by
      rw [List.getElem?_eq_none_iff] at hd
      omega
    simp only [Act.bind, convert, if_neg hl]
  other := by intro _ w; simp only [Act.bind, convert]

theorem shape_error (np : Random G M) (e : Err) (f : G → Except Err A × G) :
    Shape np (fun _ => Act.lift (G := G) (.error e)) (some e) f where
  early := by rintro _ ⟨⟩ arg w; rfl
  gen := by rintro ⟨⟩
  int := by rintro ⟨⟩
  noArg := by rintro ⟨⟩
  badSeed := by rintro ⟨⟩
  dangling := by rintro ⟨⟩
  other := by rintro ⟨⟩

theorem shape_bind_pure (np : Random G M) {api : Arg → Act G A} {pre : Option Err}
    {f : G → Except Err A × G} (h : Shape np api pre f) (k : A → B) :
    Shape np (fun arg => (api arg).bind fun a => .pure (k a)) pre
      (fun g => ((f g).1.map k, (f g).2)) := by
  have key : ∀ (x : Except Err A) (w w' : World G) arg, api arg w = (x, w') →
      (api arg).bind (fun a => .pure (k a)) w = (x.map k, w') := by
    intro x w w' arg hx
    unfold Act.bind
    simp only [hx]
    cases x <;> rfl
  exact
    { early := fun e he arg w => key _ w w arg (h.early e he arg w)
      gen := fun he id w g hg => key _ _ _ _ (h.gen he id w g hg)
      int := fun he s w g hg => key _ _ _ _ (h.int he s w g hg)
      noArg := fun he w => key _ _ _ _ (h.noArg he w)
      badSeed := fun he s w hs => key _ _ _ _ (h.badSeed he s w hs)
      dangling := fun he id w hd => key _ _ _ _ (h.dangling he id w hd)
      other := fun he w => key _ _ _ _ (h.other he w) }

/-! ### Orders are permutations -/

theorem permute_perm {perm : List Nat} {l : List A} (h : perm.Perm (List.range l.length)) :
    (permute perm l).Perm l := by
  have := filterMap_perm_range l id perm h
  simpa [permute] using this

theorem rowOrders_perm (np : Random G M) (h : Shuffles np) (ns : List Nat) :
    ∀ (m : M) (r : Nat), ((rowOrders np m ns).getD r []).Perm (List.range (ns.getD r 0)) := by
  induction ns with
  | nil => intro m r; simp [rowOrders]
  | cons n ns ih =>
    intro m r
    cases r with
    | zero => simpa [rowOrders] using h.mtShuffle m n
    | succ r => simpa [rowOrders] using ih (np.mtShuffle m n).2 r

theorem rowOrder_perm (np : Random G M) (h : Shuffles np) (seed : Int) (X : Csr ℝ) (r : Nat) :
    (rowOrder np seed X r).Perm (List.range (X.rows.getD r []).length) := by
  have := rowOrders_perm np h (X.rows.map List.length) (np.mtOfSeed seed) r
  have e : (X.rows.map List.length).getD r 0 = (X.rows.getD r []).length := by
    simp only [List.getD_eq_getElem?_getD, List.getElem?_map]
    cases X.rows[r]? <;> rfl
  rw [e] at this
  exact this

/-! ### The functions -/

/-- The state function of `rowwise_train_test_split`. -/
noncomputable def rowwiseF (np : Random G M) (fl : ℝ → ℝ) (X : Csr ℝ) (r : ℝ) (n : Option Int) (c : Bool)
    (g : G) : Except Err (Csr ℝ × Csr ℝ) × G :=
  (rowwiseSplit fl X r n c (rowOrder np (np.randint g).1 X), (np.randint g).2)

theorem local_rowwise (np : Random G M) (fl : ℝ → ℝ) (X : Csr ℝ) (r : ℝ) (n : Option Int) (c : Bool) :
    Local (rowwiseWith np fl X r n c) (rowwiseF np fl X r n c) :=
  local_bind (local_draw np.randint) (fun seed => local_lift (rowwiseSplit fl X r n c (rowOrder np seed X)))

section frames
variable {U I T : Type} [LinearOrder U] [LinearOrder I] [LinearOrder T]

/-- The state function of `_split_list`. -/
def splitListF (np : Random G M) (ids : List U) (t : Int) (g : G) : Except Err (List U × List U) × G :=
  (.ok (splitList (fun l => permute (np.shuffle g l.length).1 l) ids t), (np.shuffle g ids.length).2)

omit [LinearOrder U] in
theorem local_splitList (np : Random G M) (ids : List U) (t : Int) :
    Local (splitListWith np ids t) (splitListF np ids t) :=
  local_bind (local_draw (fun g => np.shuffle g ids.length))
    (fun perm => local_pure (pySplit (permute perm ids) t))

/-- The row orders of one random split, for every row length. -/
def rowShuf (np : Random G M) (seed : Int) (X : Csr ℝ) (r n : Nat) : List Nat :=
  if n = (X.rows.getD r []).length then rowOrder np seed X r else List.range n

theorem rowShuf_perm (np : Random G M) (h : Shuffles np) (seed : Int) (X : Csr ℝ) (r n : Nat) :
    (rowShuf np seed X r n).Perm (List.range n) := by
  unfold rowShuf
  split_ifs with hn
  · rw [hn]; exact rowOrder_perm np h seed X r
  · exact List.Perm.refl _

theorem local_userwise (np : Random G M) (h : Shuffles np) (fl : ℝ → ℝ) (e : Orders U I T)
    (p : HoldoutParams) (df : List (Row U I T)) (items : List I) (ratio : ℝ) (n : Option Int) :
    ∃ f, Local (userwiseWith np fl e p df items ratio n) f ∧
      ∀ g, ∃ rs : Nat → Nat → List Nat, (∀ r n, (rs r n).Perm (List.range n)) ∧
        ∀ o : Oracle U I T, o.setOrderU = e.setOrderU → o.sortValues = e.sortValues →
          ∀ k, o.rowShuffle k = rs → (f g).1 = userwise fl o p k df items ratio n := by
  by_cases ht : p.timeBased = true
  · have heq : (fun _ : Nat => Act.lift (G := G) (userwiseTime fl e.oracle df items ratio n p.useRating
        p.ceil)) = userwiseWith np fl e p df items ratio n := by
      funext id
      unfold userwiseWith
      rw [if_pos ht]
    refine ⟨_, heq ▸ local_lift (userwiseTime fl e.oracle df items ratio n p.useRating p.ceil), ?_⟩
    · intro g
      refine ⟨fun _ n => List.range n, fun _ _ => List.Perm.refl _, fun o h1 h2 k _ => ?_⟩
      unfold userwise
      rw [if_pos ht]
      simp only [userwiseTime, h1, h2, Orders.oracle]
  · have heq : userwiseRandomWith np fl df items ratio n p.useRating p.ceil
        = userwiseWith np fl e p df items ratio n := by
      funext id
      unfold userwiseWith
      rw [if_neg ht]
    have hl : Local (userwiseRandomWith np fl df items ratio n p.useRating p.ceil) _ :=
      local_bind (local_lift (dfToSparse df none (some items) p.useRating))
        (fun x => local_bind (local_rowwise np fl x.1 ratio n p.ceil)
          (fun s => local_lift (UserPair.make x.2.1 s.1 (some s.2) (some items))))
    refine ⟨_, heq ▸ hl, ?_⟩
    · intro g
      cases hx : dfToSparse df none (some items) p.useRating with
      | error er =>
        refine ⟨fun _ n => List.range n, fun _ _ => List.Perm.refl _, fun o h1 h2 k _ => ?_⟩
        unfold userwise
        rw [if_neg ht]
        simp only [userwiseRandom, hx, seqF]
      | ok x =>
        obtain ⟨X, us, is⟩ := x
        refine ⟨rowShuf np (np.randint g).1 X, rowShuf_perm np h _ X, fun o h1 h2 k hk => ?_⟩
        unfold userwise
        rw [if_neg ht, hk]
        have hs : (fun r => rowShuf np (np.randint g).1 X r (X.rows.getD r []).length)
            = rowOrder np (np.randint g).1 X := by
          funext r
          simp [rowShuf]
        simp only [userwiseRandom, hx, seqF, rowwiseF, hs]
        cases rowwiseSplit fl X ratio n p.ceil (rowOrder np (np.randint g).1 X) <;> rfl

open Classical in
theorem local_holdoutUsers (np : Random G M) (h : Shuffles np) (fl : ℝ → ℝ) (uids : List U)
    (nVal nTest : Int) (ratio : ℝ) :
    ∃ f, Local (holdoutUsersWith np fl uids nVal nTest ratio) f ∧
      ∀ g, ∃ sh : Nat → List U → List U, (∀ k l, (sh k l).Perm l) ∧
        ∀ o : Oracle U I T, o.shuffle = sh → (f g).1 = .ok (holdoutUsers fl o uids nVal nTest ratio) := by
  refine ⟨_, local_bind (local_splitList np uids (nVal + nTest)) (fun s =>
    local_ite (fl (ratio * uids.length) ≥ 1)
      (local_bind (local_splitList np s.2 nTest) (fun s' => local_pure (s.1, s'.1, s'.2)))
      (local_pure (s.1, s.2, []))), fun g => ?_⟩
  refine ⟨fun k l => if k = 0 then permute (np.shuffle g l.length).1 l
    else permute (np.shuffle (np.shuffle g uids.length).2 l.length).1 l, ?_, ?_⟩
  · intro k l
    dsimp only
    split_ifs
    · exact permute_perm (h.shuffle _ _)
    · exact permute_perm (h.shuffle _ _)
  · intro o ho
    unfold holdoutUsers
    rw [ho]
    simp only [seqF, splitListF, if_true]
    by_cases hc : fl (ratio * uids.length) ≥ 1
    · simp only [if_pos hc]
      rfl
    · simp only [if_neg hc]

theorem local_holdout (np : Random G M) (h : Shuffles np) (fl : ℝ → ℝ) (e : Orders U I T)
    (p : HoldoutParams) (df : List (Row U I T)) (nVal nTest : Int) (ratio : ℝ)
    (hsz : holdoutSizes fl p (df.map Row.user).dedup.length = .ok (nVal, nTest, ratio)) :
    ∃ f, Local (holdoutWith np fl e p df nVal nTest ratio) f ∧
      ∀ g, ∃ sh rs, (∀ k l, (sh k l).Perm l) ∧ (∀ k r n, (rs k r n).Perm (List.range n)) ∧
        (f g).1 = partialUserHoldout fl
          (⟨sh, rs, e.setOrderU, e.setOrderI, e.sortValues⟩ : Oracle U I T) p df := by
  obtain ⟨f1, l1, r1⟩ := local_holdoutUsers (I := I) (T := T) np h fl (df.map Row.user).dedup nVal nTest ratio
  have hv := fun (d : List (Row U I T)) => local_userwise np h fl e p d
    (e.setOrderI ((dropDuplicates df).map Row.item).dedup) p.heldoutRatioVal p.nHeldoutVal
  have ht := fun (d : List (Row U I T)) => local_userwise np h fl e p d
    (e.setOrderI ((dropDuplicates df).map Row.item).dedup) p.heldoutRatioTest p.nHeldoutTest
  choose fv lv rv using hv
  choose ft lt rt using ht
  refine ⟨_, local_bind l1 (fun s => local_bind (local_lift _) (fun x => local_bind (local_lift _)
    (fun tr => local_bind (lv _) (fun va => local_bind (lt _) (fun te => local_pure _))))), fun g => ?_⟩
  obtain ⟨sh, hsh, hsh'⟩ := r1 g
  have e1 := hsh' ⟨sh, fun _ _ n => List.range n, e.setOrderU, e.setOrderI, e.sortValues⟩ rfl
  obtain ⟨s, hs⟩ : ∃ s, s = holdoutUsers fl
    (⟨sh, fun _ _ n => List.range n, e.setOrderU, e.setOrderI, e.sortValues⟩ : Oracle U I T)
    (df.map Row.user).dedup nVal nTest ratio := ⟨_, rfl⟩
  rw [← hs] at e1
  have hs' : ∀ rs, holdoutUsers fl (⟨sh, rs, e.setOrderU, e.setOrderI, e.sortValues⟩ : Oracle U I T)
      (df.map Row.user).dedup nVal nTest ratio = s := by
    intro rs
    rw [hs]
    rfl
  obtain ⟨rs0, hp0, h0⟩ := rv ((dropDuplicates df).filter (fun r => decide (r.user ∈ s.2.1))) (f1 g).2
  obtain ⟨rs1, hp1, h1⟩ := rt ((dropDuplicates df).filter (fun r => decide (r.user ∈ s.2.2)))
    (fv ((dropDuplicates df).filter (fun r => decide (r.user ∈ s.2.1))) (f1 g).2).2
  refine ⟨sh, fun k => if k = 0 then rs0 else rs1, hsh, ?_, ?_⟩
  · intro k r n
    by_cases hk : k = 0
    · simp only [hk, if_true]; exact hp0 r n
    · simp only [hk, if_false]; exact hp1 r n
  · have e2 := h0 ⟨sh, fun k => if k = 0 then rs0 else rs1, e.setOrderU, e.setOrderI, e.sortValues⟩
      rfl rfl 0 rfl
    have e3 := h1 ⟨sh, fun k => if k = 0 then rs0 else rs1, e.setOrderU, e.setOrderI, e.sortValues⟩
      rfl rfl 1 rfl
    unfold partialUserHoldout
    simp only [hsz, hs', seqF, e1]
    cases hX : dfToSparse ((dropDuplicates df).filter (fun r => decide (r.user ∈ s.1))) (some s.1)
        (some (e.setOrderI ((dropDuplicates df).map Row.item).dedup)) false with
    | error er => rfl
    | ok x =>
      obtain ⟨X, us, is⟩ := x
      simp only
      cases hT : UserPair.make s.1 X none (none : Option (List I)) with
      | error er => rfl
      | ok tr =>
        simp only
        rw [e2]
        cases userwise fl (⟨sh, fun k => if k = 0 then rs0 else rs1, e.setOrderU, e.setOrderI,
          e.sortValues⟩ : Oracle U I T) p 0
          ((dropDuplicates df).filter (fun r => decide (r.user ∈ s.2.1)))
          (e.setOrderI ((dropDuplicates df).map Row.item).dedup) p.heldoutRatioVal p.nHeldoutVal with
        | error er => rfl
        | ok va =>
          simp only
          rw [e3]
          cases userwise fl (⟨sh, fun k => if k = 0 then rs0 else rs1, e.setOrderU, e.setOrderI,
            e.sortValues⟩ : Oracle U I T) p 1
            ((dropDuplicates df).filter (fun r => decide (r.user ∈ s.2.2)))
            (e.setOrderI ((dropDuplicates df).map Row.item).dedup) p.heldoutRatioTest p.nHeldoutTest with
          | error er => rfl
          | ok te => rfl

end frames
end
end Irspack.RandomState
