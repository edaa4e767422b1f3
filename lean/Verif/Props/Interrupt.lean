import Verif.Model.Interrupt
import Verif.Spec.Interrupt
import Verif.Props.EarlyStop

/-!
# C102: training that is under way, fails or is cut off
-/

namespace Irspack.Interrupt

open Spec.Interrupt

section Lemmas

variable {σ M A : Type}

theorem execAll_append (a b : List (List (Step σ) × Option Nat)) (s : σ) :
    execAll (a ++ b) s = execAll b (execAll a s) := by simp [execAll]

/-- what every assignment keeps, a call keeps, wherever it is cut off -/
theorem exec_keeps (P : σ → Prop) (steps : List (Step σ))
    (h : ∀ a ∈ steps, ∀ s s', P s → a s = .ok s' → P s') (cut : Option Nat) (s : σ) (hs : P s) :
    P (exec steps cut s).1 := by
  induction steps generalizing cut s with
  | nil => exact hs
  | cons a rest ih =>
    have ih := ih (fun b hb => h b (by simp [hb]))
    rcases cut with _ | _ | n
    · unfold exec
      cases ha : a s with
      | error e => exact hs
      | ok s' => exact ih none s' (h a (by simp) s s' hs ha)
    · exact hs
    · unfold exec
      cases ha : a s with
      | error e => exact hs
      | ok s' => exact ih (some n) s' (h a (by simp) s s' hs ha)

theorem execAll_keeps (P : σ → Prop) (calls : List (List (Step σ) × Option Nat))
    (h : ∀ c ∈ calls, ∀ a ∈ c.1, ∀ s s', P s → a s = .ok s' → P s') (s : σ) (hs : P s) : P (execAll calls s) := by
  induction calls using List.reverseRecOn with
  | nil => exact hs
  | append_singleton l c ih =>
    rw [execAll_append]
    exact exec_keeps P c.1 (h c (by simp)) c.2 _ (ih (fun c' h' => h c' (by simp [h'])))

theorem exec_returned (steps : List (Step σ)) (cut : Option Nat) (s : σ)
    (h : (exec steps cut s).2 = .returned) : exec steps cut s = exec steps none s := by
  induction steps generalizing cut s with
  | nil => rfl
  | cons a rest ih =>
    rcases cut with _ | _ | n
    · rfl
    · cases h
    · unfold exec at h ⊢
      cases ha : a s with
      | error e => rfl
      | ok s' => rw [ha] at h; exact ih (some n) s' h

theorem exec_append (a b : List (Step σ)) (s s' : σ) (h : exec a none s = (s', .returned)) :
    exec (a ++ b) none s = exec b none s' := by
  induction a generalizing s with
  | nil => cases h; rfl
  | cons x rest ih =>
    rw [List.cons_append]
    cases hx : x s with
    | error e => simp only [exec, hx] at h; cases h
    | ok t => simp only [exec, hx] at h ⊢; exact ih t h

theorem exec_store (fit : Except Err M) (cut : Option Nat) (o : Obj M) :
    (exec (storeLearn fit) cut o).1.model =
      ((if cut = some 0 then none else fit.toOption).or o.model) := by
  rcases cut with _ | _ | n <;> cases fit <;> simp [exec, storeLearn, Except.map, Except.toOption]

theorem lastStored_snoc (calls : List (Except Err M × Option Nat)) (c : Except Err M × Option Nat) :
    lastStored (calls ++ [c]) = (if c.2 = some 0 then none else c.1.toOption).or (lastStored calls) := by
  unfold lastStored
  rw [List.filterMap_append, List.filterMap_cons, List.filterMap_nil]
  cases (if c.2 = some 0 then none else c.1.toOption) with
  | none => simp
  | some m => simp

theorem store_history (calls : List (Except Err M × Option Nat)) :
    (execAll (calls.map (fun c => (storeLearn c.1, c.2))) ⟨none⟩).model = lastStored calls := by
  induction calls using List.reverseRecOn with
  | nil => rfl
  | append_singleton l c ih =>
    rw [List.map_append, execAll_append, lastStored_snoc, ← ih]
    exact exec_store _ _ _

end Lemmas

/-! ## Similarity recommenders, TopPop -/

/-- C102 (KNN, user KNN, SLIM, DenseSLIM, EDLAE, TopPop): after any history of calls of `learn()`, each computing what
it will, raising, or cut off anywhere, a prediction uses the model stored by the last call that got so far, and
raises `RuntimeError` if there is none. -/
theorem C102_similarity {M A : Type} (calls : List (Except Err M × Option Nat)) (f : M → Except Err A) :
    (∀ m, lastStored calls = some m →
      (execAll (calls.map (fun c => (storeLearn c.1, c.2))) ⟨none⟩).predict f = f m) ∧
    (lastStored calls = none →
      (execAll (calls.map (fun c => (storeLearn c.1, c.2))) ⟨none⟩).predict f = .error .runtimeError) := by
  unfold Obj.predict
  rw [store_history]
  exact ⟨fun m h => by rw [h], fun h => by rw [h]⟩

/-- A call that returns has stored what it computed; one that raises has computed nothing and stored nothing. -/
theorem C102_similarity_ends {M : Type} (fit : Except Err M) (cut : Option Nat) (o : Obj M) :
    ((exec (storeLearn fit) cut o).2 = .returned → ∃ m, fit = .ok m ∧ (exec (storeLearn fit) cut o).1 = ⟨some m⟩) ∧
    (∀ e, (exec (storeLearn fit) cut o).2 = .raised e → fit = .error e ∧ (exec (storeLearn fit) cut o).1 = o) ∧
    ((exec (storeLearn fit) cut o).2 = .cut → (exec (storeLearn fit) cut o).1 = o) := by
  rcases cut with _ | _ | n <;> cases fit <;> simp [exec, storeLearn, Except.map]

/-- a first fit, a second one that is interrupted, a third that raises: the first model answers -/
example (f : Nat → Except Err Nat) :
    (execAll ([(.ok 3, none), (.ok 4, some 0), (.error .valueError, none)].map (fun c => (storeLearn c.1, c.2)))
      ⟨none⟩).predict f = f 3 :=
  (C102_similarity [(.ok 3, none), (.ok 4, some 0), (.error .valueError, none)] f).1 3 (by decide)

/-! ## P3alpha and RP3beta -/

theorem exec_walk (compute : Except Err (CSC ℝ)) (nw : Bool) (cut : Option Nat) (h : nw = true → cut ≠ some 1)
    (o : Obj (CSC ℝ)) :
    (exec (walkLearn compute nw) cut o).1.model =
      ((if cut = some 0 then none else
        (compute.map (fun W => if nw then Sim.l1NormalizeRow W else W)).toOption).or o.model) := by
  rcases cut with _ | _ | _ | n <;> cases compute <;> cases nw <;>
    simp_all [exec, walkLearn, Except.map, Except.toOption]

/-- C102 (P3alpha, RP3beta): the same as `C102_similarity` if no call with `normalize_weight=True` is cut off
between its two assignments. -/
theorem C102_walks_partial {A : Type} (calls : List (Except Err (CSC ℝ) × Bool × Option Nat))
    (hc : ∀ c ∈ calls, c.2.1 = true → c.2.2 ≠ some 1) (f : CSC ℝ → Except Err A) :
    let stored := lastStored (calls.map (fun c =>
      (c.1.map (fun W => if c.2.1 then Sim.l1NormalizeRow W else W), c.2.2)))
    let o := execAll (calls.map (fun c => (walkLearn c.1 c.2.1, c.2.2))) ⟨none⟩
    (∀ m, stored = some m → o.predict f = f m) ∧ (stored = none → o.predict f = .error .runtimeError) := by
  intro stored o
  have h : o.model = stored := by
    show (execAll (calls.map (fun c => (walkLearn c.1 c.2.1, c.2.2))) ⟨none⟩).model = _
    clear o
    induction calls using List.reverseRecOn with
    | nil => rfl
    | append_singleton l c ih =>
      have ih := ih (fun c' h' => hc c' (by simp [h']))
      simp only [stored, List.map_append, List.map_cons, List.map_nil] at ih ⊢
      rw [execAll_append, lastStored_snoc, ← ih]
      exact exec_walk c.1 c.2.1 c.2.2 (hc c (by simp)) _
  unfold Obj.predict
  rw [h]
  exact ⟨fun m hm => by rw [hm], fun hm => by rw [hm]⟩

/-- A call that is not cut off leaves the weights of `P3alphaRecommender(...).learn()` and
`RP3betaRecommender(...).learn()`. -/
theorem C102_walks_uninterrupted (nth : Nat → SpVec ℝ → List Nat) (alpha beta : ℝ) (X : CSR ℝ) (topK : Option Nat)
    (nw : Bool) (nThreads : Nat) (o : Obj (CSC ℝ)) :
    (∀ W, Sim.p3Learn nth alpha X topK nw nThreads = .ok W →
      exec (walkLearn (Sim.p3W nth alpha (Sim.transpose X) nThreads 128 (topK.getD X.cols)) nw) none o =
        (⟨some W⟩, .returned)) ∧
    (∀ W, Sim.rp3Learn nth alpha beta X topK nw nThreads = .ok W →
      exec (walkLearn (Sim.rp3W nth alpha beta (Sim.transpose X) nThreads 128 (topK.getD X.cols)) nw) none o =
        (⟨some W⟩, .returned)) := by
  refine ⟨fun W h => ?_, fun W h => ?_⟩
  · unfold Sim.p3Learn at h
    cases hc : Sim.p3W nth alpha (Sim.transpose X) nThreads 128 (topK.getD X.cols) with
    | error e => rw [hc] at h; cases h
    | ok V =>
      rw [hc] at h
      cases h
      cases nw <;> simp [exec, walkLearn, Except.map]
  · unfold Sim.rp3Learn at h
    cases hc : Sim.rp3W nth alpha beta (Sim.transpose X) nThreads 128 (topK.getD X.cols) with
    | error e => rw [hc] at h; cases h
    | ok V =>
      rw [hc] at h
      cases h
      cases nw <;> simp [exec, walkLearn, Except.map]

/-- RP3beta with `beta=1`, `normalize_weight=True`, on one user who took one item twice: a call of `learn()` cut off
between the two assignments (after a complete one) leaves the weight 1/2 instead of 1, and predictions use it
without complaint. -/
theorem C102_walks_counterexample (nth : Nat → SpVec ℝ → List Nat) :
    let X : CSR ℝ := ⟨1, [[(0, 2)]]⟩
    let compute := Sim.rp3W nth 1 1 (Sim.transpose X) 1 128 1
    ∃ W, Sim.rp3Learn nth 1 1 X none true 1 = .ok W ∧ W.get 0 0 = 1 ∧
      (execAll [(walkLearn compute true, none)] ⟨none⟩).predict (fun m => .ok (m.get 0 0)) = .ok 1 ∧
      (execAll [(walkLearn compute true, none), (walkLearn compute true, some 1)] ⟨none⟩).predict
        (fun m => .ok (m.get 0 0)) = .ok (1 / 2) := by
  intro X compute
  have hc : compute = .ok ⟨1, [[(0, 1 / 2)]]⟩ := by
    simp [compute, X, Sim.rp3W, Sim.transpose, Sim.computeSimilarity, Sim.similarityRows, Sim.simRow, Sim.itemToUser,
      Sim.userNorm, Sim.rowTotal, CSR.nrows, CSR.row, Sim.fromTriplets, Sim.triples, Sim.simBlock, Sim.truncRow, Sim.Kind.paramsOk]
    simp [Sim.productRow, SpVec.get, CSR.nrows, CSR.row, List.range_succ, Split.collapse]
    norm_num [Split.rowEntry]
  refine ⟨⟨1, [[(0, 1)]]⟩, ?_, ?_, ?_, ?_⟩
  · show (match compute with
      | .error e => Except.error e
      | .ok W => .ok (if true then Sim.l1NormalizeRow W else W)) = _
    rw [hc]
    simp [Sim.l1NormalizeRow, Sim.rowSum, SpVec.get]
  · simp [CSC.get, SpVec.get]
  · rw [hc]
    simp [execAll, exec, walkLearn, Except.map, Obj.predict, Sim.l1NormalizeRow, Sim.rowSum, SpVec.get, CSC.get]
  · rw [hc]
    simp [execAll, exec, walkLearn, Except.map, Obj.predict, CSC.get, SpVec.get]

/-! ## TruncatedSVD -/

/-- C102 (TruncatedSVD): if all fits that succeed compute the same factors, then after any history of calls of
`learn()`, cut off anywhere, `get_score` and `get_score_cold_user` answer with those factors or raise
`RuntimeError` or `AttributeError`; after a call that returned they answer with those factors. -/
theorem C102_svd_partial {D Z A : Type} (d : D) (z : Z) (calls : List (Except Err (D × Z) × Option Nat))
    (hr : ∀ c ∈ calls, ∀ r, c.1 = .ok r → r = (d, z)) (f : Z → D → Except Err A) (g : D → Except Err A) :
    let o := execAll (calls.map (fun c => (svdLearn c.1, c.2))) ⟨none, none⟩
    LoudOr [.runtimeError, .attributeError] (f z d) (o.score f) ∧
    LoudOr [.runtimeError, .attributeError] (g d) (o.coldScore g) ∧
    ∀ fit cut, (∀ r, fit = .ok r → r = (d, z)) → (exec (svdLearn fit) cut o).2 = .returned →
      (exec (svdLearn fit) cut o).1.score f = f z d ∧ (exec (svdLearn fit) cut o).1.coldScore g = g d := by
  intro o
  have inv : (∀ z', o.z = some z' → z' = z) ∧ (∀ d', o.decomposer = some (some d') → d' = d) := by
    refine execAll_keeps (fun o : SvdObj D Z => (∀ z', o.z = some z' → z' = z) ∧
      (∀ d', o.decomposer = some (some d') → d' = d)) _ ?_ _ ⟨fun _ h => (by cases h), fun _ h => (by cases h)⟩
    intro c hc a ha s s' hs hss
    obtain ⟨c, hcm, rfl⟩ := List.mem_map.mp hc
    have hf := hr c hcm
    simp only [svdLearn, List.mem_cons, List.not_mem_nil, or_false] at ha
    rcases ha with rfl | rfl | rfl
    · cases hss; exact ⟨hs.1, fun _ h => (by cases h)⟩
    · cases hfit : c.1 with
      | error e => rw [hfit] at hss; cases hss
      | ok r =>
        rw [hfit] at hss; cases hss
        refine ⟨hs.1, fun d' h => ?_⟩
        cases h; rw [hf r hfit]
    · cases hfit : c.1 with
      | error e => rw [hfit] at hss; cases hss
      | ok r =>
        rw [hfit] at hss; cases hss
        refine ⟨fun z' h => ?_, hs.2⟩
        cases h; rw [hf r hfit]
  obtain ⟨h1, h2⟩ := inv
  refine ⟨?_, ?_, ?_⟩
  · unfold SvdObj.score SvdObj.components
    cases hz : o.z with
    | none => exact .inr ⟨_, by simp, rfl⟩
    | some z' =>
      rw [h1 z' hz]
      rcases hd : o.decomposer with _ | _ | d'
      · exact .inr ⟨_, by simp, rfl⟩
      · exact .inr ⟨_, by simp, rfl⟩
      · rw [h2 d' hd]; exact .inl rfl
  · unfold SvdObj.coldScore SvdObj.components
    rcases hd : o.decomposer with _ | _ | d'
    · exact .inr ⟨_, by simp, rfl⟩
    · exact .inr ⟨_, by simp, rfl⟩
    · rw [h2 d' hd]; exact .inl rfl
  · intro fit cut hf he
    have hx := exec_returned _ _ _ he
    rw [hx] at he ⊢
    cases hfit : fit with
    | error e => rw [hfit] at he; cases he
    | ok r =>
      have := hf r hfit
      subst this
      exact ⟨rfl, rfl⟩

/-- a complete fit, one that is interrupted while it computes, one that raises -/
example : LoudOr [.runtimeError, .attributeError] (.ok 7)
    ((execAll ([(.ok (3, 4), none), (.ok (3, 4), some 1), (.error .valueError, none)].map
      (fun c => (svdLearn c.1, c.2))) ⟨none, none⟩).score (fun z d => .ok (z + d))) :=
  (C102_svd_partial 3 4 [(.ok (3, 4), none), (.ok (3, 4), some 1), (.error .valueError, none)]
    (by simp) (fun z d => .ok (z + d)) (fun d => .ok d)).1

/-- If the second of two fits computes something else (`random_seed` was changed) and is cut off just before its end,
users of the first fit are scored with the items of the second. -/
theorem C102_svd_counterexample {D Z A : Type} (d₁ d₂ : D) (z₁ z₂ : Z) (f : Z → D → Except Err A) :
    (execAll [(svdLearn (.ok (d₁, z₁)), none), (svdLearn (.ok (d₂, z₂)), some 2)] ⟨none, none⟩).score f = f z₁ d₂ := by
  rfl

/-- After an interruption a complete recommender may have become unusable: it raises `AttributeError`. -/
theorem C102_svd_lost {D Z A : Type} (d₁ : D) (z₁ : Z) (fit : Except Err (D × Z)) (f : Z → D → Except Err A) :
    (execAll [(svdLearn (.ok (d₁, z₁)), none), (svdLearn fit, some 1)] ⟨none, none⟩).score f =
      .error .attributeError := by
  rfl

/-! ## NMF -/

/-- C102 (NMF, whose random state is fixed): if all calls that succeed compute the same, predictions answer with that or
raise `AttributeError`, after any history; after a call that returned they answer. -/
theorem C102_nmf_partial {D W H A : Type} (comp : D → H) (d : D) (w : W)
    (calls : List ((Except Err D × Except Err (D × W)) × Option Nat))
    (hr : ∀ c ∈ calls, (∀ d', c.1.1 = .ok d' → d' = d) ∧ ∀ r, c.1.2 = .ok r → r = (d, w))
    (f : W → H → Except Err A) (g : D → H → Except Err A) :
    let o := execAll (calls.map (fun c => (nmfLearn comp c.1.1 c.1.2, c.2))) ⟨none, none, none⟩
    LoudOr [.attributeError] (f w (comp d)) (o.score f) ∧
    LoudOr [.attributeError] (g d (comp d)) (o.coldScore g) ∧
    ∀ fit ft cut, (∀ r, ft = .ok r → r = (d, w)) → (exec (nmfLearn comp fit ft) cut o).2 = .returned →
      (exec (nmfLearn comp fit ft) cut o).1.score f = f w (comp d) ∧
      (exec (nmfLearn comp fit ft) cut o).1.coldScore g = g d (comp d) := by
  intro o
  have inv : (∀ w', o.W = some w' → w' = w) ∧ (∀ d', o.model = some (some d') → d' = d) ∧
      (∀ h', o.H = some h' → h' = comp d) := by
    refine execAll_keeps (fun o : NmfObj D W H => (∀ w', o.W = some w' → w' = w) ∧
      (∀ d', o.model = some (some d') → d' = d) ∧ (∀ h', o.H = some h' → h' = comp d)) _ ?_ _
      ⟨fun _ h => (by cases h), fun _ h => (by cases h), fun _ h => (by cases h)⟩
    intro c hc a ha s s' hs hss
    obtain ⟨c, hcm, rfl⟩ := List.mem_map.mp hc
    have hf := hr c hcm
    simp only [nmfLearn, List.mem_cons, List.not_mem_nil, or_false] at ha
    rcases ha with rfl | rfl | rfl | rfl | rfl
    · cases hss; exact ⟨hs.1, fun _ h => (by cases h), hs.2.2⟩
    · cases hfit : c.1.1 with
      | error e => rw [hfit] at hss; cases hss
      | ok r =>
        rw [hfit] at hss; cases hss
        refine ⟨hs.1, fun d' h => ?_, hs.2.2⟩
        cases h; exact hf.1 r hfit
    · cases hfit : c.1.2 with
      | error e => rw [hfit] at hss; cases hss
      | ok r =>
        rw [hfit] at hss; cases hss
        refine ⟨hs.1, fun d' h => ?_, hs.2.2⟩
        cases h; rw [hf.2 r hfit]
    · cases hfit : c.1.2 with
      | error e => rw [hfit] at hss; cases hss
      | ok r =>
        rw [hfit] at hss; cases hss
        refine ⟨fun w' h => ?_, hs.2⟩
        cases h; rw [hf.2 r hfit]
    · rcases hm : s.model with _ | _ | d'
      · simp [hm] at hss
      · simp [hm] at hss
      · simp only [hm] at hss
        cases hss
        refine ⟨hs.1, fun d'' h => (by cases h; exact hs.2.1 d' hm), fun h' hh => ?_⟩
        cases hh
        rw [hs.2.1 d' hm]
  obtain ⟨h1, h2, h3⟩ := inv
  refine ⟨?_, ?_, ?_⟩
  · unfold NmfObj.score
    cases hw : o.W with
    | none => exact .inr ⟨_, by simp, rfl⟩
    | some w' =>
      cases hh : o.H with
      | none => exact .inr ⟨_, by simp, rfl⟩
      | some h' => rw [h1 w' hw, h3 h' hh]; exact .inl rfl
  · unfold NmfObj.coldScore
    rcases hd : o.model with _ | _ | d'
    · exact .inr ⟨_, by simp, rfl⟩
    · exact .inr ⟨_, by simp, rfl⟩
    · cases hh : o.H with
      | none => exact .inr ⟨_, by simp, rfl⟩
      | some h' => rw [h2 d' hd, h3 h' hh]; exact .inl rfl
  · intro fit ft cut hf he
    have hx := exec_returned _ _ _ he
    rw [hx] at he ⊢
    cases hfit : fit with
    | error e => rw [hfit] at he; cases he
    | ok _ =>
      rw [hfit] at he
      cases hft : ft with
      | error e => rw [hft] at he; cases he
      | ok r =>
        have := hf r hft
        subst this
        exact ⟨rfl, rfl⟩

/-- a complete fit, then one that is interrupted after the model has been replaced: new users get an exception,
known ones their scores -/
example :
    let o := execAll ([((.ok 3, .ok (3, 4)), none), ((.ok 3, .ok (3, 4)), some 1)].map
      (fun c => (nmfLearn (· + 1) c.1.1 c.1.2, c.2))) ⟨none, none, none⟩
    o.score (fun w h => .ok (w + h)) = .ok 8 ∧ o.coldScore (fun d h => .ok (d + h)) = .error .attributeError :=
  ⟨rfl, rfl⟩

/-! ## Recommenders with epochs -/

section Epochs

open EarlyStop Spec.EarlyStop

variable {σ β : Type}

/-- the updates, lifted to the recommender -/
private abbrev lifted (a : Step σ) : Step (Rec σ β) := fun r =>
  match r.trainer with
  | none => .error .runtimeError
  | some s => (a s).map (fun s' => { r with trainer := some s' })

theorem exec_lifted (l : List (Step σ)) (cut : Option Nat) (r : Rec σ β) (s : σ) (h : r.trainer = some s) :
    ∃ n t, Prefix l s n t ∧ (exec (l.map (lifted (β := β))) cut r).1 = { r with trainer := some t } ∧
      ((exec (l.map (lifted (β := β))) cut r).2 = .cut → cut = some n) ∧
      ((exec (l.map (lifted (β := β))) cut r).2 = .returned → n = l.length) := by
  induction l generalizing cut r s with
  | nil => exact ⟨0, s, .none _ _, by rw [← h]; rfl, fun h => (by cases h), fun _ => rfl⟩
  | cons a rest ih =>
    rcases cut with _ | _ | c
    · cases ha : a s with
      | error e =>
        refine ⟨0, s, .none _ _, ?_, ?_, ?_⟩ <;> simp [exec, lifted, h, ha, Except.map]
        rw [← h]
      | ok s' =>
        obtain ⟨n, t, hp, h1, h2, h3⟩ := ih none { r with trainer := some s' } s' rfl
        refine ⟨n + 1, t, .cons ha hp, ?_, ?_, ?_⟩ <;> simp only [List.map_cons, exec, lifted, h, ha, Except.map]
        · exact h1
        · intro hh; cases h2 hh
        · intro hh; rw [h3 hh]; rfl
    · exact ⟨0, s, .none _ _, by rw [← h]; rfl, fun _ => rfl, fun h => by cases h⟩
    · cases ha : a s with
      | error e =>
        refine ⟨0, s, .none _ _, ?_, ?_, ?_⟩ <;> simp [exec, lifted, h, ha, Except.map]
        rw [← h]
      | ok s' =>
        obtain ⟨n, t, hp, h1, h2, h3⟩ := ih (some c) { r with trainer := some s' } s' rfl
        refine ⟨n + 1, t, .cons ha hp, ?_, ?_, ?_⟩ <;> simp only [List.map_cons, exec, lifted, h, ha, Except.map]
        · exact h1
        · intro hh; have := h2 hh; simp_all
        · intro hh; rw [h3 hh]; rfl

/-- C102 (iALS, BPRFM, Mult-VAE): wherever `learn()` is cut off or fails, either nothing has changed, or the trainer is a
new one after some of the updates.  If it returns, all updates have been made.  What `save_state` stored and
`learnt_config` are not touched. -/
theorem C102_epochs_partial (create : Except Err σ) (updates : Nat → List (Step σ)) (n : Nat) (cut : Option Nat)
    (r : Rec σ β) :
    let res := exec (epochsLearn create updates n) cut r
    (res.1 = r ∧ res.2 ≠ .returned) ∨
    ∃ s₀ k t, create = .ok s₀ ∧ Prefix ((List.range n).flatMap updates) s₀ k t ∧
      res.1 = { r with trainer := some t } ∧ (res.2 = .cut → cut = some (k + 1)) ∧
      (res.2 = .returned → k = ((List.range n).flatMap updates).length) := by
  intro res
  cases hc : create with
  | error e =>
    left
    rcases cut with _ | _ | c <;> simp [res, epochsLearn, exec, hc, Except.map]
  | ok s₀ =>
    rcases cut with _ | _ | c
    · right
      obtain ⟨k, t, hp, h1, h2, h3⟩ := exec_lifted (β := β) ((List.range n).flatMap updates) none
        { r with trainer := some s₀ } s₀ rfl
      have e : res = exec (((List.range n).flatMap updates).map (lifted (β := β))) none { r with trainer := some s₀ } := by
        subst hc; rfl
      rw [e]
      exact ⟨s₀, k, t, rfl, hp, h1, fun h => (by cases h2 h), h3⟩
    · left
      exact ⟨rfl, fun h => (by cases h)⟩
    · right
      obtain ⟨k, t, hp, h1, h2, h3⟩ := exec_lifted (β := β) ((List.range n).flatMap updates) (some c)
        { r with trainer := some s₀ } s₀ rfl
      have e : res = exec (((List.range n).flatMap updates).map (lifted (β := β))) (some c)
          { r with trainer := some s₀ } := by
        subst hc; rfl
      rw [e]
      refine ⟨s₀, k, t, rfl, hp, h1, fun h => ?_, h3⟩
      have := h2 h
      simp_all

/-- Without interruption this is `learn()` of the model of early stopping, when an epoch is one update. -/
theorem C102_epochs_uninterrupted {S : Type} [LinearOrder S] [OrderBot S] [Neg S] (T : TrainerOps σ β) (r : Rec σ β)
    (h : (learn (S := S) T r).2 = .ok ()) :
    exec (epochsLearn T.create (fun k => [T.runEpoch k]) r.trainEpochs) none r =
      ((learn (S := S) T r).1.1, .returned) := by
  rcases C53_learn (S := S) T r with ⟨st, hst, hl⟩ | ⟨e, he, -⟩
  · rw [hl]
    have key : ∀ n st, T.after n = .ok st →
        exec (epochsLearn T.create (fun k => [T.runEpoch k]) n) none r = ({ r with trainer := some st }, .returned) := by
      intro n
      induction n with
      | zero =>
        intro st h0
        have h0 : T.create = .ok st := h0
        simp [epochsLearn, exec, h0, Except.map]
      | succ n ih =>
        intro st h1
        unfold TrainerOps.after stateAfter at h1
        cases hn : T.after n with
        | error e =>
          rw [show stateAfter T.create T.runEpoch n = .error e from hn] at h1
          cases h1
        | ok s =>
          rw [show stateAfter T.create T.runEpoch n = .ok s from hn] at h1
          have hs : epochsLearn (β := β) T.create (fun k => [T.runEpoch k]) (n + 1) =
              epochsLearn T.create (fun k => [T.runEpoch k]) n ++ [lifted (T.runEpoch n)] := by
            simp [epochsLearn, List.range_succ]
            rfl
          rw [hs, exec_append _ _ _ _ (ih s hn)]
          have h1 : T.runEpoch n s = .ok st := h1
          simp [exec, lifted, h1, Except.map]
    exact key r.trainEpochs st hst
  · rw [he] at h; cases h

/-- `learn()` of a trained recommender is cut off after the first of its 16 epochs: the new, hardly trained model
answers from then on, without complaint. -/
theorem C102_epochs_counterexample :
    ∃ (create : Except Err Nat) (updates : Nat → List (Step Nat)) (r : Rec Nat Nat),
      exec (epochsLearn create updates 16) none (Rec.new 16) = (r, .returned) ∧ r.trainer = some 16 ∧
      (exec (epochsLearn create updates 16) (some 2) r).1.trainer = some 1 := by
  refine ⟨.ok 0, fun _ => [fun s => .ok (s + 1)], ⟨16, some 16, none, none⟩, ?_, rfl, ?_⟩ <;> decide +kernel

end Epochs

/-! ## `load_state` of iALS -/

section Load

open Ials

variable {K : Nat}

/-- `load_state` that is not cut off is the one of the model of iALS. -/
theorem C102_load (s : SavedState K) (tr : Trainer K) : exec (ialsLoad s) none tr = (tr.loadState s, .returned) := by
  unfold ialsLoad Trainer.loadState
  cases s.weights <;> rfl

/-- Cut off after its first assignment, it leaves the user factors of the saved state with the item factors of the
last epoch; scores are then products of the two. -/
theorem C102_load_counterexample (s : SavedState K) (tr : Trainer K) :
    (exec (ialsLoad s) (some 1) tr).1 = { tr with user := s.user } := rfl

end Load

end Irspack.Interrupt
