import Verif.Proofs.Silent
import Verif.Proofs.SilentIals
import Verif.Props.Scale
import Verif.Props.IalsLoss
import Verif.Proofs.IalsPp
import Verif.Props.SimRecommender
import Verif.Props.LibRecommender
import Verif.Model.Score

/-!
# C92: users and items without interactions
-/

namespace Irspack.Props

open RecClasses Sim Spec.Sim Spec.Silent

/-! ## More users -/

/-- C92 (item neighbourhoods, more users).  Without feature weighting, the similarities between items do not change
when users without interactions are added, whichever similarity is used. -/
theorem C92_users_item_knn (nth : Nat → SpVec ℝ → List Nat) (kind : Kind) (s : ℝ) (n : Nat) (X : CSR ℝ) (T k : Nat) :
    itemKnnW nth .none kind s (withUsers n X) T k = itemKnnW nth .none kind s X T k := by
  unfold itemKnnW
  simp only [Weighting.apply]
  rw [transpose_withUsers, computeSimilarity_withItems]

theorem baseKnnInit_none (e : Env) (a1 a2 a3 x y : Val) (kw self rest : Args)
    (hkw : kw = [] ∨ kw = [("feature_weighting", .str "NONE"), ("bm25_k1", x), ("bm25_b", y)])
    (h : baseKnnInit e [a1, a2, a3] kw = .ok self) : weightingOf (self ++ rest) = .ok .none := by
  obtain ⟨x', y', hc⟩ : ∃ x' y', call baseKnnSig [a1, a2, a3] kw = .ok [("shrinkage", a1), ("top_k", a2), ("n_threads", a3),
      ("feature_weighting", .str "NONE"), ("bm25_k1", x'), ("bm25_b", y')] := by
    rcases hkw with rfl | rfl
    · exact ⟨_, _, rfl⟩
    · exact ⟨x, y, rfl⟩
  unfold baseKnnInit at h
  rw [hc] at h
  obtain ⟨v, hv, h⟩ := Ials.bind_ok h
  cases hv
  obtain ⟨v, hv, h⟩ := Ials.bind_ok h
  cases hv
  rw [if_neg (by simp)] at h
  obtain ⟨v, hv, h⟩ := Ials.bind_ok h
  cases hv
  obtain ⟨N, hN, h⟩ := Ials.bind_ok h
  cases h
  rfl

theorem weightingOf_jaccard (e : Env) (p self : Args) (h : jaccardInit e p = .ok self) : weightingOf self = .ok .none := by
  unfold jaccardInit at h
  obtain ⟨a1, -, h⟩ := Ials.bind_ok h
  obtain ⟨a2, -, h⟩ := Ials.bind_ok h
  obtain ⟨a3, -, h⟩ := Ials.bind_ok h
  have := baseKnnInit_none e a1 a2 a3 .none .none [] self [] (.inl rfl) h
  rwa [List.append_nil] at this

theorem weightingOf_tversky (e : Env) (p self : Args) (h : tverskyInit e p = .ok self) : weightingOf self = .ok .none := by
  unfold tverskyInit at h
  obtain ⟨a1, -, h⟩ := Ials.bind_ok h
  obtain ⟨a2, -, h⟩ := Ials.bind_ok h
  obtain ⟨a3, -, h⟩ := Ials.bind_ok h
  obtain ⟨base, hb, h⟩ := Ials.bind_ok h
  obtain ⟨a4, -, h⟩ := Ials.bind_ok h
  obtain ⟨a5, -, h⟩ := Ials.bind_ok h
  cases h
  exact baseKnnInit_none e a1 a2 a3 .none .none [] base _ (.inl rfl) hb

theorem weightingOf_weighted (e : Env) (own : String) (p self : Args) (hp : p.lookup "feature_weighting" = some (.str "NONE"))
    (h : weightedInit e own p = .ok self) : weightingOf self = .ok .none := by
  unfold weightedInit at h
  obtain ⟨a1, -, h⟩ := Ials.bind_ok h
  obtain ⟨a2, -, h⟩ := Ials.bind_ok h
  obtain ⟨a3, -, h⟩ := Ials.bind_ok h
  obtain ⟨a4, h4, h⟩ := Ials.bind_ok h
  obtain ⟨x, -, h⟩ := Ials.bind_ok h
  obtain ⟨y, -, h⟩ := Ials.bind_ok h
  obtain ⟨base, hb, h⟩ := Ials.bind_ok h
  obtain ⟨v, -, h⟩ := Ials.bind_ok h
  cases h
  rw [attr, hp] at h4
  cases h4
  exact baseKnnInit_none e a1 a2 a3 x y _ base _ (.inr rfl) hb

theorem construct_lookup (c : RecClass) (given p : Args) (h : construct c given = .ok p) (n : String) (d : Val)
    (hd : c.params.lookup n = some d) : p.lookup n = some (valueOf given n d) := by
  have : p = c.params.map (fun d => (d.1, valueOf given d.1 d.2)) := by
    unfold construct at h
    split at h
    · simp only at h
      split at h <;> cases h
      rfl
    · cases h
  subst this
  clear h
  generalize c.params = l at hd
  induction l with
  | nil => simp at hd
  | cons a l ih =>
    obtain ⟨k, v⟩ := a
    rw [List.map_cons, List.lookup_cons]
    rw [List.lookup_cons] at hd
    by_cases hk : (n == k) = true
    · simp only [hk] at hd ⊢
      have hnk : n = k := by simpa using hk
      cases hd
      rw [hnk]
    · simp only [Bool.not_eq_true] at hk
      simp only [hk] at hd ⊢
      exact ih hd

theorem itemLearn_withUsers (nth : Nat → SpVec ℝ → List Nat) (create : Args → Except Err (Kind × ℝ × Nat)) (n : Nat)
    (X : CSR ℝ) (self : Args) (hw : weightingOf self = .ok .none) :
    itemLearn nth create (withUsers n X) self = itemLearn nth create X self := by
  unfold itemLearn
  rw [hw]
  simp only [bind, Except.bind, C92_users_item_knn]

theorem itemLearn_withItems {nth : Nat → SpVec ℝ → List Nat} (create : Args → Except Err (Kind × ℝ × Nat))
    (f : CSR ℝ → CSR ℝ) (X X' : CSR ℝ) (self : Args)
    (hW : ∀ w kind s T k, itemKnnW nth w kind s X' T k = (itemKnnW nth w kind s X T k).map f) :
    itemLearn nth create X' self = (itemLearn nth create X self).map f := by
  unfold itemLearn
  simp only [bind, Except.bind]
  cases weightingOf self with
  | error _ => rfl
  | ok w =>
    simp only
    cases create self with
    | error _ => rfl
    | ok r =>
      simp only
      cases attr self "top_k" with
      | error _ => rfl
      | ok v =>
        simp only
        cases toSize v with
        | error _ => rfl
        | ok k => exact hW w _ _ _ _

theorem userLearn_congr {nth : Nat → SpVec ℝ → List Nat} (create : Args → Except Err (Kind × ℝ × Nat))
    (f : CSR ℝ → CSR ℝ) (X X' : CSR ℝ) (self : Args) (W : Weighting → Prop) (hself : ∀ w, weightingOf self = .ok w → W w)
    (hW : ∀ w, W w → ∀ kind s T k, userKnnU nth w kind s X' T k = (userKnnU nth w kind s X T k).map f) :
    userLearn nth create X' self = (userLearn nth create X self).map f := by
  unfold userLearn
  simp only [bind, Except.bind]
  cases h : weightingOf self with
  | error _ => rfl
  | ok w =>
    simp only
    cases create self with
    | error _ => rfl
    | ok r =>
      simp only
      cases attr self "top_k" with
      | error _ => rfl
      | ok v =>
        simp only
        cases toSize v with
        | error _ => rfl
        | ok k => exact hW w (hself w h) _ _ _ _

/-- the names under which the recommenders are constructed all have the same default for the weighting -/
theorem weighted_none (c : RecClass) (hc : c.params.lookup "feature_weighting" = some (.str "NONE")) (e : Env) (own : String)
    (given p self : Args) (hfw : Argument given "feature_weighting" (.str "NONE") (.str "NONE"))
    (h1 : construct c given = .ok p) (h2 : weightedInit e own p = .ok self) : weightingOf self = .ok .none :=
  weightingOf_weighted e own p self (by rw [construct_lookup c given p h1 _ _ hc, hfw.eq]) h2

/-- C92 (the item-based recommenders, more users).  For all arguments, also when they are rejected,
`JaccardKNNRecommender` and `TverskyIndexKNNRecommender` learn the same, and so do `CosineKNNRecommender` and
`AsymmetricCosineKNNRecommender` unless a feature weighting is asked for. -/
theorem C92_users_item_recommenders (nth : Nat → SpVec ℝ → List Nat) (e : Env) (n : Nat) (X : CSR ℝ) (given : Args) :
    jaccardKnnFit nth e (withUsers n X) given = jaccardKnnFit nth e X given ∧
    tverskyKnnFit nth e (withUsers n X) given = tverskyKnnFit nth e X given ∧
    (Argument given "feature_weighting" (.str "NONE") (.str "NONE") →
      cosineKnnFit nth e (withUsers n X) given = cosineKnnFit nth e X given ∧
      asymmetricKnnFit nth e (withUsers n X) given = asymmetricKnnFit nth e X given) := by
  refine ⟨?_, ?_, fun hfw => ⟨?_, ?_⟩⟩
  · unfold jaccardKnnFit
    simp only [bind, Except.bind]
    cases construct jaccardKnn given with
    | error _ => rfl
    | ok p =>
      simp only
      cases h : jaccardInit e p with
      | error _ => rfl
      | ok self => exact itemLearn_withUsers nth _ n X self (weightingOf_jaccard e p self h)
  · unfold tverskyKnnFit
    simp only [bind, Except.bind]
    cases construct tverskyKnn given with
    | error _ => rfl
    | ok p =>
      simp only
      cases h : tverskyInit e p with
      | error _ => rfl
      | ok self => exact itemLearn_withUsers nth _ n X self (weightingOf_tversky e p self h)
  · unfold cosineKnnFit
    simp only [bind, Except.bind]
    cases h1 : construct cosineKnn given with
    | error _ => rfl
    | ok p =>
      simp only
      cases h : weightedInit e "normalize" p with
      | error _ => rfl
      | ok self => exact itemLearn_withUsers nth _ n X self (weighted_none _ rfl e _ given p self hfw h1 h)
  · unfold asymmetricKnnFit
    simp only [bind, Except.bind]
    cases h1 : construct asymmetricCosineKnn given with
    | error _ => rfl
    | ok p =>
      simp only
      cases h : weightedInit e "alpha" p with
      | error _ => rfl
      | ok self => exact itemLearn_withUsers nth _ n X self (weighted_none _ rfl e _ given p self hfw h1 h)

/-- C92 (user neighbourhoods, more users).  Without feature weighting, the similarities between the users that were
there do not change, and the new users are similar to nobody. -/
theorem C92_users_user_knn {nth : Nat → SpVec ℝ → List Nat} (hnth : NthOk nth) (kind : Kind) (s : ℝ) (n : Nat)
    (X : CSR ℝ) (T k : Nat) :
    userKnnU nth .none kind s (withUsers n X) T k = (userKnnU nth .none kind s X T k).map (bordered n) := by
  unfold userKnnU
  simp only [Weighting.apply]
  rw [computeSimilarity_withUsers hnth]
  cases computeSimilarity nth kind s X X T 128 k with
  | error _ => rfl
  | ok S => exact removeDiagonal_bordered n S

/-- C92 (the user-based recommenders, more users).  For all arguments without feature weighting. -/
theorem C92_users_user_recommenders {nth : Nat → SpVec ℝ → List Nat} (hnth : NthOk nth) (e : Env) (n : Nat) (X : CSR ℝ)
    (given : Args) (hfw : Argument given "feature_weighting" (.str "NONE") (.str "NONE")) :
    cosineUserKnnFit nth e (withUsers n X) given = (cosineUserKnnFit nth e X given).map (bordered n) ∧
    asymmetricUserKnnFit nth e (withUsers n X) given = (asymmetricUserKnnFit nth e X given).map (bordered n) := by
  have key : ∀ create self, weightingOf self = .ok .none →
      userLearn nth create (withUsers n X) self = (userLearn nth create X self).map (bordered n) := fun create self hw =>
    userLearn_congr create (bordered n) X _ self (· = .none) (fun w h => by rw [hw] at h; cases h; rfl)
      (fun w h kind s T k => by subst h; exact C92_users_user_knn hnth kind s n X T k)
  constructor
  · unfold cosineUserKnnFit
    simp only [bind, Except.bind]
    cases h1 : construct cosineUserKnn given with
    | error _ => rfl
    | ok p =>
      simp only
      cases h : weightedInit e "normalize" p with
      | error _ => rfl
      | ok self => exact key _ self (weighted_none _ rfl e _ given p self hfw h1 h)
  · unfold asymmetricUserKnnFit
    simp only [bind, Except.bind]
    cases h1 : construct asymmetricCosineUserKnn given with
    | error _ => rfl
    | ok p =>
      simp only
      cases h : weightedInit e "alpha" p with
      | error _ => rfl
      | ok self => exact key _ self (weighted_none _ rfl e _ given p self hfw h1 h)

/-- C92 (random walks, more users).  For all arguments, also when they are rejected, `P3alphaRecommender` and
`RP3betaRecommender` learn the same. -/
theorem C92_users_walks (nth : Nat → SpVec ℝ → List Nat) (e : Env) (n : Nat) (X : CSR ℝ) (given : Args) :
    p3Fit nth e (withUsers n X) given = p3Fit nth e X given ∧
    rp3Fit nth e (withUsers n X) given = rp3Fit nth e X given := by
  have h1 : ∀ alpha X T c k, p3W nth alpha (withItems n X) T c k = p3W nth alpha X T c k := by
    intro alpha X T c k
    unfold p3W
    have := computeSimilarity_withItems nth .raw 0 n (itemToUser alpha X) ⟨X.cols, X.rows.map (fun row =>
      row.map (fun e => (e.1, e.2 ^ alpha / userNorm alpha X e.1)))⟩ T c k
    by_cases ha : alpha < 0
    · rw [if_pos ha, if_pos ha]
    · rw [if_neg ha, if_neg ha]
      simp only
      rw [← this]
      rfl
  have h2 : ∀ alpha beta X T c k, rp3W nth alpha beta (withItems n X) T c k = rp3W nth alpha beta X T c k := by
    intro alpha beta X T c k
    unfold rp3W
    have := computeSimilarity_withItems nth .raw 0 n (itemToUser alpha X) ⟨X.cols, X.rows.map (fun row =>
      row.map (fun e => (e.1, e.2 ^ alpha / (userNorm alpha X e.1 * (rowTotal row) ^ beta))))⟩ T c k
    by_cases ha : alpha < 0 ∨ beta < 0
    · rw [if_pos ha, if_pos ha]
    · rw [if_neg ha, if_neg ha]
      simp only
      rw [← this]
      rfl
  have h3 : ∀ alpha K b T, p3Learn nth alpha (withUsers n X) K b T = p3Learn nth alpha X K b T := by
    intro alpha K b T
    unfold p3Learn
    rw [transpose_withUsers, h1]
    rfl
  have h4 : ∀ alpha beta K b T, rp3Learn nth alpha beta (withUsers n X) K b T = rp3Learn nth alpha beta X K b T := by
    intro alpha beta K b T
    unfold rp3Learn
    rw [transpose_withUsers, h2]
    rfl
  constructor
  · unfold p3Fit
    simp only [h3]
  · unfold rp3Fit
    simp only [h4]

/-- C92 (popularity). -/
theorem C92_users_top_pop {R : Type} [Semiring R] (n : Nat) (X : CSR R) (j : Nat) :
    Score.popularity (withUsers n X) j = Score.popularity X j := by
  unfold Score.popularity withUsers
  rw [List.map_append, List.sum_append]
  simp [SpVec.get]

/-- C92 (`DenseSLIMRecommender` and `EDLAERecommender`, more users).  For all arguments. -/
theorem C92_users_linear {U F : Nat} (n : Nat) (X : Matrix (Fin U) (Fin F) ℝ) (given : Args) :
    denseSlimFit (withUsersDense n X) given = denseSlimFit X given ∧
    edlaeFit (withUsersDense n X) given = edlaeFit X given := by
  have hg : Ease.gram (withUsersDense n X) = Ease.gram X := by
    funext i j
    unfold Ease.gram
    simp only [Matrix.mul_apply, Matrix.transpose_apply]
    rw [Fin.sum_univ_add]
    simp [withUsersDense, Fin.append_left, Fin.append_right]
  have h1 : ∀ reg, Ease.denseSlim (withUsersDense n X) reg = Ease.denseSlim X reg := by
    intro reg
    unfold Ease.denseSlim
    rw [hg]
  have h2 : ∀ reg p, Ease.edlae (withUsersDense n X) reg p = Ease.edlae X reg p := by
    intro reg p
    unfold Ease.edlae
    rw [hg]
  constructor
  · unfold denseSlimFit
    simp only [h1]
  · unfold edlaeFit
    simp only [h2]

/-- C92 (scores, more users).  With the same item similarities, the users that were there get the same scores, and the
new ones get the score zero for every item. -/
theorem C92_users_scores {R : Type} [Semiring R] (n : Nat) (X : CSR R) (W : Score.Dense R) (hW : X.cols = W.rows.length)
    (users : List Int) :
    ((∀ u ∈ users, 0 ≤ u ∧ u < X.nrows) →
      (Score.similarity (withUsers n X) (some W)).getScore users = (Score.similarity X (some W)).getScore users) ∧
    ((∀ u ∈ users, (X.nrows : Int) ≤ u ∧ u < X.nrows + n) →
      (Score.similarity (withUsers n X) (some W)).getScore users = .ok ⟨W.cols, users.map (fun _ _ => 0)⟩) := by
  have hres : ∀ u : Int, 0 ≤ u → u < ((X.nrows + n : Nat) : Int) → Score.resolveIndex (X.nrows + n) u = .ok u.toNat := by
    intro u h1 h2
    unfold Score.resolveIndex
    rw [if_pos h1, if_pos h2]
  have hres0 : ∀ u : Int, 0 ≤ u → u < (X.nrows : Int) → Score.resolveIndex X.nrows u = .ok u.toNat := by
    intro u h1 h2
    unfold Score.resolveIndex
    simp [h1, h2]
  have hall : ∀ (m : Nat) (us : List Int), (∀ u ∈ us, Score.resolveIndex m u = .ok u.toNat) →
      Score.resolveAll m us = .ok (us.map Int.toNat) := by
    intro m us h
    unfold Score.resolveAll
    induction us with
    | nil => rfl
    | cons a us ih =>
      rw [List.mapM_cons, h a List.mem_cons_self, ih (fun u hu => h u (List.mem_cons_of_mem _ hu))]
      rfl
  constructor
  · intro h
    unfold Score.similarity Score.pickRows
    simp only
    rw [withUsers_nrows, hall _ users (fun u hu => hres u (h u hu).1 (by have := (h u hu).2; push_cast; omega)),
      hall _ users (fun u hu => hres0 u (h u hu).1 (h u hu).2)]
    have : (withUsers n X).row = X.row := funext (withUsers_row n X)
    rw [this]
    rfl
  · intro h
    unfold Score.similarity Score.pickRows
    simp only
    rw [withUsers_nrows, hall _ users (fun u hu => hres u (by have := (h u hu).1; omega) (by have := (h u hu).2; push_cast; omega))]
    have : (users.map Int.toNat).map (withUsers n X).row = users.map (fun _ => []) := by
      rw [List.map_map]
      refine List.map_congr_left (fun u hu => ?_)
      simp only [Function.comp]
      rw [withUsers_row]
      exact row_nil_of_le X (by have := (h u hu).1; omega)
    show Score.dotSparse ⟨X.cols, (users.map Int.toNat).map (withUsers n X).row⟩ W = _
    rw [this]
    unfold Score.dotSparse
    rw [if_pos (by exact hW)]
    simp

/-! ## More items -/

/-- C92 (item neighbourhoods, more items).  Whatever the weighting and the similarity, the similarities between the
items that were there do not change when items are added that nobody used, and the new items are similar to none. -/
theorem C92_items_item_knn {nth : Nat → SpVec ℝ → List Nat} (hnth : NthOk nth) (w : Weighting) (kind : Kind) (s : ℝ)
    (n : Nat) (X : CSR ℝ) (hX : X.WF) (T k : Nat) :
    itemKnnW nth w kind s (withItems n X) T k = (itemKnnW nth w kind s X T k).map (bordered n) := by
  unfold itemKnnW
  rw [apply_withItems, transpose_withItems n X hX, transpose_withItems n _ (apply_wf w X hX),
    computeSimilarity_withUsers hnth]
  cases computeSimilarity nth kind s (transpose (w.apply X)) (transpose X) T 128 k with
  | error _ => rfl
  | ok S => exact removeDiagonal_bordered n S

/-- C92 (the item-based recommenders, more items).  For all arguments. -/
theorem C92_items_item_recommenders {nth : Nat → SpVec ℝ → List Nat} (hnth : NthOk nth) (e : Env) (n : Nat) (X : CSR ℝ)
    (hX : X.WF) (given : Args) :
    cosineKnnFit nth e (withItems n X) given = (cosineKnnFit nth e X given).map (bordered n) ∧
    asymmetricKnnFit nth e (withItems n X) given = (asymmetricKnnFit nth e X given).map (bordered n) ∧
    jaccardKnnFit nth e (withItems n X) given = (jaccardKnnFit nth e X given).map (bordered n) ∧
    tverskyKnnFit nth e (withItems n X) given = (tverskyKnnFit nth e X given).map (bordered n) := by
  have key : ∀ create self, itemLearn nth create (withItems n X) self = (itemLearn nth create X self).map (bordered n) :=
    fun create self => itemLearn_withItems create (bordered n) X _ self
      (fun w kind s T k => C92_items_item_knn hnth w kind s n X hX T k)
  have bind' : ∀ {A : Type} (x : Except Err A) (f g : A → Except Err (CSR ℝ)), (∀ a, f a = (g a).map (bordered n)) →
      (x >>= f) = (x >>= g).map (bordered n) := by
    intro A x f g h
    cases x with
    | error _ => rfl
    | ok a => exact h a
  refine ⟨?_, ?_, ?_, ?_⟩
  · exact bind' _ _ _ fun p => bind' _ _ _ fun self => key _ self
  · exact bind' _ _ _ fun p => bind' _ _ _ fun self => key _ self
  · exact bind' _ _ _ fun p => bind' _ _ _ fun self => key _ self
  · exact bind' _ _ _ fun p => bind' _ _ _ fun self => key _ self

/-- C92 (the user-based recommenders, more items).  For all arguments, with any weighting. -/
theorem C92_items_user_recommenders (nth : Nat → SpVec ℝ → List Nat) (e : Env) (n : Nat) (X : CSR ℝ) (given : Args) :
    cosineUserKnnFit nth e (withItems n X) given = cosineUserKnnFit nth e X given ∧
    asymmetricUserKnnFit nth e (withItems n X) given = asymmetricUserKnnFit nth e X given := by
  have h : ∀ w kind s T k, userKnnU nth w kind s (withItems n X) T k = userKnnU nth w kind s X T k := by
    intro w kind s T k
    unfold userKnnU
    rw [apply_withItems, computeSimilarity_withItems]
  constructor
  · unfold cosineUserKnnFit userLearn
    simp only [h]
  · unfold asymmetricUserKnnFit userLearn
    simp only [h]

/-- C92 (popularity, more items).  The others keep their popularity and the new ones have none. -/
theorem C92_items_top_pop {R : Type} [Semiring R] (n : Nat) (X : CSR R) (hX : X.WF) :
    (∀ j, Score.popularity (withItems n X) j = Score.popularity X j) ∧
    ∀ j, X.cols ≤ j → Score.popularity (withItems n X) j = 0 := by
  refine ⟨fun _ => rfl, fun j hj => ?_⟩
  unfold Score.popularity
  apply List.sum_eq_zero
  intro x hx
  obtain ⟨row, hr, rfl⟩ := List.mem_map.mp hx
  unfold SpVec.get
  rw [List.filter_eq_nil_iff.mpr]
  · rfl
  · intro a ha
    have : a.1 < X.cols := hX row hr a ha
    simp only [beq_iff_eq]
    omega

/-- C92 (random walks, more items).  For all arguments; with or without `top_k`. -/
theorem C92_items_walks {nth : Nat → SpVec ℝ → List Nat} (hnth : NthOk nth) (e : Env) (n : Nat) (X : CSR ℝ) (hX : X.WF)
    (given : Args) :
    p3Fit nth e (withItems n X) given = (p3Fit nth e X given).map (borderedCSC n) ∧
    rp3Fit nth e (withItems n X) given = (rp3Fit nth e X given).map (borderedCSC n) := by
  have hrows : (transpose X).nrows = X.cols := transpose_nrows X
  have h3 : ∀ alpha K b T, p3Learn nth alpha (withItems n X) K b T = (p3Learn nth alpha X K b T).map (borderedCSC n) := by
    intro alpha K b T
    unfold p3Learn
    rw [transpose_withItems n X hX, p3W_withUsers hnth]
    have : p3W nth alpha (transpose X) T 128 (K.getD (withItems n X).cols) = p3W nth alpha (transpose X) T 128 (K.getD X.cols) := by
      cases K with
      | some k => rfl
      | none => exact p3W_large hnth _ _ _ _ _ _ (by rw [hrows]; simp [withItems]) (by rw [hrows]; simp)
    rw [this]
    cases p3W nth alpha (transpose X) T 128 (K.getD X.cols) with
    | error _ => rfl
    | ok W => cases b <;> simp [Except.map, l1NormalizeRow_bordered]
  have h4 : ∀ alpha beta K b T, rp3Learn nth alpha beta (withItems n X) K b T =
      (rp3Learn nth alpha beta X K b T).map (borderedCSC n) := by
    intro alpha beta K b T
    unfold rp3Learn
    rw [transpose_withItems n X hX, rp3W_withUsers hnth]
    have : rp3W nth alpha beta (transpose X) T 128 (K.getD (withItems n X).cols) =
        rp3W nth alpha beta (transpose X) T 128 (K.getD X.cols) := by
      cases K with
      | some k => rfl
      | none => exact rp3W_large hnth _ _ _ _ _ _ _ (by rw [hrows]; simp [withItems]) (by rw [hrows]; simp)
    rw [this]
    cases rp3W nth alpha beta (transpose X) T 128 (K.getD X.cols) with
    | error _ => rfl
    | ok W => cases b <;> simp [Except.map, l1NormalizeRow_bordered]
  have bind' : ∀ {A : Type} (x : Except Err A) (f g : A → Except Err (CSC ℝ)), (∀ a, f a = (g a).map (borderedCSC n)) →
      (x >>= f) = (x >>= g).map (borderedCSC n) := by
    intro A x f g h
    cases x with
    | error _ => rfl
    | ok a => exact h a
  constructor
  · unfold p3Fit
    simp only [h3]
    repeat' (first | rfl | (refine bind' _ _ _ fun _ => ?_))
  · unfold rp3Fit
    simp only [h4]
    repeat' (first | rfl | (refine bind' _ _ _ fun _ => ?_))

/-! ## SLIM -/

/-- C92 (SLIM, more users).  The penalties are multiplied by the number of users, so that `alpha` has to be
converted: then everything the workers compute is the same, for every interleaving, shuffle and `top_k`. -/
theorem C92_users_slim {K : Type} [Field K] [LinearOrder K] (n : Nat) (X : CSC K) (alpha alpha' l1Ratio tol prec : K)
    (h : ((X.rows + n : Nat) : K) * alpha' = (X.rows : K) * alpha) (positiveOnly : Bool) (nIter blockSize : Nat)
    (topK : Option Int) {T : Nat} (shuffles : Nat → List Nat) (srt : List (K × Nat) → List (K × Nat)) (sched : List (Fin T)) :
    Slim.slim (Slim.recommenderConfig (withUsersCSC n X).rows alpha' l1Ratio positiveOnly nIter tol topK blockSize prec)
        (withUsersCSC n X) shuffles srt sched =
      Slim.slim (Slim.recommenderConfig X.rows alpha l1Ratio positiveOnly nIter tol topK blockSize prec)
        X shuffles srt sched := by
  have : Slim.recommenderConfig (withUsersCSC n X).rows alpha' l1Ratio positiveOnly nIter tol topK blockSize prec =
      Slim.recommenderConfig X.rows alpha l1Ratio positiveOnly nIter tol topK blockSize prec := by
    unfold Slim.recommenderConfig
    show (⟨_, _, _, ((X.rows + n : Nat) : K) * alpha' * _, ((X.rows + n : Nat) : K) * alpha' * _, _, _, _⟩ : Slim.Config K) = _
    rw [h]
  rw [this]
  generalize Slim.recommenderConfig X.rows alpha l1Ratio positiveOnly nIter tol topK blockSize prec = cfg
  have hit : ∀ b m c s, Slim.iterations cfg (withUsersCSC n X) b shuffles m c s = Slim.iterations cfg X b shuffles m c s := by
    intro b m
    induction m with
    | zero => intro c s; rfl
    | succ m ih =>
      intro c s
      show (if (Slim.sweep cfg X b (shuffles c) s).2 < cfg.tol then _ else _) = _
      rw [ih]
      rfl
  have hp : ∀ i w, Slim.processBlock cfg (withUsersCSC n X) shuffles srt i w = Slim.processBlock cfg X shuffles srt i w := by
    intro i w
    unfold Slim.processBlock
    simp only [hit]
    rfl
  unfold Slim.slim
  simp only [hp]
  rfl

/-- two items, used by one user -/
def pair : CSC Rat := ⟨1, [[(0, 1)], [(0, 1)]]⟩

/-- C92 fails for SLIM with the same `alpha`: a user without interactions changes the weight between the two
items from 2/3 to 1/2. -/
theorem C92_users_slim_counterexample : ∃ s s' : WorkQueue.State 1 (Slim.Worker Rat) Unit,
    Slim.slim (Slim.recommenderConfig pair.rows (1 / 2) 0 true 1 0 none 2 0) pair (fun _ => [0, 1]) id
      (List.replicate 4 (0 : Fin 1)) = .ok s ∧
    Slim.slim (Slim.recommenderConfig (withUsersCSC 1 pair).rows (1 / 2) 0 true 1 0 none 2 0) (withUsersCSC 1 pair)
      (fun _ => [0, 1]) id (List.replicate 4 (0 : Fin 1)) = .ok s' ∧
    WorkQueue.Finished s ∧ WorkQueue.Finished s' ∧ Slim.weights s 0 1 = 2 / 3 ∧ Slim.weights s' 0 1 = 1 / 2 := by
  have c1 : Slim.recommenderConfig pair.rows (1 / 2 : Rat) 0 true 1 0 none 2 0 = ⟨true, 2, 1, 1 / 2, 0, 0, 0, -1⟩ := by
    simp [Slim.recommenderConfig, pair]
  have c2 : Slim.recommenderConfig (withUsersCSC 1 pair).rows (1 / 2 : Rat) 0 true 1 0 none 2 0 = ⟨true, 2, 1, 1, 0, 0, 0, -1⟩ := by
    simp [Slim.recommenderConfig, pair, withUsersCSC, one_add_one_eq_two]
  rw [c1, c2]
  have h : ∀ (cfg : Slim.Config Rat) (X : CSC Rat), cfg.nIter ≠ 0 → ¬ cfg.l2 < 0 → ¬ cfg.l1 < 0 →
      Slim.slim cfg X (fun _ => [0, 1]) id (List.replicate 4 (0 : Fin 1)) =
        .ok (WorkQueue.run (Slim.blockCount cfg X) 1 (fun i w m => (Slim.processBlock cfg X (fun _ => [0, 1]) id i w, m))
          (WorkQueue.init (Slim.freshWorker cfg X) ()) (List.replicate 4 (0 : Fin 1))) := by
    intro cfg X h1 h2 h3
    unfold Slim.slim
    rw [if_neg (by decide), if_neg h1, if_neg h2, if_neg h3]
  refine ⟨_, _, h _ _ (by decide) (by decide +kernel) (by decide +kernel),
    h _ _ (by decide) (by decide +kernel) (by decide +kernel), fun t => ?_, fun t => ?_, ?_, ?_⟩
  · revert t; decide +kernel
  · revert t; decide +kernel
  all_goals decide +kernel

/-! ## Feature weighting -/

/-- C92 fails for users when a feature weighting is asked for: the inverse document frequency counts all users.
With one user the TF-IDF weight of the only interaction is negative, with a second, inactive user it is zero; the
BM25 weight grows. -/
theorem C92_users_weighting_counterexample :
    (tfIdf ⟨1, [[(0, 1)]]⟩ true).get 0 0 < 0 ∧ (tfIdf (withUsers 1 ⟨1, [[(0, 1)]]⟩) true).get 0 0 = 0 ∧
    (bm25 ⟨1, [[(0, 1)]]⟩ 1 0).get 0 0 < (bm25 (withUsers 1 ⟨1, [[(0, 1)]]⟩) 1 0).get 0 0 := by
  have h1 : Real.log (1 / 2) < 0 := Real.log_neg (by norm_num) (by norm_num)
  refine ⟨?_, ?_, ?_⟩
  · simpa [tfIdf, docFreq, CSR.get, CSR.row, SpVec.get, CSR.nrows, one_add_one_eq_two] using h1
  · simp [tfIdf, docFreq, CSR.get, CSR.row, SpVec.get, CSR.nrows, withUsers, one_add_one_eq_two]
  · simp only [bm25, docFreq, CSR.get, CSR.row, SpVec.get, CSR.nrows, withUsers]
    norm_num
    exact Real.log_lt_log (by norm_num) (by norm_num)

/-! ## Matrix factorisation -/

/-- C92 (the documented loss of iALS, more users).  With `nu = 0`, whatever embeddings the new users are given, the
loss does not become smaller, and it stays the same if these embeddings are zero: the optimal embeddings of the
others are the same. -/
theorem C92_users_ials_loss {K : Nat} (p : Spec.Ials.Params) (hnu : p.nu = 0) (ha : 0 ≤ p.alpha0) (hr : 0 ≤ p.reg)
    (n : Nat) (D : Spec.Ials.Data) (A B : Nat → Fin K → ℝ) :
    Spec.Ials.loss p D A B ≤ Spec.Ials.loss p (withUsersData n D) A B ∧
    ((∀ u, D.U ≤ u → A u = 0) → Spec.Ials.loss p (withUsersData n D) A B = Spec.Ials.loss p D A B) := by
  classical
  have hU : (withUsersData n D).U = D.U + n := rfl
  have hI : (withUsersData n D).I = D.I := rfl
  have hwu : ∀ u, Spec.Ials.userWeight p (withUsersData n D) u = p.reg := by
    intro u; unfold Spec.Ials.userWeight; rw [hnu, Real.rpow_zero, mul_one]
  have hwu0 : ∀ u, Spec.Ials.userWeight p D u = p.reg := by
    intro u; unfold Spec.Ials.userWeight; rw [hnu, Real.rpow_zero, mul_one]
  have hwi : ∀ i, Spec.Ials.itemWeight p (withUsersData n D) i = p.reg := by
    intro u; unfold Spec.Ials.itemWeight; rw [hnu, Real.rpow_zero, mul_one]
  have hwi0 : ∀ i, Spec.Ials.itemWeight p D i = p.reg := by
    intro u; unfold Spec.Ials.itemWeight; rw [hnu, Real.rpow_zero, mul_one]
  have hS : ∀ u i, u < D.U → ((withUsersData n D).S u i ↔ D.S u i) := fun u i hu => ⟨fun h => h.2, fun h => ⟨hu, h⟩⟩
  have hS' : ∀ u i, ¬ (withUsersData n D).S (D.U + u) i := fun u i h => absurd h.1 (by omega)
  -- the part of the new users
  have hdata : Spec.Ials.dataTerm p (withUsersData n D) A B = Spec.Ials.dataTerm p D A B +
      p.alpha0 * ∑ u ∈ Finset.range n, ∑ i ∈ Finset.range D.I, Spec.Ials.score (A (D.U + u)) (B i) ^ 2 := by
    unfold Spec.Ials.dataTerm
    by_cases ho : p.original = true
    · rw [if_pos ho, if_pos ho]
      unfold Spec.Ials.originalTerm
      rw [hU, hI, Finset.sum_range_add]
      congr 1
      · refine Finset.sum_congr rfl (fun u hu => Finset.sum_congr rfl (fun i _ => ?_))
        have := hS u i (Finset.mem_range.mp hu)
        simp only [this]
        rfl
      · rw [Finset.mul_sum]
        refine Finset.sum_congr rfl (fun u hu => ?_)
        rw [Finset.mul_sum]
        refine Finset.sum_congr rfl (fun i _ => ?_)
        rw [if_neg (hS' u i), if_neg (hS' u i)]
        ring
    · rw [if_neg ho, if_neg ho]
      unfold Spec.Ials.ialsppTerm
      rw [hU, hI, Finset.sum_range_add, Finset.sum_range_add]
      have e1 : ∑ u ∈ Finset.range n, ∑ i ∈ (Finset.range D.I).filter (fun i => (withUsersData n D).S (D.U + u) i),
          (withUsersData n D).X (D.U + u) i * (Spec.Ials.score (A (D.U + u)) (B i) - 1) ^ 2 = 0 := by
        refine Finset.sum_eq_zero (fun u _ => Finset.sum_eq_zero (fun i hi => ?_))
        exact absurd (Finset.mem_filter.mp hi).2 (hS' u i)
      have e2 : ∑ u ∈ Finset.range D.U, ∑ i ∈ (Finset.range D.I).filter (fun i => (withUsersData n D).S u i),
          (withUsersData n D).X u i * (Spec.Ials.score (A u) (B i) - 1) ^ 2 =
          ∑ u ∈ Finset.range D.U, ∑ i ∈ (Finset.range D.I).filter (fun i => D.S u i),
          D.X u i * (Spec.Ials.score (A u) (B i) - 1) ^ 2 := by
        refine Finset.sum_congr rfl (fun u hu => ?_)
        have : (Finset.range D.I).filter (fun i => (withUsersData n D).S u i) = (Finset.range D.I).filter (fun i => D.S u i) := by
          apply Finset.filter_congr
          intro i _
          exact hS u i (Finset.mem_range.mp hu)
        rw [this]
        rfl
      rw [e1, e2]
      ring
  have hloss : Spec.Ials.loss p (withUsersData n D) A B = Spec.Ials.loss p D A B +
      1 / 2 * (p.alpha0 * ∑ u ∈ Finset.range n, ∑ i ∈ Finset.range D.I, Spec.Ials.score (A (D.U + u)) (B i) ^ 2) +
      1 / 2 * ∑ u ∈ Finset.range n, p.reg * Spec.Ials.normSq (A (D.U + u)) := by
    unfold Spec.Ials.loss
    rw [hdata, hU, hI, Finset.sum_range_add]
    simp only [hwu, hwu0, hwi, hwi0]
    ring
  constructor
  · rw [hloss]
    have t1 : 0 ≤ p.alpha0 * ∑ u ∈ Finset.range n, ∑ i ∈ Finset.range D.I, Spec.Ials.score (A (D.U + u)) (B i) ^ 2 :=
      mul_nonneg ha (Finset.sum_nonneg (fun u _ => Finset.sum_nonneg (fun i _ => sq_nonneg _)))
    have t2 : 0 ≤ ∑ u ∈ Finset.range n, p.reg * Spec.Ials.normSq (A (D.U + u)) :=
      Finset.sum_nonneg (fun u _ => mul_nonneg hr (Finset.sum_nonneg (fun k _ => sq_nonneg _)))
    linarith
  · intro h0
    rw [hloss]
    have z : ∀ u, A (D.U + u) = 0 := fun u => h0 _ (by omega)
    simp [z, Spec.Ials.score, Spec.Ials.normSq]

/-- C92 (training iALS, more users).  With `nu = 0` and the Cholesky or CG solver, whatever the threads and
interleavings of the two runs are: from the same initial embeddings, the embeddings of the items and of the users
that were there are the same after any number of epochs, and those of the new users are zero. -/
theorem C92_users_ials_training {K : Nat} (cfg : Ials.Config) (hnu : cfg.nu = 0) (ha : 0 ≤ cfg.alpha0) (hr : 0 < cfg.reg)
    (n : Nat) (X : CSR ℝ) (hX : X.WF) (hnn : ∀ row ∈ X.rows, ∀ e ∈ row, 0 ≤ e.2) (u₀ u₀' v₀ : Nat → Fin K → ℝ)
    (hu : ∀ u, u < X.nrows → u₀' u = u₀ u) (epochs epochs' : List Epoch)
    (he : List.Forall₂ (fun e e' => e'.solver = e.solver) epochs epochs')
    (hc : ∀ e ∈ epochs, 0 < e.threads ∧ e.order.Complete ∧ e.solver.solverType ≠ .ialspp)
    (hc' : ∀ e ∈ epochs', 0 < e.threads ∧ e.order.Complete) :
    ∃ tr tr', train epochs (Ials.Trainer.create cfg X u₀ v₀) = .ok tr ∧
      train epochs' (Ials.Trainer.create cfg (withUsers n X) u₀' v₀) = .ok tr' ∧
      (∀ i, i < X.cols → tr'.item.row i = tr.item.row i) ∧
      (∀ u, u < X.nrows → tr'.user.row u = tr.user.row u) ∧
      (epochs ≠ [] → ∀ u, X.nrows ≤ u → u < X.nrows + n → tr'.user.row u = 0) := by
  have key : ∀ (epochs epochs' : List Epoch), List.Forall₂ (fun e e' => e'.solver = e.solver) epochs epochs' →
      (∀ e ∈ epochs, 0 < e.threads ∧ e.order.Complete ∧ e.solver.solverType ≠ .ialspp) →
      (∀ e ∈ epochs', 0 < e.threads ∧ e.order.Complete) → ∀ t t' : Ials.Trainer K, t.cfg = cfg → Ials.Silenced n X t t' →
      ∃ tr tr', train epochs t = .ok tr ∧ train epochs' t' = .ok tr' ∧ Ials.Silenced n X tr tr' ∧
        ((Ials.PaddedZero n t.user t'.user ∨ epochs ≠ []) → Ials.PaddedZero n tr.user tr'.user) := by
    intro epochs epochs' he
    induction he with
    | nil => intro _ _ t t' _ h; exact ⟨t, t', rfl, rfl, h, fun h => h.resolve_right (fun h => h rfl)⟩
    | @cons e e' l l' h1 _ ih =>
      intro hc hc' t t' hcfg h
      obtain ⟨c1, c2, c3⟩ := hc e List.mem_cons_self
      obtain ⟨c1', c2'⟩ := hc' e' List.mem_cons_self
      obtain ⟨s, s', g1, g2, g3, g4, g5⟩ := Ials.step_silenced c2 c2' c1 c1' e.solver c3 hX hnn h
        (by rw [hcfg]; exact ha) (by rw [hcfg]; exact hr) (by rw [hcfg]; exact hnu)
      obtain ⟨tr, tr', k1, k2, k3, k4⟩ := ih (fun e he => hc e (List.mem_cons_of_mem _ he))
        (fun e he => hc' e (List.mem_cons_of_mem _ he)) s s' (g4.trans hcfg) g3
      refine ⟨tr, tr', ?_, ?_, k3, fun _ => k4 (.inl g5)⟩
      · unfold train at k1 ⊢
        rw [List.foldlM_cons, g1]
        exact k1
      · unfold train at k2 ⊢
        rw [List.foldlM_cons, h1, g2]
        exact k2
  have h0 : Ials.Silenced n X (Ials.Trainer.create cfg X u₀ v₀) (Ials.Trainer.create cfg (withUsers n X) u₀' v₀) :=
    { cfg := rfl
      mat := rfl
      mat' := rfl
      Xt := rfl
      Xt' := transpose_withUsers n X
      plain := rfl
      plain' := rfl
      nUsers := rfl
      nItems := rfl
      user := ⟨withUsers_nrows n X, hu⟩
      item := ⟨rfl, fun _ _ => rfl⟩ }
  obtain ⟨tr, tr', g1, g2, g3, g4⟩ := key epochs epochs' he hc hc' _ _ rfl h0
  refine ⟨tr, tr', g1, g2, fun i hi => g3.item.rows i (by rw [g3.nItems]; exact hi),
    fun u hu => g3.user.rows u (by rw [g3.nUsers]; exact hu), fun hne u h1 h2 => ?_⟩
  exact (g4 (.inr hne)).zero u (by rw [g3.nUsers]; exact h1) (by rw [g3.nUsers]; exact h2)

/-- C92 fails for iALS with `nu ≠ 0`: the weight of an item's regularisation counts the inactive users, so that the
same embeddings have another loss. -/
theorem C92_users_ials_nu_counterexample : ∃ (p : Spec.Ials.Params) (D : Spec.Ials.Data) (A B : Nat → Fin 1 → ℝ),
    p.nu = 1 ∧ 0 < p.alpha0 ∧ 0 < p.reg ∧ (∀ u, A u = 0) ∧
    Spec.Ials.loss p (withUsersData 1 D) A B = 2 * Spec.Ials.loss p D A B ∧ 0 < Spec.Ials.loss p D A B := by
  refine ⟨⟨true, 1, 1, 1⟩, ⟨1, 1, fun _ _ => False, fun _ _ => 0⟩, fun _ => 0, fun _ _ => 1, rfl, by norm_num, by norm_num,
    fun _ => rfl, ?_, ?_⟩
  · simp [Spec.Ials.loss, Spec.Ials.dataTerm, Spec.Ials.originalTerm, Spec.Ials.score, Spec.Ials.normSq, withUsersData,
      Spec.Ials.itemWeight, Spec.Ials.Data.itemCount]
  · simp [Spec.Ials.loss, Spec.Ials.dataTerm, Spec.Ials.originalTerm, Spec.Ials.score, Spec.Ials.normSq,
      Spec.Ials.itemWeight, Spec.Ials.Data.itemCount]

/-! ## The hypotheses are met -/

/-- the example of three users and items is a proper matrix, the partial sort is one, and the learnt matrices are not
trivial -/
example : exampleWalk.WF ∧ NthOk sortNth ∧ (∃ W, rp3Fit sortNth exampleEnv2 (withItems 2 exampleWalk)
    [("top_k", .num 1), ("alpha", .num 2)] = .ok W ∧ W.cols.length = exampleWalk.cols + 2) ∧
    Argument [("shrinkage", .num 2)] "feature_weighting" (.str "NONE") (.str "NONE") := by
  refine ⟨exampleWalk_ok.1.1, sortNth_ok, ?_, .inr ⟨rfl, rfl⟩⟩
  obtain ⟨_, _, W, -, -, hW, -, h1, -⟩ := C82_rp3 sortNth_ok exampleEnv2 exampleWalk exampleWalk_ok.1 exampleWalk_ok.2
    [("top_k", .num 1), ("alpha", .num 2)] 2 (3 / 5) false (some 1) 2
    (by intro a ha; simp at ha; rcases ha with rfl | rfl <;> simp) (.inl rfl) (.inr ⟨rfl, rfl⟩)
    (.inl (by simp [optionalSize])) (.inr ⟨rfl, rfl⟩) (.inr ⟨.inr ⟨rfl, rfl⟩, rfl⟩) (by norm_num) (by norm_num)
    (by norm_num)
  refine ⟨borderedCSC 2 W, ?_, ?_⟩
  · rw [(C92_items_walks sortNth_ok exampleEnv2 2 exampleWalk exampleWalk_ok.1.1 _).2, hW]
    rfl
  · simp [borderedCSC, h1]

/-- an interaction matrix, a configuration and two epochs for which both trainings are run -/
example : ∃ (cfg : Ials.Config) (X : CSR ℝ) (epochs : List Epoch), cfg.nu = 0 ∧ 0 < cfg.alpha0 ∧ 0 < cfg.reg ∧ X.WF ∧
    (∀ row ∈ X.rows, ∀ e ∈ row, 0 ≤ e.2) ∧ epochs.length = 2 ∧
    (∀ e ∈ epochs, 0 < e.threads ∧ e.order.Complete ∧ e.solver.solverType ≠ .ialspp) := by
  obtain ⟨o2, h2⟩ := Ials.exists_complete_oracle 2 (by norm_num)
  obtain ⟨o3, h3⟩ := Ials.exists_complete_oracle 3 (by norm_num)
  refine ⟨⟨1, 1, 1, 0, 1, 0, .ialspp, 0, 0, 0⟩, exampleWalk,
    [⟨2, o2, ⟨.cholesky, 0, 1, 1⟩⟩, ⟨3, o3, ⟨.cg, 0, 1, 1⟩⟩], rfl, by norm_num, by norm_num,
    exampleWalk_ok.1.1, ?_, rfl, ?_⟩
  · intro row hr e he
    exact (exampleWalk_ok.2 row hr e he).le
  · intro e he
    simp only [List.mem_cons, List.not_mem_nil, or_false] at he
    rcases he with rfl | rfl
    · exact ⟨by norm_num, h2, nofun⟩
    · exact ⟨by norm_num, h3, nofun⟩

example : ((pair.rows + 1 : Nat) : Rat) * (1 / 4) = (pair.rows : Rat) * (1 / 2) := by norm_num [pair]

end Irspack.Props
