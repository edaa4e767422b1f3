import Verif.Proofs.NewProfile
import Verif.Props.IalsCold

/-!
# C104: a new user's profile counts by what it says
-/

namespace Irspack.NewProfile

open Retrieval Spec.NewProfile

variable {I : Type} [DecidableEq I]

theorem map_eq_of_forall₂ {A B : Type} {R : A → A → Prop} {ps qs : List A} (h : List.Forall₂ R ps qs) (g : A → B)
    (hg : ∀ p q, R p q → g p = g q) : ps.map g = qs.map g := by
  induction h with
  | nil => rfl
  | cons h _ ih => rw [List.map_cons, List.map_cons, hg _ _ h, ih]

theorem row_newUsers (m : ItemIDMapper I) (ps : List (Profile I)) (u : Nat) :
    (newUsers m ps).row u = if h : u < ps.length then entries m ps[u] else [] := by
  rw [newUsers_eq]
  unfold CSR.row
  split
  · rename_i h
    simp [List.getD_eq_getElem?_getD, List.getElem?_eq_getElem h]
  · rename_i h
    simp [List.getD_eq_getElem?_getD, List.getElem?_eq_none (not_lt.mp h)]

theorem forall₂_row {R : Profile I → Profile I → Prop} {ps qs : List (Profile I)} (h : List.Forall₂ R ps qs)
    (m : ItemIDMapper I) (u : Nat) :
    ((newUsers m ps).row u = [] ∧ (newUsers m qs).row u = []) ∨
    ∃ p ∈ ps, ∃ q ∈ qs, R p q ∧ (newUsers m ps).row u = entries m p ∧ (newUsers m qs).row u = entries m q := by
  rw [row_newUsers, row_newUsers]
  by_cases hu : u < ps.length
  · have hu' : u < qs.length := by rw [← h.length_eq]; exact hu
    rw [dif_pos hu, dif_pos hu']
    exact .inr ⟨_, List.getElem_mem hu, _, List.getElem_mem hu', h.get hu hu', rfl, rfl⟩
  · have hu' : ¬ u < qs.length := by rw [← h.length_eq]; exact hu
    rw [dif_neg hu, dif_neg hu']
    exact .inl ⟨rfl, rfl⟩

theorem maskSeen_congr (m m' : CSR ℝ) (hn : m.nrows = m'.nrows)
    (hz : ∀ u j, Score.nonzeroAt m u j = Score.nonzeroAt m' u j) (s : Score.Dense ℝ) :
    Score.maskSeen m s = Score.maskSeen m' s := by
  have key : ∀ m : CSR ℝ, (List.range m.nrows).all (fun u => (m.row u).all (fun e =>
      decide (e.2 = 0) || (decide (u < s.rows.length) && decide (e.1 < s.cols)))) = true ↔
      ∀ u j, u < m.nrows → Score.nonzeroAt m u j = true → u < s.rows.length ∧ j < s.cols := by
    intro m
    simp only [List.all_eq_true, List.mem_range, Bool.or_eq_true, decide_eq_true_eq, Bool.and_eq_true,
      Score.nonzeroAt, List.any_eq_true, beq_iff_eq]
    constructor
    · rintro h u j hu ⟨e, he, rfl, h0⟩
      exact (h u hu e he).resolve_left h0
    · intro h u hu e he
      by_cases h0 : e.2 = 0
      · exact .inl h0
      · exact .inr (h u e.1 hu ⟨e, he, rfl, h0⟩)
  have hk : ((List.range m.nrows).all (fun u => (m.row u).all (fun e =>
      decide (e.2 = 0) || (decide (u < s.rows.length) && decide (e.1 < s.cols)))) = true) =
      ((List.range m'.nrows).all (fun u => (m'.row u).all (fun e =>
      decide (e.2 = 0) || (decide (u < s.rows.length) && decide (e.1 < s.cols)))) = true) := by
    rw [eq_iff_iff, key, key, hn]
    simp only [hz]
  unfold Score.maskSeen
  simp only [hk, hz]

theorem nonzeroAt_get (m : ItemIDMapper I) (ps : List (Profile I)) (hp : ∀ p ∈ ps, NonNegative p) (u j : Nat) :
    Score.nonzeroAt (newUsers m ps) u j = decide (((newUsers m ps).row u).get j ≠ 0) := by
  have hnn : ∀ e ∈ (newUsers m ps).row u, 0 ≤ e.2 := by
    rw [row_newUsers]
    split
    · exact entries_nonneg m (hp _ (List.getElem_mem _))
    · intro e he; cases he
  rw [Bool.eq_iff_iff, decide_eq_true_iff, Sim.get_ne_zero_iff hnn]
  simp [Score.nonzeroAt]

theorem minibatches_flatMap {A B : Type} (g : A → B) (k : Nat) (l : List A) :
    (MultVAE.minibatches k l).flatMap (fun b => b.map g) = (MultVAE.minibatches k (l.map g)).flatten := by
  unfold MultVAE.minibatches
  rw [List.flatMap_def, List.map_map, List.length_map]
  congr 1
  apply List.map_congr_left
  intro a _
  simp [List.map_drop, List.map_take]

theorem minibatches_length {A : Type} (k : Nat) (l : List A) :
    (MultVAE.minibatches k l).length = (l.length + k - 1) / k := by
  simp [MultVAE.minibatches, MultVAE.starts]

/-- the parts that all recommenders whose scores are computed from the values of the matrix have in common -/
theorem removeSeen_of (ids : List I) (m : ItemIDMapper I) (hm : ItemIDMapper.make ids = .ok m)
    {ps qs : List (Profile I)} (h : List.Forall₂ (SameAmounts ids) ps qs) (hp : ∀ p ∈ ps, NonNegative p)
    (hq : ∀ q ∈ qs, NonNegative q) (r : Score.Recommender ℝ)
    (hr : r.getScoreColdUser (newUsers m ps) = r.getScoreColdUser (newUsers m qs)) :
    r.getScoreColdUserRemoveSeen (newUsers m ps) = r.getScoreColdUserRemoveSeen (newUsers m qs) := by
  unfold Score.Recommender.getScoreColdUserRemoveSeen
  rw [hr]
  congr 1
  funext s
  refine maskSeen_congr _ _ ?_ ?_ s
  · rw [newUsers_eq, newUsers_eq]
    unfold CSR.nrows
    simp [h.length_eq]
  · intro u j
    rw [nonzeroAt_get m ps hp, nonzeroAt_get m qs hq]
    rcases forall₂_row h m u with ⟨h1, h2⟩ | ⟨p, -, q, -, hpq, h1, h2⟩
    · rw [h1, h2]
    · rw [h1, h2, entries_same ids m hm hpq]

/-- C104 (item similarities, TopPop, Mult-VAE): profiles that say the same of each known item give the same scores, with
the items of the profile removed, for a batch and for a single user.  So neither the order of a profile, nor unknown
IDs, nor whether a repeated item is given as a list or as a dict matter. -/
theorem C104_by_value (ids : List I) (m : ItemIDMapper I) (hm : ItemIDMapper.make ids = .ok m)
    (ps qs : List (Profile I)) (h : List.Forall₂ (SameAmounts ids) ps qs) (hp : ∀ p ∈ ps, NonNegative p)
    (hq : ∀ q ∈ qs, NonNegative q) (X : CSR ℝ) (W : Option (Score.Dense ℝ)) (pop : Option (Nat → ℝ)) {O : Type}
    (cfg : MultVAE.Config) (st : Option (MultVAE.State O)) :
    (Score.similarity X W).getScoreColdUserRemoveSeen (newUsers m ps) =
      (Score.similarity X W).getScoreColdUserRemoveSeen (newUsers m qs) ∧
    (Score.topPop X pop).getScoreColdUserRemoveSeen (newUsers m ps) =
      (Score.topPop X pop).getScoreColdUserRemoveSeen (newUsers m qs) ∧
    (MultVAE.recommender cfg X st).getScoreColdUserRemoveSeen (newUsers m ps) =
      (MultVAE.recommender cfg X st).getScoreColdUserRemoveSeen (newUsers m qs) := by
  refine ⟨removeSeen_of ids m hm h hp hq _ ?_, removeSeen_of ids m hm h hp hq _ ?_, removeSeen_of ids m hm h hp hq _ ?_⟩
  · simp only [Score.similarity]
    cases W with
    | none => rfl
    | some w =>
      simp only [Score.fitted, newUsers_eq]
      change Score.dotSparse _ w = Score.dotSparse _ w
      unfold Score.dotSparse
      simp only [List.map_map]
      rw [map_eq_of_forall₂ h]
      intro p q hpq
      funext j
      simp only [Function.comp]
      rw [Score.sum_entries_get _ _ (entries_lt m p) (fun i => w.get i j),
        Score.sum_entries_get _ _ (entries_lt m q) (fun i => w.get i j)]
      exact Finset.sum_congr rfl (fun i _ => by rw [entries_same ids m hm hpq])
  · simp only [Score.topPop, newUsers_eq, CSR.nrows, List.length_map, h.length_eq]
  · simp only [MultVAE.recommender]
    cases st with
    | none => rfl
    | some st =>
      simp only [Score.fitted, newUsers_eq]
      change ((MultVAE.coldScores cfg X.cols st _) >>= _) = ((MultVAE.coldScores cfg X.cols st _) >>= _)
      unfold MultVAE.coldScores
      simp only [minibatches_flatMap, minibatches_length, List.map_map, List.length_map, h.length_eq,
        List.map_eq_nil_iff]
      have he : ps = [] ↔ qs = [] := by
        rw [← List.length_eq_zero_iff, ← List.length_eq_zero_iff, h.length_eq]
      rw [map_eq_of_forall₂ h (_ ∘ entries m) (fun p q hpq => ?_)]
      · simp only [he]
      simp only [Function.comp]
      congr 1
      funext j
      exact entries_same ids m hm hpq j

/-- C104 (single user): `recommend_for_new_user` gives the recommender the one-row matrix of a batch of one. -/
theorem C104_single (m : ItemIDMapper I) (p : Profile I) : newUser m p = newUsers m [p] := newUser_eq m p

section
variable {K T T' : Nat}

open Ials

theorem alike_perm (cfg : Config) (V : Factor K) {row row' : SpVec ℝ} (h : row'.Perm row) : Alike cfg V row row' := by
  have hs : SameSystem V V row row' := ⟨rfl, h.map _⟩
  exact ⟨by rw [hs.length], hs.mat, hs.rhs cfg, hs.block⟩

theorem alike_values {cfg : Config} (hnu : cfg.nu = 0) (hl : cfg.lossType = .ialspp) (V : Factor K) {row row' : SpVec ℝ}
    {n : Nat} (h1 : ∀ e ∈ row, e.1 < n) (h2 : ∀ e ∈ row', e.1 < n) (h : ∀ k, row'.get k = row.get k) :
    Alike cfg V row row' := by
  have key : ∀ f : Nat → ℝ, (row'.map (fun e => e.2 * f e.1)).sum = (row.map (fun e => e.2 * f e.1)).sum := by
    intro f
    rw [Score.sum_entries_get _ n h1 f, Score.sum_entries_get _ n h2 f]
    exact Finset.sum_congr rfl (fun i _ => by rw [h])
  refine ⟨by rw [computeReg_nu hnu, computeReg_nu hnu], ?_, ?_, ?_⟩
  · intro P d
    funext i j
    unfold sysMat ents
    rw [List.map_map, List.map_map]
    have := key (fun k => V.row k i * V.row k j)
    simp only [Function.comp_def] at this ⊢
    rw [this]
  · intro b
    unfold sysRhs
    congr 1
    have hb : bias cfg = 0 := by simp [bias, hl]
    rw [hb]
    funext i
    have := key (fun k => V.row k i)
    have hsum : ∀ r : SpVec ℝ, (r.map (fun e => ((0 : ℝ) + e.2) • V.row e.1)).sum i =
        (r.map (fun e => e.2 * V.row e.1 i)).sum := by
      intro r
      induction r with
      | nil => simp
      | cons e r ih =>
        rw [List.map_cons, List.sum_cons, Pi.add_apply, ih]
        simp
    rw [hsum, hsum, this]
  · intro lo hi P d
    funext i j
    unfold sysMat blockEnts
    rw [List.map_map, List.map_map]
    have := key (fun k => V.row k i.1 * V.row k j.1)
    simp only [Function.comp_def] at this ⊢
    rw [this]

theorem sameOutcome_of_relE {A : Type} {x y : Except Err A} (h : RelE (fun a b => b = a) x y) : SameOutcome x y := by
  cases h with
  | ok h => exact .inl ⟨_, rfl, by rw [h]⟩
  | error e e' => exact .inr ⟨e, e', rfl, rfl⟩

/-- the embeddings of new users with alike rows -/
theorem transform_alike {ω : Oracle T} {ω' : Oracle T'} (hω : ω.Complete) (hω' : ω'.Complete) (hT : 0 < T) (hT' : 0 < T')
    (tr : Trainer K) (hreg : 0 ≤ tr.cfg.reg) (ha : 0 ≤ tr.cfg.alpha0) (sc : SolverConfig) (X X' : CSR ℝ)
    (hc : X'.cols = X.cols) (hn : X'.nrows = X.nrows) (h : ∀ r, Alike tr.cfg tr.item (X.row r) (X'.row r))
    (hnn : ∀ r, NonNegRow (X.row r)) (hnn' : ∀ r, NonNegRow (X'.row r))
    (he : ∀ r, (X'.row r).length = 0 ↔ (X.row r).length = 0) :
    RelE (fun a b => b = a) (tr.transformUser ω sc X) (tr.transformUser ω' sc X') := by
  unfold Trainer.transformUser
  rw [prepareP_eq (hω.at 0) hT, prepareP_eq (hω'.at 0) hT']
  change RelE _ (xToVector _ _ _ _ _ _) (xToVector _ _ _ _ _ _)
  unfold xToVector
  rw [hc, hn]
  by_cases hcc : X.cols ≠ tr.item.n
  · rw [if_pos hcc, if_pos hcc]; exact .error _ _
  · rw [if_neg hcc, if_neg hcc]
    exact solverStep_alike (hω.at 1) (hω'.at 1) hT hT' h hnn hnn' hreg ha sc (fun _ => he) _

theorem scores_of {x y : Except Err (Factor K)} (V : Factor K) (h : RelE (fun a b => b = a) x y) :
    SameOutcome (x >>= fun e => (pure (embeddingScores e V) : Except Err _)) (y >>= fun e => pure (embeddingScores e V)) := by
  cases h with
  | ok h => subst h; exact .inl ⟨_, rfl, rfl⟩
  | error e e' => exact .inr ⟨e, e', rfl, rfl⟩

theorem scaleX_newUsers (s : Scaling) (eps : ℝ) (m : ItemIDMapper I) (ps : List (Profile I)) (u : Nat) :
    (scaleX s eps (newUsers m ps)).row u = match s with
      | .none => (newUsers m ps).row u
      | .log => ((newUsers m ps).row u).map (fun e => (e.1, Real.log (1 + e.2 / eps))) := by
  cases s with
  | none => rfl
  | log =>
    simp only [scaleX, CSR.row, List.getD_eq_getElem?_getD, List.getElem?_map]
    cases (newUsers m ps).rows[u]? <;> rfl

theorem logDefined_newUsers (s : Scaling) {eps : ℝ} (he : 0 < eps) (m : ItemIDMapper I) (ps : List (Profile I))
    (hp : ∀ p ∈ ps, NonNegative p) : LogDefined s eps (newUsers m ps) := by
  intro _ row hrow e hme
  rw [newUsers_eq] at hrow
  obtain ⟨p, hp', rfl⟩ := List.mem_map.mp hrow
  have := entries_nonneg m (hp p hp') e hme
  exact ⟨he.ne', by positivity⟩

theorem nonNeg_newUsers (s : Scaling) {eps : ℝ} (he : 0 < eps) (m : ItemIDMapper I) (ps : List (Profile I))
    (hp : ∀ p ∈ ps, NonNegative p) (u : Nat) : NonNegRow ((scaleX s eps (newUsers m ps)).row u) := by
  have h0 : ∀ e ∈ (newUsers m ps).row u, 0 ≤ e.2 := by
    rw [row_newUsers]
    split
    · exact entries_nonneg m (hp _ (List.getElem_mem _))
    · intro e he; cases he
  rw [scaleX_newUsers]
  cases s with
  | none => exact h0
  | log =>
    intro e hmem
    obtain ⟨e', hmem', rfl⟩ := List.mem_map.mp hmem
    have := h0 e' hmem'
    exact Real.log_nonneg (by have : 0 ≤ e'.2 / eps := by positivity
                              linarith)

/-- C104 (iALS, order): with every loss, solver, regularisation and confidence scaling, the scores of new users do not
depend on the order in which their profiles list the items, whatever the threads of the two calls do. -/
theorem C104_ials_order {ω : Oracle T} {ω' : Oracle T'} (hω : ω.Complete) (hω' : ω'.Complete) (hT : 0 < T) (hT' : 0 < T')
    (r : Recommender) (he : 0 < r.args.epsilon) (tr : Trainer K) (hreg : 0 ≤ tr.cfg.reg) (ha : 0 ≤ tr.cfg.alpha0)
    (m : ItemIDMapper I) (ps qs : List (Profile I)) (h : List.Forall₂ Reordered ps qs) (hp : ∀ p ∈ ps, NonNegative p)
    (hq : ∀ q ∈ qs, NonNegative q) :
    SameOutcome (r.getScoreColdUser ω tr (newUsers m ps) none) (r.getScoreColdUser ω' tr (newUsers m qs) none) := by
  unfold Recommender.getScoreColdUser
  refine scores_of tr.item ?_
  rw [userEmbedding_eq (logDefined_newUsers _ he m ps hp), userEmbedding_eq (logDefined_newUsers _ he m qs hq)]
  simp only
  have hperm : ∀ u, ((scaleX r.args.scaling r.args.epsilon (newUsers m qs)).row u).Perm
      ((scaleX r.args.scaling r.args.epsilon (newUsers m ps)).row u) := by
    intro u
    rw [scaleX_newUsers, scaleX_newUsers]
    have h0 : ((newUsers m qs).row u).Perm ((newUsers m ps).row u) := by
      rcases forall₂_row h m u with ⟨h1, h2⟩ | ⟨p, -, q, -, hpq, h1, h2⟩
      · rw [h1, h2]
      · rw [h1, h2]; exact (entries_perm m hpq).symm
    cases r.args.scaling with
    | none => exact h0
    | log => exact h0.map _
  refine transform_alike hω hω' hT hT' tr hreg ha _ _ _ ?_ ?_ (fun u => alike_perm _ _ (hperm u))
    (nonNeg_newUsers _ he m ps hp) (nonNeg_newUsers _ he m qs hq) (fun u => by rw [(hperm u).length_eq])
  · cases r.args.scaling <;> simp [scaleX, newUsers_eq]
  · cases r.args.scaling <;> simp [scaleX, newUsers_eq, CSR.nrows, h.length_eq]

/-- C104 (iALS, amounts): with the iALS++ loss, `nu = 0` and no confidence scaling, profiles that say the same of each
known item give the same scores.  (Missing: the other loss, `nu ≠ 0` and the logarithmic scaling, for which a repeated
item does not count like an item of twice the weight, see below.) -/
theorem C104_ials_amounts_partial {ω : Oracle T} {ω' : Oracle T'} (hω : ω.Complete) (hω' : ω'.Complete) (hT : 0 < T)
    (hT' : 0 < T') (r : Recommender) (hs : r.args.scaling = .none) (tr : Trainer K) (hreg : 0 ≤ tr.cfg.reg)
    (ha : 0 ≤ tr.cfg.alpha0) (hl : tr.cfg.lossType = .ialspp) (hnu : tr.cfg.nu = 0) (ids : List I) (m : ItemIDMapper I)
    (hm : ItemIDMapper.make ids = .ok m) (ps qs : List (Profile I)) (h : List.Forall₂ (SameAmounts ids) ps qs)
    (hp : ∀ p ∈ ps, Positive p) (hq : ∀ q ∈ qs, Positive q) :
    SameOutcome (r.getScoreColdUser ω tr (newUsers m ps) none) (r.getScoreColdUser ω' tr (newUsers m qs) none) := by
  have hnn : ∀ {p : Profile I}, Positive p → NonNegative p := by
    intro p hp
    cases p with
    | ids l => trivial
    | weights l => exact fun q hq => (hp q hq).le
  have hld : ∀ ps : List (Profile I), LogDefined r.args.scaling r.args.epsilon (newUsers m ps) := by
    intro ps h; rw [hs] at h; cases h
  unfold Recommender.getScoreColdUser
  refine scores_of tr.item ?_
  rw [userEmbedding_eq (hld ps), userEmbedding_eq (hld qs), hs]
  simp only
  have hrow : ∀ ps : List (Profile I), (∀ p ∈ ps, Positive p) → ∀ u, ∀ e ∈ (newUsers m ps).row u, 0 < e.2 ∧ e.1 < m.itemIds.length := by
    intro ps hp u
    rw [row_newUsers]
    split
    · intro e he
      exact ⟨entries_pos m (hp _ (List.getElem_mem _)) e he, entries_lt m _ e he⟩
    · intro e he; cases he
  have hget : ∀ u k, ((newUsers m qs).row u).get k = ((newUsers m ps).row u).get k := by
    intro u k
    rcases forall₂_row h m u with ⟨h1, h2⟩ | ⟨p, -, q, -, hpq, h1, h2⟩
    · rw [h1, h2]
    · rw [h1, h2, entries_same ids m hm hpq]
  have hempty : ∀ (v w : SpVec ℝ), (∀ e ∈ v, 0 < e.2) → (∀ e ∈ w, 0 < e.2) → (∀ k, v.get k = w.get k) →
      v.length = 0 → w.length = 0 := by
    intro v w _ hw hg hv
    rw [List.length_eq_zero_iff] at hv ⊢
    by_contra hne
    obtain ⟨e, he⟩ := List.exists_mem_of_ne_nil w hne
    have := (Sim.get_ne_zero_iff (fun e he => (hw e he).le) e.1).mpr ⟨e, he, rfl, (hw e he).ne'⟩
    rw [← hg, hv] at this
    exact this (by simp [SpVec.get])
  refine transform_alike hω hω' hT hT' tr hreg ha _ _ _ ?_ ?_
    (fun u => alike_values hnu hl _ (fun e he => (hrow ps hp u e he).2) (fun e he => (hrow qs hq u e he).2) (hget u))
    (fun u e he => (hrow ps hp u e he).1.le) (fun u e he => (hrow qs hq u e he).1.le)
    (fun u => ⟨hempty _ _ (fun e he => (hrow qs hq u e he).1) (fun e he => (hrow ps hp u e he).1) (hget u),
      hempty _ _ (fun e he => (hrow ps hp u e he).1) (fun e he => (hrow qs hq u e he).1) (fun k => (hget u k).symm)⟩)
  · simp [scaleX, newUsers_eq]
  · simp [scaleX, newUsers_eq, CSR.nrows, h.length_eq]

/-! ### what a repeated item does to iALS -/

/-- a recommender with one factor, `alpha0 = 1` and the Cholesky solver -/
noncomputable def oneFactor (scaling : Scaling) (loss : LossType) (nu : ℝ) : Recommender where
  args :=
    { X := ⟨1, [[(0, 1)]]⟩, nComponents := 1, alpha0 := 1, reg := 1, nu := nu, scaling := scaling, epsilon := 1,
      initStd := 1, solverName := "CHOLESKY", maxCgSteps := 0, subspaceDimension := 1, lossType := loss,
      nuStar := none, randomSeed := 42, predictionMaxCgSteps := 5, predictionIteration := 7, userF := none,
      itemF := none, lambdaUser := 0, lambdaItem := 0, warmup := 0 }
  solverType := .cholesky
  scaledReg := 1

/-- its trainer, after random numbers that are all 1 -/
noncomputable def oneTrainer (scaling : Scaling) (loss : LossType) (nu : ℝ) : Trainer 1 :=
  Trainer.create (oneFactor scaling loss nu).config ⟨1, [[(0, 1)]]⟩ (fun _ _ => 1) (fun _ _ => 1)

theorem oneFactor_score {ω : Oracle T} (hω : ω.Complete) (hT : 0 < T) (scaling : Scaling) (loss : LossType) (nu : ℝ)
    (p : Profile String) (hp : NonNegative p) (row : SpVec ℝ)
    (hrow : (scaleX scaling 1 (newUsers ⟨["a"]⟩ [p])).row 0 = row) :
    ∃ s, (oneFactor scaling loss nu).getScoreColdUser ω (oneTrainer scaling loss nu) (newUsers ⟨["a"]⟩ [p]) none = .ok s ∧
      s.2 0 0 * (1 + (row.map Prod.snd).sum + (1 + row.length : ℝ) ^ nu) =
        (row.map (fun e => bias (oneFactor scaling loss nu).config + e.2)).sum := by
  subst hrow
  have hp' : ∀ q ∈ [p], NonNegative q := by simpa using hp
  have hn := nonNeg_newUsers scaling (eps := 1) one_pos ⟨["a"]⟩ [p] hp'
  have hcols : (scaleX scaling 1 (newUsers ⟨["a"]⟩ [p])).cols = 1 := by rw [scaleX_cols, newUsers_eq]; rfl
  have hrows : (scaleX scaling 1 (newUsers ⟨["a"]⟩ [p])).nrows = 1 := by rw [scaleX_nrows, newUsers_eq]; rfl
  set X := scaleX scaling 1 (newUsers ⟨["a"]⟩ [p]) with hX
  set tr := oneTrainer scaling loss nu with htr
  have ha : (0 : ℝ) ≤ tr.cfg.alpha0 := by simp [htr, oneTrainer, Trainer.create, Recommender.config, oneFactor]
  have hr : (0 : ℝ) ≤ tr.cfg.reg := by simp [htr, oneTrainer, Trainer.create, Recommender.config, oneFactor]
  have hreg : ∀ k : Nat, computeReg tr.cfg k tr.item.n = (1 + k : ℝ) ^ nu := by
    intro k
    simp [computeReg, htr, oneTrainer, Trainer.create, Recommender.config, oneFactor]
  obtain ⟨E, hE⟩ := solverStep_total (cfg := tr.cfg) (V := tr.item) (X := X) ha hr (hω.at 1) hT
    (oneFactor scaling loss nu).predictionSolver ⟨X.nrows, fun _ => 0⟩ (fun r _ => hn r)
    (fun r _ => by rw [hreg]; positivity)
  have hok : tr.transformUser ω (oneFactor scaling loss nu).predictionSolver X = .ok E := by
    unfold Trainer.transformUser xToVector
    rw [prepareP_eq (hω.at 0) hT]
    simp only [bind, Except.bind]
    rw [if_neg (not_not.mpr (by rw [hcols]; rfl))]
    exact hE
  refine ⟨embeddingScores E tr.item, ?_, ?_⟩
  · unfold Recommender.getScoreColdUser
    rw [userEmbedding_eq (logDefined_newUsers _ one_pos _ _ hp')]
    simp only
    have : scaleX (oneFactor scaling loss nu).args.scaling (oneFactor scaling loss nu).args.epsilon
        (newUsers ⟨["a"]⟩ [p]) = X := rfl
    rw [this, hok]
    rfl
  · unfold solverStep at hE
    rw [show (oneFactor scaling loss nu).predictionSolver.solverType = .cholesky from rfl] at hE
    have h1 := (stepCholesky_row (hω.at 1) hT _ _ _ hE).2 0 (by simp [hrows])
    have h2 := congrFun (choleskyRow_min ha hr (hn 0) _ h1).2 0
    have hV : ∀ k i, tr.item.row k i = 1 := fun _ _ => rfl
    have hs : ∀ l : SpVec ℝ, (l.map (fun e => (bias tr.cfg + e.2) • tr.item.row e.1)).sum 0 =
        (l.map (fun e => bias tr.cfg + e.2)).sum := by
      intro l
      induction l with
      | nil => rfl
      | cons e l ih =>
        rw [List.map_cons, List.sum_cons, Pi.add_apply, ih, List.map_cons, List.sum_cons]
        simp [hV]
    have hent : ((ents tr.item (X.row 0)).map (fun e => e.2 * (e.1 0 * e.1 0))).sum = ((X.row 0).map Prod.snd).sum := by
      simp [ents, hV, Function.comp_def]
    have hg : gramP tr.cfg tr.item 0 0 = 1 := by
      simp only [gramP, hV, mul_one, Finset.sum_const, Finset.card_range]
      norm_num [htr, oneTrainer, Trainer.create, Recommender.config, oneFactor]
    unfold sysRhs at h2
    rw [Pi.add_apply, hs] at h2
    simp only [Matrix.mulVec, dotProduct, Finset.univ_unique, Fin.default_eq_zero, Finset.sum_singleton, sysMat, if_true,
      Pi.zero_apply, zero_add] at h2
    rw [hg, hent, hreg] at h2
    have hsc : (embeddingScores E tr.item).2 0 0 = E.row 0 0 := by
      have hn1 : tr.item.n = 1 := rfl
      simp [embeddingScores, hV, hn1]
    rw [hsc, mul_comm]
    exact h2

/-- C104 fails for iALS with the original loss, with `nu = 1` and with the logarithmic scaling, in a model that knows
the item "a": a new user who lists "a" twice is not scored like one who gives it the weight 2. -/
theorem C104_ials_counterexample {ω : Oracle T} (hω : ω.Complete) (hT : 0 < T) :
    ∃ (m : ItemIDMapper String) (p q : Profile String), ItemIDMapper.make ["a"] = .ok m ∧ SameAmounts ["a"] p q ∧
      Positive p ∧ Positive q ∧
      ∀ c ∈ [(Scaling.none, LossType.original, (0 : ℝ)), (.none, .ialspp, 1), (.log, .ialspp, 0)],
        ∃ s s', (oneFactor c.1 c.2.1 c.2.2).getScoreColdUser ω (oneTrainer c.1 c.2.1 c.2.2) (newUsers m [p]) none = .ok s ∧
          (oneFactor c.1 c.2.1 c.2.2).getScoreColdUser ω (oneTrainer c.1 c.2.1 c.2.2) (newUsers m [q]) none = .ok s' ∧
          s.2 0 0 ≠ s'.2 0 0 := by
  have hq : Positive (.weights [("a", (2 : ℝ))] : Profile String) := by intro q hq; simp at hq; subst hq; norm_num
  have hqn : NonNegative (.weights [("a", (2 : ℝ))] : Profile String) := fun q h => (hq q h).le
  refine ⟨⟨["a"]⟩, .ids ["a", "a"], .weights [("a", 2)], by decide, ?_, trivial, hq, ?_⟩
  · intro x hx
    simp at hx; subst hx
    simp [amount]
  have e1 : (newUsers (⟨["a"]⟩ : ItemIDMapper String) [.ids ["a", "a"]]).row 0 = [(0, 1), (0, 1)] := by
    rw [newUsers_eq]; simp [CSR.row, entries, ItemIDMapper.index?]
  have e2 : (newUsers (⟨["a"]⟩ : ItemIDMapper String) [.weights [("a", 2)]]).row 0 = [(0, 2)] := by
    rw [newUsers_eq]; simp [CSR.row, entries, ItemIDMapper.index?]
  intro c hc
  obtain ⟨s, hs, h1⟩ := oneFactor_score hω hT c.1 c.2.1 c.2.2 (.ids ["a", "a"]) trivial _ rfl
  obtain ⟨s', hs', h2⟩ := oneFactor_score hω hT c.1 c.2.1 c.2.2 (.weights [("a", 2)]) hqn _ rfl
  refine ⟨s, s', hs, hs', fun heq => ?_⟩
  rw [← heq] at h2
  rw [scaleX_newUsers, e1] at h1
  rw [scaleX_newUsers, e2] at h2
  simp only [List.mem_cons, List.not_mem_nil, or_false] at hc
  rcases hc with rfl | rfl | rfl
  · simp [bias, oneFactor, Recommender.config] at h1 h2
    linarith
  · simp [bias, oneFactor, Recommender.config] at h1 h2
    nlinarith
  · simp [bias, oneFactor, Recommender.config] at h1 h2
    have l2 : 2 * Real.log 2 = Real.log 4 := by
      rw [show (4 : ℝ) = 2 ^ 2 by norm_num, Real.log_pow]; norm_num
    have l3 : Real.log 3 < Real.log 4 := Real.log_lt_log (by norm_num) (by norm_num)
    have l4 : 0 < Real.log 3 := Real.log_pos (by norm_num)
    norm_num at h1 h2
    nlinarith

end

/-! ### examples -/

/-- the hypotheses of `C104_by_value` are met by a list with a repeated and an unknown item, and a dict -/
example : ∃ m, ItemIDMapper.make ["a", "b"] = .ok m ∧
    List.Forall₂ (SameAmounts ["a", "b"]) [.ids ["b", "a", "x", "b"]] [.weights [("a", (1 : ℝ)), ("b", 2)]] ∧
    newUsers m [.ids ["b", "a", "x", "b"]] = ⟨2, [[(1, 1), (0, 1), (1, 1)]]⟩ ∧
    newUsers m [.weights [("a", 1), ("b", 2)]] = ⟨2, [[(0, 1), (1, 2)]]⟩ := by
  refine ⟨⟨["a", "b"]⟩, by decide, ?_, ?_, ?_⟩
  · refine .cons (fun x hx => ?_) .nil
    simp only [List.mem_cons, List.not_mem_nil, or_false] at hx
    rcases hx with rfl | rfl <;> simp [amount]
  · rw [newUsers_eq]; simp [entries, ItemIDMapper.index?]
  · rw [newUsers_eq]; simp [entries, ItemIDMapper.index?]

/-- the hypotheses of `C104_ials_order` and `C104_ials_amounts_partial` -/
example : List.Forall₂ Reordered [.ids ["b", "a", "b"], .weights [("a", (1 : ℝ)), ("b", 2)]]
      [.ids ["b", "b", "a"], .weights [("b", 2), ("a", 1)]] ∧
    0 < (oneFactor .log .original 1).args.epsilon ∧ 0 ≤ (oneTrainer .log .original 1).cfg.reg ∧
    0 ≤ (oneTrainer .log .original 1).cfg.alpha0 ∧ (oneFactor .none .ialspp 0).args.scaling = .none ∧
    (oneTrainer .none .ialspp 0).cfg.lossType = .ialspp ∧ (oneTrainer .none .ialspp 0).cfg.nu = 0 ∧
    ∃ ω : Oracle 2, ω.Complete := by
  refine ⟨.cons ?_ (.cons ?_ .nil), by norm_num [oneFactor], ?_, ?_, rfl, rfl, rfl,
    (Ials.exists_complete_oracle 2 (by norm_num))⟩
  · exact (List.Perm.swap _ _ _).cons _
  · exact List.Perm.swap _ _ _
  · norm_num [oneTrainer, Ials.Trainer.create, Ials.Recommender.config, oneFactor]
  · norm_num [oneTrainer, Ials.Trainer.create, Ials.Recommender.config, oneFactor]

end Irspack.NewProfile
