import Verif.Model.IalsInit
import Verif.Spec.IalsInit
import Verif.Props.IalsTraining

/-!
# C80: iALS models are determined by data, hyperparameters and seed
-/

namespace Irspack.Ials

open Irspack WorkQueue Spec EarlyStop

variable {K K' T T' : Nat} {G : Type}

theorem stateAfterDraws_add (next : G → ℝ × G) (g : G) (m n : Nat) :
    stateAfterDraws next (stateAfterDraws next g m) n = stateAfterDraws next g (m + n) := by
  induction n with
  | zero => rfl
  | succ n ih => rw [← Nat.add_assoc]; unfold stateAfterDraws; rw [ih]

theorem fillRow_loop (next : G → ℝ × G) (row : Vec K) (g : G) (n : Nat) (hn : n ≤ K) :
    ((List.finRange K).take n).foldl
      (fun (s : Vec K × G) k => (Function.update s.1 k (next s.2).1, (next s.2).2)) (row, g) =
    (fun k => if k.val < n then nthDraw next g k.val else row k, stateAfterDraws next g n) := by
  induction n with
  | zero => simp [stateAfterDraws]
  | succ n ih =>
    have hlt : n < (List.finRange K).length := by rw [List.length_finRange]; omega
    rw [List.take_succ_eq_append_getElem hlt, List.foldl_append, ih (by omega), List.foldl_cons, List.foldl_nil]
    refine Prod.ext ?_ rfl
    funext k
    simp only [List.getElem_finRange]
    by_cases hk : k = ⟨n, by omega⟩
    · subst hk
      simp [nthDraw]
    · have : k.val ≠ n := fun h => hk (Fin.ext h)
      rw [Function.update_of_ne (by simpa [Fin.ext_iff] using this)]
      by_cases h : k.val < n
      · rw [if_pos h, if_pos (by omega)]
      · rw [if_neg h, if_neg (by omega)]

theorem fillRow_eq (next : G → ℝ × G) (row : Vec K) (g : G) :
    fillRow next row g = (fun k => nthDraw next g k.val, stateAfterDraws next g K) := by
  have h := fillRow_loop next row g K le_rfl
  rw [List.take_of_length_le (by rw [List.length_finRange])] at h
  unfold fillRow
  rw [h]
  refine Prod.ext ?_ rfl
  funext k
  simp only [k.isLt, if_true]

theorem fillRows_eq (next : G → ℝ × G) (n : Nat) (m : Nat → Vec K) (g : G) :
    fillRows next n m g = (fun r => if r < n then (fun k => nthDraw next g (r * K + k.val)) else m r,
      stateAfterDraws next g (n * K)) := by
  unfold fillRows
  induction n with
  | zero => simp [stateAfterDraws]
  | succ n ih =>
    rw [List.range_succ, List.foldl_append, ih, List.foldl_cons, List.foldl_nil, fillRow_eq]
    refine Prod.ext ?_ ?_
    · funext r
      simp only
      by_cases hr : r = n
      · subst hr
        rw [Function.update_self, if_pos (Nat.lt_succ_self _)]
        funext k
        unfold nthDraw
        rw [stateAfterDraws_add]
      · rw [Function.update_of_ne hr]
        by_cases h : r < n
        · rw [if_pos h, if_pos (by omega)]
        · rw [if_neg h, if_neg (by omega)]
    · simp only
      rw [stateAfterDraws_add, Nat.succ_mul]

theorem initFactor_row (N : Sampler G) (cfg : Config) (hs : 0 < cfg.initStdev) (n : Nat)
    (m : Nat → Vec K) (r : Nat) (hr : r < n) (k : Fin K) :
    initFactor N cfg n m r k =
      nthDraw (N.next (cfg.initStdev / Real.sqrt K)) (N.seed cfg.randomSeed) (r * K + k.val) := by
  unfold initFactor
  simp only [if_pos hs, if_pos hr]
  rw [fillRows_eq]
  simp only [if_pos hr]

theorem initFactor_memory (N : Sampler G) (cfg : Config) (hs : 0 < cfg.initStdev) (n : Nat)
    (m m' : Nat → Vec K) : initFactor N cfg n m = initFactor N cfg n m' := by
  funext r
  by_cases hr : r < n
  · funext k
    rw [initFactor_row N cfg hs n m r hr, initFactor_row N cfg hs n m' r hr]
  · unfold initFactor
    simp only [if_neg hr]

theorem createTrainer_factors {r : Recommender} {u₀ v₀ : Nat → Vec K} {tr : Trainer K}
    (h : r.createTrainer u₀ v₀ = .ok tr) :
    tr.user = ⟨r.args.X.nrows, u₀⟩ ∧ tr.item = ⟨r.args.X.cols, v₀⟩ := by
  have hn := scaleX_nrows r.args.scaling r.args.epsilon r.args.X
  have hc := scaleX_cols r.args.scaling r.args.epsilon r.args.X
  have key : ∀ a b, Trainer.createWithFeatures r.config (scaleX r.args.scaling r.args.epsilon r.args.X)
      a b u₀ v₀ = .ok tr → tr.user = ⟨r.args.X.nrows, u₀⟩ ∧ tr.item = ⟨r.args.X.cols, v₀⟩ := by
    intro a b h
    unfold Trainer.createWithFeatures at h
    split at h
    · cases h
    split at h
    · cases h
    cases h
    exact ⟨by rw [← hn], by rw [← hc]⟩
  have h := createTrainer_ok h
  unfold Recommender.trainerOn at h
  split at h
  · cases h
    refine ⟨?_, ?_⟩
    · show (⟨_, _⟩ : Factor K) = _
      rw [hn]
    · show (⟨_, _⟩ : Factor K) = _
      rw [hc]
  · exact key _ _ h

/-- C80 (initial embeddings).  With `init_std > 0` the initial embedding of user `u` is, component by
component, the draws number `u K, u K + 1, …` of the generator seeded with `random_seed`, with standard
deviation `init_std / √K`; that of item `i` the draws number `i K, i K + 1, …` of a generator with the same
seed. -/
theorem C80_initial (N : Sampler G) (r : Recommender) (hs : 0 < r.args.initStd) (mu mv : Nat → Vec K)
    (tr : Trainer K) (h : r.seededTrainer N mu mv = .ok tr) (k : Fin K) :
    (∀ u < r.args.X.nrows, tr.user.row u k =
      nthDraw (N.next (r.args.initStd / Real.sqrt K)) (N.seed r.args.randomSeed) (u * K + k.val)) ∧
    (∀ i < r.args.X.cols, tr.item.row i k =
      nthDraw (N.next (r.args.initStd / Real.sqrt K)) (N.seed r.args.randomSeed) (i * K + k.val)) ∧
    tr.user.n = r.args.X.nrows ∧ tr.item.n = r.args.X.cols := by
  obtain ⟨h1, h2⟩ := createTrainer_factors h
  rw [h1, h2]
  exact ⟨fun u hu => initFactor_row N r.config hs _ mu u hu k,
    fun i hi => initFactor_row N r.config hs _ mv i hi k, rfl, rfl⟩

/-- C80 (adding users).  The initial embedding of a user depends neither on the interactions nor on the
numbers of users and items: two recommenders with the same seed, `init_std` and dimension give it the same
one, whatever else differs. -/
theorem C80_prefix (N : Sampler G) (r r' : Recommender) (hs : 0 < r.args.initStd)
    (hss : r'.args.initStd = r.args.initStd) (hseed : r'.args.randomSeed = r.args.randomSeed)
    (mu mv mu' mv' : Nat → Vec K) (tr tr' : Trainer K) (h : r.seededTrainer N mu mv = .ok tr)
    (h' : r'.seededTrainer N mu' mv' = .ok tr') :
    (∀ u, u < r.args.X.nrows → u < r'.args.X.nrows → tr.user.row u = tr'.user.row u) ∧
    (∀ i, i < r.args.X.cols → i < r'.args.X.cols → tr.item.row i = tr'.item.row i) := by
  have h1 := C80_initial N r hs mu mv tr h
  have h2 := C80_initial N r' (hss ▸ hs) mu' mv' tr' h'
  rw [hss, hseed] at h2
  refine ⟨fun u hu hu' => ?_, fun i hi hi' => ?_⟩
  · funext k; rw [(h1 k).1 u hu, (h2 k).1 u hu']
  · funext k; rw [(h1 k).2.1 i hi, (h2 k).2.1 i hi']

/-- C80 (not independent).  User and item embeddings start from the same numbers: user `j` and item `j`
have the same initial embedding, so before training the score of item `j` for user `i` is that of item `i`
for user `j`. -/
theorem C80_same_numbers (N : Sampler G) (r : Recommender) (hs : 0 < r.args.initStd)
    (mu mv : Nat → Vec K) (tr : Trainer K) (h : r.seededTrainer N mu mv = .ok tr) (i j : Nat)
    (hi : i < min r.args.X.nrows r.args.X.cols) (hj : j < min r.args.X.nrows r.args.X.cols) :
    tr.user.row j = tr.item.row j ∧
      ∑ k, tr.user.row i k * tr.item.row j k = ∑ k, tr.user.row j k * tr.item.row i k := by
  have h1 := C80_initial N r hs mu mv tr h
  rw [Nat.lt_min] at hi hj
  have e : ∀ l, l < r.args.X.nrows → l < r.args.X.cols → tr.user.row l = tr.item.row l := by
    intro l hl hl'
    funext k
    rw [(h1 k).1 l hl, (h1 k).2.1 l hl']
  refine ⟨e j hj.1 hj.2, Finset.sum_congr rfl (fun k _ => ?_)⟩
  rw [e i hi.1 hi.2, e j hj.1 hj.2, mul_comm]

/-- C80 (reproducibility).  With `init_std > 0`, two recommenders with the same arguments, trained with
different positive numbers of threads, in different interleavings, with whatever was in the memory of
their embeddings, end up with the same trainer, or raise both: the model is a function of the data, the
hyperparameters and the seed. -/
theorem C80_reproducible {S : Type} [LinearOrder S] [OrderBot S] [Neg S] (N : Sampler G) (r : Recommender)
    (hs : 0 < r.args.initStd) (mu mv mu' mv' : Nat → Vec K) {ω : Nat → Oracle T} {ω' : Nat → Oracle T'}
    (hω : ∀ k, (ω k).Complete) (hω' : ∀ k, (ω' k).Complete) (hT : 0 < T) (hT' : 0 < T')
    (m : Rec (Trainer K) (SavedState K)) :
    let ops := ialsOps r (initFactor N r.config r.args.X.nrows mu) (initFactor N r.config r.args.X.cols mv) ω
    let ops' := ialsOps r (initFactor N r.config r.args.X.nrows mu')
      (initFactor N r.config r.args.X.cols mv') ω'
    (∃ tr : Trainer K,
      learn (S := S) ops m = (({ m with trainer := some tr }, (List.range m.trainEpochs).map .epoch), .ok ()) ∧
      learn (S := S) ops' m =
        (({ m with trainer := some tr }, (List.range m.trainEpochs).map .epoch), .ok ())) ∨
    ∃ e e', (learn (S := S) ops m).2 = .error e ∧ (learn (S := S) ops' m).2 = .error e' := by
  intro ops ops'
  have h := C62_learn (S := S) hω hω' hT hT' r (initFactor N r.config r.args.X.nrows mu)
    (initFactor N r.config r.args.X.cols mv) m
  have e : ops' = ialsOps r (initFactor N r.config r.args.X.nrows mu)
      (initFactor N r.config r.args.X.cols mv) ω' := by
    show ialsOps r _ _ ω' = _
    rw [initFactor_memory N r.config hs _ mu' mu, initFactor_memory N r.config hs _ mv' mv]
  rw [e]
  exact h

/-- C80 (`init_std ≤ 0`).  Then nothing is written: the model starts from whatever the memory held. -/
theorem C80_uninitialised (N : Sampler G) (r : Recommender) (hs : r.args.initStd ≤ 0)
    (mu mv : Nat → Vec K) (tr : Trainer K) (h : r.seededTrainer N mu mv = .ok tr) :
    (∀ u < r.args.X.nrows, tr.user.row u = mu u) ∧ (∀ i < r.args.X.cols, tr.item.row i = mv i) := by
  obtain ⟨h1, h2⟩ := createTrainer_factors h
  have hn : ¬ 0 < r.config.initStdev := not_lt.mpr hs
  rw [h1, h2]
  refine ⟨fun u hu => ?_, fun i hi => ?_⟩
  · show initFactor N r.config r.args.X.nrows mu u = _
    unfold initFactor
    simp only [if_neg hn, if_pos hu]
  · show initFactor N r.config r.args.X.cols mv i = _
    unfold initFactor
    simp only [if_neg hn, if_pos hi]

/-- the example recommender with another `init_std` -/
noncomputable def withInitStd (s : ℝ) : Recommender :=
  ⟨{ exampleArgs "cholesky" with initStd := s }, .cholesky, 1⟩

theorem withInitStd_trains (N : Sampler G) (s : ℝ) (mu mv : Nat → Vec 3) :
    ∃ tr : Trainer 3, (withInitStd s).seededTrainer N mu mv = .ok tr := by
  refine ⟨_, (createTrainer_eq (logDefined_of_nonneg _ (by norm_num [withInitStd, exampleArgs]) ?_)).trans rfl⟩
  intro row hrow e he
  simp only [withInitStd, exampleArgs, exampleX, List.mem_cons, List.not_mem_nil, or_false] at hrow
  rcases hrow with rfl | rfl
  · simp only [List.mem_cons, List.not_mem_nil, or_false] at he
    rcases he with rfl | rfl <;> norm_num
  · simp at he

/-- C80: without `init_std > 0` the model is not determined by data, hyperparameters and seed. -/
theorem C80_uninitialised_counterexample (N : Sampler G) :
    ∃ (r : Recommender) (mu mv mu' : Nat → Vec 3) (tr tr' : Trainer 3), r.args.initStd = 0 ∧
      r.seededTrainer N mu mv = .ok tr ∧ r.seededTrainer N mu' mv = .ok tr' ∧
      tr.user.row 0 ≠ tr'.user.row 0 := by
  obtain ⟨tr, h⟩ := withInitStd_trains N 0 (fun _ _ => 0) (fun _ _ => 0)
  obtain ⟨tr', h'⟩ := withInitStd_trains N 0 (fun _ _ => 1) (fun _ _ => 0)
  refine ⟨withInitStd 0, fun _ _ => 0, fun _ _ => 0, fun _ _ => 1, tr, tr', rfl, h, h', ?_⟩
  have hx : 0 < (withInitStd 0).args.X.nrows := by
    show 0 < exampleX.nrows
    decide
  rw [(C80_uninitialised N _ le_rfl _ _ tr h).1 0 hx, (C80_uninitialised N _ le_rfl _ _ tr' h').1 0 hx]
  intro e
  have := congrFun e 0
  norm_num at this

/-- The hypotheses are met: a recommender with `init_std > 0` and features neither for users nor for items
has a trainer for every generator and memory, and complete schedules exist. -/
example (N : Sampler G) (mu mv : Nat → Vec 3) : ∃ (tr : Trainer 3) (ω : Oracle 2) (ω' : Oracle 3),
    0 < (withInitStd 1).args.initStd ∧ (withInitStd 1).seededTrainer N mu mv = .ok tr ∧
    ω.Complete ∧ ω'.Complete ∧ 1 < min (withInitStd 1).args.X.nrows (withInitStd 1).args.X.cols := by
  obtain ⟨tr, h⟩ := withInitStd_trains N 1 mu mv
  obtain ⟨ω, hω⟩ := exists_complete_oracle 2 (by norm_num)
  obtain ⟨ω', hω'⟩ := exists_complete_oracle 3 (by norm_num)
  exact ⟨tr, ω, ω', zero_lt_one, h, hω, hω', by decide⟩

end Irspack.Ials
