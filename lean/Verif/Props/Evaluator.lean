import Verif.Proofs.Ranking
import Verif.Proofs.Diversity
import Verif.Proofs.Report
import Verif.Props.Concurrency

/-!
# C03–C09, C12, C13, C15: the C++ evaluator

`Core.make gtRows nItems recLists` is the constructor call, `getMetricsRegion` the parallel
evaluation, `getMetrics` the sequential one, `asDict` the dictionary handed to Python.
-/

namespace Irspack.Props
open Irspack Spec Evaluation WorkQueue

variable {S : Type} [LinearOrder S] [OrderBot S]

/-! ## C03 -/

/-- C03. Whatever the thread count and the interleaving: once all workers have returned, the merged
result is the sequential row-by-row evaluation. -/
theorem C03_parallel_equals_sequential (c : Core) (rows : List (ScoreRow S))
    (cutoff offset nThreads : Nat) (capped : Bool) (sched : List (Fin nThreads))
    (s : State nThreads Metrics Unit)
    (hs : c.getMetricsRegion rows cutoff offset nThreads capped sched = .ok s) (hfin : Finished s) :
    c.getMetrics rows cutoff offset nThreads capped = .ok (mergeWorkers s) := by
  rw [getMetrics_eq]
  unfold Core.getMetricsRegion at hs
  cases hca : c.checkArgs rows.length cutoff offset nThreads with
  | error e => rw [hca] at hs; cases hs
  | ok _ =>
    rw [hca] at hs
    simp only at hs ⊢
    injection hs with hs
    have hT : 0 < nThreads := by
      unfold Core.checkArgs at hca
      by_contra h
      simp [h] at hca
    subst hs
    congr 1
    simp only [evalRow_eq, empty_eq_zero] at hfin ⊢
    have h := C01_merged_accumulators_are_the_sum rows.length 1 hT
      (rowContribution c rows cutoff offset capped) () sched hfin
    rw [← h]
    unfold mergeWorkers
    simp only [merge_eq_add, empty_eq_zero, evalRow_eq]
    have : ∀ (l : List (Fin nThreads)) (f : Fin nThreads → Metrics) (a : Metrics),
        l.foldl (fun o t => o + f t) a = a + (l.map f).sum := by
      intro l f
      induction l with
      | nil => simp
      | cons x xs ih => intro a; simp [ih, add_assoc]
    rw [this, zero_add]
    exact List.sum_ofFn.symm.trans (by rw [List.ofFn_eq_map])

/-- C03. Two finished runs, with different thread counts and interleavings, give the same metrics. -/
theorem C03_thread_count_does_not_matter (c : Core) (rows : List (ScoreRow S))
    (cutoff offset T₁ T₂ : Nat) (capped : Bool) (sched₁ : List (Fin T₁)) (sched₂ : List (Fin T₂))
    (s₁ : State T₁ Metrics Unit) (s₂ : State T₂ Metrics Unit)
    (h₁ : c.getMetricsRegion rows cutoff offset T₁ capped sched₁ = .ok s₁) (f₁ : Finished s₁)
    (h₂ : c.getMetricsRegion rows cutoff offset T₂ capped sched₂ = .ok s₂) (f₂ : Finished s₂) :
    mergeWorkers s₁ = mergeWorkers s₂ ∧
      (mergeWorkers s₁).asDict c.nItems = (mergeWorkers s₂).asDict c.nItems := by
  have e₁ := C03_parallel_equals_sequential c rows cutoff offset T₁ capped sched₁ s₁ h₁ f₁
  have e₂ := C03_parallel_equals_sequential c rows cutoff offset T₂ capped sched₂ s₂ h₂ f₂
  have hok : ∀ T e (m : Metrics), c.getMetrics rows cutoff offset T capped = .ok m →
      c.checkArgs rows.length cutoff offset T = e → ∃ u, e = .ok u := by
    intro T e m hm he
    rw [getMetrics_eq, he] at hm
    cases e with
    | error e => cases hm
    | ok u => exact ⟨u, rfl⟩
  obtain ⟨_, c₁⟩ := hok T₁ _ _ e₁ rfl
  obtain ⟨_, c₂⟩ := hok T₂ _ _ e₂ rfl
  rw [getMetrics_eq, c₁] at e₁
  rw [getMetrics_eq, c₂] at e₂
  simp only at e₁ e₂
  have : mergeWorkers s₁ = mergeWorkers s₂ := by
    injection e₁ with e₁
    injection e₂ with e₂
    exact e₁.symm.trans e₂
  exact ⟨this, by rw [this]⟩

/-- C03 (ground-truth cache). If at least one worker of `cache_X_map` runs and no started worker is
abandoned, the cached set of every user is that user's set of recommendable ground-truth items. -/
theorem C03_ground_truth_cache_partial (c : Core) (nThreads : Nat) (sched : List (Fin nThreads))
    (s : State nThreads Unit (Nat → Finset Nat)) (hs : c.cacheRegion nThreads sched = .ok s)
    (hq : ∀ t, s.pc t = .stopped ∨ t ∉ sched) (h1 : ∃ t, s.pc t = .stopped) (u : Nat)
    (hu : u < c.nUsers) : s.mem u = c.gtSet u := by
  unfold Core.cacheRegion at hs
  split at hs
  · cases hs
  · injection hs with hs
    subst hs
    have hp := C01_each_row_once_if_one_worker_runs _ _ _ _ _ sched hq h1
    have hm := mem_run (T := nThreads) (L := Unit) (n := c.nUsers) (c := 1)
      (fun u X => Function.update X u (c.gtSet u)) sched (init () (fun _ => ∅)) (fun _ => ∅) rfl
    rw [hm]
    have key : ∀ (l : List Nat) (X : Nat → Finset Nat), (u ∈ l ∨ X u = c.gtSet u) →
        l.foldl (fun X u => Function.update X u (c.gtSet u)) X u = c.gtSet u := by
      intro l
      induction l with
      | nil => intro X h; simpa using h
      | cons a l ih =>
        intro X h
        rw [List.foldl_cons]
        apply ih
        by_cases hau : a = u
        · right; subst hau; simp
        · rcases h with h | h
          · rcases List.mem_cons.mp h with h | h
            · exact absurd h.symm hau
            · exact Or.inl h
          · right; rw [Function.update_of_ne (fun e => hau e.symm)]; exact h
    apply key
    left
    rw [hp.mem_iff]
    simpa using hu

/-- C03: what is missing above.  The C++ standard allows `std::async` without a policy to defer
every worker; the futures are dropped, so the cache then stays empty and every user silently counts
as having no ground truth. -/
theorem C03_ground_truth_cache_counterexample :
    ∃ (c : Core) (s : State 2 Unit (Nat → Finset Nat)),
      c.cacheRegion 2 [] = .ok s ∧ c.gtSet 0 = {1} ∧ s.mem 0 = ∅ :=
  ⟨⟨3, [[1]], []⟩, _, rfl, rfl, rfl⟩

/-! ## C04 -/

/-- C04. For a core accepted by the constructor, the list evaluated for user `u` is the top-`cutoff`
list of the items that are in range, recommendable to `u` and not scored `-inf`. -/
theorem C04_evaluated_list_is_top_cutoff {gtRows : List (List Nat)} {nItems : Nat}
    {recLists : List (List Nat)} {c : Core} (hc : Core.make gtRows nItems recLists = .ok c)
    (u cutoff : Nat) (row : ScoreRow S) (cand : Finset Nat)
    (hcand : ∀ i, i ∈ cand ↔ i < nItems ∧ RecommendableTo recLists u i ∧ row i ≠ ⊥) :
    IsTopK cand row cutoff (topCutoff c.nItems (c.recommendableFor u) cutoff row) := by
  have hcs := candSet_spec hc u row
  have : cand = candSet c.nItems (c.recommendableFor u) row := by
    ext i; rw [hcand, hcs]
  rw [this]
  exact topCutoff_isTopK _ _ row cutoff (WF_recommendableFor (make_wf hc).1 u)

/-- C04: the specification has only one solution, so the theorem pins the list down. -/
theorem C04_top_cutoff_is_unique (cand : Finset Nat) (row : ScoreRow S) (k : Nat) (l l' : List Nat)
    (h : IsTopK cand row k l) (h' : IsTopK cand row k l') : l = l' :=
  isTopK_unique h h' (fun _ _ _ _ => Iff.rfl)

/-- Non-vacuity: an accepted core with per-user lists, a tie, and an item scored `-inf`. -/
example : ∃ c, Core.make [[0], [1]] 4 [[3, 1], [2, 0, 1]] = .ok c ∧
    topCutoff c.nItems (c.recommendableFor 1) 2
      (fun i => if i = 0 then (⊥ : WithBot Nat) else 7) = [1, 2] := by
  obtain ⟨c, hc⟩ := (make_ok_iff [[0], [1]] 4 [[3, 1], [2, 0, 1]]).mpr (by decide)
  refine ⟨c, hc, C04_top_cutoff_is_unique {1, 2} (fun i => if i = 0 then (⊥ : WithBot Nat) else 7)
    2 _ _ (C04_evaluated_list_is_top_cutoff hc 1 2 _ {1, 2} ?_) ⟨by decide, by decide, ?_, ?_⟩⟩
  · intro i
    simp only [RecommendableTo, List.getD_cons_succ, List.getD_cons_zero, List.mem_cons,
      List.not_mem_nil, or_false, Finset.mem_insert, Finset.mem_singleton]
    constructor
    · rintro (rfl | rfl) <;> simp
    · rintro ⟨h1, rfl | rfl | rfl, h3⟩ <;> simp at h3 ⊢
  · simp [Before]
  · intro i hi j hj hn
    simp at hj hn
    omega

/-! ## C12 -/

/-- C12. Whatever per-user ground-truth sets `G`, candidate sets `C` and recommendation lists `L`
satisfy the English definitions, the returned dictionary counts the users as documented and each
accuracy metric is the mean of its textbook value over exactly the users with ground truth. -/
theorem C12_user_accounting {gtRows : List (List Nat)} {nItems : Nat}
    {recLists : List (List Nat)} {c : Core} (hc : Core.make gtRows nItems recLists = .ok c)
    (rows : List (ScoreRow S)) (cutoff offset nThreads : Nat) (capped : Bool) (m : Metrics)
    (hm : c.getMetrics rows cutoff offset nThreads capped = .ok m)
    (row : Nat → ScoreRow S) (hrow : ∀ u, (h : u < rows.length) → row u = rows[u])
    (G C : Nat → Finset Nat) (L : Nat → List Nat)
    (hG : ∀ u j, j ∈ G u ↔ j ∈ gtRows.getD (u + offset) [] ∧ RecommendableTo recLists (u + offset) j)
    (hC : ∀ u i, i ∈ C u ↔ i < nItems ∧ RecommendableTo recLists (u + offset) i ∧ row u i ≠ ⊥)
    (hL : ∀ u < rows.length, IsTopK (C u) (row u) cutoff (L u)) :
    let valid := (Finset.range rows.length).filter (fun u => (G u).Nonempty)
    let d := m.asDict nItems
    d.totalUser = rows.length ∧
    d.validUser = valid.card ∧
    d.nItems = nItems ∧
    d.hit = (∑ u ∈ valid, Spec.hit (L u) (G u)) / valid.card ∧
    d.precision = (∑ u ∈ valid, Spec.precision (L u) (G u)) / valid.card ∧
    d.recall = (∑ u ∈ valid, Spec.recall capped (L u) (G u)) / valid.card ∧
    d.ndcg = (∑ u ∈ valid, Spec.ndcg (L u) (G u)) / valid.card ∧
    d.map = (∑ u ∈ valid, Spec.averagePrecision (L u) (G u)) / valid.card ∧
    (∀ i, m.itemCnt i = (valid.filter (fun u => i ∈ L u)).card) := by
  intro valid d
  have hsum : m = ∑ u ∈ Finset.range rows.length, (oneUser +
      if (G u).Nonempty then contribution capped (L u) (G u) else 0) := by
    rw [getMetrics_eq] at hm
    cases hca : c.checkArgs rows.length cutoff offset nThreads with
    | error e => rw [hca] at hm; cases hm
    | ok _ =>
      rw [hca] at hm
      injection hm with hm
      rw [← hm]
      apply Finset.sum_congr rfl
      intro u hu
      have hu' : u < rows.length := by simpa using hu
      have hGu : c.gtSet (u + offset) = G u := by
        ext j; rw [gtSet_spec hc, hG]
      have hrow' : rows.getD u (fun _ => ⊥) = row u := by
        rw [hrow u hu', List.getD_eq_getElem?_getD, List.getElem?_eq_getElem hu', Option.getD_some]
      have hLu : topCutoff c.nItems (c.recommendableFor (u + offset)) cutoff (row u) = L u :=
        C04_top_cutoff_is_unique (C u) (row u) cutoff _ _
          (C04_evaluated_list_is_top_cutoff hc (u + offset) cutoff (row u) (C u) (hC u)) (hL u hu')
      unfold rowContribution
      rw [hGu, hrow', hLu]
      congr 1
      by_cases hne : (G u).Nonempty
      · rw [if_pos hne, if_neg hne.ne_empty]
      · rw [if_neg hne, if_pos (Finset.not_nonempty_iff_eq_empty.mp hne)]
  have hnod : ∀ u < rows.length, (L u).Nodup := fun u hu => pairwise_before_nodup (hL u hu).sorted
  have hr := isReport_total rows.length nItems capped L G
  rw [totalMetrics, ← hsum] at hr
  refine ⟨hr.totalUser, hr.validUser, rfl, hr.hit, hr.precision, hr.recall, hr.ndcg, hr.map, ?_⟩
  · intro i
    rw [hsum, sum_itemCnt, Finset.card_filter, Finset.sum_filter]
    apply Finset.sum_congr rfl
    intro u hu
    by_cases h : (G u).Nonempty
    · simp only [h, if_true, add_itemCnt, contribution, oneUser, Metrics.empty, zero_add]
      rw [List.Nodup.count (hnod u (by simpa using hu))]
    · simp [h, oneUser, Metrics.empty]

/-- Non-vacuity of C12: the hypotheses can be met for *every* accepted evaluation. -/
example {gtRows : List (List Nat)} {nItems : Nat} {recLists : List (List Nat)} {c : Core}
    (hc : Core.make gtRows nItems recLists = .ok c) (row : Nat → ScoreRow S) (cutoff offset : Nat) :
    ∃ (G C : Nat → Finset Nat) (L : Nat → List Nat),
    (∀ u j, j ∈ G u ↔ j ∈ gtRows.getD (u + offset) [] ∧ RecommendableTo recLists (u + offset) j) ∧
    (∀ u i, i ∈ C u ↔ i < nItems ∧ RecommendableTo recLists (u + offset) i ∧ row u i ≠ ⊥) ∧
    (∀ u, IsTopK (C u) (row u) cutoff (L u)) :=
  ⟨fun u => c.gtSet (u + offset), fun u => candSet c.nItems (c.recommendableFor (u + offset)) (row u),
    fun u => topCutoff c.nItems (c.recommendableFor (u + offset)) cutoff (row u),
    fun _ _ => gtSet_spec hc, fun u i => candSet_spec hc (u + offset) (row u) i,
    fun u => topCutoff_isTopK _ _ (row u) cutoff (WF_recommendableFor (make_wf hc).1 _)⟩

/-! ## C05 -/

/-- C05. Every accuracy metric of every accepted evaluation is in [0, 1]. -/
theorem C05_metrics_in_unit_interval {gtRows : List (List Nat)} {nItems : Nat}
    {recLists : List (List Nat)} {c : Core} (hc : Core.make gtRows nItems recLists = .ok c)
    (rows : List (ScoreRow S)) (cutoff offset nThreads : Nat) (capped : Bool) (m : Metrics)
    (hm : c.getMetrics rows cutoff offset nThreads capped = .ok m) :
    let d := m.asDict nItems
    (0 ≤ d.hit ∧ d.hit ≤ 1) ∧ (0 ≤ d.precision ∧ d.precision ≤ 1) ∧
    (0 ≤ d.recall ∧ d.recall ≤ 1) ∧ (0 ≤ d.ndcg ∧ d.ndcg ≤ 1) ∧ (0 ≤ d.map ∧ d.map ≤ 1) := by
  intro d
  have h := C12_user_accounting hc rows cutoff offset nThreads capped m hm
    (fun u => rows.getD u (fun _ => ⊥))
    (fun u hu => by rw [List.getD_eq_getElem?_getD, List.getElem?_eq_getElem hu, Option.getD_some])
    (fun u => c.gtSet (u + offset))
    (fun u => candSet c.nItems (c.recommendableFor (u + offset)) (rows.getD u (fun _ => ⊥)))
    (fun u => topCutoff c.nItems (c.recommendableFor (u + offset)) cutoff (rows.getD u (fun _ => ⊥)))
    (fun _ _ => gtSet_spec hc) (fun u i => candSet_spec hc (u + offset) _ i)
    (fun u _ => topCutoff_isTopK _ _ _ cutoff (WF_recommendableFor (make_wf hc).1 _))
  simp only at h
  obtain ⟨-, -, -, h1, h2, h3, h4, h5, -⟩ := h
  have hu : ∀ u, (c.gtSet (u + offset)).Nonempty → _ := fun u hne =>
    spec_unit_interval (topCutoff_nodup (make_wf hc).1 (u + offset) cutoff
      (rows.getD u (fun _ => ⊥))) hne capped
  refine ⟨?_, ?_, ?_, ?_, ?_⟩
  · show 0 ≤ (m.asDict nItems).hit ∧ (m.asDict nItems).hit ≤ 1
    rw [h1]; exact mean_unit _ _ (fun u hu' => (hu u (by simp at hu'; exact hu'.2)).1)
  · show 0 ≤ (m.asDict nItems).precision ∧ (m.asDict nItems).precision ≤ 1
    rw [h2]; exact mean_unit _ _ (fun u hu' => (hu u (by simp at hu'; exact hu'.2)).2.1)
  · show 0 ≤ (m.asDict nItems).recall ∧ (m.asDict nItems).recall ≤ 1
    rw [h3]; exact mean_unit _ _ (fun u hu' => (hu u (by simp at hu'; exact hu'.2)).2.2.1)
  · show 0 ≤ (m.asDict nItems).ndcg ∧ (m.asDict nItems).ndcg ≤ 1
    rw [h4]; exact mean_unit _ _ (fun u hu' => (hu u (by simp at hu'; exact hu'.2)).2.2.2.1)
  · show 0 ≤ (m.asDict nItems).map ∧ (m.asDict nItems).map ≤ 1
    rw [h5]; exact mean_unit _ _ (fun u hu' => (hu u (by simp at hu'; exact hu'.2)).2.2.2.2)

/-- Non-vacuity of C05/C12: an accepted core and an accepted evaluation of two users. -/
example : ∃ c m, Core.make [[0, 2], []] 3 [] = .ok c ∧
    c.getMetrics (S := WithBot Nat) [fun i => (i : WithBot Nat), fun _ => ⊥] 2 0 4 false = .ok m :=
  ⟨_, _, rfl, rfl⟩

/-! ## C06 -/

/-- C06 (nDCG). For one user with a non-empty list without repetition and a non-empty relevant set:
nDCG is 1 exactly when the first `min(#relevant, #recommended)` positions are all relevant. -/
theorem C06_ndcg_one_iff (recs : List Nat) (hr : recs ≠ []) (hn : recs.Nodup) (gt : Finset Nat)
    (hg : gt.Nonempty) (capped : Bool) :
    (Metrics.empty.update recs gt capped).ndcg = 1 ↔
      ∀ j < min gt.card recs.length, ∃ i, recs[j]? = some i ∧ i ∈ gt := by
  classical
  rw [update_eq, empty_eq_zero, zero_add]
  show Spec.ndcg recs gt = 1 ↔ ∀ j < min gt.card recs.length, Relevant recs gt j
  have hlen : 0 < recs.length := List.length_pos_iff.mpr hr
  have hgc := hg.card_pos
  have hpos : 0 < idealDcg (min gt.card recs.length) := idealDcg_pos (by omega)
  unfold Spec.ndcg
  rw [if_neg hr, div_eq_one_iff_eq hpos.ne']
  set P := (Finset.range recs.length).filter (Relevant recs gt) with hP
  have hcard : P.card = hitsAt recs gt recs.length := by
    rw [hP]; unfold hitsAt; congr!
  have hdcg : dcg recs gt = ∑ j ∈ P, disc j := by
    rw [hP]; unfold dcg disc; congr!
  have hhle : hitsAt recs gt recs.length ≤ min gt.card recs.length :=
    Nat.le_min.mpr ⟨hitsAt_le_gt hn gt, hitsAt_le _ _ _⟩
  constructor
  · intro h
    have h1 := dcg_le_ideal_hits recs gt
    have h2 : hitsAt recs gt recs.length = min gt.card recs.length := by
      by_contra hne
      have := idealDcg_strictMono (lt_of_le_of_ne hhle hne)
      linarith
    have h3 : P = Finset.range P.card := by
      apply eq_range_of_sum_eq disc disc_strictAnti
      rw [← hdcg, hcard, h2, h]; rfl
    intro j hj
    rw [hcard, h2] at h3
    have : j ∈ P := by rw [h3]; simpa using hj
    rw [hP, Finset.mem_filter] at this
    exact this.2
  · intro h
    have h1 : Finset.range (min gt.card recs.length) ⊆ P := by
      intro j hj
      rw [hP, Finset.mem_filter, Finset.mem_range]
      have hj' : j < min gt.card recs.length := by simpa using hj
      exact ⟨by omega, h j hj'⟩
    have h2 : Finset.range (min gt.card recs.length) = P := by
      apply Finset.eq_of_subset_of_card_le h1
      rw [hcard, Finset.card_range]; exact hhle
    rw [hdcg, ← h2]; rfl

/-- C06 (hit). -/
theorem C06_hit_one_iff (recs : List Nat) (gt : Finset Nat) (capped : Bool) :
    (Metrics.empty.update recs gt capped).hit = 1 ↔ ∃ i ∈ recs, i ∈ gt := by
  rw [update_eq, empty_eq_zero, zero_add]
  show Spec.hit recs gt = 1 ↔ _
  rw [hit_eq, ← hitsAt_pos_iff]
  split <;> simp_all

/-- C06 (zero). Each accuracy metric is 0 exactly when no recommended item is relevant. -/
theorem C06_zero_iff (recs : List Nat) (hn : recs.Nodup) (gt : Finset Nat) (hg : gt.Nonempty)
    (capped : Bool) :
    let m := Metrics.empty.update recs gt capped
    (m.hit = 0 ↔ ¬ ∃ i ∈ recs, i ∈ gt) ∧ (m.precision = 0 ↔ ¬ ∃ i ∈ recs, i ∈ gt) ∧
    (m.recall = 0 ↔ ¬ ∃ i ∈ recs, i ∈ gt) ∧ (m.ndcg = 0 ↔ ¬ ∃ i ∈ recs, i ∈ gt) ∧
    (m.map = 0 ↔ ¬ ∃ i ∈ recs, i ∈ gt) := by
  classical
  intro m
  have hm : m = contribution capped recs gt := by
    show Metrics.empty.update recs gt capped = _
    rw [update_eq, empty_eq_zero, zero_add]
  rw [hm]
  show (Spec.hit recs gt = 0 ↔ _) ∧ (Spec.precision recs gt = 0 ↔ _) ∧
    (Spec.recall capped recs gt = 0 ↔ _) ∧ (Spec.ndcg recs gt = 0 ↔ _) ∧
    (Spec.averagePrecision recs gt = 0 ↔ _)
  rw [← hitsAt_pos_iff (recs := recs) (gt := gt)]
  have hgc := hg.card_pos
  by_cases hr : recs = []
  · subst hr
    obtain ⟨h1, h2, h3, h4, h5⟩ := spec_nil capped gt
    simp [h1, h2, h3, h4, h5, hitsAt_zero]
  have hlen : 0 < recs.length := List.length_pos_iff.mpr hr
  have hlenR : (0 : ℝ) < recs.length := by exact_mod_cast hlen
  have hgR : (0 : ℝ) < gt.card := by exact_mod_cast hgc
  refine ⟨?_, ?_, ?_, ?_, ?_⟩
  · rw [hit_eq]; split <;> simp_all
  · unfold Spec.precision
    rw [if_neg hr, div_eq_zero_iff]
    constructor
    · rintro (h | h)
      · have : hitsAt recs gt recs.length = 0 := by exact_mod_cast h
        omega
      · exact absurd h hlenR.ne'
    · intro h; left
      have : hitsAt recs gt recs.length = 0 := by omega
      rw [this]; simp
  · unfold Spec.recall
    rw [if_neg hr, div_eq_zero_iff]
    have hd : 0 < (if capped = true then min gt.card recs.length else gt.card) := by
      split <;> omega
    constructor
    · rintro (h | h)
      · have : hitsAt recs gt recs.length = 0 := by exact_mod_cast h
        omega
      · have : (if capped = true then min gt.card recs.length else gt.card) = 0 := by exact_mod_cast h
        omega
    · intro h; left
      have : hitsAt recs gt recs.length = 0 := by omega
      rw [this]; simp
  · unfold Spec.ndcg
    have hpos : 0 < idealDcg (min gt.card recs.length) := idealDcg_pos (by omega)
    rw [if_neg hr, div_eq_zero_iff, or_iff_left hpos.ne']
    rw [show dcg recs gt = ∑ j ∈ (Finset.range recs.length).filter (Relevant recs gt), disc j from rfl,
      Finset.sum_eq_zero_iff_of_nonneg (fun j _ => (disc_pos j).le)]
    unfold hitsAt
    rw [Finset.card_pos, Finset.not_nonempty_iff_eq_empty]
    constructor
    · intro h
      rw [Finset.eq_empty_iff_forall_notMem]
      intro j hj
      exact absurd (h j hj) (disc_pos j).ne'
    · intro h j hj
      rw [h] at hj; exact absurd hj (Finset.notMem_empty _)
  · unfold Spec.averagePrecision
    rw [div_eq_zero_iff, or_iff_left hgR.ne',
      Finset.sum_eq_zero_iff_of_nonneg (fun j _ => by positivity)]
    have hpos : ∀ j, Relevant recs gt j → 0 < (hitsAt recs gt (j + 1) : ℝ) / ((j : ℝ) + 1) := by
      intro j hj
      have : 0 < hitsAt recs gt (j + 1) := by
        rw [hitsAt_succ, if_pos hj]; omega
      have : (0 : ℝ) < hitsAt recs gt (j + 1) := by exact_mod_cast this
      positivity
    rw [show (0 < hitsAt recs gt recs.length) ↔
      ((Finset.range recs.length).filter (Relevant recs gt)).Nonempty from Finset.card_pos,
      Finset.not_nonempty_iff_eq_empty]
    constructor
    · intro h
      rw [Finset.eq_empty_iff_forall_notMem]
      intro j hj
      have hj' := hj
      rw [Finset.mem_filter] at hj'
      exact absurd (h j hj) (hpos j hj'.2).ne'
    · intro h j hj
      rw [h] at hj; exact absurd hj (Finset.notMem_empty _)

/-- Non-vacuity of C06. -/
example : (Metrics.empty.update [5, 3, 9] {3, 5} false).ndcg = 1 := by
  rw [C06_ndcg_one_iff _ (by decide) (by decide) _ (by decide)]
  intro j hj
  have : j = 0 ∨ j = 1 := by
    have h2 : min (({3, 5} : Finset Nat).card) [5, 3, 9].length = 2 := by decide
    omega
  rcases this with rfl | rfl
  · exact ⟨5, rfl, by decide⟩
  · exact ⟨3, rfl, by decide⟩

/-! ## C07 -/

/-- C07. Swapping a relevant item one place up past an irrelevant one strictly increases nDCG and
average precision and changes nothing else. -/
theorem C07_swap_up (l₁ l₂ : List Nat) (a b : Nat) (gt : Finset Nat) (ha : a ∉ gt) (hb : b ∈ gt)
    (capped : Bool) :
    let before := Metrics.empty.update (l₁ ++ a :: b :: l₂) gt capped
    let after := Metrics.empty.update (l₁ ++ b :: a :: l₂) gt capped
    before.ndcg < after.ndcg ∧ before.map < after.map ∧
    before.hit = after.hit ∧ before.precision = after.precision ∧ before.recall = after.recall ∧
    before.itemCnt = after.itemCnt ∧ before.validUser = after.validUser := by
  intro before after
  have h1 : before = contribution capped (l₁ ++ a :: b :: l₂) gt := by
    show Metrics.empty.update _ gt capped = _
    rw [update_eq, empty_eq_zero, zero_add]
  have h2 : after = contribution capped (l₁ ++ b :: a :: l₂) gt := by
    show Metrics.empty.update _ gt capped = _
    rw [update_eq, empty_eq_zero, zero_add]
  rw [h1, h2]
  have hlen : (l₁ ++ a :: b :: l₂).length = (l₁ ++ b :: a :: l₂).length := by simp
  have hh := swap_hits l₁ l₂ a b gt ha hb
  have hne1 : l₁ ++ a :: b :: l₂ ≠ [] := by simp
  have hne2 : l₁ ++ b :: a :: l₂ ≠ [] := by simp
  have hgc : 0 < gt.card := Finset.card_pos.mpr ⟨b, hb⟩
  refine ⟨?_, ?_, ?_, ?_, ?_, ?_, rfl⟩
  · show Spec.ndcg _ gt < Spec.ndcg _ gt
    unfold Spec.ndcg
    rw [if_neg hne1, if_neg hne2, ← hlen]
    apply div_lt_div_of_pos_right (swap_dcg l₁ l₂ a b gt ha hb)
    apply idealDcg_pos
    have : 0 < (l₁ ++ a :: b :: l₂).length := by simp
    omega
  · show Spec.averagePrecision _ gt < Spec.averagePrecision _ gt
    unfold Spec.averagePrecision
    apply div_lt_div_of_pos_right (swap_ap l₁ l₂ a b gt ha hb)
    exact_mod_cast hgc
  · show Spec.hit _ gt = Spec.hit _ gt
    rw [hit_eq, hit_eq, hh]
  · show Spec.precision _ gt = Spec.precision _ gt
    unfold Spec.precision
    rw [if_neg hne1, if_neg hne2, hh, hlen]
  · show Spec.recall capped _ gt = Spec.recall capped _ gt
    unfold Spec.recall
    rw [if_neg hne1, if_neg hne2, hh, hlen]
  · show (fun i => (l₁ ++ a :: b :: l₂).count i) = (fun i => (l₁ ++ b :: a :: l₂).count i)
    funext i
    exact ((List.Perm.swap b a l₂).append_left l₁).count_eq i

/-- Non-vacuity of C07. -/
example : (Metrics.empty.update [7, 1, 2] {2} true).ndcg < (Metrics.empty.update [7, 2, 1] {2} true).ndcg :=
  (C07_swap_up [7] [] 1 2 {2} (by decide) (by decide) true).1

/-! ## C08, C09 -/

/-- C08/C09 (common form). Two score matrices, even over different number types, that for every user
have `-inf` at the same recommendable items and rank the other recommendable items alike give
identical results (identical errors included). -/
theorem C08_C09_only_ranking_matters {S' : Type} [LinearOrder S'] [OrderBot S']
    {gtRows : List (List Nat)} {nItems : Nat} {recLists : List (List Nat)} {c : Core}
    (hc : Core.make gtRows nItems recLists = .ok c)
    (rows : List (ScoreRow S)) (rows' : List (ScoreRow S')) (hlen : rows.length = rows'.length)
    (cutoff offset nThreads : Nat) (capped : Bool)
    (h : ∀ u (hu : u < rows.length) (hu' : u < rows'.length), ∀ i < nItems,
      RecommendableTo recLists (u + offset) i →
        (rows[u] i = ⊥ ↔ rows'[u] i = ⊥) ∧
        ∀ j < nItems, RecommendableTo recLists (u + offset) j →
          (Before rows[u] i j ↔ Before rows'[u] i j)) :
    c.getMetrics rows cutoff offset nThreads capped = c.getMetrics rows' cutoff offset nThreads capped := by
  rw [getMetrics_eq, getMetrics_eq, ← hlen]
  cases c.checkArgs rows.length cutoff offset nThreads with
  | error e => rfl
  | ok _ =>
    simp only
    congr 1
    apply Finset.sum_congr rfl
    intro u hu
    have hu1 : u < rows.length := by simpa using hu
    have hu2 : u < rows'.length := by omega
    unfold rowContribution
    rw [List.getD_eq_getElem?_getD, List.getElem?_eq_getElem hu1, Option.getD_some,
      List.getD_eq_getElem?_getD, List.getElem?_eq_getElem hu2, Option.getD_some]
    have hset : candSet c.nItems (c.recommendableFor (u + offset)) rows'[u] =
        candSet c.nItems (c.recommendableFor (u + offset)) rows[u] := by
      ext i
      rw [candSet_spec hc, candSet_spec hc]
      constructor
      · rintro ⟨h1, h2, h3⟩
        exact ⟨h1, h2, fun e => h3 (((h u hu1 hu2 i h1 h2).1).mp e)⟩
      · rintro ⟨h1, h2, h3⟩
        exact ⟨h1, h2, fun e => h3 (((h u hu1 hu2 i h1 h2).1).mpr e)⟩
    have hw := WF_recommendableFor (make_wf hc).1 (u + offset)
    have t1 := topCutoff_isTopK c.nItems (c.recommendableFor (u + offset)) rows[u] cutoff hw
    have t2 := topCutoff_isTopK c.nItems (c.recommendableFor (u + offset)) rows'[u] cutoff hw
    rw [hset] at t2
    rw [isTopK_unique t1 t2]
    intro i hi j hj
    rw [candSet_spec hc] at hi hj
    exact (h u hu1 hu2 i hi.1 hi.2.1).2 j hj.1 hj.2.1

/-- C08. Scores of items that are not recommendable to a user have no influence: matrices agreeing on
recommendable positions give the same result. -/
theorem C08_other_scores_have_no_influence
    {gtRows : List (List Nat)} {nItems : Nat} {recLists : List (List Nat)} {c : Core}
    (hc : Core.make gtRows nItems recLists = .ok c)
    (rows rows' : List (ScoreRow S)) (hlen : rows.length = rows'.length)
    (cutoff offset nThreads : Nat) (capped : Bool)
    (h : ∀ u (hu : u < rows.length) (hu' : u < rows'.length), ∀ i < nItems,
      RecommendableTo recLists (u + offset) i → rows[u] i = rows'[u] i) :
    c.getMetrics rows cutoff offset nThreads capped = c.getMetrics rows' cutoff offset nThreads capped := by
  apply C08_C09_only_ranking_matters hc rows rows' hlen
  intro u hu hu' i hi hr
  refine ⟨by rw [h u hu hu' i hi hr], fun j hj hrj => ?_⟩
  unfold Before
  rw [h u hu hu' i hi hr, h u hu hu' j hj hrj]

/-- C08. An item that for every user is not recommendable or scored `-inf` (masked) is never counted
as recommended. -/
theorem C08_excluded_items_never_recommended
    {gtRows : List (List Nat)} {nItems : Nat} {recLists : List (List Nat)} {c : Core}
    (hc : Core.make gtRows nItems recLists = .ok c)
    (rows : List (ScoreRow S)) (cutoff offset nThreads : Nat) (capped : Bool) (m : Metrics)
    (hm : c.getMetrics rows cutoff offset nThreads capped = .ok m) (i : Nat)
    (h : ∀ u (hu : u < rows.length),
      ¬ RecommendableTo recLists (u + offset) i ∨ rows[u] i = ⊥ ∨ nItems ≤ i) :
    m.itemCnt i = 0 := by
  have hall := C12_user_accounting hc rows cutoff offset nThreads capped m hm
    (fun u => rows.getD u (fun _ => ⊥))
    (fun u hu => by rw [List.getD_eq_getElem?_getD, List.getElem?_eq_getElem hu, Option.getD_some])
    (fun u => c.gtSet (u + offset))
    (fun u => candSet c.nItems (c.recommendableFor (u + offset)) (rows.getD u (fun _ => ⊥)))
    (fun u => topCutoff c.nItems (c.recommendableFor (u + offset)) cutoff (rows.getD u (fun _ => ⊥)))
    (fun _ _ => gtSet_spec hc) (fun u i => candSet_spec hc (u + offset) _ i)
    (fun u _ => topCutoff_isTopK _ _ _ cutoff (WF_recommendableFor (make_wf hc).1 _))
  simp only at hall
  rw [hall.2.2.2.2.2.2.2.2 i, Finset.card_eq_zero, Finset.eq_empty_iff_forall_notMem]
  intro u hu
  rw [Finset.mem_filter, Finset.mem_filter] at hu
  obtain ⟨⟨hu1, -⟩, hu2⟩ := hu
  have hu1 : u < rows.length := by simpa using hu1
  have := (topCutoff_isTopK c.nItems (c.recommendableFor (u + offset)) (rows.getD u (fun _ => ⊥)) cutoff
    (WF_recommendableFor (make_wf hc).1 _)).mem i hu2
  rw [candSet_spec hc, List.getD_eq_getElem?_getD, List.getElem?_eq_getElem hu1, Option.getD_some] at this
  rcases h u hu1 with h | h | h
  · exact h this.2.1
  · exact this.2.2 h
  · omega

/-- C09. Applying to each user's scores any strictly increasing function that keeps `-inf` leaves the
result unchanged. -/
theorem C09_monotone_transform {S' : Type} [LinearOrder S'] [OrderBot S']
    {gtRows : List (List Nat)} {nItems : Nat} {recLists : List (List Nat)} {c : Core}
    (hc : Core.make gtRows nItems recLists = .ok c)
    (rows : List (ScoreRow S)) (f : Nat → S → S') (hf : ∀ u, StrictMono (f u)) (hbot : ∀ u, f u ⊥ = ⊥)
    (cutoff offset nThreads : Nat) (capped : Bool) :
    c.getMetrics (rows.mapIdx (fun u row i => f u (row i))) cutoff offset nThreads capped =
      c.getMetrics rows cutoff offset nThreads capped := by
  symm
  apply C08_C09_only_ranking_matters hc rows _ (by simp)
  intro u hu hu' i hi hr
  simp only [List.getElem_mapIdx]
  refine ⟨?_, fun j hj hrj => ?_⟩
  · rw [← hbot u, (hf u).injective.eq_iff]
  · unfold Before
    rw [(hf u).lt_iff_lt, (hf u).injective.eq_iff]

/-- Non-vacuity of C09: doubling on `WithBot ℕ` is strictly increasing and keeps `-inf`. -/
example : StrictMono (WithBot.map (fun n : Nat => 2 * n)) ∧ WithBot.map (fun n : Nat => 2 * n) ⊥ = ⊥ :=
  ⟨WithBot.strictMono_map_iff.mpr (fun a b h => by show 2 * a < 2 * b; omega), rfl⟩

/-! ## C13 -/

/-- C13. For every accumulator (every vector of recommendation counts), the diversity entries of the
dictionary have their textbook values. -/
theorem C13_diversity_values (nItems : Nat) (m : Metrics) :
    let d := m.asDict nItems
    d.appearedItem = Spec.appeared nItems m.itemCnt ∧ d.entropy = Spec.entropy nItems m.itemCnt ∧
    d.giniIndex = Spec.gini nItems m.itemCnt :=
  asDict_diversity nItems m

/-- C13. Bounds. -/
theorem C13_diversity_bounds (nItems : Nat) (hn : 0 < nItems) (m : Metrics) :
    let d := m.asDict nItems
    (0 ≤ d.appearedItem ∧ d.appearedItem ≤ nItems) ∧
    (0 ≤ d.entropy ∧ d.entropy ≤ Real.log d.appearedItem) ∧
    (0 ≤ d.giniIndex ∧ d.giniIndex ≤ 1 - 1 / nItems) := by
  intro d
  obtain ⟨h1, h2, h3⟩ := asDict_diversity nItems m
  show (0 ≤ (m.asDict nItems).appearedItem ∧ (m.asDict nItems).appearedItem ≤ nItems) ∧
    (0 ≤ (m.asDict nItems).entropy ∧ (m.asDict nItems).entropy ≤ Real.log (m.asDict nItems).appearedItem) ∧
    (0 ≤ (m.asDict nItems).giniIndex ∧ (m.asDict nItems).giniIndex ≤ 1 - 1 / nItems)
  rw [h1, h2, h3]
  refine ⟨⟨Nat.cast_nonneg _, ?_⟩, ⟨entropy_nonneg _ _, entropy_le _ _⟩,
    ⟨gini_nonneg _ _, gini_le _ hn _⟩⟩
  have : appeared nItems m.itemCnt ≤ nItems := (Finset.card_filter_le _ _).trans (by simp)
  exact_mod_cast this

/-- C13. Gini extremes: 0 for equal counts; `1 - 1/n` when one item takes everything. -/
theorem C13_gini_extremes (nItems : Nat) (m : Metrics) :
    ((∀ i < nItems, ∀ j < nItems, m.itemCnt i = m.itemCnt j) → (m.asDict nItems).giniIndex = 0) ∧
    (∀ k < nItems, 0 < m.itemCnt k → (∀ i < nItems, i ≠ k → m.itemCnt i = 0) →
      (m.asDict nItems).giniIndex = 1 - 1 / nItems) := by
  rw [(asDict_diversity nItems m).2.2]
  exact ⟨gini_uniform _ _, fun k hk hp h => gini_single _ _ k hk hp h⟩

/-- Non-vacuity of C13: 5 items, all 7 recommendations go to item 2. -/
example : ({ Metrics.empty with itemCnt := fun i => if i = 2 then 7 else 0 }.asDict 5).giniIndex
    = 1 - 1 / ((5 : Nat) : ℝ) :=
  (C13_gini_extremes 5 _).2 2 (by decide) (by decide) (by intro i _ h; simp [h])

/-! ## C15 -/

/-- C15. `get_metrics` returns exactly when all five argument conditions hold, and otherwise raises
`invalid_argument`, before any row is evaluated. -/
theorem C15_get_metrics_rejects_bad_arguments (c : Core) (rows : List (ScoreRow S))
    (cutoff offset nThreads : Nat) (capped : Bool) :
    ((∃ m, c.getMetrics rows cutoff offset nThreads capped = .ok m) ↔
      (0 < nThreads ∧ offset < c.gtRows.length ∧ offset + rows.length ≤ c.gtRows.length ∧
        0 < cutoff ∧ cutoff ≤ c.nItems)) ∧
    (∀ e, c.getMetrics rows cutoff offset nThreads capped = .error e → e = .invalidArgument) := by
  unfold Core.getMetrics Core.checkArgs Core.nUsers
  constructor
  · by_cases h1 : nThreads > 0 <;> by_cases h2 : c.gtRows.length > offset <;>
      by_cases h3 : offset + rows.length ≤ c.gtRows.length <;> by_cases h4 : cutoff > 0 <;>
      by_cases h5 : cutoff ≤ c.nItems <;>
      simp [h1, h2, h3, h4, h5]
  · intro e
    by_cases h1 : nThreads > 0 <;> by_cases h2 : c.gtRows.length > offset <;>
      by_cases h3 : offset + rows.length ≤ c.gtRows.length <;> by_cases h4 : cutoff > 0 <;>
      by_cases h5 : cutoff ≤ c.nItems <;>
      simp only [h1, h2, h3, h4, h5, not_true_eq_false, not_false_eq_true, if_true, if_false] <;>
      intro h <;> cases h <;> rfl

/-- C15 (same for the parallel form). -/
theorem C15_parallel_rejects_bad_arguments (c : Core) (rows : List (ScoreRow S))
    (cutoff offset nThreads : Nat) (capped : Bool) (sched : List (Fin nThreads)) :
    (∃ s, c.getMetricsRegion rows cutoff offset nThreads capped sched = .ok s) ↔
      (0 < nThreads ∧ offset < c.gtRows.length ∧ offset + rows.length ≤ c.gtRows.length ∧
        0 < cutoff ∧ cutoff ≤ c.nItems) := by
  unfold Core.getMetricsRegion Core.checkArgs Core.nUsers
  by_cases h1 : nThreads > 0 <;> by_cases h2 : c.gtRows.length > offset <;>
    by_cases h3 : offset + rows.length ≤ c.gtRows.length <;> by_cases h4 : cutoff > 0 <;>
    by_cases h5 : cutoff ≤ c.nItems <;>
    simp [h1, h2, h3, h4, h5]

/-- C15 (the ground-truth cache).  `cache_X_as_set` raises `invalid_argument` exactly if the number of
threads is 0, and `get_metrics` with 0 threads does so too. -/
theorem C15_no_threads (c : Core) (sched : List (Fin 0)) (n : Nat) (sched' : List (Fin n)) :
    c.cacheRegion 0 sched = .error .invalidArgument ∧
    (0 < n → ∃ s, c.cacheRegion n sched' = .ok s) ∧
    ∀ (rows : List (ScoreRow S)) (cutoff offset : Nat) (capped : Bool),
      c.getMetricsRegion rows cutoff offset 0 capped sched = .error .invalidArgument := by
  refine ⟨rfl, fun h => ?_, fun rows cutoff offset capped => ?_⟩
  · unfold Core.cacheRegion
    rw [if_neg (fun hn => hn h)]
    exact ⟨_, rfl⟩
  · unfold Core.getMetricsRegion Core.checkArgs
    rw [if_pos (by omega)]

/-- C15. The constructor accepts exactly: 0, 1 or n_users lists, each without repetition and with
every index in range. -/
theorem C15_constructor_accepts_iff (gtRows : List (List Nat)) (nItems : Nat)
    (recLists : List (List Nat)) :
    (∃ c, Core.make gtRows nItems recLists = .ok c) ↔
      ((recLists.length = 0 ∨ recLists.length = 1 ∨ recLists.length = gtRows.length) ∧
       ∀ l ∈ recLists, l.Nodup ∧ ∀ i ∈ l, i < nItems) :=
  make_ok_iff gtRows nItems recLists

example : ¬ ∃ c, Core.make [[0], [1], [2]] 4 [[1], [2]] = .ok c := by
  rw [C15_constructor_accepts_iff]; rintro ⟨h, -⟩; simp at h

end Irspack.Props
