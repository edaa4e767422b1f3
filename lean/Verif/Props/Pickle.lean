import Verif.Model.Pickle
import Verif.Proofs.Named
import Verif.Proofs.Raw
import Verif.Props.Evaluator

/-!
# C88: evaluators and trainers across calls and pickling
-/

namespace Irspack.Props

open Irspack Irspack.Evaluation WorkQueue

variable {S : Type} [LinearOrder S] [OrderBot S]

/-- sorting what is sorted changes nothing -/
theorem mergeSort_twice (l : List Nat) :
    (l.mergeSort (fun a b => decide (a ≤ b))).mergeSort (fun a b => decide (a ≤ b)) =
      l.mergeSort (fun a b => decide (a ≤ b)) :=
  List.mergeSort_of_pairwise
    (List.pairwise_mergeSort (le := fun a b => decide (a ≤ b))
      (fun a b c h1 h2 => by simp only [decide_eq_true_eq] at *; exact h1.trans h2)
      (fun a b => by simp only [Bool.or_eq_true, decide_eq_true_eq]; exact le_total a b) l)

/-- building a core from the parts of a core gives it back -/
theorem make_again {gtRows : List (List Nat)} {nItems : Nat} {recLists : List (List Nat)} {c : Core}
    (h : Core.make gtRows nItems recLists = .ok c) : Core.make c.gtRows c.nItems c.recommendable = .ok c := by
  obtain ⟨-, hn, hg, hr⟩ := make_wf h
  have hs : (recLists.map (fun l => l.mergeSort (fun a b => decide (a ≤ b)))).map
      (fun l => l.mergeSort (fun a b => decide (a ≤ b))) =
      recLists.map (fun l => l.mergeSort (fun a b => decide (a ≤ b))) := by
    rw [List.map_map]
    apply List.map_congr_left
    intro l _
    exact mergeSort_twice l
  rw [← h, hn, hg, hr]
  unfold Core.make
  simp only [hs, List.map_eq_nil_iff, List.length_map]

/-- two regions whose bodies agree on the rows of the region run alike -/
theorem run_agree {L M : Type} {T : Nat} (n c : Nat) (body body' : Nat → L → M → L × M)
    (hb : ∀ r, r < n → body r = body' r) (sched : List (Fin T)) :
    ∀ s : State T L M, (∀ t r hi, s.pc t = .work r hi → hi ≤ n) →
      run n c body s sched = run n c body' s sched := by
  induction sched with
  | nil => intro s _; rfl
  | cons t ts ih =>
    intro s hs
    have h1 : step n c body s t = step n c body' s t := by
      unfold step
      cases h : s.pc t with
      | fetch => rfl
      | stopped => rfl
      | work r hi =>
        by_cases hr : r < hi
        · simp only [hr, if_true]
          rw [hb r (lt_of_lt_of_le hr (hs t r hi h))]
        · simp only [hr, if_false]
    have h2 : ∀ t' r hi, (step n c body s t).pc t' = .work r hi → hi ≤ n := by
      intro t' r hi h'
      by_cases ht : t' = t
      · subst ht
        unfold step at h'
        cases h : s.pc t' with
        | fetch =>
          rw [h] at h'
          simp only [Function.update_self] at h'
          split at h'
          · cases h'
          · cases h'; exact Nat.min_le_right _ _
        | stopped => rw [h] at h'; simp only at h'; rw [h] at h'; cases h'
        | work r' hi' =>
          rw [h] at h'
          by_cases hr : r' < hi'
          · simp only [hr, if_true, Function.update_self] at h'
            cases h'
            exact hs t' r' _ h
          · simp only [hr, if_false, Function.update_self] at h'
            cases h'
      · unfold step at h'
        cases h : s.pc t with
        | fetch => rw [h] at h'; simp only [Function.update_of_ne ht] at h'; exact hs t' r hi h'
        | stopped => rw [h] at h'; exact hs t' r hi h'
        | work r' hi' =>
          rw [h] at h'
          by_cases hr : r' < hi'
          · simp only [hr, if_true, Function.update_of_ne ht] at h'; exact hs t' r hi h'
          · simp only [hr, if_false, Function.update_of_ne ht] at h'; exact hs t' r hi h'
    show run n c body (step n c body s t) ts = run n c body' (step n c body' s t) ts
    rw [← h1]
    exact ih _ h2

/-- the workers that fill the cache: one of them runs, and none is abandoned half-way -/
def Fills (c : Core) {nThreads : Nat} (sched : List (Fin nThreads)) : Prop :=
  ∀ s, c.cacheRegion nThreads sched = .ok s →
    (∀ t, s.pc t = .stopped ∨ t ∉ sched) ∧ ∃ t, s.pc t = .stopped

/-- The objects a program can hold after building a core from the given arguments: any sequence of calls of
`cache_X_as_set` and `get_metrics` (successful or not) and of pickling and unpickling. -/
inductive CoreReached (gtRows : List (List Nat)) (nItems : Nat) (recLists : List (List Nat)) : CoreObj → Prop
  | make {o} (h : CoreObj.make gtRows nItems recLists = .ok o) : CoreReached gtRows nItems recLists o
  | cache {o o'} {n : Nat} {fill : List (Fin n)} (h : CoreReached gtRows nItems recLists o)
      (hf : Fills o.core fill) (ho : o.cacheXMap n fill = .ok o') : CoreReached gtRows nItems recLists o'
  | metrics {o} {S : Type} [LinearOrder S] [OrderBot S] {n : Nat} {fill sched : List (Fin n)}
      (h : CoreReached gtRows nItems recLists o) (hf : Fills o.core fill) (rows : List (ScoreRow S))
      (cutoff offset : Nat) (capped : Bool) :
      CoreReached gtRows nItems recLists (o.getMetrics rows cutoff offset n capped fill sched).1
  | pickled {o o'} (h : CoreReached gtRows nItems recLists o) (ho : CoreObj.setstate o.getstate = .ok o') :
      CoreReached gtRows nItems recLists o'

/-- what every such object is -/
structure CoreGood (gtRows : List (List Nat)) (nItems : Nat) (recLists : List (List Nat)) (o : CoreObj) :
    Prop where
  core : Core.make gtRows nItems recLists = .ok o.core
  cache : ∀ X, o.cache = some X → ∀ u, u < o.core.nUsers → X u = o.core.gtSet u

variable {gtRows : List (List Nat)} {nItems : Nat} {recLists : List (List Nat)}

theorem coreGood_cache {o o' : CoreObj} {n : Nat} {fill : List (Fin n)}
    (h : CoreGood gtRows nItems recLists o) (hf : Fills o.core fill) (ho : o.cacheXMap n fill = .ok o') :
    CoreGood gtRows nItems recLists o' ∧ o'.cache.isSome ∧ o'.core = o.core := by
  unfold CoreObj.cacheXMap at ho
  split at ho
  · cases ho
  · cases hc : o.cache with
    | some X =>
      rw [hc] at ho
      injection ho with ho
      subst ho
      exact ⟨h, by rw [hc]; rfl, rfl⟩
    | none =>
      rw [hc] at ho
      simp only at ho
      cases hr : o.core.cacheRegion n fill with
      | error e => rw [hr] at ho; cases ho
      | ok s =>
        rw [hr] at ho
        injection ho with ho
        subst ho
        refine ⟨⟨h.core, ?_⟩, rfl, rfl⟩
        intro X hX u hu
        injection hX with hX
        subst hX
        obtain ⟨hq, h1⟩ := hf s hr
        exact C03_ground_truth_cache_partial o.core n fill s hr hq h1 u hu

theorem coreReached_good {o : CoreObj} (h : CoreReached gtRows nItems recLists o) :
    CoreGood gtRows nItems recLists o := by
  induction h with
  | make h =>
    unfold CoreObj.make at h
    cases hc : Core.make gtRows nItems recLists with
    | error e => rw [hc] at h; cases h
    | ok c =>
      rw [hc] at h
      injection h with h
      subst h
      exact ⟨hc, fun X hX => by cases hX⟩
  | cache _ hf ho ih => exact (coreGood_cache ih hf ho).1
  | @metrics o S _ _ n fill sched _ hf rows cutoff offset capped ih =>
    unfold CoreObj.getMetrics
    cases hc : o.cacheXMap n fill with
    | error e => exact ih
    | ok o' => exact (coreGood_cache ih hf hc).1
  | @pickled o o' _ ho ih =>
    unfold CoreObj.setstate CoreObj.getstate CoreObj.make at ho
    simp only at ho
    rw [make_again ih.core] at ho
    injection ho with ho
    subst ho
    exact ⟨ih.core, fun X hX => by cases hX⟩

/-- C88 (evaluator core, every history). Take an evaluator core and call its methods in any order, with any
thread counts and interleavings, with good and bad arguments, and pickle and unpickle it as often as you
like. A finished call of `get_metrics` then returns what the same call on a core built freshly from the
same arguments returns. -/
theorem C88_core_history {o : CoreObj} (h : CoreReached gtRows nItems recLists o) {n : Nat}
    {fill sched : List (Fin n)} (hf : Fills o.core fill) (rows : List (ScoreRow S)) (cutoff offset : Nat)
    (capped : Bool) :
    ∃ c, Core.make gtRows nItems recLists = .ok c ∧
      (∀ s, (o.getMetrics rows cutoff offset n capped fill sched).2 = .ok s → Finished s →
        c.getMetrics rows cutoff offset n capped = .ok (mergeWorkers s)) ∧
      ∀ e, (o.getMetrics rows cutoff offset n capped fill sched).2 = .error e ↔
        c.getMetrics rows cutoff offset n capped = .error e := by
  have hg := coreReached_good h
  refine ⟨o.core, hg.core, ?_⟩
  unfold CoreObj.getMetrics
  cases hc : o.cacheXMap n fill with
  | error e =>
    have hn : n = 0 ∧ e = .invalidArgument := by
      unfold CoreObj.cacheXMap at hc
      by_cases hn : n > 0
      · rw [if_neg (not_not.mpr hn)] at hc
        cases ho : o.cache with
        | some X => rw [ho] at hc; cases hc
        | none =>
          rw [ho] at hc
          simp only at hc
          unfold Core.cacheRegion at hc
          rw [if_neg (not_not.mpr hn)] at hc
          cases hc
      · rw [if_pos hn] at hc
        injection hc with hc
        exact ⟨by omega, hc.symm⟩
    obtain ⟨rfl, rfl⟩ := hn
    have : o.core.getMetrics rows cutoff offset 0 capped = .error .invalidArgument := by
      unfold Core.getMetrics Core.checkArgs
      rfl
    rw [this]
    simp only
    exact ⟨fun s hs => (nomatch hs), fun e => by simp⟩
  | ok o' =>
    obtain ⟨hg', hsome, hcore⟩ := coreGood_cache hg hf hc
    obtain ⟨X, hX⟩ := Option.isSome_iff_exists.mp hsome
    simp only [hX, Option.getD_some, hcore]
    have hcr := C03_parallel_equals_sequential o.core rows cutoff offset n capped sched
    unfold Core.getMetricsRegion at hcr
    cases hca : o.core.checkArgs rows.length cutoff offset n with
    | error e =>
      have : o.core.getMetrics rows cutoff offset n capped = .error e := by
        unfold Core.getMetrics
        rw [hca]
      rw [this]
      simp only
      exact ⟨fun s hs => (nomatch hs), fun e => by simp⟩
    | ok u =>
      have hoff : offset + rows.length ≤ o.core.nUsers := by
        by_contra hx
        unfold Core.checkArgs at hca
        split_ifs at hca
      rw [hca] at hcr
      have hrun : run rows.length 1
          (fun u l m => (o.core.evalRowCached X rows cutoff offset capped u l, m))
          (init Metrics.empty () : State n Metrics Unit) sched =
          run rows.length 1 (fun u l m => (o.core.evalRow rows cutoff offset capped u l, m))
          (init Metrics.empty ()) sched := by
        refine run_agree _ _ _ _ ?_ _ _ (by intro t r hi h; cases h)
        intro r hr
        funext l m
        simp only [Prod.mk.injEq, and_true]
        unfold Core.evalRowCached Core.evalRow
        rw [hg'.cache X hX (r + offset) (by rw [hcore]; omega), hcore]
      simp only [hrun]
      refine ⟨fun s hs hfin => hcr s hs hfin, fun e => ?_⟩
      constructor
      · intro hx; cases hx
      · intro hx
        unfold Core.getMetrics at hx
        rw [hca] at hx
        cases hx

/-- C88 (evaluator core, filling is only done once). Once the cache is there, a schedule that lets no
worker run does no harm, and pickling makes the next call fill it again. -/
theorem C88_core_cache {o o' : CoreObj} (h : CoreReached gtRows nItems recLists o) {n : Nat}
    {fill : List (Fin n)} (hf : Fills o.core fill) (ho : o.cacheXMap n fill = .ok o') :
    (∀ {m : Nat} (fill' : List (Fin m)), 0 < m → o'.cacheXMap m fill' = .ok o') ∧
      ∃ o'', CoreObj.setstate o'.getstate = .ok o'' ∧ o''.core = o'.core ∧ o''.cache = none := by
  obtain ⟨hg, hsome, -⟩ := coreGood_cache (coreReached_good h) hf ho
  obtain ⟨X, hX⟩ := Option.isSome_iff_exists.mp hsome
  refine ⟨fun {m} fill' hm => ?_, ⟨o'.core, none⟩, ?_, rfl, rfl⟩
  · unfold CoreObj.cacheXMap
    rw [if_neg (not_not.mpr hm), hX]
  · unfold CoreObj.setstate CoreObj.getstate CoreObj.make
    simp only
    rw [make_again hg.core]

/-- C88 (evaluator). Pickling and unpickling an evaluator gives an evaluator with the same attributes, and
so the same reports for every model. -/
theorem C88_evaluator {offset cutoff : Nat} {recommendable : Option (List Nat)}
    {perUser : Option (List (List Nat))} {masked : Option Mask} {nThreads mbSize : Nat} {capped : Bool}
    {ev : Evaluator} (h : Evaluator.make gtRows nItems offset cutoff recommendable perUser masked nThreads
      capped mbSize = .ok ev) : ev.pickled = .ok ev := by
  have hc : ∃ arg, Core.make gtRows nItems arg = .ok ev.core := by
    unfold Evaluator.make at h
    cases ha : recommendableArg gtRows.length recommendable perUser with
    | error e => rw [ha] at h; cases h
    | ok arg =>
      rw [ha] at h
      simp only at h
      cases hm : Core.make gtRows nItems arg with
      | error e => rw [hm] at h; cases h
      | ok core =>
        rw [hm] at h
        simp only at h
        refine ⟨arg, ?_⟩
        rw [hm]
        split at h
        · split at h
          · cases h
          · injection h with h; subst h; rfl
        · injection h with h; subst h; rfl
  obtain ⟨arg, hc⟩ := hc
  unfold Evaluator.pickled CoreObj.setstate CoreObj.getstate CoreObj.make
  simp only
  rw [make_again hc]

/-- The hypotheses are met: a core with a list of recommendable items, evaluated with two threads, pickled,
and evaluated again. -/
example : ∃ (o o' : CoreObj) (fill : List (Fin 2)), CoreObj.make [[0, 2], [1]] 3 [[2, 0]] = .ok o ∧
    Fills o.core fill ∧ o.cacheXMap 2 fill = .ok o' ∧ CoreReached [[0, 2], [1]] 3 [[2, 0]] o' ∧
    o'.core.gtSet 0 = {0, 2} := by
  have hm : CoreObj.make [[0, 2], [1]] 3 [[2, 0]] = .ok ⟨⟨3, [[0, 2], [1]], [[0, 2]]⟩, none⟩ := by
    have h1 : [2, 0].mergeSort (fun a b => decide (a ≤ b)) = [0, 2] := by
      simp [List.mergeSort, List.MergeSort.Internal.splitInTwo, List.merge]
    unfold CoreObj.make Core.make
    simp [h1, strictlyIncreasing]
  have hf : Fills (⟨3, [[0, 2], [1]], [[0, 2]]⟩ : Core) ([0, 0, 0, 1, 1, 1, 1, 0, 1, 0] : List (Fin 2)) := by
    intro s hs
    unfold Core.cacheRegion at hs
    rw [if_neg (by decide)] at hs
    injection hs with hs
    subst hs
    refine ⟨fun t => Or.inl ?_, 0, ?_⟩
    · fin_cases t <;> rfl
    · rfl
  exact ⟨_, _, [0, 0, 0, 1, 1, 1, 1, 0, 1, 0], hm, hf, rfl, .cache (.make hm) hf rfl, by decide +kernel⟩

end Irspack.Props

/-! ## The Mult-VAE trainer -/

namespace Irspack.MultVAE.Pickle

open Irspack Irspack.Evaluation.Named

variable {D : Type}

/-- The trainers a program can hold: a new one, and what updates, scoring, loading a state, and pickling
and unpickling make of it. -/
inductive Reached : Obj D → Prop
  | create {o} (X nUsers nItems size goal annealEnd dropout l2 lr rng enc dec z total : D)
      (h : setupJaxFuncs (before X nUsers nItems size goal annealEnd dropout l2 lr rng enc dec z total) = .ok o)
      (count rng' params opt : D) : Reached (after count rng' params opt o)
  | updated {o} (h : Reached o) (count rng params opt : D) : Reached (updated count rng params opt o)
  | scored {o} (h : Reached o) (rng : D) : Reached (scored rng o)
  | loaded {o} (h : Reached o) (params : D) : Reached (loaded params o)
  | pickled {o o'} {b : List (List Char × D)} (h : Reached o) (hd : dumps o = .ok b) (hl : loads b = .ok o') :
      Reached o'

/-- what all of them have in common -/
structure Inv (o : Obj D) : Prop where
  nodup : (o.map Prod.fst).Nodup
  optimizer : ∃ lr, o.lookup "learning_rate".toList = some (.data lr) ∧
    o.lookup "optimizer".toList = some (.optimizer lr)
  vaeF : o.lookup "vae_f".toList = some .vaeF
  update : o.lookup "update_function".toList = some .updateFunction
  other : ∀ k v, k ≠ "optimizer".toList → k ≠ "vae_f".toList → k ≠ "update_function".toList →
    o.lookup k = some v → ∃ d, v = .data d

theorem nodup_set {V : Type} (d : Dict V) (k : List Char) (v : V) (h : (d.map Prod.fst).Nodup) :
    ((d.set k v).map Prod.fst).Nodup := by
  rw [keys_set]
  split_ifs with hk
  · exact h
  · rw [List.nodup_append]
    refine ⟨h, List.nodup_singleton k, ?_⟩
    intro a ha b hb hab
    rw [List.mem_singleton.mp hb] at hab
    exact hk (hab ▸ ha)

theorem Inv.set_data {o : Obj D} (h : Inv o) (k : List Char) (d : D) (h1 : k ≠ "optimizer".toList)
    (h2 : k ≠ "vae_f".toList) (h3 : k ≠ "update_function".toList) (h4 : k ≠ "learning_rate".toList) :
    Inv (o.set k (.data d)) where
  nodup := nodup_set _ _ _ h.nodup
  optimizer := by
    obtain ⟨lr, ha, hb⟩ := h.optimizer
    exact ⟨lr, by rw [lookup_set, if_neg h4.symm, ha], by rw [lookup_set, if_neg h1.symm, hb]⟩
  vaeF := by rw [lookup_set, if_neg h2.symm, h.vaeF]
  update := by rw [lookup_set, if_neg h3.symm, h.update]
  other := by
    intro k' v ha hb hc hv
    rw [lookup_set] at hv
    split_ifs at hv with hk
    · injection hv with hv; exact ⟨d, hv.symm⟩
    · exact h.other k' v ha hb hc hv

theorem setup_inv {s o : Obj D} (hn : (s.map Prod.fst).Nodup)
    (hs : ∀ k v, s.lookup k = some v → ∃ d, v = .data d) (h : setupJaxFuncs s = .ok o) :
    Inv o ∧ (∀ k, k ≠ "optimizer".toList → k ≠ "vae_f".toList → k ≠ "update_function".toList →
      o.lookup k = s.lookup k) := by
  unfold setupJaxFuncs at h
  split at h
  · rename_i lr hlr
    injection h with h
    subst h
    refine ⟨⟨nodup_set _ _ _ (nodup_set _ _ _ (nodup_set _ _ _ hn)), ⟨lr, ?_, ?_⟩, ?_, ?_, ?_⟩, ?_⟩
    · rw [lookup_set, if_neg (by decide), lookup_set, if_neg (by decide), lookup_set, if_neg (by decide), hlr]
    · rw [lookup_set, if_neg (by decide), lookup_set, if_neg (by decide), lookup_set, if_pos rfl]
    · rw [lookup_set, if_neg (by decide), lookup_set, if_pos rfl]
    · rw [lookup_set, if_pos rfl]
    · intro k v h1 h2 h3 hv
      rw [lookup_set, if_neg h3, lookup_set, if_neg h2, lookup_set, if_neg h1] at hv
      exact hs k v hv
    · intro k h1 h2 h3
      rw [lookup_set, if_neg h3, lookup_set, if_neg h2, lookup_set, if_neg h1]
  · cases h

theorem mem_of_lookup {V : Type} (d : Dict V) (k : List Char) (v : V) (h : d.lookup k = some v) : (k, v) ∈ d := by
  induction d with
  | nil => cases h
  | cons e d ih =>
    rw [lookup_step] at h
    split_ifs at h with hk
    · injection h with h
      rw [hk, ← h]
      exact List.mem_cons_self
    · exact List.mem_cons_of_mem _ (ih h)

theorem lookup_of_mem {V : Type} (d : Dict V) (k : List Char) (v : V) (hn : (d.map Prod.fst).Nodup)
    (h : (k, v) ∈ d) : d.lookup k = some v := by
  induction d with
  | nil => cases h
  | cons e d ih =>
    rw [List.map_cons, List.nodup_cons] at hn
    rw [lookup_step]
    rcases List.mem_cons.mp h with h | h
    · rw [← h, if_pos rfl]
    · rw [if_neg, ih hn.2 h]
      intro hk
      exact hn.1 (List.mem_map.mpr ⟨(k, v), h, hk⟩)

theorem lookup_pop (o : Obj D) (k k' : List Char) :
    (pop o k).lookup k' = if k' = k then none else o.lookup k' := by
  unfold pop
  induction o with
  | nil => simp
  | cons e o ih =>
    by_cases he : e.1 = k
    · rw [List.filter_cons_of_neg (by simp [he]), ih, lookup_step, he]
      split_ifs <;> rfl
    · rw [List.filter_cons_of_pos (by simp [he]), lookup_step, ih, lookup_step]
      by_cases h1 : k' = e.1
      · rw [if_pos h1, if_neg (by rw [h1]; exact he), if_pos h1]
      · rw [if_neg h1, if_neg h1]

theorem nodup_pop (o : Obj D) (k : List Char) (h : (o.map Prod.fst).Nodup) : ((pop o k).map Prod.fst).Nodup :=
  h.sublist (List.filter_sublist.map _)

theorem lookup_refill (b : List (List Char × D)) (hn : (b.map Prod.fst).Nodup) (o : Obj D)
    (ho : ∀ k ∈ b.map Prod.fst, k ∉ o.map Prod.fst) (k : List Char) :
    (b.foldl (fun (o : Obj D) e => o.set e.1 (.data e.2)) o).lookup k =
      (o ++ b.map (fun e => (e.1, Attr.data e.2))).lookup k := by
  induction b generalizing o with
  | nil => simp
  | cons e b ih =>
    rw [List.map_cons, List.nodup_cons] at hn
    have he : e.1 ∉ o.map Prod.fst := ho _ (by simp)
    have hs : o.set e.1 (.data e.2) = o ++ [(e.1, .data e.2)] := by
      unfold Dict.set
      rw [if_neg he]
    rw [List.foldl_cons, ih hn.2, hs]
    · simp
    · intro k hk
      rw [hs, List.map_append, List.mem_append, not_or]
      refine ⟨ho k (by rw [List.map_cons]; exact List.mem_cons_of_mem _ hk), ?_⟩
      simp only [List.map_cons, List.map_nil, List.mem_singleton]
      rintro rfl
      exact hn.1 hk

theorem nodup_refill (b : List (List Char × D)) (o : Obj D) (ho : (o.map Prod.fst).Nodup) :
    ((b.foldl (fun (o : Obj D) e => o.set e.1 (.data e.2)) o).map Prod.fst).Nodup := by
  induction b generalizing o with
  | nil => exact ho
  | cons e b ih => exact ih _ (nodup_set _ _ _ ho)

theorem mapM_data (s : Obj D) (h : ∀ e ∈ s, ∃ d, e.2 = .data d) :
    ∃ b : List (List Char × D),
      s.mapM (fun e => match e.2 with
        | .data d => (.ok (e.1, d) : Except Err (List Char × D)) | _ => .error .attributeError) = .ok b ∧
      b.map (fun e => (e.1, Attr.data e.2)) = s := by
  induction s with
  | nil => exact ⟨[], rfl, rfl⟩
  | cons e s ih =>
    obtain ⟨b, hb, hs⟩ := ih (fun e he => h e (List.mem_cons_of_mem _ he))
    obtain ⟨d, hd⟩ := h e List.mem_cons_self
    refine ⟨(e.1, d) :: b, ?_, ?_⟩
    · rw [List.mapM_cons, hb, hd]
      rfl
    · rw [List.map_cons, hs, ← hd]

theorem roundtrip {o : Obj D} (h : Inv o) :
    ∃ b o', dumps o = .ok b ∧ loads b = .ok o' ∧ Inv o' ∧ ∀ k, o'.lookup k = o.lookup k := by
  obtain ⟨lr, hlr, hopt⟩ := h.optimizer
  let s := pop (pop (pop o "update_function".toList) "vae_f".toList) "optimizer".toList
  have hg : getstate o = .ok s := by
    unfold getstate
    simp only
    rw [lookup_pop, if_neg (by decide), lookup_pop, if_neg (by decide), hopt]
  have hsl : ∀ k, s.lookup k = if k = "optimizer".toList ∨ k = "vae_f".toList ∨ k = "update_function".toList
      then none else o.lookup k := by
    intro k
    show (pop (pop (pop o _) _) _).lookup k = _
    rw [lookup_pop, lookup_pop, lookup_pop]
    split_ifs <;> tauto
  have hsn : (s.map Prod.fst).Nodup := nodup_pop _ _ (nodup_pop _ _ (nodup_pop _ _ h.nodup))
  have hsd : ∀ e ∈ s, ∃ d, e.2 = .data d := by
    intro e he
    have hle := lookup_of_mem s e.1 e.2 hsn he
    rw [hsl] at hle
    split_ifs at hle with hk
    simp only [not_or] at hk
    exact h.other e.1 e.2 hk.1 hk.2.1 hk.2.2 hle
  obtain ⟨b, hb, hbs⟩ := mapM_data s hsd
  have hbk : b.map Prod.fst = s.map Prod.fst := by
    rw [← hbs, List.map_map]
    rfl
  have hr : ∀ k, (b.foldl (fun (o : Obj D) e => o.set e.1 (.data e.2)) []).lookup k = s.lookup k := by
    intro k
    rw [lookup_refill b (hbk ▸ hsn) [] (by simp), hbs, List.nil_append]
  have hset : ∃ o', loads b = .ok o' := by
    unfold loads setupJaxFuncs
    rw [hr, hsl, if_neg (by decide), hlr]
    exact ⟨_, rfl⟩
  obtain ⟨o', ho'⟩ := hset
  obtain ⟨hinv, hrest⟩ := setup_inv (nodup_refill b [] List.nodup_nil) (by
    intro k v hv
    rw [hr] at hv
    exact hsd (k, v) (mem_of_lookup _ _ _ hv)) ho'
  refine ⟨b, o', ?_, ho', hinv, ?_⟩
  · unfold dumps
    rw [hg]
    exact hb
  · intro k
    obtain ⟨lr', hlr', hopt'⟩ := hinv.optimizer
    have hll : ("learning_rate".toList : List Char) ≠ "optimizer".toList ∧
      ("learning_rate".toList : List Char) ≠ "vae_f".toList ∧
      ("learning_rate".toList : List Char) ≠ "update_function".toList := by decide
    rw [hrest _ hll.1 hll.2.1 hll.2.2, hr, hsl, if_neg (by decide), hlr] at hlr'
    by_cases h1 : k = "optimizer".toList
    · rw [h1, hopt', hopt]
      injection hlr' with hlr'
      injection hlr' with hlr'
      rw [hlr']
    · by_cases h2 : k = "vae_f".toList
      · rw [h2, hinv.vaeF, h.vaeF]
      · by_cases h3 : k = "update_function".toList
        · rw [h3, hinv.update, h.update]
        · rw [hrest k h1 h2 h3, hr, hsl, if_neg (by tauto)]

theorem reached_inv {o : Obj D} (h : Reached o) : Inv o := by
  induction h with
  | create X nUsers nItems size goal annealEnd dropout l2 lr rng enc dec z total h count rng' params opt =>
    have h1 := (setup_inv (s := before X nUsers nItems size goal annealEnd dropout l2 lr rng enc dec z total)
      (by unfold before; simp only [List.map_cons, List.map_nil]; decide) (by
        intro k v hv
        have := mem_of_lookup _ _ _ hv
        unfold before at this
        simp only [List.mem_cons, Prod.mk.injEq, List.not_mem_nil, or_false] at this
        rcases this with h | h | h | h | h | h | h | h | h | h | h | h | h | h <;> exact ⟨_, h.2⟩) h).1
    exact (((h1.set_data _ _ (by decide) (by decide) (by decide) (by decide)).set_data _ _ (by decide)
      (by decide) (by decide) (by decide)).set_data _ _ (by decide) (by decide) (by decide)
      (by decide)).set_data _ _ (by decide) (by decide) (by decide) (by decide)
  | updated _ count rng params opt ih =>
    exact (((ih.set_data _ _ (by decide) (by decide) (by decide) (by decide)).set_data _ _ (by decide)
      (by decide) (by decide) (by decide)).set_data _ _ (by decide) (by decide) (by decide)
      (by decide)).set_data _ _ (by decide) (by decide) (by decide) (by decide)
  | scored _ rng ih => exact ih.set_data _ _ (by decide) (by decide) (by decide) (by decide)
  | loaded _ params ih => exact ih.set_data _ _ (by decide) (by decide) (by decide) (by decide)
  | pickled _ hd hl ih =>
    obtain ⟨b, o', hb, ho, hi, -⟩ := roundtrip ih
    rw [hb] at hd
    injection hd with hd
    subst hd
    rw [ho] at hl
    injection hl with hl
    subst hl
    exact hi

end Irspack.MultVAE.Pickle

namespace Irspack.Props

open Irspack.MultVAE.Pickle

/-- C88 (Mult-VAE). Whatever training, scoring, loading of states and pickling a trainer has been through:
it can be pickled, the pickle can be loaded, and the trainer that comes out has every attribute of the
original with the same value, including the optimiser with its learning rate and the functions that score
and update, which are not in the pickle. -/
theorem C88_multvae_trainer {D : Type} {o : Obj D} (h : Reached o) :
    ∃ b o', dumps o = .ok b ∧ loads b = .ok o' ∧ ∀ k, o'.get k = o.get k := by
  obtain ⟨b, o', hb, ho, -, hk⟩ := roundtrip (reached_inv h)
  refine ⟨b, o', hb, ho, fun k => ?_⟩
  unfold Evaluation.Named.Dict.get
  rw [hk]

/-- The hypothesis is met: a trainer after one update. -/
example : ∃ o : Obj Nat, Reached o ∧ o.get "params".toList = .ok (.data 24) := by
  have h : ∃ o : Obj Nat, setupJaxFuncs (before 1 2 3 4 5 6 7 8 9 10 11 12 13 14) = .ok o := by
    unfold setupJaxFuncs
    rw [show (before 1 2 3 4 5 6 7 8 9 10 11 12 13 14 : Obj Nat).lookup "learning_rate".toList =
      some (.data 9) by decide +kernel]
    exact ⟨_, rfl⟩
  obtain ⟨o, ho⟩ := h
  refine ⟨_, .updated (.create 1 2 3 4 5 6 7 8 9 10 11 12 13 14 ho 0 15 20 21) 22 23 24 25, ?_⟩
  unfold MultVAE.Pickle.updated
  rw [Evaluation.Named.get_set, if_neg (by decide), Evaluation.Named.get_set, if_neg (by decide),
    Evaluation.Named.get_set, if_pos rfl]

end Irspack.Props
