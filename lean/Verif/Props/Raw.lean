import Verif.Proofs.RawMore
import Verif.Proofs.Region
import Verif.Props.Concurrency
import Verif.Props.IalsLoss
import Verif.Model.PyEvaluator

/-!
# C74: the native routines stay inside their arrays

`Model/Raw` runs the native routines on arrays of fixed length; a `Fault` is an access outside an array
or a product of matrices that do not fit.  Each theorem says that no worker faults, for every schedule,
and that the arrays then hold what the models used elsewhere compute.
-/

namespace Irspack.Props
open Irspack Evaluation WorkQueue Raw

/-! ## evaluator -/

section
variable {S : Type} [LinearOrder S] [OrderBot S]

/-- C74 (evaluator). On a contiguous score matrix with as many columns as the ground truth, no worker
reads or writes outside an array, whatever the interleaving, the block offset, the cutoff and the
recommendable items; the accumulators are those of C03–C15.  (Partial: neither the number of columns nor
the row stride is checked; see the two counterexamples.) -/
theorem C74_evaluator_partial {gtRows : List (List Nat)} {nItems : Nat} {recLists : List (List Nat)}
    {c : Core} (hc : Core.make gtRows nItems recLists = .ok c)
    (hgt : ∀ row ∈ gtRows, ∀ j ∈ row, j < nItems)
    (v : View S) (hcols : v.cols = nItems) (hstride : v.stride = v.cols)
    (hdata : v.data.length = v.rows * v.cols) (cutoff offset nThreads : Nat) (capped : Bool)
    (sched : List (Fin nThreads)) (s : State nThreads (Except Fault RawMetrics) Unit)
    (hs : rawGetMetrics c v cutoff offset nThreads capped sched = .ok s) :
    ∃ s', c.getMetricsRegion v.scoreRows cutoff offset nThreads capped sched = .ok s' ∧
      ∀ t, ∃ m, s.loc t = .ok m ∧ m.itemCnt.length = nItems ∧ m.view = s'.loc t := by
  have hgood := goodCore_of_make hc hgt
  obtain ⟨-, hni, -, -⟩ := make_wf hc
  have hlen : v.scoreRows.length = v.rows := by simp [View.scoreRows]
  unfold rawGetMetrics at hs
  unfold Core.getMetricsRegion
  rw [hlen]
  cases hca : c.checkArgs v.rows cutoff offset nThreads with
  | error e => rw [hca] at hs; cases hs
  | ok w =>
    rw [hca] at hs
    simp only at hs ⊢
    injection hs with hs
    subst hs
    refine ⟨_, rfl, ?_⟩
    have hoff : offset + v.rows ≤ c.nUsers := by
      unfold Core.checkArgs at hca
      split at hca
      · cases hca
      split at hca
      · cases hca
      split at hca
      · cases hca
      · rename_i h1 h2 h3
        simp only [not_not] at h1 h2 h3
        omega
    have h := run_sim_init (T := nThreads) v.rows 1
      (fun u (l : Except Fault RawMetrics) (m : Unit) =>
        (lift (rawEvalRow c v cutoff offset capped u) l, m))
      (fun u (l : Metrics) (m : Unit) => (c.evalRow v.scoreRows cutoff offset capped u l, m))
      (fun l l' => ∃ m, l = .ok m ∧ Same c.nItems m l') (fun _ _ => True)
      (by
        rintro r hr l l' m m' ⟨x, rfl, hx⟩ -
        refine ⟨?_, trivial⟩
        exact rawEvalRow_ok hgood v hstride (by rw [hcols, hni]) (by rw [hdata]) cutoff offset capped hr
          hoff hx)
      (l₀ := .ok (RawMetrics.empty c.nItems)) (l₀' := Metrics.empty) (m₀ := ()) (m₀' := ())
      ⟨_, rfl, same_empty _⟩ trivial sched
    intro t
    obtain ⟨m, hm, hsame⟩ := h.1 t
    exact ⟨m, hm, by rw [← hni]; exact hsame.len, hsame.view⟩

end

/-- The hypotheses are met: two users, three items, a finished run of two workers. -/
example : ∃ (c : Core) (v : View ℕ) (s : State 2 (Except Fault RawMetrics) Unit),
    Core.make [[1], [0, 2]] 3 [] = .ok c ∧ (∀ row ∈ [[1], [0, 2]], ∀ j ∈ row, j < 3) ∧ v.cols = 3 ∧
    v.stride = v.cols ∧ v.data.length = v.rows * v.cols ∧
    rawGetMetrics c v 2 0 2 true [0, 1, 0, 1, 0, 1, 0, 1] = .ok s ∧ Finished s :=
  ⟨⟨3, [[1], [0, 2]], []⟩, ⟨2, 3, 3, [4, 1, 2, 9, 8, 7]⟩, _, rfl, by decide, rfl, rfl, rfl, rfl,
    by intro t; fin_cases t <;> rfl⟩

/-- C74 (number of columns). The cold-user evaluator accepts a ground truth that is wider than the
interactions; the scores it passes on then have fewer columns than the native code assumes, and it reads
behind the end of the score matrix. -/
theorem C74_score_width_counterexample :
    ∃ (ev : ColdEvaluator) (s : State 1 (Except Fault RawMetrics) Unit),
      ColdEvaluator.make ⟨1, 2, fun _ _ => false⟩ [[0]] 3 1 none none none 1 false 1 none = .ok ev ∧
      ev.nWarm = 2 ∧
      rawGetMetrics ev.base.core (⟨1, 2, 2, [5, 7]⟩ : View ℕ) 1 0 1 false [0, 0] = .ok s ∧
      s.loc 0 = .error .outOfBounds :=
  ⟨_, _, rfl, rfl, rfl, by with_unfolding_all rfl⟩

/-- C74 (stride). A column slice of a wider array is accepted, but its rows are looked for at
`n_items * u`: here the second user's item 1 is the only one with a score and is in the ground truth,
yet no hit is counted. -/
theorem C74_strided_counterexample :
    ∃ (c : Core) (v : View ℕ) (s : State 1 (Except Fault RawMetrics) Unit) (m : RawMetrics) (m' : Metrics),
      Core.make [[], [1]] 2 [] = .ok c ∧ v.rows = 2 ∧ v.cols = 2 ∧ v.stride = 3 ∧
      rawGetMetrics c v 1 0 1 false [0, 0, 0, 0, 0] = .ok s ∧ s.loc 0 = .ok m ∧ m.totalUser = 2 ∧ m.hit = 0 ∧
      c.getMetrics v.scoreRows 1 0 1 false = .ok m' ∧ m'.hit = 1 := by
  have hraw : (run 2 1 (fun u (l : Except Fault RawMetrics) (m : Unit) =>
      (lift (rawEvalRow ⟨2, [[], [1]], []⟩ (⟨2, 2, 3, [0, 0, 0, 0, 1]⟩ : View ℕ) 1 0 false u) l, m))
      (init (.ok (RawMetrics.empty 2)) () : State 1 _ _) [0, 0, 0, 0, 0]).loc 0 =
      .ok { RawMetrics.empty 2 with totalUser := 2, validUser := 1 } := by
    have h0 : rawEvalRow ⟨2, [[], [1]], []⟩ (⟨2, 2, 3, [0, 0, 0, 0, 1]⟩ : View ℕ) 1 0 false 0
        (RawMetrics.empty 2) = .ok { RawMetrics.empty 2 with totalUser := 1 } := by
      unfold rawEvalRow
      simp only
      rw [if_pos (by decide)]
      rfl
    have h1 : rawEvalRow ⟨2, [[], [1]], []⟩ (⟨2, 2, 3, [0, 0, 0, 0, 1]⟩ : View ℕ) 1 0 false 1
        { RawMetrics.empty 2 with totalUser := 1 } =
        .ok { RawMetrics.empty 2 with totalUser := 2, validUser := 1 } := by
      unfold rawEvalRow
      simp only
      rw [if_neg (by decide)]
      show RawMetrics.update _ _ ((List.take _ (List.mergeSort [] _)).map Prod.snd) _ _ = _
      rw [List.mergeSort_nil]
      rfl
    have hl := loc_run (T := 1) (M := Unit) (n := 2) (c := 1)
      (fun u (l : Except Fault RawMetrics) =>
        lift (rawEvalRow ⟨2, [[], [1]], []⟩ (⟨2, 2, 3, [0, 0, 0, 0, 1]⟩ : View ℕ) 1 0 false u) l)
      [0, 0, 0, 0, 0] (init (.ok (RawMetrics.empty 2)) ()) (.ok (RawMetrics.empty 2)) (by intro t; rfl) 0
    rw [hl]
    show List.foldl _ _ [0, 1] = _
    simp only [List.foldl_cons, List.foldl_nil, lift, h0, h1]
  have hseq : (Core.evalRow ⟨2, [[], [1]], []⟩ (View.scoreRows (⟨2, 2, 3, [0, 0, 0, 0, 1]⟩ : View ℕ)) 1 0
      false 1 (Core.evalRow ⟨2, [[], [1]], []⟩ (View.scoreRows (⟨2, 2, 3, [0, 0, 0, 0, 1]⟩ : View ℕ)) 1 0
      false 0 Metrics.empty)).hit = 1 := by
    have h0 : rowContribution ⟨2, [[], [1]], []⟩ (View.scoreRows (⟨2, 2, 3, [0, 0, 0, 0, 1]⟩ : View ℕ)) 1 0
        false 0 = oneUser := by
      unfold rowContribution
      rw [if_pos (by decide), add_zero]
    have h1 : rowContribution ⟨2, [[], [1]], []⟩ (View.scoreRows (⟨2, 2, 3, [0, 0, 0, 0, 1]⟩ : View ℕ)) 1 0
        false 1 = oneUser + contribution false [1] {1} := by
      unfold rowContribution
      rw [if_neg (by decide)]
      congr 2
      show (List.take _ (List.mergeSort [(1, 1)] _)).map Prod.snd = [1]
      rw [List.mergeSort_singleton]
      rfl
    rw [evalRow_eq, evalRow_eq, h0, h1]
    have hh : Spec.hit [1] ({1} : Finset ℕ) = 1 := by
      unfold Spec.hit
      rw [if_pos ⟨0, 1, rfl, by simp⟩]
    simp [oneUser, Metrics.empty, contribution, hh]
  exact ⟨⟨2, [[], [1]], []⟩, ⟨2, 2, 3, [0, 0, 0, 0, 1]⟩, _, _, _, rfl, rfl, rfl, rfl, rfl, hraw, rfl, rfl,
    rfl, hseq⟩

/-! ## lists -/

/-- C74 (lists). Once all workers of `evaluate_list_vs_list` have returned, none of them has left an
array exactly if no user has a hit at a position at or beyond the number of items. -/
theorem C74_lists_partial (recs gts : List (List Nat)) (nItems nThreads : Nat) (hT : 0 < nThreads)
    (sched : List (Fin nThreads)) (s : State nThreads (Except Fault RawMetrics) Unit)
    (hs : rawEvaluateList recs gts nItems nThreads sched = .ok s) (hfin : Finished s) :
    (∀ t, ∃ m, s.loc t = .ok m) ↔
      ∀ u k r : Nat, u < recs.length → (recs.getD u [])[k]? = some r → r ∈ gts.getD u [] → k < nItems := by
  unfold rawEvaluateList at hs
  cases hck : checkLists recs gts nItems with
  | error e => rw [hck] at hs; cases hs
  | ok w =>
    rw [hck] at hs
    simp only at hs
    injection hs with hs
    subst hs
    obtain ⟨hlen, -, -⟩ := checkLists_ok hck
    constructor
    · intro hall u k r hu hk hr
      by_contra hn
      have hp := C01_each_row_exactly_once recs.length 1 hT _ _ _ sched hfin
      have hmem := hp.mem_iff.mpr (List.mem_range.mpr hu)
      obtain ⟨e, he, heu⟩ := List.mem_map.mp hmem
      have hl := loc_run (T := nThreads) (M := Unit) (n := recs.length) (c := 1)
        (fun u (l : Except Fault RawMetrics) => lift (rawListRow nItems recs gts u) l) sched
        (init (.ok (RawMetrics.empty nItems)) ()) (.ok (RawMetrics.empty nItems)) (by intro t; rfl) e.1
      obtain ⟨m, hm⟩ := hall e.1
      rw [hl] at hm
      obtain ⟨f, hf⟩ := foldl_lift_fault (rawListRow nItems recs gts)
        (rows := rowsOf (run recs.length 1
          (fun u (l : Except Fault RawMetrics) (m : Unit) => (lift (rawListRow nItems recs gts u) l, m))
          (init (.ok (RawMetrics.empty nItems)) ()) sched) e.1) (r := u)
        (by
          unfold rowsOf
          refine List.mem_map.mpr ⟨e, List.mem_filter.mpr ⟨he, by simp⟩, heu⟩)
        (fun l => rawUpdate_fault _ _ _ _ ⟨k, r, hk, List.mem_toFinset.mpr hr, by omega⟩)
        (.ok (RawMetrics.empty nItems))
      rw [hf] at hm
      cases hm
    · intro hlate t
      have hp : readsPastDiscounts recs gts nItems = false := by
        cases hq : readsPastDiscounts recs gts nItems with
        | false => rfl
        | true =>
          obtain ⟨u, k, r, hu, hk, hr, hn⟩ := (readsPast_iff hlen).mp hq
          have := hlate u k r hu hk hr
          omega
      have h := run_sim_init (T := nThreads) recs.length 1
        (fun u (l : Except Fault RawMetrics) (m : Unit) => (lift (rawListRow nItems recs gts u) l, m))
        (fun u (l : Metrics) (m : Unit) => (listRow recs gts u l, m))
        (fun l l' => ∃ m, l = .ok m ∧ Same nItems m l') (fun _ _ => True)
        (by
          rintro r hr l l' m m' ⟨x, rfl, hx⟩ -
          exact ⟨rawListRow_ok hck hp hr hx, trivial⟩)
        (l₀ := .ok (RawMetrics.empty nItems)) (l₀' := Metrics.empty) (m₀ := ()) (m₀' := ())
        ⟨_, rfl, same_empty _⟩ trivial sched
      obtain ⟨m, hm, -⟩ := h.1 t
      exact ⟨m, hm⟩

/-- C74 (lists, result). If no worker left an array, merging the workers gives the result used in C16,
for every interleaving and number of threads.  (A user with recommendations and no ground truth makes
the code divide zero by zero; such input is excluded.) -/
theorem C74_lists_result (recs gts : List (List Nat)) (nItems nThreads : Nat) (hT : 0 < nThreads)
    (htruth : ∀ (u : Nat) (r g : List Nat), recs[u]? = some r → gts[u]? = some g → r ≠ [] → g ≠ [])
    (sched : List (Fin nThreads)) (s : State nThreads (Except Fault RawMetrics) Unit)
    (hs : rawEvaluateList recs gts nItems nThreads sched = .ok s) (hfin : Finished s)
    (m : Fin nThreads → RawMetrics) (hm : ∀ t, s.loc t = .ok (m t)) :
    evaluateList recs gts nItems nThreads =
      .ok ((List.finRange nThreads).foldl (fun o t => o.merge (m t).view) Metrics.empty) := by
  have hiff := (C74_lists_partial recs gts nItems nThreads hT sched s hs hfin).mp
    (fun t => ⟨m t, hm t⟩)
  unfold rawEvaluateList at hs
  cases hck : checkLists recs gts nItems with
  | error e => rw [hck] at hs; cases hs
  | ok w =>
    rw [hck] at hs
    simp only at hs
    injection hs with hs
    subst hs
    obtain ⟨hlen, -, -⟩ := checkLists_ok hck
    have hp : readsPastDiscounts recs gts nItems = false := by
      cases hq : readsPastDiscounts recs gts nItems with
      | false => rfl
      | true =>
        obtain ⟨u, k, r, hu, hk, hr, hn⟩ := (readsPast_iff hlen).mp hq
        have := hiff u k r hu hk hr
        omega
    have hz : dividesByZero recs gts = false := by
      rw [dividesByZero, Bool.eq_false_iff]
      intro h
      obtain ⟨p, hpm, hq⟩ := List.any_eq_true.mp h
      simp only [Bool.and_eq_true, decide_eq_true_eq] at hq
      obtain ⟨u, hu⟩ := List.getElem?_of_mem hpm
      rw [List.getElem?_zip_eq_some] at hu
      exact htruth u p.1 p.2 hu.1 hu.2 hq.1 hq.2
    unfold evaluateList
    rw [hck]
    simp only [hp, hz, if_neg (show ¬ nThreads = 0 by omega), Bool.false_eq_true, if_false]
    have h := run_sim_init (T := nThreads) recs.length 1
      (fun u (l : Except Fault RawMetrics) (m : Unit) => (lift (rawListRow nItems recs gts u) l, m))
      (fun u (l : Metrics) (m : Unit) =>
        (l + (oneUser + contribution false (recs.getD u []) (gts.getD u []).toFinset), m))
      (fun l l' => ∃ m, l = .ok m ∧ Same nItems m l') (fun _ _ => True)
      (by
        rintro r hr l l' m m' ⟨x, rfl, hx⟩ -
        refine ⟨?_, trivial⟩
        have := rawListRow_ok hck hp hr hx
        rw [listRow_eq] at this
        exact this)
      (l₀ := .ok (RawMetrics.empty nItems)) (l₀' := (0 : Metrics)) (m₀ := ()) (m₀' := ())
      ⟨_, rfl, by rw [← empty_eq_zero]; exact same_empty _⟩ trivial sched
    have hfin' : Finished (run recs.length 1 (fun u (l : Metrics) (m : Unit) =>
        (l + (oneUser + contribution false (recs.getD u []) (gts.getD u []).toFinset), m))
        (init (0 : Metrics) () : State nThreads Metrics Unit) sched) := by
      intro t
      rw [← hfin t]
      refine congrFun (run_pc _ _ _ _ sched _ _ ?_ ?_) t <;> rfl
    have hsum := C01_merged_accumulators_are_the_sum recs.length 1 hT
      (fun u => oneUser + contribution false (recs.getD u []) (gts.getD u []).toFinset) () sched hfin'
    have hview : ∀ t, (m t).view = (run recs.length 1 (fun u (l : Metrics) (m : Unit) =>
        (l + (oneUser + contribution false (recs.getD u []) (gts.getD u []).toFinset), m))
        (init (0 : Metrics) () : State nThreads Metrics Unit) sched).loc t := by
      intro t
      obtain ⟨x, hx, hsame⟩ := h.1 t
      rw [hm t] at hx
      injection hx with hx
      rw [hx]
      exact hsame.view
    have hf : ∀ (l : List (Fin nThreads)) (f : Fin nThreads → Metrics) (a : Metrics),
        l.foldl (fun o t => o + f t) a = a + (l.map f).sum := by
      intro l f
      induction l with
      | nil => simp
      | cons x xs ih => intro a; simp [ih, add_assoc]
    have hf' : ∀ (l : List Nat) (f : Nat → Metrics) (a : Metrics),
        l.foldl (fun o t => o + f t) a = a + (l.map f).sum := by
      intro l f
      induction l with
      | nil => simp
      | cons x xs ih => intro a; simp [ih, add_assoc]
    simp only [merge_eq_add, listRow_eq, hview, empty_eq_zero]
    rw [hf, hf', zero_add, zero_add]
    congr 1
    have h1 : ((List.finRange nThreads).map (fun t => (run recs.length 1 (fun u (l : Metrics) (m : Unit) =>
        (l + (oneUser + contribution false (recs.getD u []) (gts.getD u []).toFinset), m))
        (init (0 : Metrics) () : State nThreads Metrics Unit) sched).loc t)).sum =
        ∑ u ∈ Finset.range recs.length,
          (oneUser + contribution false (recs.getD u []) (gts.getD u []).toFinset) := by
      rw [← List.ofFn_eq_map, List.sum_ofFn]
      exact hsum
    rw [h1, Finset.sum_range, ← List.sum_ofFn, List.ofFn_eq_map, ← List.map_coe_finRange_eq_range,
      List.map_map]
    rfl

/-- C74 (lists, rejections). Lists are accepted exactly if there are as many recommendation lists as
ground-truth lists and every number in them is that of an item; anything else is rejected with
`invalid_argument` (a `ValueError` in Python) before any worker starts. -/
theorem C74_lists_rejected (recs gts : List (List Nat)) (nItems nThreads : Nat) (sched : List (Fin nThreads)) :
    ((∃ s, rawEvaluateList recs gts nItems nThreads sched = .ok s) ↔
      recs.length = gts.length ∧ (∀ r ∈ recs, ∀ i ∈ r, i < nItems) ∧ ∀ g ∈ gts, ∀ i ∈ g, i < nItems) ∧
    ∀ e, rawEvaluateList recs gts nItems nThreads sched = .error e → e = .invalidArgument := by
  have hchk : ∀ e, checkLists recs gts nItems = .error e → e = .invalidArgument ∧
      ¬ (recs.length = gts.length ∧ (∀ r ∈ recs, ∀ i ∈ r, i < nItems) ∧ ∀ g ∈ gts, ∀ i ∈ g, i < nItems) := by
    intro e h
    unfold checkLists at h
    by_cases h1 : recs.length = gts.length
    · rw [if_neg (not_not.mpr h1)] at h
      by_cases h2 : recs.all (fun l => l.all (fun i => decide (i < nItems))) = true
      · rw [if_neg (not_not.mpr h2)] at h
        by_cases h3 : gts.all (fun l => l.all (fun i => decide (i < nItems))) = true
        · rw [if_neg (not_not.mpr h3)] at h
          cases h
        · rw [if_pos h3] at h
          cases h
          refine ⟨rfl, fun hc => h3 ?_⟩
          simp only [List.all_eq_true, decide_eq_true_eq]
          exact hc.2.2
      · rw [if_pos h2] at h
        cases h
        refine ⟨rfl, fun hc => h2 ?_⟩
        simp only [List.all_eq_true, decide_eq_true_eq]
        exact hc.2.1
    · rw [if_pos h1] at h
      cases h
      exact ⟨rfl, fun hc => h1 hc.1⟩
  unfold rawEvaluateList
  cases hck : checkLists recs gts nItems with
  | error e =>
    have := hchk e hck
    refine ⟨⟨fun h => ?_, fun h => absurd h this.2⟩, fun e' he => ?_⟩
    · obtain ⟨s, hs⟩ := h
      cases hs
    · cases he
      exact this.1
  | ok w =>
    refine ⟨⟨fun _ => checkLists_ok hck, fun _ => ⟨_, rfl⟩⟩, fun e he => by cases he⟩

/-- The hypotheses are met without a fault. -/
example : ∃ s : State 2 (Except Fault RawMetrics) Unit,
    rawEvaluateList [[1, 0], [2]] [[0], [1, 2]] 3 2 [0, 1, 0, 1, 0, 1, 0, 1] = .ok s ∧ Finished s ∧
    ∀ u k r : Nat, u < 2 → ([[1, 0], [2]].getD u [])[k]? = some r → r ∈ [[0], [1, 2]].getD u [] → k < 3 := by
  refine ⟨_, rfl, by intro t; fin_cases t <;> rfl, ?_⟩
  intro u k r hu hk _
  have := (List.getElem?_eq_some_iff.mp hk).1
  have hl : ([[1, 0], [2]].getD u []).length ≤ 2 := by interval_cases u <;> simp
  omega

/-- C74 (lists). The checks of the function do not exclude a hit beyond the table. -/
theorem C74_repeated_recommendation_counterexample :
    ∃ s : State 1 (Except Fault RawMetrics) Unit,
      rawEvaluateList [[0, 0]] [[0]] 1 1 [0, 0, 0, 0] = .ok s ∧ Finished s ∧
      ∃ e, s.loc 0 = .error e := by
  obtain ⟨s, hs⟩ : ∃ s, rawEvaluateList [[0, 0]] [[0]] 1 1 [0, 0, 0, 0] = .ok s := ⟨_, rfl⟩
  have hfin : Finished s := by
    injection hs with hs
    subst hs
    intro t; fin_cases t; rfl
  refine ⟨s, hs, hfin, ?_⟩
  have h := C74_lists_partial [[0, 0]] [[0]] 1 1 (by omega) [0, 0, 0, 0] s hs hfin
  cases hx : s.loc 0 with
  | error e => exact ⟨e, rfl⟩
  | ok m =>
    have := h.mp (by intro t; fin_cases t; exact ⟨m, hx⟩) 0 1 0 (by simp) rfl (by simp)
    omega

/-! ## retrieval -/

/-- C74 (retrieval). `retrieve_recommend_from_score` never leaves its arrays, whatever the allowed
indices (negative and too large ones included), the cutoff and the interleaving; the array of results
holds what the model of C18 and C19 computes. -/
theorem C74_retrieval {S F : Type} [LinearOrder F] [OrderBot F]
    (psort : Nat → List (Nat × F) → List (Nat × F)) (cast : S → F) (dflt : S) (nItems : Nat)
    (score : List (List S)) (hrows : ∀ row ∈ score, row.length = nItems) (allowed : List (List Int))
    (cutoff nThreads : Nat) (sched : List (Fin (min nThreads score.length)))
    (s : State (min nThreads score.length) (Except Fault Unit) (List (List (Nat × F))))
    (hs : rawRetrieve psort cast score.length nItems score.flatten allowed cutoff nThreads sched = .ok s) :
    (∀ t, s.loc t = .ok ()) ∧
    ∃ s', Retrieval.retrieveRegion psort cast dflt nItems score allowed cutoff nThreads sched = .ok s' ∧
      s.mem = (List.range score.length).map s'.mem := by
  unfold rawRetrieve at hs
  unfold Retrieval.retrieveRegion
  cases hck : Retrieval.checkRetrieve score.length allowed.length nThreads with
  | error e => rw [hck] at hs; cases hs
  | ok w =>
    rw [hck] at hs
    simp only at hs ⊢
    injection hs with hs
    subst hs
    have h := run_sim_init (T := min nThreads score.length) score.length 1
      (rawRetrieveRow psort cast nItems score.flatten allowed cutoff)
      (fun u (l : Unit) X => (l, Function.update X u
        (Retrieval.retrieveRow psort cast dflt nItems score allowed cutoff u)))
      (fun l _ => l = .ok ()) (SameRes score.length)
      (by
        rintro r hr l l' m m' rfl hm
        unfold rawRetrieveRow
        rw [rawHolder_ok cast dflt _ hrows hr]
        simp only
        rw [modify_lt (by rw [hm.len]; exact hr)]
        exact ⟨rfl, sameRes_update hm r _⟩)
      (l₀ := .ok ()) (l₀' := ()) (m₀ := List.replicate score.length []) (m₀' := fun _ => [])
      rfl ⟨by simp, fun u hu => by simp [hu]⟩ sched
    refine ⟨h.1, _, rfl, ?_⟩
    apply List.ext_getElem?
    intro u
    by_cases hu : u < score.length
    · exact (h.2.eq u hu).trans (by rw [List.getElem?_map, List.getElem?_range hu]; rfl)
    · rw [List.getElem?_eq_none (by have := h.2.len; omega), List.getElem?_eq_none (by simp; omega)]

/-- The hypotheses are met, with negative and too large allowed indices. -/
example : (∀ row ∈ [[5, 6, 7], [1, 2, 3]], row.length = 3) ∧
    ∃ s, rawRetrieve (fun _ l => l) (id : ℕ → ℕ) 2 3 [[5, 6, 7], [1, 2, 3]].flatten [[-1, 2, 9, 0]] 2 2
      ([0, 1, 0, 1, 0, 1, 0, 1] : List (Fin 2)) = .ok s ∧ s.mem = [[(2, 7), (0, 5)], [(2, 3), (0, 1)]] :=
  ⟨by decide, _, rfl, rfl⟩

/-! ## split -/

/-- C74 (split by ratio). Every row of at most `2^53` entries is split inside its buffers. -/
theorem C74_split_ratio (fl : ℝ → ℝ) (hfl : Spec.IsRounding fl) (ratio : ℝ) (h0 : 0 ≤ ratio)
    (h1 : ratio ≤ 1) (ceil : Bool) (row : List (Nat × ℝ)) (index : List Nat)
    (hp : index.Perm (List.range row.length)) (hbig : row.length ≤ 2 ^ 53) :
    ∃ train test, rawSplitRow (Split.nTestRatio fl ratio ceil) row index = .ok (train, test) ∧
      Split.splitRow (Split.nTestRatio fl ratio ceil) row index =
        (Split.collapse train, Split.collapse test) :=
  ⟨_, _, rawSplitRow_ok _ row index hp (Split.nTestRatio_le hfl h0 h1 ceil _ hbig), rfl⟩

/-- C74 (split by number). Every row is split inside its buffers, whatever the number asked for. -/
theorem C74_split_fixed (n : Nat) (row : List (Nat × ℝ)) (index : List Nat)
    (hp : index.Perm (List.range row.length)) :
    ∃ train test, rawSplitRow (Split.nTestFixed n) row index = .ok (train, test) ∧
      Split.splitRow (Split.nTestFixed n) row index = (Split.collapse train, Split.collapse test) :=
  ⟨_, _, rawSplitRow_ok _ row index hp (by unfold Split.nTestFixed; omega), rfl⟩

/-- C74 (split). A rule that asks for more entries than there are would leave the buffers: the bounds
proved above are needed. -/
theorem C74_split_bound_needed (nTest : Nat → Nat) (row : List (Nat × ℝ)) (index : List Nat)
    (hp : index.Perm (List.range row.length)) :
    (∃ r, rawSplitRow nTest row index = .ok r) ↔ nTest row.length ≤ row.length := by
  constructor
  · rintro ⟨r, hr⟩
    by_contra hn
    obtain ⟨e, he⟩ := rawSplitRow_fault nTest row index hp (by omega)
    rw [he] at hr; cases hr
  · intro h; exact ⟨_, rawSplitRow_ok nTest row index hp h⟩

/-- The hypotheses are met. -/
example : [1, 2, 0].Perm (List.range [(4, (1 : ℝ)), (0, 2), (7, 3)].length) ∧
    Spec.IsRounding (id : ℝ → ℝ) :=
  ⟨by decide, monotone_id, fun _ _ => rfl⟩

/-! ## weighting -/

/-- C74 (weighting). `okapi_BM_25_weight` and `tf_idf_weight` stay inside their arrays for every matrix
whose column indices are in range, and compute the weights of C31. -/
theorem C74_weighting (X : CSR ℝ) (hX : ∀ row ∈ X.rows, ∀ e ∈ row, e.1 < X.cols) (k1 b : ℝ)
    (smooth : Bool) :
    rawBm25 (compress X) k1 b = .ok (Sim.bm25 X k1 b).rows ∧
    rawTfIdf (compress X) smooth = .ok (Sim.tfIdf X smooth).rows :=
  ⟨rawBm25_ok X hX k1 b, rawTfIdf_ok X hX smooth⟩

/-- C74 (weighting). One column index out of range is enough to write outside the array of counts. -/
theorem C74_weighting_bound_needed (X : CSR ℝ) (hX : ∃ row ∈ X.rows, ∃ e ∈ row, X.cols ≤ e.1) (k1 b : ℝ)
    (smooth : Bool) :
    (∃ e, rawBm25 (compress X) k1 b = .error e) ∧ ∃ e, rawTfIdf (compress X) smooth = .error e := by
  obtain ⟨row, hrow, e, he, hj⟩ := hX
  obtain ⟨i, hi, rfl⟩ := List.mem_iff_getElem.mp hrow
  obtain ⟨f, hf⟩ := rawDocFreq_fault X hi (by rw [row_eq X hi]; exact he) hj
  unfold rawBm25 rawTfIdf
  rw [hf]
  exact ⟨⟨f, rfl⟩, ⟨f, rfl⟩⟩

/-- The hypotheses of either theorem are met. -/
example : (∀ row ∈ (⟨2, [[(0, 1)], [(1, 3), (0, 2)]]⟩ : CSR ℝ).rows, ∀ e ∈ row, e.1 < 2) ∧
    ∃ row ∈ (⟨2, [[(0, 1)], [(2, 3)]]⟩ : CSR ℝ).rows, ∃ e ∈ row, 2 ≤ e.1 := by
  constructor
  · intro row hrow e he
    simp only [List.mem_cons, List.not_mem_nil, or_false] at hrow
    rcases hrow with rfl | rfl <;> simp at he
    · subst he; simp
    · rcases he with rfl | rfl <;> simp
  · exact ⟨[(2, 3)], by simp, (2, 3), by simp, le_rfl⟩

/-! ## neighbourhoods -/

/-- C74 (top-k). For every similarity, target row and `top_k`, the truncation of a row of similarities
stays inside the position buffer, which has one entry per item, and gives the row of C33. -/
theorem C74_top_k (nth : Nat → SpVec ℝ → List Nat) (hnth : Sim.NthOk nth) (kind : Sim.Kind) (shrinkage : ℝ)
    (X : CSR ℝ) (target : SpVec ℝ) (topK : Nat) :
    rawTruncRow nth X.nrows topK (Sim.simRow kind shrinkage X target) =
      .ok (Sim.truncRow nth topK (Sim.simRow kind shrinkage X target)) :=
  rawTruncRow_ok hnth topK _ (Sim.simRow_sorted kind shrinkage X target).length_le

/-! ## iALS -/

section
open Ials
variable {K T : Nat}

/-- C74 (iALS). On a trainer a program can hold, `compute_loss` and the row solvers of both half-steps
only read inside the sparse arrays and the factor matrices. -/
theorem C74_ials {cfg : Config} {X : CSR ℝ} (hv : Valid cfg X) {tr : Trainer K} (h : tr.Reached cfg X) :
    (∀ u, u < tr.user.n → rawLossUser tr u = .ok (lossUser tr u)) ∧
    (∀ i, i < tr.item.n → rawLossItem tr i = .ok (lossItem tr i)) ∧
    (∀ u, u < tr.user.n → rawGather (compress tr.X) (factorRows tr.item) u =
      .ok ((tr.X.row u).map (fun e => (tr.item.row e.1, e.2)))) ∧
    ∀ i, i < tr.item.n → rawGather (compress tr.Xt) (factorRows tr.user) i =
      .ok ((tr.Xt.row i).map (fun e => (tr.user.row e.1, e.2))) := by
  obtain ⟨hg, -, hX⟩ := reached_good hv h
  have hwf : tr.X.WF := by rw [hX]; exact hv.proper.1
  have hwft : tr.Xt.WF := by
    rw [hg.Xt]
    intro row hrow e he
    unfold Ials.transpose Sim.transpose at hrow
    obtain ⟨j, -, rfl⟩ := List.mem_map.mp hrow
    obtain ⟨i, hi, hm⟩ := List.mem_flatMap.mp he
    obtain ⟨e', -, heq⟩ := List.mem_filterMap.mp hm
    split at heq
    · injection heq with heq
      subst heq
      exact List.mem_range.mp hi
    · cases heq
  have hn : tr.item.n = tr.Xt.nrows := by rw [hg.Xt, Sim.transpose_nrows, hg.vn]
  have hc : tr.user.n = tr.Xt.cols := by rw [hg.Xt, Sim.transpose_cols, hg.un]
  exact ⟨fun u hu => rawLossUser_ok tr hwf hg.un hg.vn hu, fun i hi => rawLossItem_ok tr hn hi,
    fun u hu => rawGather_ok tr.X hwf tr.item hg.vn (by rw [← hg.un]; exact hu),
    fun i hi => rawGather_ok tr.Xt hwft tr.user hc (by rw [← hn]; exact hi)⟩

/-- The hypotheses are met. -/
example : ∃ (cfg : Config) (X : CSR ℝ), Valid cfg X ∧
    (Trainer.create cfg X (fun _ => (0 : Vec 2)) (fun _ => 0)).Reached cfg X ∧
    0 < (Trainer.create cfg X (fun _ => (0 : Vec 2)) (fun _ => 0)).user.n :=
  ⟨exampleCfg, exampleX, exampleValid, .create _ _, by decide⟩

/-- C74 (iALS, new users). If `transform_user` returns, its row solvers stayed inside the factor matrix,
for every trainer, whether or not its factors fit its interactions. -/
theorem C74_ials_transform {ω : Oracle T} {sc : SolverConfig} {tr : Trainer K} {X : CSR ℝ}
    (hX : ∀ row ∈ X.rows, ∀ e ∈ row, e.1 < X.cols) {E : Factor K}
    (h : tr.transformUser ω sc X = .ok E) (u : Nat) (hu : u < X.nrows) :
    rawGather (compress X) (factorRows tr.item) u =
      .ok ((X.row u).map (fun e => (tr.item.row e.1, e.2))) := by
  unfold Trainer.transformUser at h
  simp only [bind, Except.bind] at h
  cases hP : prepareP (ω.at 0) tr.cfg tr.item with
  | error e => rw [hP] at h; cases h
  | ok P =>
    rw [hP] at h
    simp only at h
    unfold xToVector at h
    split at h
    · cases h
    · rename_i hc
      exact rawGather_ok X hX tr.item (not_not.mp hc).symm hu

/-- C74 (iALS, after unpickling). Every trainer with at least one user loses its interactions when it is
pickled and unpickled; `compute_loss`, and the row solvers of a further epoch, then read behind the end of
an empty array. -/
theorem C74_unpickled_trainer_counterexample (tr : Trainer K) (h : 0 < tr.user.n) (procs : Nat)
    (hp : 0 < procs) :
    ∃ tr', Trainer.setstate procs tr.getstate = .ok tr' ∧ rawLossUser tr' 0 = .error .outOfBounds ∧
      0 < tr'.user.n ∧ rawGather (compress tr'.X) (factorRows tr'.item) 0 = .error .outOfBounds := by
  refine ⟨{ Trainer.restored tr.cfg tr.user tr.item with userW := tr.userW, itemW := tr.itemW }, ?_, ?_, h, ?_⟩
  · cases procs with
    | zero => exact absurd hp (Nat.lt_irrefl 0)
    | succ n => rfl
  · unfold rawLossUser
    rw [factorRows_get _ (by exact h)]
    simp only
    unfold rawGather
    rw [innerIterator_ge _ (by exact Nat.le_refl 0)]
  · unfold rawGather
    rw [innerIterator_ge _ (by exact Nat.le_refl 0)]

end

/-! ## products -/

section
variable {R : Type} [Semiring R]

/-- C74 (threaded product). For matrices that fit, no worker faults and the result is that of C02. -/
theorem C74_product_partial (A : CSR R) (B : CSC R) (hAB : A.cols = B.rows) (nThreads : Nat)
    (sched : List (Fin nThreads)) (s : State nThreads (Except Fault Unit) (Nat → Nat → R))
    (hs : rawProduct A B nThreads sched = .ok s) :
    (∀ t, s.loc t = .ok ()) ∧
    ∃ s', parallelSparseProduct A B nThreads sched = .ok s' ∧ s.mem = s'.mem := by
  unfold rawProduct at hs
  unfold parallelSparseProduct
  split at hs
  · cases hs
  · rename_i hT
    injection hs with hs
    subst hs
    rw [if_neg hT]
    have h := run_sim_init (T := nThreads) A.nrows 16
      (rawProductRow A B)
      (fun r (l : Unit) m => (l, productWrite A B r m))
      (fun l _ => l = .ok ()) (fun m m' => m = m')
      (by
        rintro r hr l l' m m' rfl rfl
        unfold rawProductRow
        rw [if_pos hAB]
        exact ⟨rfl, rfl⟩)
      (l₀ := .ok ()) (l₀' := ()) (m₀ := fun _ _ => 0) (m₀' := fun _ _ => 0) rfl rfl sched
    exact ⟨h.1, _, rfl, h.2⟩

/-- C74 (threaded product). Matrices that do not fit are not refused: as soon as a worker takes a row
it multiplies them. -/
theorem C74_product_counterexample (A : CSR R) (B : CSC R) (hA : 0 < A.nrows) (hAB : A.cols ≠ B.rows) :
    ∃ s : State 1 (Except Fault Unit) (Nat → Nat → R),
      rawProduct A B 1 [0, 0] = .ok s ∧ s.loc 0 = .error .innerDimension := by
  refine ⟨_, rfl, ?_⟩
  have h1 : WorkQueue.step A.nrows 16 (rawProductRow A B)
      (init (.ok ()) (fun _ _ => 0) : State 1 (Except Fault Unit) (Nat → Nat → R)) 0 =
      ⟨16, Function.update (fun _ => .fetch) 0 (.work 0 (min 16 A.nrows)), fun _ => .ok (), fun _ _ => 0,
        []⟩ := by
    unfold WorkQueue.step WorkQueue.init
    simp [show ¬ A.nrows ≤ 0 by omega]
  show (WorkQueue.step A.nrows 16 (rawProductRow A B) (WorkQueue.step A.nrows 16 (rawProductRow A B)
    (init (.ok ()) (fun _ _ => 0)) 0) 0).loc 0 = _
  rw [h1]
  unfold WorkQueue.step
  simp [show 0 < min 16 A.nrows by omega, rawProductRow, hAB]

/-- The hypotheses of either theorem are met. -/
example : (⟨2, [[(1, 3)]]⟩ : CSR ℤ).cols = (⟨2, [[(0, 1)]]⟩ : CSC ℤ).rows ∧
    0 < (⟨2, [[(1, 3)]]⟩ : CSR ℤ).nrows ∧ (⟨2, [[(1, 3)]]⟩ : CSR ℤ).cols ≠ (⟨1, [[(0, 1)]]⟩ : CSC ℤ).rows :=
  ⟨rfl, by decide, by decide⟩

end

end Irspack.Props
