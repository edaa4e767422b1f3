import Verif.Proofs.Rounding
import Verif.Proofs.Evaluator
import Verif.Props.Evaluator
import Mathlib.Tactic.NormNum
import Mathlib.Tactic.FinCases

/-!
# C75: evaluation in floating-point arithmetic
-/

namespace Irspack.Props

open Irspack Spec WorkQueue Evaluation Evaluation.FloatEval Rounding

/-- The report `r'` computed with roundings agrees with the exact report `r` in the numbers of users
and items, and is within `d` roundings of it in the five accuracy metrics. -/
structure CloseReport (u : ℝ) (d : Nat) (r r' : MetricDict) : Prop where
  totalUser : r'.totalUser = r.totalUser
  validUser : r'.validUser = r.validUser
  nItems : r'.nItems = r.nItems
  hit : Within u d r.hit r'.hit
  ndcg : Within u d r.ndcg r'.ndcg
  recall : Within u d r.recall r'.recall
  map : Within u d r.map r'.map
  precision : Within u d r.precision r'.precision

section
variable {S : Type} [LinearOrder S] [OrderBot S] {u : ℝ} {A : Arith}

theorem closeReport_of_near (h0 : 0 ≤ u) (h1 : u < 1) (hf : Rounds u A.fl) {d : Nat} {m mh : Metrics}
    (h : NearM u d m mh) (n : Nat) : CloseReport u (d + 1) (m.asDict n) (asDictFl A n mh) := by
  have hden : (0 : ℝ) < ((if m.validUser > 0 then m.validUser else 1 : Nat) : ℝ) := by
    have : 0 < (if m.validUser > 0 then m.validUser else 1 : Nat) := by split <;> omega
    exact_mod_cast this
  have key : ∀ {x xh : ℝ}, Within u d x xh →
      Within u (d + 1) (x / ((if m.validUser > 0 then m.validUser else 1 : Nat) : ℝ))
        (A.fl (xh / ((if mh.validUser > 0 then mh.validUser else 1 : Nat) : ℝ))) := by
    intro x xh hx
    rw [h.valid]
    exact within_fl h0 h1 hf (within_div h0 h1 hx (within_refl h0 h1 hden.le 0) hden)
  exact ⟨by simp [Metrics.asDict, asDictFl, h.total], by simp [Metrics.asDict, asDictFl, h.valid], rfl,
    key h.hit, key h.ndcg, key h.recall, key h.map, key h.precision⟩

theorem hist_le {T : Nat} {L M : Type} {n : Nat} {s : State T L M} (h : Inv n 1 s) :
    s.hist.length ≤ n := by
  obtain ⟨hn, hlt⟩ := rows_nodup h
  have := (List.subperm_of_subset hn (fun r hr => List.mem_range.mpr (hlt r hr))).length_le
  simpa using this

/-- A finished parallel evaluation in floating point is within `2 * cutoff + 5` roundings for the row
itself, one for each row and one for each worker. -/
theorem region_near (h0 : 0 ≤ u) (h1 : u < 1) (hf : Rounds u A.fl) (hlog : AccurateLog2 u A.log2)
    (c : Core) (rows : List (ScoreRow S)) (cutoff offset T : Nat) (capped : Bool)
    (sched : List (Fin T)) (s : State T Metrics Unit)
    (hs : getMetricsRegionFl A c rows cutoff offset T capped sched = .ok s) (hfin : Finished s) :
    ∃ m, c.getMetrics rows cutoff offset T capped = .ok m ∧
      NearM u (2 * cutoff + 5 + rows.length + T) m (mergeWorkersFl A s) := by
  unfold getMetricsRegionFl at hs
  cases hca : c.checkArgs rows.length cutoff offset T with
  | error e => rw [hca] at hs; cases hs
  | ok _ =>
    rw [hca] at hs
    simp only at hs
    injection hs with hs
    have hex : c.getMetricsRegion rows cutoff offset T capped sched = .ok
        (run rows.length 1 (fun u l m => (c.evalRow rows cutoff offset capped u l, m))
          (init Metrics.empty ()) sched) := by
      unfold Core.getMetricsRegion
      rw [hca]
    have hfin' : Finished (run rows.length 1
        (fun u l m => (c.evalRow rows cutoff offset capped u l, m))
        (init Metrics.empty () : State T Metrics Unit) sched) := by
      intro t
      have h := hfin t
      rw [← hs] at h
      rw [← h]
      exact congrFun (run_pc _ _ _ _ sched _ _ rfl rfl) t
    refine ⟨_, C03_parallel_equals_sequential c rows cutoff offset T capped sched _ hex hfin', ?_⟩
    have hsim := loc_sim (T := T) (n := rows.length) (c := 1)
      (fun r l => c.evalRow rows cutoff offset capped r l)
      (fun r l => evalRowFl A c rows cutoff offset capped r l)
      (fun k l l' => NearM u (2 * cutoff + 5 + k) l l')
      (fun r k l l' h => nearM_evalRow h0 h1 hf hlog c rows cutoff offset capped r k l l' h)
      sched (init Metrics.empty ()) (init Metrics.empty ()) rfl rfl rfl
      (fun t => nearM_empty h0 h1 _)
    have hinv := inv_run (T := T) (n := rows.length) (c := 1)
      (fun u l m => (c.evalRow rows cutoff offset capped u l, m)) sched
      (inv_init rows.length 1 Metrics.empty ())
    have hle := hist_le hinv
    unfold mergeWorkers mergeWorkersFl
    rw [← hs]
    have := nearM_mergeAll h0 h1 hf (2 * cutoff + 5 + rows.length)
      ((List.finRange T).map (run rows.length 1
        (fun u l m => (c.evalRow rows cutoff offset capped u l, m))
        (init Metrics.empty () : State T Metrics Unit) sched).loc)
      ((List.finRange T).map (run rows.length 1
        (fun u l m => (evalRowFl A c rows cutoff offset capped u l, m))
        (init Metrics.empty () : State T Metrics Unit) sched).loc)
      (by
        rw [List.forall₂_map_left_iff, List.forall₂_map_right_iff, List.forall₂_same]
        intro t _
        refine (hsim.2 t).mono h0 h1 ?_
        have := rowsOf_le (run rows.length 1
          (fun u l m => (c.evalRow rows cutoff offset capped u l, m))
          (init Metrics.empty () : State T Metrics Unit) sched) t
        omega)
      0 Metrics.empty Metrics.empty (nearM_empty h0 h1 _)
    simpa [List.foldl_map] using this

/-- C75. Whatever the number of threads and their interleaving, the accuracy metrics that the evaluator
computes in rounded arithmetic are within `2 * cutoff + rows + threads + 6` roundings of their exact
values. -/
theorem C75_accuracy_metrics (h0 : 0 ≤ u) (h1 : u < 1) (hf : Rounds u A.fl)
    (hlog : AccurateLog2 u A.log2) (c : Core) (rows : List (ScoreRow S)) (cutoff offset T : Nat)
    (capped : Bool) (sched : List (Fin T)) (s : State T Metrics Unit)
    (hs : getMetricsRegionFl A c rows cutoff offset T capped sched = .ok s) (hfin : Finished s) :
    ∃ m, c.getMetrics rows cutoff offset T capped = .ok m ∧
      CloseReport u (2 * cutoff + rows.length + T + 6) (m.asDict c.nItems)
        (asDictFl A c.nItems (mergeWorkersFl A s)) := by
  obtain ⟨m, hm, hn⟩ := region_near h0 h1 hf hlog c rows cutoff offset T capped sched s hs hfin
  refine ⟨m, hm, ?_⟩
  have := closeReport_of_near h0 h1 hf hn c.nItems
  have e : 2 * cutoff + rows.length + T + 6 = 2 * cutoff + 5 + rows.length + T + 1 := by omega
  rw [e]
  exact this

/-! ### Batches -/

/-- The Python evaluator's loop over consecutive blocks of score rows, from row `offset` on: each block
is evaluated by a finished parallel run with at most `T` threads, and gives one accumulator. -/
inductive BatchRuns (A : Arith) (c : Core) (cutoff : Nat) (capped : Bool) (T : Nat) :
    Nat → List (List (ScoreRow S)) → List Metrics → Prop
  | nil (offset : Nat) : BatchRuns A c cutoff capped T offset [] []
  | cons {offset t : Nat} {rows : List (ScoreRow S)} {blocks : List (List (ScoreRow S))}
      {ms : List Metrics} (sched : List (Fin t)) (s : State t Metrics Unit) (ht : t ≤ T)
      (hs : getMetricsRegionFl A c rows cutoff offset t capped sched = .ok s) (hfin : Finished s)
      (rest : BatchRuns A c cutoff capped T (offset + rows.length) blocks ms) :
      BatchRuns A c cutoff capped T offset (rows :: blocks) (mergeWorkersFl A s :: ms)

theorem rowContribution_append (c : Core) (rows rest : List (ScoreRow S)) (cutoff offset : Nat)
    (capped : Bool) :
    ∑ v ∈ Finset.range (rows ++ rest).length, rowContribution c (rows ++ rest) cutoff offset capped v =
      (∑ v ∈ Finset.range rows.length, rowContribution c rows cutoff offset capped v) +
      ∑ v ∈ Finset.range rest.length, rowContribution c rest cutoff (offset + rows.length) capped v := by
  rw [List.length_append, Finset.sum_range_add]
  congr 1
  · refine Finset.sum_congr rfl (fun v hv => ?_)
    have hv' := Finset.mem_range.mp hv
    unfold rowContribution
    simp only [List.getD_eq_getElem?_getD, List.getElem?_append_left hv']
  · refine Finset.sum_congr rfl (fun v hv => ?_)
    unfold rowContribution
    simp only [List.getD_eq_getElem?_getD, List.getElem?_append_right (Nat.le_add_right _ _),
      Nat.add_sub_cancel_left]
    have e : rows.length + v + offset = v + (offset + rows.length) := by omega
    rw [e]

theorem batches_near (h0 : 0 ≤ u) (h1 : u < 1) (hf : Rounds u A.fl) (hlog : AccurateLog2 u A.log2)
    (c : Core) (cutoff : Nat) (capped : Bool) (T B : Nat) {offset : Nat}
    {blocks : List (List (ScoreRow S))} {ms : List Metrics}
    (hr : BatchRuns A c cutoff capped T offset blocks ms) (hB : ∀ b ∈ blocks, b.length ≤ B) :
    ∃ es : List Metrics, List.Forall₂ (NearM u (2 * cutoff + 5 + B + T)) es ms ∧
      es.length = blocks.length ∧
      es.sum = ∑ v ∈ Finset.range blocks.flatten.length,
        rowContribution c blocks.flatten cutoff offset capped v := by
  induction hr with
  | nil offset => exact ⟨[], List.Forall₂.nil, rfl, by simp⟩
  | @cons offset t rows blocks ms sched s ht hs hfin rest ih =>
    obtain ⟨es, h2, hl, hsum⟩ := ih (fun b hb => hB b (List.mem_cons_of_mem _ hb))
    obtain ⟨m, hm, hn⟩ := region_near h0 h1 hf hlog c rows cutoff offset t capped sched s hs hfin
    have hb := hB rows List.mem_cons_self
    refine ⟨m :: es, List.Forall₂.cons (hn.mono h0 h1 (by omega)) h2, by simp [hl], ?_⟩
    rw [getMetrics_eq] at hm
    cases hca : c.checkArgs rows.length cutoff offset t with
    | error e => rw [hca] at hm; cases hm
    | ok _ =>
      rw [hca] at hm
      simp only at hm
      injection hm with hm
      rw [List.flatten_cons, rowContribution_append, List.sum_cons, hsum, hm]

theorem foldl_merge_sum (l : List Metrics) (m : Metrics) : l.foldl Metrics.merge m = m + l.sum := by
  induction l generalizing m with
  | nil => simp
  | cons a l ih => rw [List.foldl_cons, ih, merge_eq_add, List.sum_cons, add_assoc]

/-- C75. The same for the Python evaluator, which evaluates the score matrix in blocks: with blocks of
at most `B` rows, at most `T` threads and any interleaving, the reported metrics are within
`2 * cutoff + B + T + 6` roundings, and one more for every block, of the exact metrics of the whole
matrix. -/
theorem C75_batches (h0 : 0 ≤ u) (h1 : u < 1) (hf : Rounds u A.fl) (hlog : AccurateLog2 u A.log2)
    (c : Core) (cutoff : Nat) (capped : Bool) (T B : Nat) {offset : Nat}
    {blocks : List (List (ScoreRow S))} {ms : List Metrics}
    (hr : BatchRuns A c cutoff capped T offset blocks ms) (hB : ∀ b ∈ blocks, b.length ≤ B)
    {m : Metrics} (hm : c.getMetrics blocks.flatten cutoff offset 1 capped = .ok m) :
    CloseReport u (2 * cutoff + B + T + blocks.length + 6) (m.asDict c.nItems)
      (asDictFl A c.nItems (mergeBatchesFl A ms)) := by
  obtain ⟨es, h2, hl, hsum⟩ := batches_near h0 h1 hf hlog c cutoff capped T B hr hB
  have hn := nearM_mergeAll h0 h1 hf _ es ms h2 0 _ _ (nearM_empty h0 h1 _)
  rw [foldl_merge_sum, empty_eq_zero, zero_add, hsum, hl] at hn
  rw [getMetrics_eq] at hm
  cases hca : c.checkArgs blocks.flatten.length cutoff offset 1 with
  | error e => rw [hca] at hm; cases hm
  | ok _ =>
    rw [hca] at hm
    simp only at hm
    injection hm with hm
    rw [hm] at hn
    have := closeReport_of_near h0 h1 hf hn c.nItems
    have e : 2 * cutoff + B + T + blocks.length + 6 =
        2 * cutoff + 5 + B + T + 0 + blocks.length + 1 := by omega
    rw [e]
    exact this

/-- C75. Within `d` roundings means a relative error of at most `2 * d * u`, as long as `d * u ≤ 1/2`
(in double precision, `u = 2^-53`: up to 2^52 roundings). -/
theorem C75_relative_error (h0 : 0 ≤ u) {d : Nat} (hd : (d : ℝ) * u ≤ 1 / 2) {x xh : ℝ}
    (h : Within u d x xh) : |xh - x| ≤ 2 * d * u * x := by
  obtain ⟨hx, hlo, hhi⟩ := h
  rcases Nat.eq_zero_or_pos d with rfl | hpos
  · simp only [pow_zero, one_mul] at hlo hhi
    have : xh = x := le_antisymm hhi hlo
    simp [this]
  · have h1 : (1 : ℝ) ≤ d := by exact_mod_cast hpos
    have hu : u ≤ 1 / 2 := by nlinarith
    have hb : 1 - (d : ℝ) * u ≤ (1 - u) ^ d := by
      have := one_add_mul_le_pow (a := -u) (by linarith) d
      calc 1 - (d : ℝ) * u = 1 + (d : ℝ) * (-u) := by ring
        _ ≤ (1 + -u) ^ d := this
        _ = (1 - u) ^ d := by rw [← sub_eq_add_neg]
    have hdu : 0 ≤ (d : ℝ) * u := mul_nonneg (by linarith) h0
    have hxh : 0 ≤ xh := le_trans (mul_nonneg (pow_nonneg (by linarith) d) hx) hlo
    rw [abs_le]
    constructor
    · nlinarith
    · have h3 : (1 - (d : ℝ) * u) * xh ≤ x := le_trans (mul_le_mul_of_nonneg_right hb hxh) hhi
      nlinarith [mul_nonneg hdu hx, mul_nonneg hdu hxh]

end

/-! ### Different numbers of threads -/

section
variable {S : Type} [LinearOrder S] [OrderBot S] {u : ℝ} {A : Arith}

theorem CloseReport.between (h0 : 0 ≤ u) (h1 : u < 1) {d e : Nat} {r r₁ r₂ : MetricDict}
    (h : CloseReport u d r r₁) (h' : CloseReport u e r r₂) : CloseReport u (d + e) r₁ r₂ :=
  ⟨h'.totalUser.trans h.totalUser.symm, h'.validUser.trans h.validUser.symm,
    h'.nItems.trans h.nItems.symm,
    within_trans h0 h1 (within_symm h0 h1 h.hit) h'.hit,
    within_trans h0 h1 (within_symm h0 h1 h.ndcg) h'.ndcg,
    within_trans h0 h1 (within_symm h0 h1 h.recall) h'.recall,
    within_trans h0 h1 (within_symm h0 h1 h.map) h'.map,
    within_trans h0 h1 (within_symm h0 h1 h.precision) h'.precision⟩

/-- C75. Two evaluations of the same scores with different numbers of threads and different
interleavings: the accuracy metrics differ by roundings only, and the metrics that depend on the item
counts are the same numbers. -/
theorem C75_thread_counts (h0 : 0 ≤ u) (h1 : u < 1) (hf : Rounds u A.fl)
    (hlog : AccurateLog2 u A.log2) (c : Core) (rows : List (ScoreRow S)) (cutoff offset T₁ T₂ : Nat)
    (capped : Bool) (sched₁ : List (Fin T₁)) (sched₂ : List (Fin T₂)) (s₁ : State T₁ Metrics Unit)
    (s₂ : State T₂ Metrics Unit)
    (hs₁ : getMetricsRegionFl A c rows cutoff offset T₁ capped sched₁ = .ok s₁) (hfin₁ : Finished s₁)
    (hs₂ : getMetricsRegionFl A c rows cutoff offset T₂ capped sched₂ = .ok s₂) (hfin₂ : Finished s₂) :
    CloseReport u (4 * cutoff + 2 * rows.length + T₁ + T₂ + 12)
        (asDictFl A c.nItems (mergeWorkersFl A s₁)) (asDictFl A c.nItems (mergeWorkersFl A s₂)) ∧
      (asDictFl A c.nItems (mergeWorkersFl A s₁)).appearedItem =
        (asDictFl A c.nItems (mergeWorkersFl A s₂)).appearedItem ∧
      (asDictFl A c.nItems (mergeWorkersFl A s₁)).entropy =
        (asDictFl A c.nItems (mergeWorkersFl A s₂)).entropy ∧
      (asDictFl A c.nItems (mergeWorkersFl A s₁)).giniIndex =
        (asDictFl A c.nItems (mergeWorkersFl A s₂)).giniIndex := by
  obtain ⟨m₁, hm₁, hn₁⟩ := region_near h0 h1 hf hlog c rows cutoff offset T₁ capped sched₁ s₁ hs₁ hfin₁
  obtain ⟨m₂, hm₂, hn₂⟩ := region_near h0 h1 hf hlog c rows cutoff offset T₂ capped sched₂ s₂ hs₂ hfin₂
  have hmm : m₁ = m₂ := by
    rw [getMetrics_eq] at hm₁ hm₂
    cases hc₁ : c.checkArgs rows.length cutoff offset T₁ with
    | error e => rw [hc₁] at hm₁; cases hm₁
    | ok _ =>
      cases hc₂ : c.checkArgs rows.length cutoff offset T₂ with
      | error e => rw [hc₂] at hm₂; cases hm₂
      | ok _ =>
        rw [hc₁] at hm₁
        rw [hc₂] at hm₂
        simp only at hm₁ hm₂
        injection hm₁ with hm₁
        injection hm₂ with hm₂
        rw [← hm₁, ← hm₂]
  subst hmm
  have c₁ := closeReport_of_near h0 h1 hf hn₁ c.nItems
  have c₂ := closeReport_of_near h0 h1 hf hn₂ c.nItems
  have e : 4 * cutoff + 2 * rows.length + T₁ + T₂ + 12 = 2 * cutoff + 5 + rows.length + T₁ + 1 +
      (2 * cutoff + 5 + rows.length + T₂ + 1) := by omega
  rw [e]
  have hcnt : (mergeWorkersFl A s₁).itemCnt = (mergeWorkersFl A s₂).itemCnt := hn₁.cnt.trans hn₂.cnt.symm
  refine ⟨c₁.between h0 h1 c₂, ?_, ?_, ?_⟩ <;> simp only [asDictFl, hcnt]

end

/-! ### Counts are exact -/

section
variable {S : Type} [LinearOrder S] [OrderBot S] {u : ℝ} {A : Arith} {N : Nat}

theorem fl_nat (hi : ExactOnIntegers N A.fl) (k : Nat) (hk : k ≤ N) : A.fl (k : ℝ) = k := by
  have := hi (k : ℤ) (by rw [abs_of_nonneg (by omega)]; exact_mod_cast hk)
  exact_mod_cast this

/-- the hit counters are equal, natural numbers and at most `k` -/
def HitEq (k : Nat) (m mh : Metrics) : Prop := mh.hit = m.hit ∧ ∃ h : Nat, h ≤ k ∧ m.hit = h

theorem cumHit_fold (gt : Finset Nat) (recs : List Nat) :
    ∀ a ah : UpdAcc, ah.cumHit = a.cumHit →
      (recs.foldl (updStepFl A gt) ah).cumHit = (recs.foldl (updStep gt) a).cumHit := by
  induction recs with
  | nil => intro a ah h; exact h
  | cons r rs ih =>
    intro a ah h
    refine ih _ _ ?_
    unfold updStep updStepFl
    by_cases hr : r ∈ gt <;> simp [hr, h]

theorem hitEq_update (hi : ExactOnIntegers N A.fl) (recs : List Nat) (gt : Finset Nat) (capped : Bool)
    (k : Nat) (m mh : Metrics) (h : HitEq k m mh) (hk : k + 1 ≤ N) :
    HitEq (k + 1) (m.update recs gt capped) (updateFl A mh recs gt capped) := by
  obtain ⟨he, n, hn, hm⟩ := h
  unfold Metrics.update updateFl
  by_cases hr : recs.length = 0
  · simp only [hr, if_true]
    exact ⟨he, n, by omega, hm⟩
  · simp only [hr, if_false]
    unfold HitEq
    simp only
    rw [cumHit_fold (A := A) gt recs
      { i := 0, dcg := 0, cumHit := 0, averagePrecision := 0, itemCnt := m.itemCnt }
      { i := 0, dcg := 0, cumHit := 0, averagePrecision := 0, itemCnt := mh.itemCnt } rfl]
    by_cases hc : (recs.foldl (updStep gt)
        { i := 0, dcg := 0, cumHit := 0, averagePrecision := 0, itemCnt := m.itemCnt }).cumHit > 0
    · simp only [hc, if_true]
      have e : m.hit + 1 = ((n + 1 : Nat) : ℝ) := by rw [hm]; push_cast; ring
      rw [he, e, fl_nat hi _ (by omega)]
      exact ⟨rfl, n + 1, by omega, rfl⟩
    · simp only [hc, if_false]
      exact ⟨he, n, by omega, hm⟩

theorem hitEq_evalRow (hi : ExactOnIntegers N A.fl) (c : Core) (rows : List (ScoreRow S))
    (cutoff offset : Nat) (capped : Bool) (r k : Nat) (m mh : Metrics)
    (h : k ≤ N → HitEq k m mh) (hk : k + 1 ≤ N) :
    HitEq (k + 1) (c.evalRow rows cutoff offset capped r m)
      (evalRowFl A c rows cutoff offset capped r mh) := by
  have h' := h (by omega)
  have hinc : HitEq k m.incrementTotalUser mh.incrementTotalUser := h'
  unfold Core.evalRow evalRowFl
  by_cases hg : c.gtSet (r + offset) = ∅
  · simp only [hg, if_true]
    obtain ⟨he, n, hn, hm⟩ := hinc
    exact ⟨he, n, by omega, hm⟩
  · simp only [hg, if_false]
    exact hitEq_update hi _ _ capped k _ _ hinc hk

theorem hitEq_merge (hi : ExactOnIntegers N A.fl) {T : Nat} (loc loch : Fin T → Metrics)
    (len : Fin T → Nat) (h : ∀ t, HitEq (len t) (loc t) (loch t)) (l : List (Fin T)) :
    ∀ (k : Nat) (m mh : Metrics), HitEq k m mh → k + (l.map len).sum ≤ N →
      HitEq (k + (l.map len).sum) (l.foldl (fun o t => o.merge (loc t)) m)
        (l.foldl (fun o t => mergeFl A o (loch t)) mh) := by
  induction l with
  | nil => intro k m mh hm _; simpa using hm
  | cons t ts ih =>
    intro k m mh hm hN
    obtain ⟨he, n, hn, hmn⟩ := hm
    obtain ⟨he', n', hn', hmn'⟩ := h t
    rw [List.map_cons, List.sum_cons] at hN ⊢
    have hs : HitEq (k + len t) (m.merge (loc t)) (mergeFl A mh (loch t)) := by
      have e : (m.merge (loc t)).hit = ((n + n' : Nat) : ℝ) := by
        push_cast
        rw [← hmn, ← hmn']
        rfl
      have e' : (mergeFl A mh (loch t)).hit = A.fl ((n + n' : Nat) : ℝ) := by
        push_cast
        rw [← hmn, ← hmn', ← he, ← he']
        rfl
      exact ⟨by rw [e, e', fl_nat hi _ (by omega)], n + n', by omega, e⟩
    have := ih (k + len t) _ _ hs (by omega)
    rw [← Nat.add_assoc]
    exact this

/-- C75. Hits are counted exactly, whatever the number of threads: as long as the number of rows is
below the bound `N` for exact integers (2^53), the reported hit rate is the correctly rounded quotient
of the number of users with a hit and the number of valid users. -/
theorem C75_hits (hi : ExactOnIntegers N A.fl) (c : Core) (rows : List (ScoreRow S))
    (cutoff offset T : Nat) (capped : Bool) (sched : List (Fin T)) (s : State T Metrics Unit)
    (hN : rows.length ≤ N) (hs : getMetricsRegionFl A c rows cutoff offset T capped sched = .ok s)
    (hfin : Finished s) :
    ∃ m, c.getMetrics rows cutoff offset T capped = .ok m ∧ (mergeWorkersFl A s).hit = m.hit := by
  unfold getMetricsRegionFl at hs
  cases hca : c.checkArgs rows.length cutoff offset T with
  | error e => rw [hca] at hs; cases hs
  | ok _ =>
    rw [hca] at hs
    simp only at hs
    injection hs with hs
    have hex : c.getMetricsRegion rows cutoff offset T capped sched = .ok
        (run rows.length 1 (fun u l m => (c.evalRow rows cutoff offset capped u l, m))
          (init Metrics.empty ()) sched) := by
      unfold Core.getMetricsRegion
      rw [hca]
    have hfin' : Finished (run rows.length 1
        (fun u l m => (c.evalRow rows cutoff offset capped u l, m))
        (init Metrics.empty () : State T Metrics Unit) sched) := by
      intro t
      have h := hfin t
      rw [← hs] at h
      rw [← h]
      exact congrFun (run_pc _ _ _ _ sched _ _ rfl rfl) t
    refine ⟨_, C03_parallel_equals_sequential c rows cutoff offset T capped sched _ hex hfin', ?_⟩
    have hsim := loc_sim (T := T) (n := rows.length) (c := 1)
      (fun r l => c.evalRow rows cutoff offset capped r l)
      (fun r l => evalRowFl A c rows cutoff offset capped r l)
      (fun k l l' => k ≤ N → HitEq k l l')
      (fun r k l l' h hk => hitEq_evalRow hi c rows cutoff offset capped r k l l' h hk)
      sched (init Metrics.empty ()) (init Metrics.empty ()) rfl rfl rfl
      (fun t _ => ⟨rfl, 0, by omega, by simp [init, Metrics.empty]⟩)
    have hinv := inv_run (T := T) (n := rows.length) (c := 1)
      (fun u l m => (c.evalRow rows cutoff offset capped u l, m)) sched
      (inv_init rows.length 1 Metrics.empty ())
    have hle := hist_le hinv
    have hcard := congrArg Multiset.card (rowsOf_flatten (run rows.length 1
        (fun u l m => (c.evalRow rows cutoff offset capped u l, m))
        (init Metrics.empty () : State T Metrics Unit) sched))
    rw [Multiset.card_sum] at hcard
    simp only [Multiset.coe_card, List.length_map] at hcard
    have hsum : ((List.finRange T).map (fun t => (rowsOf (run rows.length 1
        (fun u l m => (c.evalRow rows cutoff offset capped u l, m))
        (init Metrics.empty () : State T Metrics Unit) sched) t).length)).sum ≤ rows.length := by
      rw [← List.ofFn_eq_map, List.sum_ofFn, hcard]
      exact hle
    have := hitEq_merge (A := A) hi _ _ _ (fun t => hsim.2 t (by
      have := rowsOf_le (run rows.length 1
          (fun u l m => (c.evalRow rows cutoff offset capped u l, m))
          (init Metrics.empty () : State T Metrics Unit) sched) t
      omega)) (List.finRange T) 0 Metrics.empty Metrics.empty
      ⟨rfl, 0, by omega, by simp [Metrics.empty]⟩ (by omega)
    rw [← hs]
    exact this.1

theorem div_fold (hi : ExactOnIntegers N A.fl) (n : Nat) (total : ℝ) (l : List Nat) :
    ∀ (a ah : DivAcc) (k : Nat) (z : ℤ), ah.i = a.i → a.i + l.length ≤ n → ah.appeared = a.appeared →
      a.appeared = k → k ≤ a.i → n ≤ N → ah.gini = a.gini → a.gini = z →
      |z| + (n : ℤ) * (l.sum : ℤ) ≤ N →
      (l.foldl (divStepFl A n total) ah).appeared = (l.foldl (divStep n total) a).appeared ∧
      (l.foldl (divStepFl A n total) ah).gini = (l.foldl (divStep n total) a).gini := by
  induction l with
  | nil => intro a ah k z _ _ hap _ _ _ hg _ _; exact ⟨hap, hg⟩
  | cons cnt l ih =>
    intro a ah k z hai hlen hap hk hki hnN hg hz hb
    rw [List.length_cons] at hlen
    rw [List.sum_cons] at hb
    simp only [List.foldl_cons]
    unfold divStep divStepFl
    by_cases hc : cnt = 0
    · simp only [hc, if_true]
      refine ih _ _ k z (by simp [hai]) (by simp only; omega) hap hk (by simp only; omega) hnN hg hz ?_
      rw [hc] at hb
      simpa using hb
    · simp only [hc, if_false]
      have hin : (a.i : ℤ) < n := by omega
      have hfac : |2 * (a.i : ℤ) - n + 1| ≤ n := by rw [abs_le]; omega
      have hterm : |(2 * (a.i : ℤ) - n + 1) * (cnt : ℤ)| ≤ n * (cnt : ℤ) := by
        rw [abs_mul, abs_of_nonneg (Int.natCast_nonneg cnt)]
        exact mul_le_mul_of_nonneg_right hfac (Int.natCast_nonneg cnt)
      have hl0 : 0 ≤ (n : ℤ) * (l.sum : ℤ) := by positivity
      have hbz : |z + (2 * (a.i : ℤ) - n + 1) * (cnt : ℤ)| + (n : ℤ) * (l.sum : ℤ) ≤ N := by
        have := abs_add_le z ((2 * (a.i : ℤ) - n + 1) * (cnt : ℤ))
        rw [Nat.cast_add, mul_add] at hb
        linarith
      have hzz : ah.gini + (((2 * (ah.i : ℤ) - (n : ℤ) + 1) * (cnt : ℤ) : ℤ) : ℝ) =
          ((z + (2 * (a.i : ℤ) - n + 1) * (cnt : ℤ) : ℤ) : ℝ) := by
        rw [hg, hz, hai]; push_cast; ring
      have hzz' : a.gini + (2 * (a.i : ℝ) - (n : ℝ) + 1) * (cnt : ℝ) =
          ((z + (2 * (a.i : ℤ) - n + 1) * (cnt : ℤ) : ℤ) : ℝ) := by
        rw [hz]; push_cast; ring
      have hka : ah.appeared + 1 = ((k + 1 : Nat) : ℝ) := by rw [hap, hk]; push_cast; ring
      refine ih _ _ (k + 1) (z + (2 * (a.i : ℤ) - n + 1) * (cnt : ℤ)) (by simp [hai])
        (by simp only; omega) ?_ ?_ (by simp only; omega) hnN ?_ ?_ hbz
      · simp only
        rw [hka, fl_nat hi _ (by omega), hk]; push_cast; ring
      · simp only
        rw [hk]; push_cast; ring
      · simp only
        rw [hzz, hzz', hi _ (by omega)]
      · exact hzz'

/-- C75. As long as items times recommendations stay below the bound for exact integers, the number of
appearing items is exact and the Gini index is the correctly rounded quotient. -/
theorem C75_gini (h0 : 0 ≤ u) (hf : Rounds u A.fl) (hi : ExactOnIntegers N A.fl) (n : Nat) (m : Metrics)
    (hn : n ≤ N) (hN : n * ((List.range n).map m.itemCnt).sum ≤ N) :
    (asDictFl A n m).appearedItem = (m.asDict n).appearedItem ∧
      |(asDictFl A n m).giniIndex - (m.asDict n).giniIndex| ≤ u * |(m.asDict n).giniIndex| := by
  have hperm := List.mergeSort_perm ((List.range n).map m.itemCnt) (fun a b => decide (a ≤ b))
  have hsum := hperm.sum_eq
  have hlen := hperm.length_eq
  rw [List.length_map, List.length_range] at hlen
  have hd := div_fold (A := A) hi n ((((List.range n).map m.itemCnt).sum : Nat) : ℝ)
    (((List.range n).map m.itemCnt).mergeSort (fun a b => decide (a ≤ b)))
    { i := 0, appeared := 0, entropy := 0, gini := 0 } { i := 0, appeared := 0, entropy := 0, gini := 0 }
    0 0 rfl (by simp only; omega) rfl (by simp) (by simp) hn rfl (by simp) (by
      rw [hsum, abs_zero, zero_add]; exact_mod_cast hN)
  refine ⟨hd.1, ?_⟩
  by_cases hz : ((List.range n).map m.itemCnt).sum = 0
  · simp only [asDictFl, Metrics.asDict]
    rw [if_neg (by rw [hz]; simp), if_neg (by rw [hz]; simp), hd.2, sub_self, abs_zero]
    exact mul_nonneg h0 (abs_nonneg _)
  · have hpos : (0 : ℝ) < ((((List.range n).map m.itemCnt).sum : Nat) : ℝ) := by
      exact_mod_cast Nat.pos_of_ne_zero hz
    simp only [asDictFl, Metrics.asDict]
    rw [if_pos hpos, if_pos hpos, hd.2]
    have e : (n : ℝ) * ((((List.range n).map m.itemCnt).sum : Nat) : ℝ) =
        ((n * ((List.range n).map m.itemCnt).sum : Nat) : ℝ) := by push_cast; ring
    rw [e, fl_nat hi _ hN]
    exact hf _

theorem within_mul {d e : Nat} {x xh y yh : ℝ} (h0 : 0 ≤ u) (h1 : u < 1) (h : Within u d x xh)
    (h' : Within u e y yh) : Within u (d + e) (x * y) (xh * yh) := by
  have pd := (pow_bounds h0 h1 d).1.le
  have pe := (pow_bounds h0 h1 e).1.le
  have hxh := within_nonneg h0 h1 h
  have hyh := within_nonneg h0 h1 h'
  refine ⟨mul_nonneg h.1 h'.1, ?_, ?_⟩
  · calc (1 - u) ^ (d + e) * (x * y) = ((1 - u) ^ d * x) * ((1 - u) ^ e * y) := by rw [pow_add]; ring
      _ ≤ xh * yh := mul_le_mul h.2.1 h'.2.1 (mul_nonneg pe h'.1) hxh
  · calc (1 - u) ^ (d + e) * (xh * yh) = ((1 - u) ^ d * xh) * ((1 - u) ^ e * yh) := by rw [pow_add]; ring
      _ ≤ x * y := mul_le_mul h.2.2 h'.2.2 (mul_nonneg pe hyh) h.1

/-- the summand of the entropy with the logarithm of the rounded share -/
noncomputable def shareTerm (A : Arith) (total : ℝ) (cnt : Nat) : ℝ :=
  if cnt = 0 then 0 else -Real.log (A.fl ((cnt : ℝ) / total)) * ((cnt : ℝ) / total)

theorem share_pos (h0 : 0 ≤ u) (h1 : u < 1) (hf : Rounds u A.fl) {x : ℝ} (hx : 0 < x) :
    Within u 1 x (A.fl x) ∧ 0 < A.fl x := by
  have hw := within_of_rel h0 h1 hx.le (hf x)
  refine ⟨hw, lt_of_lt_of_le ?_ hw.2.1⟩
  rw [pow_one]
  exact mul_pos (by linarith) hx

theorem within_shareTerm (h0 : 0 ≤ u) (h1 : u < 1) (hf : Rounds u A.fl) (hl : AccurateLog u A.log)
    (hk : KeepsShares A.fl) {total : ℝ} {cnt : Nat} (hc : cnt ≠ 0) (ht : (cnt : ℝ) ≤ total) :
    Within u 3 (shareTerm A total cnt)
      (A.fl (-A.log (A.fl ((cnt : ℝ) / total)) * A.fl ((cnt : ℝ) / total))) := by
  have hcp : (0 : ℝ) < cnt := by exact_mod_cast Nat.pos_of_ne_zero hc
  have htp : 0 < total := lt_of_lt_of_le hcp ht
  have hp : 0 < (cnt : ℝ) / total := div_pos hcp htp
  have hp1 : (cnt : ℝ) / total ≤ 1 := (div_le_one htp).mpr ht
  obtain ⟨hw, hpos⟩ := share_pos h0 h1 hf hp
  have hle := hk _ hp hp1
  have hlog : 0 ≤ -Real.log (A.fl ((cnt : ℝ) / total)) := by
    have := Real.log_nonpos hpos.le hle
    linarith
  have hwl : Within u 1 (-Real.log (A.fl ((cnt : ℝ) / total))) (-A.log (A.fl ((cnt : ℝ) / total))) := by
    apply within_of_rel h0 h1 hlog
    have := hl _ hpos
    rw [abs_neg, ← abs_neg]
    rw [show -(-A.log (A.fl ((cnt : ℝ) / total)) - -Real.log (A.fl ((cnt : ℝ) / total))) =
      A.log (A.fl ((cnt : ℝ) / total)) - Real.log (A.fl ((cnt : ℝ) / total)) by ring]
    exact this
  unfold shareTerm
  rw [if_neg hc]
  exact within_fl h0 h1 hf (within_mul h0 h1 hwl hw)

theorem entropy_fold (h0 : 0 ≤ u) (h1 : u < 1) (hf : Rounds u A.fl) (hl : AccurateLog u A.log)
    (hk : KeepsShares A.fl) (n : Nat) (total : ℝ) (l : List Nat) (hb : ∀ c ∈ l, (c : ℝ) ≤ total) :
    ∀ (a : DivAcc) (x : ℝ) (d : Nat), Within u (d + 3) x a.entropy →
      Within u (d + l.length + 3) (x + (l.map (shareTerm A total)).sum)
        (l.foldl (divStepFl A n total) a).entropy := by
  induction l with
  | nil => intro a x d h; simpa using h
  | cons c l ih =>
    intro a x d h
    simp only [List.foldl_cons, List.map_cons, List.sum_cons, List.length_cons]
    rw [← add_assoc x, show d + (l.length + 1) + 3 = (d + 1) + l.length + 3 by omega]
    apply ih (fun c hc => hb c (by simp [hc]))
    unfold divStepFl
    by_cases hc : c = 0
    · simp only [hc, if_true]
      rw [shareTerm, if_pos rfl, add_zero]
      exact within_mono h0 h1 (by omega) h
    · simp only [hc, if_false]
      have ht := within_shareTerm h0 h1 hf hl hk hc (hb c (by simp))
      have := within_add h (within_mono h0 h1 (by omega : 3 ≤ d + 3) ht)
      exact within_mono h0 h1 (by omega) (within_fl h0 h1 hf this)

theorem shareTerm_near (h0 : 0 ≤ u) (h1 : u < 1) (hf : Rounds u A.fl) {total : ℝ} {cnt : Nat}
    (ht : (cnt : ℝ) ≤ total) :
    |shareTerm A total cnt - Real.negMulLog ((cnt : ℝ) / total)| ≤
      (cnt : ℝ) / total * -Real.log (1 - u) := by
  unfold shareTerm
  by_cases hc : cnt = 0
  · subst hc
    simp
  · rw [if_neg hc, Real.negMulLog]
    have hcp : (0 : ℝ) < cnt := by exact_mod_cast Nat.pos_of_ne_zero hc
    have htp : 0 < total := lt_of_lt_of_le hcp ht
    have hp : 0 < (cnt : ℝ) / total := div_pos hcp htp
    obtain ⟨hw, hpos⟩ := share_pos h0 h1 hf hp
    generalize (cnt : ℝ) / total = p at *
    have hu : 0 < 1 - u := by linarith
    rw [show -Real.log (A.fl p) * p - -p * Real.log p = p * (Real.log p - Real.log (A.fl p)) by ring, abs_mul,
      abs_of_pos hp]
    apply mul_le_mul_of_nonneg_left _ hp.le
    rw [abs_le]
    have e1 : Real.log (1 - u) + Real.log p ≤ Real.log (A.fl p) := by
      rw [← Real.log_mul hu.ne' hp.ne']
      apply Real.log_le_log (mul_pos hu hp)
      simpa using hw.2.1
    have e2 : Real.log (1 - u) + Real.log (A.fl p) ≤ Real.log p := by
      rw [← Real.log_mul hu.ne' hpos.ne']
      apply Real.log_le_log (mul_pos hu hpos)
      simpa using hw.2.2
    constructor <;> linarith

theorem sum_abs_le {ι : Type} (l : List ι) (f g b : ι → ℝ) (h : ∀ x ∈ l, |f x - g x| ≤ b x) :
    |(l.map f).sum - (l.map g).sum| ≤ (l.map b).sum := by
  induction l with
  | nil => simp
  | cons a l ih =>
    simp only [List.map_cons, List.sum_cons]
    have h1 := h a (by simp)
    have h2 := ih (fun x hx => h x (by simp [hx]))
    rw [abs_le] at *
    constructor <;> linarith

theorem sum_shares (l : List Nat) (total k : ℝ) :
    (l.map (fun c : Nat => (c : ℝ) / total * k)).sum = ((l.sum : Nat) : ℝ) / total * k := by
  induction l with
  | nil => simp
  | cons a l ih =>
    simp only [List.map_cons, List.sum_cons, ih]
    push_cast
    ring

/-- C75.  The reported entropy is, up to `n + 3` roundings, a number that differs from the exact entropy by at
most `-log (1 - u)` (about `u`), the effect of rounding the shares before taking logarithms. -/
theorem C75_entropy (h0 : 0 ≤ u) (h1 : u < 1) (hf : Rounds u A.fl) (hl : AccurateLog u A.log)
    (hk : KeepsShares A.fl) (n : Nat) (m : Metrics) :
    ∃ e : ℝ, |e - Spec.entropy n m.itemCnt| ≤ -Real.log (1 - u) ∧
      Within u (n + 3) e (asDictFl A n m).entropy := by
  have hperm := List.mergeSort_perm ((List.range n).map m.itemCnt) (fun a b => decide (a ≤ b))
  have hlen := hperm.length_eq
  rw [List.length_map, List.length_range] at hlen
  have hex : (m.asDict n).entropy = Spec.entropy n m.itemCnt := (asDict_diversity n m).2.1
  have hfold := div_foldl n ((((List.range n).map m.itemCnt).sum : Nat) : ℝ)
    (((List.range n).map m.itemCnt).mergeSort (fun a b => decide (a ≤ b)))
    { i := 0, appeared := 0, entropy := 0, gini := 0 }
  have hex' : Spec.entropy n m.itemCnt =
      ((((List.range n).map m.itemCnt).mergeSort (fun a b => decide (a ≤ b))).map
        (fun c : Nat => Real.negMulLog ((c : ℝ) / ((((List.range n).map m.itemCnt).sum : Nat) : ℝ)))).sum := by
    rw [← hex]
    simp only [Metrics.asDict]
    rw [hfold]
    simp
  have hsum := hperm.sum_eq
  have hb : ∀ c ∈ ((List.range n).map m.itemCnt).mergeSort (fun a b => decide (a ≤ b)),
      (c : ℝ) ≤ ((((List.range n).map m.itemCnt).sum : Nat) : ℝ) := by
    intro c hc
    have := List.single_le_sum (l := (List.range n).map m.itemCnt) (fun _ _ => Nat.zero_le _) c
      (hperm.mem_iff.mp hc)
    exact_mod_cast this
  have hw := entropy_fold h0 h1 hf hl hk n _ _ hb { i := 0, appeared := 0, entropy := 0, gini := 0 } 0 0
    (within_refl h0 h1 le_rfl _)
  rw [hlen, zero_add, zero_add] at hw
  refine ⟨_, ?_, hw⟩
  rw [hex']
  refine le_trans (sum_abs_le _ _ _ _ (fun c hc => shareTerm_near h0 h1 hf (hb c hc))) ?_
  rw [sum_shares, hsum]
  have hlog : 0 ≤ -Real.log (1 - u) := by
    have := Real.log_nonpos (by linarith : 0 ≤ 1 - u) (by linarith)
    linarith
  exact le_trans (mul_le_mul_of_nonneg_right (div_self_le_one _) hlog) (by rw [one_mul])

end

/-! ### Double precision -/

/-- Double precision: rounding to nearest with 53 digits, and correctly rounded logarithms. -/
noncomputable def double : Arith where
  fl := toNearest 53
  log2 := fun n => toNearest 53 (Real.logb 2 n)
  log := fun x => toNearest 53 (Real.log x)

/-- C75. The hypotheses of the theorems hold for rounding to nearest in double precision, with
`u = 2^-53` and integers up to `2^53`. -/
theorem C75_double : Rounds (2 ^ (-53 : ℤ)) double.fl ∧ AccurateLog2 (2 ^ (-53 : ℤ)) double.log2 ∧
    ExactOnIntegers (2 ^ 53) double.fl ∧ AccurateLog (2 ^ (-53 : ℤ)) double.log ∧ KeepsShares double.fl :=
  ⟨toNearest_rounds 53, fun n _ => toNearest_rounds 53 _, toNearest_exactOnIntegers 53 (by norm_num),
    fun x _ => toNearest_rounds 53 _, toNearest_keepsShares 53 (by norm_num)⟩

/-- three users, twelve items, of which the first ten are relevant to everyone -/
def exampleCore : Core := ⟨12, [List.range 10, List.range 10, List.range 10], []⟩

/-- one, two and three relevant items among three scored ones (`0` stands for -inf) -/
def exampleRows : List (ScoreRow Nat) :=
  [fun i => if i ∈ [0, 10, 11] then 1 else 0, fun i => if i ∈ [0, 1, 10] then 1 else 0,
    fun i => if i ∈ [0, 1, 2] then 1 else 0]

theorem example_top (v : Nat) (hv : v < 3) :
    topCutoff 12 none 3 (exampleRows.getD v (fun _ => ⊥)) =
      [[0, 10, 11], [0, 1, 10], [0, 1, 2]].getD v [] := by
  have h : v = 0 ∨ v = 1 ∨ v = 2 := by omega
  rcases h with rfl | rfl | rfl
  · have hc : candidates 12 none (exampleRows.getD 0 (fun _ => ⊥)) = [(1, 0), (1, 10), (1, 11)] := by decide
    unfold topCutoff
    rw [hc, List.mergeSort_of_pairwise (by decide)]
    rfl
  · have hc : candidates 12 none (exampleRows.getD 1 (fun _ => ⊥)) = [(1, 0), (1, 1), (1, 10)] := by decide
    unfold topCutoff
    rw [hc, List.mergeSort_of_pairwise (by decide)]
    rfl
  · have hc : candidates 12 none (exampleRows.getD 2 (fun _ => ⊥)) = [(1, 0), (1, 1), (1, 2)] := by decide
    unfold topCutoff
    rw [hc, List.mergeSort_of_pairwise (by decide)]
    rfl

theorem example_gt (v : Nat) (hv : v < 3) : exampleCore.gtSet (v + 0) = Finset.range 10 := by
  have h : v = 0 ∨ v = 1 ∨ v = 2 := by omega
  rcases h with rfl | rfl | rfl <;> decide

theorem example_row (A : Arith) (v : Nat) (hv : v < 3) (m : Metrics) :
    (evalRowFl A exampleCore exampleRows 3 0 false v m).recall =
        A.fl (m.recall + A.fl (((v + 1 : Nat) : ℝ) / 10)) ∧
      (evalRowFl A exampleCore exampleRows 3 0 false v m).validUser = m.validUser + 1 := by
  have htop := example_top v hv
  have hr : exampleCore.recommendableFor (v + 0) = none := rfl
  have hn : exampleCore.nItems = 12 := rfl
  unfold evalRowFl
  rw [example_gt v hv, hr, hn, htop]
  have hne : ¬ (Finset.range 10 = ∅) := by decide
  simp only [hne, if_false]
  unfold updateFl
  have h : v = 0 ∨ v = 1 ∨ v = 2 := by omega
  rcases h with rfl | rfl | rfl <;>
    simp [updStepFl, Metrics.incrementTotalUser]

/-- one worker does all rows -/
def sched₁ : List (Fin 1) := List.replicate 10 0

/-- the first worker takes the first row and is overtaken by the second, which does the others -/
def sched₂ : List (Fin 2) := [0, 0, 1, 1, 1, 1, 1, 1, 1, 0, 0]

/-- the state reached by a schedule -/
noncomputable def exampleRun {T : Nat} (sched : List (Fin T)) : State T Metrics Unit :=
  run 3 1 (fun v l m => (evalRowFl double exampleCore exampleRows 3 0 false v l, m))
    (init Metrics.empty ()) sched

theorem exampleRun_ok {T : Nat} (hT : 0 < T) (sched : List (Fin T)) :
    getMetricsRegionFl double exampleCore exampleRows 3 0 T false sched = .ok (exampleRun sched) := by
  unfold getMetricsRegionFl
  have : exampleCore.checkArgs exampleRows.length 3 0 T = .ok () := by
    simp [Core.checkArgs, exampleCore, exampleRows, Core.nUsers, hT.ne']
  rw [this]
  rfl

theorem exampleRun_loc {T : Nat} (sched : List (Fin T)) (t : Fin T) :
    (exampleRun sched).loc t = (rowsOf (exampleRun sched) t).foldl
      (fun l r => evalRowFl double exampleCore exampleRows 3 0 false r l) Metrics.empty :=
  loc_run (fun r l => evalRowFl double exampleCore exampleRows 3 0 false r l) sched
    (init Metrics.empty ()) Metrics.empty (fun _ => rfl) t

theorem fl_a : toNearest 53 ((1 : Nat) / 10 : ℝ) = 7205759403792794 / 2 ^ 56 := by
  rw [toNearest_eq 53 _ (-4) 7205759403792794] <;> norm_num

theorem fl_b : toNearest 53 ((2 : Nat) / 10 : ℝ) = 7205759403792794 / 2 ^ 55 := by
  rw [toNearest_eq 53 _ (-3) 7205759403792794] <;> norm_num

theorem fl_c : toNearest 53 ((3 : Nat) / 10 : ℝ) = 5404319552844595 / 2 ^ 54 := by
  rw [toNearest_eq 53 _ (-2) 5404319552844595] <;> norm_num

theorem double_recall (v : Nat) (hv : v < 3) (m : Metrics) :
    (evalRowFl double exampleCore exampleRows 3 0 false v m).recall =
      toNearest 53 (m.recall + toNearest 53 (((v + 1 : Nat) : ℝ) / 10)) :=
  (example_row double v hv m).1

/-- one thread: 0.6000000000000001 / 3 -/
theorem recall₁ : (asDictFl double 12 (mergeWorkersFl double (exampleRun sched₁))).recall =
    7205759403792795 / 2 ^ 55 := by
  have hl : (exampleRun sched₁).loc 0 = [0, 1, 2].foldl
      (fun l r => evalRowFl double exampleCore exampleRows 3 0 false r l) Metrics.empty :=
    exampleRun_loc sched₁ 0
  have hv : (mergeWorkersFl double (exampleRun sched₁)).validUser = 3 := by
    unfold mergeWorkersFl
    simp only [List.finRange_succ, List.finRange_zero, List.map_nil, List.foldl_cons, List.foldl_nil,
      mergeFl]
    rw [hl]
    simp [(example_row double _ _ _).2, Metrics.empty]
  have hr : (mergeWorkersFl double (exampleRun sched₁)).recall = 5404319552844596 / 2 ^ 53 := by
    unfold mergeWorkersFl
    simp only [List.finRange_succ, List.finRange_zero, List.map_nil, List.foldl_cons, List.foldl_nil,
      mergeFl]
    rw [hl]
    simp only [List.foldl_cons, List.foldl_nil]
    rw [double_recall 2 (by omega), double_recall 1 (by omega), double_recall 0 (by omega), fl_a, fl_b, fl_c]
    simp only [Metrics.empty, zero_add]
    have e1 : toNearest 53 (7205759403792794 / 2 ^ 56 : ℝ) = 7205759403792794 / 2 ^ 56 := by
      rw [toNearest_eq 53 _ (-4) 7205759403792794] <;> norm_num
    have e2 : toNearest 53 (7205759403792794 / 2 ^ 56 + 7205759403792794 / 2 ^ 55 : ℝ) =
        5404319552844596 / 2 ^ 54 := by
      rw [toNearest_eq 53 _ (-2) 5404319552844596] <;> norm_num
    have e3 : toNearest 53 (5404319552844596 / 2 ^ 54 + 5404319552844595 / 2 ^ 54 : ℝ) =
        5404319552844596 / 2 ^ 53 := by
      rw [toNearest_eq 53 _ (-1) 5404319552844596] <;> norm_num
    have e4 : toNearest 53 (5404319552844596 / 2 ^ 53 : ℝ) = 5404319552844596 / 2 ^ 53 := by
      rw [toNearest_eq 53 _ (-1) 5404319552844596] <;> norm_num
    rw [e1, e2, e3]
    exact e4
  unfold asDictFl
  simp only [hv, hr]
  show toNearest 53 _ = _
  rw [toNearest_eq 53 _ (-3) 7205759403792795] <;> norm_num

/-- two threads: 0.6 / 3 -/
theorem recall₂ : (asDictFl double 12 (mergeWorkersFl double (exampleRun sched₂))).recall =
    7205759403792793 / 2 ^ 55 := by
  have hl0 : (exampleRun sched₂).loc 0 = [0].foldl
      (fun l r => evalRowFl double exampleCore exampleRows 3 0 false r l) Metrics.empty :=
    exampleRun_loc sched₂ 0
  have hl1 : (exampleRun sched₂).loc 1 = [1, 2].foldl
      (fun l r => evalRowFl double exampleCore exampleRows 3 0 false r l) Metrics.empty :=
    exampleRun_loc sched₂ 1
  have hm : mergeWorkersFl double (exampleRun sched₂) =
      mergeFl double (mergeFl double Metrics.empty ((exampleRun sched₂).loc 0)) ((exampleRun sched₂).loc 1) :=
    rfl
  have hv : (mergeWorkersFl double (exampleRun sched₂)).validUser = 3 := by
    rw [hm, hl0, hl1]
    simp [mergeFl, (example_row double _ _ _).2, Metrics.empty]
  have hr : (mergeWorkersFl double (exampleRun sched₂)).recall = 5404319552844595 / 2 ^ 53 := by
    rw [hm, hl0, hl1]
    simp only [List.foldl_cons, List.foldl_nil, mergeFl]
    rw [double_recall 2 (by omega), double_recall 1 (by omega), double_recall 0 (by omega), fl_a, fl_b, fl_c]
    simp only [Metrics.empty, zero_add]
    have e1 : toNearest 53 (7205759403792794 / 2 ^ 56 : ℝ) = 7205759403792794 / 2 ^ 56 := by
      rw [toNearest_eq 53 _ (-4) 7205759403792794] <;> norm_num
    have e2 : toNearest 53 (7205759403792794 / 2 ^ 55 : ℝ) = 7205759403792794 / 2 ^ 55 := by
      rw [toNearest_eq 53 _ (-3) 7205759403792794] <;> norm_num
    have e3 : toNearest 53 (7205759403792794 / 2 ^ 55 + 5404319552844595 / 2 ^ 54 : ℝ) = 1 / 2 := by
      rw [toNearest_eq 53 _ (-1) 4503599627370496] <;> norm_num
    have e4 : toNearest 53 (7205759403792794 / 2 ^ 56 + 1 / 2 : ℝ) = 5404319552844595 / 2 ^ 53 := by
      rw [toNearest_eq 53 _ (-1) 5404319552844595] <;> norm_num
    rw [e1, e2, e3]
    show toNearest 53 (toNearest 53 _ + 1 / 2) = _
    rw [e1]
    exact e4
  unfold asDictFl
  simp only [hv, hr]
  show toNearest 53 _ = _
  rw [toNearest_eq 53 _ (-3) 7205759403792793] <;> norm_num

/-- C75. Without the tolerance the statement is false: in double precision, one thread reports the mean
recall of three users with 0.1, 0.2 and 0.3 as `7205759403792795 / 2^55`, and two threads in a possible
interleaving report `7205759403792793 / 2^55`. -/
theorem C75_bitwise_counterexample :
    ∃ (s₁ : State 1 Metrics Unit) (s₂ : State 2 Metrics Unit),
      getMetricsRegionFl double exampleCore exampleRows 3 0 1 false sched₁ = .ok s₁ ∧ Finished s₁ ∧
      getMetricsRegionFl double exampleCore exampleRows 3 0 2 false sched₂ = .ok s₂ ∧ Finished s₂ ∧
      (asDictFl double 12 (mergeWorkersFl double s₁)).recall ≠
        (asDictFl double 12 (mergeWorkersFl double s₂)).recall := by
  refine ⟨exampleRun sched₁, exampleRun sched₂, exampleRun_ok (by omega) _, ?_,
    exampleRun_ok (by omega) _, ?_, ?_⟩
  · intro t
    fin_cases t
    rfl
  · intro t
    fin_cases t <;> rfl
  · rw [recall₁, recall₂]
    norm_num

/-- The hypotheses of the theorems above are met by the two runs of the counterexample, whose results
therefore differ by at most 33 roundings. -/
example : CloseReport (2 ^ (-53 : ℤ)) (4 * 3 + 2 * 3 + 1 + 2 + 12)
    (asDictFl double 12 (mergeWorkersFl double (exampleRun sched₁)))
    (asDictFl double 12 (mergeWorkersFl double (exampleRun sched₂))) :=
  (C75_thread_counts (by positivity) (by norm_num) C75_double.1 C75_double.2.1 exampleCore exampleRows 3 0 1 2
    false sched₁ sched₂ _ _ (exampleRun_ok (by omega) _) (by intro t; fin_cases t; rfl)
    (exampleRun_ok (by omega) _) (by intro t; fin_cases t <;> rfl)).1

/-- Two blocks of the example matrix, evaluated with one thread each. -/
example : ∃ ms, BatchRuns (S := Nat) double exampleCore 3 false 1 0 [[exampleRows.getD 0 (fun _ => ⊥)],
    [exampleRows.getD 1 (fun _ => ⊥)]] ms ∧ ms.length = 2 := by
  refine ⟨_, BatchRuns.cons (t := 1) [0, 0, 0, 0] _ (le_refl 1) rfl ?_
    (BatchRuns.cons (t := 1) [0, 0, 0, 0] _ (le_refl 1) rfl ?_ (BatchRuns.nil _)), rfl⟩
  · intro t
    fin_cases t
    rfl
  · intro t
    fin_cases t
    rfl

end Irspack.Props
