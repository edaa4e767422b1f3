import Verif.Proofs.Ranking
import Verif.Model.PyEvaluator
import Mathlib.Algebra.BigOperators.Intervals

namespace Irspack.Evaluation
open Irspack Spec

variable {S : Type} [LinearOrder S] [OrderBot S]

/-- the evaluator's core has as many rows and columns as the evaluator says -/
structure Evaluator.WF (ev : Evaluator) : Prop where
  users : ev.core.gtRows.length = ev.nUsers
  items : ev.core.nItems = ev.nItems

/-- contribution of user `u` with (masked) scores `R u` -/
noncomputable def Evaluator.rowG (ev : Evaluator) (R : Nat → ScoreRow S) (cutoff u : Nat) : Metrics :=
  oneUser + if ev.core.gtSet u = ∅ then 0 else
    contribution ev.recallWithCutoff
      (topCutoff ev.core.nItems (ev.core.recommendableFor u) cutoff (R u)) (ev.core.gtSet u)

def Evaluator.ArgsOk (ev : Evaluator) (cutoff : Nat) : Prop :=
  0 < ev.nThreads ∧ 0 < cutoff ∧ cutoff ≤ ev.nItems

instance (ev : Evaluator) (cutoff : Nat) : Decidable (ev.ArgsOk cutoff) := by
  unfold Evaluator.ArgsOk; infer_instance

theorem checkArgs_block (ev : Evaluator) (hw : ev.WF) (len cutoff start : Nat) (hlen : 0 < len)
    (hb : start + len ≤ ev.nUsers) :
    ev.core.checkArgs len cutoff start ev.nThreads =
      if ev.ArgsOk cutoff then .ok () else .error .invalidArgument := by
  unfold Core.checkArgs Core.nUsers Evaluator.ArgsOk
  rw [hw.users, hw.items]
  have h1 : ev.nUsers > start := by omega
  by_cases h3 : ev.nThreads > 0 <;> by_cases h4 : cutoff > 0 <;> by_cases h5 : cutoff ≤ ev.nItems <;>
    simp [h1, hb, h3, h4, h5]

theorem getMetrics_block (ev : Evaluator) (hw : ev.WF) (R : Nat → ScoreRow S) (rows : List (ScoreRow S))
    (start cutoff : Nat) (hlen : 0 < rows.length) (hb : start + rows.length ≤ ev.nUsers)
    (hR : ∀ k (h : k < rows.length), rows[k] = R (start + k)) :
    ev.core.getMetrics rows cutoff start ev.nThreads ev.recallWithCutoff =
      if ev.ArgsOk cutoff then
        .ok (∑ u ∈ Finset.Ico start (start + rows.length), ev.rowG R cutoff u)
      else .error .invalidArgument := by
  rw [getMetrics_eq, checkArgs_block ev hw _ _ _ hlen hb]
  by_cases h : ev.ArgsOk cutoff
  · simp only [h, if_true]
    congr 1
    rw [Finset.sum_Ico_eq_sum_range]
    simp only [Nat.add_sub_cancel_left]
    apply Finset.sum_congr rfl
    intro k hk
    have hk' : k < rows.length := by simpa using hk
    unfold rowContribution Evaluator.rowG
    rw [List.getD_eq_getElem?_getD, List.getElem?_eq_getElem hk', Option.getD_some, hR k hk',
      Nat.add_comm k start]
  · simp only [h, if_false]

theorem evalBlock_eq (ev : Evaluator) (hw : ev.WF) (R : Nat → ScoreRow S) (rows : List (ScoreRow S))
    (start : Nat) (hlen : 0 < rows.length) (hb : start + rows.length ≤ ev.nUsers)
    (hR : ∀ k (h : k < rows.length), rows[k] = R (start + k)) (ms : List (Nat × Metrics)) :
    ev.evalBlock rows start ms =
      if ∀ p ∈ ms, ev.ArgsOk p.1 then
        .ok (ms.map (fun p => (p.1, p.2 +
          ∑ u ∈ Finset.Ico start (start + rows.length), ev.rowG R p.1 u)))
      else .error .invalidArgument := by
  induction ms with
  | nil => simp [Evaluator.evalBlock]
  | cons p ms ih =>
    obtain ⟨cutoff, m⟩ := p
    unfold Evaluator.evalBlock
    rw [getMetrics_block ev hw R rows start cutoff hlen hb hR, ih]
    by_cases h1 : ev.ArgsOk cutoff
    · by_cases h2 : ∀ p ∈ ms, ev.ArgsOk p.1
      · have h3 : ∀ p ∈ (cutoff, m) :: ms, ev.ArgsOk p.1 := by
          intro p hp
          rcases List.mem_cons.mp hp with rfl | hp
          · exact h1
          · exact h2 p hp
        rw [if_pos h1, if_pos h2, if_pos h3]
        rfl
      · have h3 : ¬ ∀ p ∈ (cutoff, m) :: ms, ev.ArgsOk p.1 :=
          fun h => h2 (fun p hp => h p (List.mem_cons_of_mem _ hp))
        rw [if_pos h1, if_neg h2, if_neg h3]
    · have h3 : ¬ ∀ p ∈ (cutoff, m) :: ms, ev.ArgsOk p.1 :=
        fun h => h1 (h (cutoff, m) List.mem_cons_self)
      rw [if_neg h1, if_neg h3]

/-- well-formed chunk -/
def Chunk.Good (nItems : Nat) (ch : Chunk S) : Prop :=
  ch.isArray2d = true ∧ ch.nCols = nItems ∧ ch.dtypeOk = true

/-- the scores after masking -/
def maskedScore (mask : Option Mask) (R : Nat → ScoreRow S) (u : Nat) : ScoreRow S :=
  match mask with
  | none => R u
  | some msk => fun i => if msk.nz u i then ⊥ else R u i

theorem applyMask_getElem (nz : Nat → Nat → Bool) (start : Nat) (rows : List (ScoreRow S)) (k : Nat)
    (h : k < (applyMask nz start rows).length) (h' : k < rows.length) :
    (applyMask nz start rows)[k] = fun i => if nz (start + k) i then ⊥ else rows[k] i := by
  simp [applyMask]

theorem applyMask_length (nz : Nat → Nat → Bool) (start : Nat) (rows : List (ScoreRow S)) :
    (applyMask nz start rows).length = rows.length := by simp [applyMask]

theorem chunkLoop_eq (ev : Evaluator) (hw : ev.WF) (mask : Option Mask) (R : Nat → ScoreRow S)
    (chunks : List (Chunk S)) :
    ∀ (start : Nat) (ms : List (Nat × Metrics)), (∀ ch ∈ chunks, ch.Good ev.nItems) →
    start + (chunks.flatMap Chunk.rows).length ≤ ev.nUsers →
    (∀ k (h : k < (chunks.flatMap Chunk.rows).length), (chunks.flatMap Chunk.rows)[k] = R (start + k)) →
    ev.chunkLoop mask chunks start ms =
      if chunks.flatMap Chunk.rows = [] ∨ ∀ p ∈ ms, ev.ArgsOk p.1 then
        .ok (start + (chunks.flatMap Chunk.rows).length, ms.map (fun p => (p.1, p.2 +
          ∑ u ∈ Finset.Ico start (start + (chunks.flatMap Chunk.rows).length),
            ev.rowG (maskedScore mask R) p.1 u)))
      else .error .invalidArgument := by
  induction chunks with
  | nil => intro start ms _ _ _; simp [Evaluator.chunkLoop]
  | cons ch chunks ih =>
    intro start ms hgood hle hR
    have hg := hgood ch List.mem_cons_self
    simp only [List.flatMap_cons, List.length_append] at hle hR ⊢
    unfold Evaluator.chunkLoop
    rw [if_neg (by simp [hg.1]), if_neg (by simp [hg.2.1]), if_neg (by simp [hg.2.2]),
      if_neg (by omega)]
    have hrest : ∀ ch ∈ chunks, ch.Good ev.nItems := fun c hc => hgood c (List.mem_cons_of_mem _ hc)
    by_cases h0 : ch.rows.length = 0
    · rw [if_pos h0]
      have hnil : ch.rows = [] := List.length_eq_zero_iff.mp h0
      rw [ih start ms hrest (by omega) (by
        intro k hk
        have := hR k (by rw [h0]; omega)
        rw [← this]; simp only [hnil, List.nil_append])]
      simp only [hnil, List.nil_append, List.length_nil, Nat.zero_add]
    · rw [if_neg h0]
      have hlen : 0 < ch.rows.length := Nat.pos_of_ne_zero h0
      have hne : ¬ (ch.rows ++ chunks.flatMap Chunk.rows = []) := by
        intro h; simp at h; rw [h.1] at h0; simp at h0
      have hev := fun (rows : List (ScoreRow S)) (hl : rows.length = ch.rows.length)
        (hr : ∀ k (h : k < rows.length), rows[k] = maskedScore mask R (start + k)) =>
        evalBlock_eq ev hw (maskedScore mask R) rows start (by omega) (by omega) hr ms
      have hrows : ∀ k (h : k < ch.rows.length), ch.rows[k] = R (start + k) := by
        intro k h
        rw [← hR k (by omega), List.getElem_append_left h]
      have hmasked : (maskRows mask start ch.rows).length = ch.rows.length ∧
          ∀ k (h : k < (maskRows mask start ch.rows).length),
            (maskRows mask start ch.rows)[k] = maskedScore mask R (start + k) := by
        cases mask with
        | none => exact ⟨rfl, fun k h => hrows k h⟩
        | some msk =>
          refine ⟨applyMask_length _ _ _, fun k h => ?_⟩
          have h' : k < ch.rows.length := by
            have := h; simp only [maskRows] at this; rwa [applyMask_length] at this
          have := applyMask_getElem msk.nz start ch.rows k (by rwa [applyMask_length]) h'
          simp only [maskRows, maskedScore]
          rw [this, hrows k h']
      obtain ⟨hl, hr⟩ := hmasked
      rw [hev _ hl hr]
      by_cases hok : ∀ p ∈ ms, ev.ArgsOk p.1
      · have hok' : ∀ p ∈ ms.map (fun p => (p.1, p.2 + ∑ u ∈ Finset.Ico start
            (start + (maskRows mask start ch.rows).length), ev.rowG (maskedScore mask R) p.1 u)), ev.ArgsOk p.1 := by
          intro p hp
          obtain ⟨q, hq, rfl⟩ := List.mem_map.mp hp
          exact hok q hq
        rw [if_pos hok, if_pos (Or.inr hok)]
        simp only
        rw [ih (start + ch.rows.length) _ hrest (by omega) (by
          intro k hk
          have := hR (ch.rows.length + k) (by omega)
          rw [List.getElem_append_right (by omega)] at this
          simp only [Nat.add_sub_cancel_left] at this
          rw [this, Nat.add_assoc]), if_pos (Or.inr hok')]
        congr 2
        · omega
        · rw [List.map_map]
          apply List.map_congr_left
          intro p _
          simp only [Function.comp, hl]
          rw [add_assoc, Finset.sum_Ico_consecutive _ (by omega) (by omega), Nat.add_assoc]
      · rw [if_neg hok, if_neg (by rintro (h | h); exact hne h; exact hok h)]

/-- One-shot evaluation: no chunks, no blocks. -/
noncomputable def Evaluator.reference (ev : Evaluator) (R : Nat → ScoreRow S) (cutoffs : List Nat) :
    Except Err (List PyDict) :=
  if ev.nUsers = 0 ∨ ∀ c ∈ cutoffs, ev.ArgsOk c then
    .ok (cutoffs.map (fun c => ev.metricsAsDict (∑ u ∈ Finset.range ev.nUsers, ev.rowG R c u)))
  else .error .invalidArgument

theorem scoresFromChunksWith_eq (ev : Evaluator) (hw : ev.WF) (mask : Option Mask)
    (R : Nat → ScoreRow S) (chunks : List (Chunk S)) (cutoffs : List Nat)
    (hgood : ∀ ch ∈ chunks, ch.Good ev.nItems)
    (hlen : (chunks.flatMap Chunk.rows).length = ev.nUsers)
    (hR : ∀ k (h : k < (chunks.flatMap Chunk.rows).length), (chunks.flatMap Chunk.rows)[k] = R k) :
    ev.scoresFromChunksWith mask chunks cutoffs = ev.reference (maskedScore mask R) cutoffs := by
  unfold Evaluator.scoresFromChunksWith Evaluator.reference
  rw [chunkLoop_eq ev hw mask R chunks 0 _ hgood (by omega) (by intro k h; rw [hR k h, Nat.zero_add])]
  have hnil : chunks.flatMap Chunk.rows = [] ↔ ev.nUsers = 0 := by
    rw [← List.length_eq_zero_iff, hlen]
  have hall : (∀ p ∈ cutoffs.map (fun c => (c, Metrics.empty)), ev.ArgsOk p.1) ↔
      ∀ c ∈ cutoffs, ev.ArgsOk c := by
    constructor
    · intro h c hc; exact h (c, Metrics.empty) (List.mem_map.mpr ⟨c, hc, rfl⟩)
    · intro h p hp
      obtain ⟨c, hc, rfl⟩ := List.mem_map.mp hp
      exact h c hc
  simp only [hnil, hall]
  by_cases h : ev.nUsers = 0 ∨ ∀ c ∈ cutoffs, ev.ArgsOk c
  · rw [if_pos h, if_pos h]
    simp only
    rw [if_neg (by rw [hlen]; omega)]
    congr 1
    rw [List.map_map, List.map_map]
    apply List.map_congr_left
    intro c _
    simp only [Function.comp, hlen, Nat.zero_add, empty_eq_zero, zero_add, Finset.range_eq_Ico]
  · rw [if_neg h, if_neg h]

theorem pyRange_unfold (start stop mb : Nat) (hmb : 0 < mb) :
    pyRange start stop mb = if stop ≤ start then [] else start :: pyRange (start + mb) stop mb := by
  unfold pyRange
  split
  · rename_i h
    rw [show stop - start = 0 by omega, Nat.zero_add, Nat.div_eq_of_lt (by omega)]
    simp
  · rename_i h
    have : (stop - start + (mb - 1)) / mb = (stop - (start + mb) + (mb - 1)) / mb + 1 := by
      by_cases hd : stop - start ≤ mb
      · rw [show stop - (start + mb) = 0 by omega, Nat.zero_add,
          Nat.div_eq_of_lt (show mb - 1 < mb by omega),
          show stop - start + (mb - 1) = (stop - start - 1) + mb by omega,
          Nat.add_div_right _ hmb, Nat.div_eq_of_lt (by omega)]
      · rw [show stop - start + (mb - 1) = (stop - (start + mb) + (mb - 1)) + mb by omega,
          Nat.add_div_right _ hmb]
    rw [this, List.range_succ_eq_map, List.map_cons, List.map_map]
    congr 1
    · simp
    · apply List.map_congr_left
      intro k _
      simp only [Function.comp, Nat.succ_mul]
      omega

theorem slices_flatten {α : Type} (rows : List α) (mb : Nat) (hmb : 0 < mb) (start : Nat) :
    (pyRange start rows.length mb).flatMap (fun s => (rows.drop s).take mb) = rows.drop start := by
  generalize hd : rows.length - start = d
  induction d using Nat.strong_induction_on generalizing start with
  | _ d ih =>
    rw [pyRange_unfold _ _ _ hmb]
    split
    · rename_i h; rw [List.drop_eq_nil_of_le h]; rfl
    · rename_i h
      rw [List.flatMap_cons, ih (rows.length - (start + mb)) (by omega) (start + mb) rfl]
      rw [← List.drop_drop, List.take_append_drop]

theorem scoresFromMatrixWith_eq (ev : Evaluator) (hw : ev.WF) (mask : Option Mask)
    (R : Nat → ScoreRow S) (m : Chunk S) (cutoffs : List Nat) (hgood : m.Good ev.nItems)
    (hlen : m.rows.length = ev.nUsers) (hmb : 0 < ev.mbSize)
    (hR : ∀ k (h : k < m.rows.length), m.rows[k] = R k) :
    ev.scoresFromMatrixWith mask m cutoffs = ev.reference (maskedScore mask R) cutoffs := by
  unfold Evaluator.scoresFromMatrixWith
  rw [if_neg (by simp [hgood.1, hlen, hgood.2.1]), if_neg (by simp [hgood.2.2]), if_neg (by omega)]
  have hfl : (((pyRange 0 ev.nUsers ev.mbSize).map (fun s =>
      ({ m with rows := (m.rows.drop s).take ev.mbSize } : Chunk S))).flatMap Chunk.rows) = m.rows := by
    rw [List.flatMap_map, ← hlen]
    have := slices_flatten m.rows ev.mbSize hmb 0
    simpa using this
  apply scoresFromChunksWith_eq ev hw mask R
  · intro ch hch
    obtain ⟨s, _, rfl⟩ := List.mem_map.mp hch
    exact hgood
  · rw [hfl, hlen]
  · intro k h
    simp only [hfl] at h ⊢
    exact hR k h

/-! ### models -/

/-- `get_score` and `get_score_block` of the recommender agree with one score function. -/
structure Recommender.Coherent (r : Recommender S) (score : Nat → ScoreRow S) : Prop where
  block : ∀ a b, b ≤ r.nUsers → r.getScoreBlock a b = .ok ((List.range' a (b - a)).map score) ∨
    r.getScoreBlock a b = .error .notImplemented
  rows : ∀ idx : List Nat, (∀ u ∈ idx, u < r.nUsers) → r.getScore idx = .ok (idx.map score)

theorem Recommender.Coherent.block_eq {r : Recommender S} {score : Nat → ScoreRow S}
    (h : r.Coherent score) (a b : Nat) (hb : b ≤ r.nUsers) :
    r.block a b = .ok ((List.range' a (b - a)).map score) := by
  unfold Recommender.block
  rcases h.block a b hb with h1 | h1
  · rw [h1]
  · rw [h1]
    simp only
    apply h.rows
    intro u hu
    rw [List.mem_range'_1] at hu
    omega

/-- the mask the model evaluation applies, in evaluator rows -/
def Evaluator.modelMask (ev : Evaluator) (r : Recommender S) : Nat → Nat → Bool :=
  match ev.masked with
  | none => fun u i => r.trainNz (ev.offset + u) i
  | some msk => msk.nz

theorem modelLoop_eq (ev : Evaluator) (hw : ev.WF) (r : Recommender S) (score : Nat → ScoreRow S)
    (hcoh : r.Coherent score) (hmb : 0 < ev.mbSize) (hn : ev.offset + ev.nUsers ≤ r.nUsers) :
    ∀ (d k : Nat) (ms : List (Nat × Metrics)), d = ev.nUsers - k → k ≤ ev.nUsers →
    ev.modelLoop r (pyRange (ev.offset + k) (ev.offset + ev.nUsers) ev.mbSize) ms =
      if ev.nUsers = k ∨ ∀ p ∈ ms, ev.ArgsOk p.1 then
        .ok (ms.map (fun p => (p.1, p.2 + ∑ u ∈ Finset.Ico k ev.nUsers,
          ev.rowG (fun u i => if ev.modelMask r u i then ⊥ else score (ev.offset + u) i) p.1 u)))
      else .error .invalidArgument := by
  intro d
  induction d using Nat.strong_induction_on with
  | _ d ih =>
    intro k ms hd hk
    rw [pyRange_unfold _ _ _ hmb]
    by_cases h : ev.offset + ev.nUsers ≤ ev.offset + k
    · have : ev.nUsers = k := by omega
      rw [if_pos h, if_pos (Or.inl this)]
      simp [Evaluator.modelLoop, this]
    · rw [if_neg h]
      unfold Evaluator.modelLoop
      set b := min (ev.offset + k + ev.mbSize) (ev.offset + ev.nUsers) with hbdef
      have hb1 : b ≤ ev.offset + ev.nUsers := by omega
      have hb2 : ev.offset + k < b := by omega
      simp only
      rw [hcoh.block_eq _ b (by omega)]
      simp only
      set rows := (List.range' (ev.offset + k) (b - (ev.offset + k))).map score with hrows
      have hl : rows.length = b - (ev.offset + k) := by simp [hrows]
      have hget : ∀ j (hj : j < rows.length), rows[j] = score (ev.offset + k + j) := by
        intro j hj; simp [hrows]
      have hsub : ev.offset + k - ev.offset = k := by omega
      have key : (ev.maskModelRows r (ev.offset + k) rows).length = rows.length ∧
          ∀ j (hj : j < (ev.maskModelRows r (ev.offset + k) rows).length),
            (ev.maskModelRows r (ev.offset + k) rows)[j] =
            (fun u i => if ev.modelMask r u i then ⊥ else score (ev.offset + u) i) (k + j) := by
        unfold Evaluator.modelMask Evaluator.maskModelRows
        cases hm : ev.masked with
        | none =>
          refine ⟨applyMask_length _ _ _, fun j hj => ?_⟩
          have hj' : j < rows.length := by simpa [applyMask_length] using hj
          have := applyMask_getElem r.trainNz (ev.offset + k) rows j (by rwa [applyMask_length]) hj'
          simp only
          rw [this, hget j hj']
          simp only [Nat.add_assoc]
        | some msk =>
          refine ⟨applyMask_length _ _ _, fun j hj => ?_⟩
          have hj' : j < rows.length := by simpa [applyMask_length] using hj
          have := applyMask_getElem msk.nz (ev.offset + k - ev.offset) rows j
            (by rwa [applyMask_length]) hj'
          simp only
          rw [this, hget j hj', hsub]
          simp only [Nat.add_assoc]
      obtain ⟨hl', hr'⟩ := key
      rw [hsub]
      rw [evalBlock_eq ev hw (fun u i => if ev.modelMask r u i then ⊥ else score (ev.offset + u) i)
        _ k (by omega) (by omega) hr' ms]
      by_cases hok : ∀ p ∈ ms, ev.ArgsOk p.1
      · rw [if_pos hok, if_pos (Or.inr hok)]
        simp only
        rw [hl', hl]
        by_cases hend : ev.offset + k + ev.mbSize ≤ ev.offset + ev.nUsers
        · have hb3 : b - (ev.offset + k) = ev.mbSize := by omega
          rw [hb3, Nat.add_assoc ev.offset k ev.mbSize,
            ih (ev.nUsers - (k + ev.mbSize)) (by omega) (k + ev.mbSize) _ rfl (by omega),
            if_pos (Or.inr (by
              intro p hp
              obtain ⟨q, hq, rfl⟩ := List.mem_map.mp hp
              exact hok q hq))]
          congr 1
          rw [List.map_map]
          apply List.map_congr_left
          intro p _
          simp only [Function.comp]
          rw [add_assoc, Finset.sum_Ico_consecutive _ (by omega) (by omega)]
        · rw [pyRange_unfold _ _ _ hmb, if_pos (by omega)]
          have hb3 : k + (b - (ev.offset + k)) = ev.nUsers := by omega
          simp only [Evaluator.modelLoop, hb3]
      · rw [if_neg hok, if_neg (by rintro (h | h); omega; exact hok h)]

theorem scoresOfModel_eq (ev : Evaluator) (hw : ev.WF) (r : Recommender S) (score : Nat → ScoreRow S)
    (hcoh : r.Coherent score) (hmb : 0 < ev.mbSize) (hn : ev.offset + ev.nUsers ≤ r.nUsers)
    (hi : ev.nItems = r.nItems) (cutoffs : List Nat) :
    ev.scoresOfModel r cutoffs =
      ev.reference (fun u i => if ev.modelMask r u i then ⊥ else score (ev.offset + u) i) cutoffs := by
  unfold Evaluator.scoresOfModel Evaluator.reference
  rw [if_neg (by omega), if_neg (by simpa using hi), if_neg (by omega)]
  have := modelLoop_eq ev hw r score hcoh hmb hn ev.nUsers 0
    (cutoffs.map (fun c => (c, Metrics.empty))) rfl (Nat.zero_le _)
  rw [Nat.add_zero] at this
  rw [this]
  have hall : (∀ p ∈ cutoffs.map (fun c => (c, Metrics.empty)), ev.ArgsOk p.1) ↔
      ∀ c ∈ cutoffs, ev.ArgsOk c := by
    constructor
    · intro h c hc; exact h (c, Metrics.empty) (List.mem_map.mpr ⟨c, hc, rfl⟩)
    · intro h p hp
      obtain ⟨c, hc, rfl⟩ := List.mem_map.mp hp
      exact h c hc
  simp only [hall]
  by_cases h : ev.nUsers = 0 ∨ ∀ c ∈ cutoffs, ev.ArgsOk c
  · rw [if_pos h, if_pos h]
    simp only
    congr 1
    rw [List.map_map, List.map_map]
    apply List.map_congr_left
    intro c _
    simp only [Function.comp, empty_eq_zero, zero_add, Finset.range_eq_Ico]
  · rw [if_neg h, if_neg h]

/-! ### errors of the chunk loop -/

theorem evalBlock_error (ev : Evaluator) (rows : List (ScoreRow S)) (start : Nat)
    (ms : List (Nat × Metrics)) (e : Err) (h : ev.evalBlock rows start ms = .error e) :
    e = .invalidArgument := by
  induction ms with
  | nil => simp [Evaluator.evalBlock] at h
  | cons p ms ih =>
    obtain ⟨cutoff, m⟩ := p
    unfold Evaluator.evalBlock at h
    cases hg : ev.core.getMetrics rows cutoff start ev.nThreads ev.recallWithCutoff with
    | error e' =>
      rw [hg] at h
      injection h with h
      subst h
      rw [getMetrics_eq] at hg
      cases hca : ev.core.checkArgs rows.length cutoff start ev.nThreads with
      | error e'' =>
        rw [hca] at hg
        injection hg with hg
        subst hg
        unfold Core.checkArgs at hca
        repeat' split at hca
        all_goals first | (injection hca with hca; exact hca.symm) | cases hca
      | ok _ => rw [hca] at hg; cases hg
    | ok x =>
      rw [hg] at h
      simp only at h
      cases hr : ev.evalBlock rows start ms with
      | error e' => rw [hr] at h; injection h with h; subst h; exact ih hr
      | ok _ => rw [hr] at h; cases h

theorem chunkLoop_error (ev : Evaluator) (mask : Option Mask) (chunks : List (Chunk S)) :
    ∀ (start : Nat) (ms : List (Nat × Metrics)) (e : Err),
    ev.chunkLoop mask chunks start ms = .error e → e = .valueError ∨ e = .invalidArgument := by
  induction chunks with
  | nil => intro start ms e h; simp [Evaluator.chunkLoop] at h
  | cons ch chunks ih =>
    intro start ms e h
    unfold Evaluator.chunkLoop at h
    split at h
    · injection h with h; exact Or.inl h.symm
    split at h
    · injection h with h; exact Or.inl h.symm
    split at h
    · injection h with h; exact Or.inl h.symm
    split at h
    · injection h with h; exact Or.inl h.symm
    split at h
    · exact ih _ _ _ h
    · split at h
      · rename_i e' hev
        injection h with h
        subst h
        exact Or.inr (evalBlock_error _ _ _ _ _ hev)
      · exact ih _ _ _ h

theorem chunkLoop_ok (ev : Evaluator) (mask : Option Mask) (chunks : List (Chunk S)) :
    ∀ (start : Nat) (ms : List (Nat × Metrics)) (r : Nat × List (Nat × Metrics)),
    ev.chunkLoop mask chunks start ms = .ok r →
    (∀ ch ∈ chunks, ch.Good ev.nItems) ∧ r.1 = start + (chunks.flatMap Chunk.rows).length := by
  induction chunks with
  | nil => intro start ms r h; simp [Evaluator.chunkLoop] at h; subst h; simp
  | cons ch chunks ih =>
    intro start ms r h
    unfold Evaluator.chunkLoop at h
    split at h
    · cases h
    rename_i h1
    split at h
    · cases h
    rename_i h2
    split at h
    · cases h
    rename_i h3
    split at h
    · cases h
    have hg : ch.Good ev.nItems := ⟨by simpa using h1, by simpa using h2, by simpa using h3⟩
    have hcons : ∀ {s : Nat}, (∀ ch ∈ chunks, ch.Good ev.nItems) ∧
        r.1 = s + (chunks.flatMap Chunk.rows).length → s = start + ch.rows.length →
        (∀ c ∈ ch :: chunks, c.Good ev.nItems) ∧
        r.1 = start + ((ch :: chunks).flatMap Chunk.rows).length := by
      rintro s ⟨ha, hb⟩ hs
      refine ⟨?_, ?_⟩
      · intro c hc
        rcases List.mem_cons.mp hc with rfl | hc
        · exact hg
        · exact ha c hc
      · rw [hb, hs, List.flatMap_cons, List.length_append]; omega
    split at h
    · rename_i h0
      exact hcons (ih _ _ _ h) (by omega)
    · split at h
      · cases h
      · exact hcons (ih _ _ _ h) rfl

end Irspack.Evaluation

namespace Irspack.Evaluation
open Irspack Spec

variable {S : Type} [LinearOrder S] [OrderBot S]

/-- how many items are recommendable to somebody, as `Evaluator.__init__` counts them -/
def countRecommendable (nItems : Nat) (arg : List (List Nat)) : Nat :=
  match arg with
  | [] => nItems
  | [l] => l.length
  | ls => ls.flatten.toFinset.card

theorem evaluator_make {gtRows : List (List Nat)} {nItems offset cutoff : Nat}
    {recommendable : Option (List Nat)} {perUser : Option (List (List Nat))} {masked : Option Mask}
    {nThreads : Nat} {capped : Bool} {mb : Nat} {ev : Evaluator}
    (h : Evaluator.make gtRows nItems offset cutoff recommendable perUser masked nThreads capped mb
      = .ok ev) :
    ∃ arg, recommendableArg gtRows.length recommendable perUser = .ok arg ∧
      Core.make gtRows nItems arg = .ok ev.core ∧
      ev = ⟨ev.core, countRecommendable nItems arg, offset, gtRows.length, nItems, cutoff, nThreads, mb,
        masked, capped⟩ ∧
      (∀ msk, masked = some msk → msk.nRows = gtRows.length ∧ msk.nCols = nItems) := by
  unfold Evaluator.make at h
  cases ha : recommendableArg gtRows.length recommendable perUser with
  | error e => rw [ha] at h; cases h
  | ok arg =>
    rw [ha] at h
    simp only at h
    cases hc : Core.make gtRows nItems arg with
    | error e => rw [hc] at h; cases h
    | ok core =>
      rw [hc] at h
      simp only at h
      refine ⟨arg, rfl, ?_⟩
      cases masked with
      | none =>
        injection h with h
        subst h
        exact ⟨hc, rfl, fun _ h => by cases h⟩
      | some msk =>
        simp only at h
        split at h
        · cases h
        · rename_i hs
          injection h with h
          subst h
          refine ⟨hc, rfl, fun m h => ?_⟩
          injection h with h
          subst h
          push Not at hs
          exact hs

theorem evaluator_wf {gtRows : List (List Nat)} {nItems offset cutoff : Nat}
    {recommendable : Option (List Nat)} {perUser : Option (List (List Nat))} {masked : Option Mask}
    {nThreads : Nat} {capped : Bool} {mb : Nat} {ev : Evaluator}
    (h : Evaluator.make gtRows nItems offset cutoff recommendable perUser masked nThreads capped mb
      = .ok ev) :
    ev.WF ∧ ev.core.WF ∧ ev.nUsers = gtRows.length ∧ ev.nItems = nItems ∧ ev.masked = masked ∧
      ev.mbSize = mb ∧ ev.nThreads = nThreads ∧ ev.recallWithCutoff = capped ∧ ev.offset = offset ∧
      ev.cutoff = cutoff := by
  obtain ⟨arg, _, hc, he, _⟩ := evaluator_make h
  obtain ⟨hw, hi, hg, _⟩ := make_wf hc
  refine ⟨⟨?_, ?_⟩, hw, ?_, ?_, ?_, ?_, ?_, ?_, ?_, ?_⟩
  · rw [hg, he]
  · rw [hi, he]
  all_goals rw [he]

/-- Two evaluators built from the same data, differing in `mb_size` and a positive thread count,
have the same reference result. -/
theorem reference_congr {gtRows : List (List Nat)} {nItems offset cutoff cutoff' : Nat}
    {recommendable : Option (List Nat)} {perUser : Option (List (List Nat))} {masked masked' : Option Mask}
    {nThreads nThreads' : Nat} {capped : Bool} {mb mb' : Nat} {ev ev' : Evaluator} {offset' : Nat}
    (h : Evaluator.make gtRows nItems offset cutoff recommendable perUser masked nThreads capped mb
      = .ok ev)
    (h' : Evaluator.make gtRows nItems offset' cutoff' recommendable perUser masked' nThreads' capped mb'
      = .ok ev')
    (hT : 0 < nThreads ↔ 0 < nThreads') (R : Nat → ScoreRow S) (cutoffs : List Nat) :
    ev.reference R cutoffs = ev'.reference R cutoffs := by
  obtain ⟨arg, ha, hc, he, _⟩ := evaluator_make h
  obtain ⟨arg', ha', hc', he', _⟩ := evaluator_make h'
  rw [ha] at ha'
  injection ha' with ha'
  subst ha'
  rw [hc] at hc'
  injection hc' with hc'
  have h1 : ∀ c, ev.ArgsOk c ↔ ev'.ArgsOk c := by
    intro c; unfold Evaluator.ArgsOk; rw [he, he']; simp only; rw [hT]
  have h2 : ev.nUsers = ev'.nUsers := by rw [he, he']
  have h3 : ∀ m, ev.metricsAsDict m = ev'.metricsAsDict m := by
    intro m; unfold Evaluator.metricsAsDict; rw [he, he']
  have h4 : ∀ c u, ev.rowG R c u = ev'.rowG R c u := by
    intro c u; unfold Evaluator.rowG; rw [← hc']; rw [he, he']
  unfold Evaluator.reference
  simp only [h1, h2, h3, h4]

/-- The reference result is the one-shot C++ evaluation of all rows. -/
theorem reference_one_shot (ev : Evaluator) (hw : ev.WF) (hn : 0 < ev.nUsers) (R : Nat → ScoreRow S)
    (cutoff : Nat) :
    ev.reference R [cutoff] =
      match ev.core.getMetrics ((List.range ev.nUsers).map R) cutoff 0 ev.nThreads
        ev.recallWithCutoff with
      | .error e => .error e
      | .ok m => .ok [ev.metricsAsDict m] := by
  rw [getMetrics_block ev hw R _ 0 cutoff (by simpa using hn) (by simp) (by intro k h; simp)]
  unfold Evaluator.reference
  by_cases h : ev.ArgsOk cutoff
  · rw [if_pos (Or.inr (by simpa using h)), if_pos h]
    simp only [List.map_cons, List.map_nil, Finset.range_eq_Ico, List.length_map, List.length_range,
      Nat.zero_add]
  · rw [if_neg (by rintro (h' | h'); omega; exact h (h' cutoff (by simp))), if_neg h]

theorem reference_map (ev : Evaluator) (R : Nat → ScoreRow S) (cutoffs : List Nat) (ds : List PyDict)
    (h : ev.reference R cutoffs = .ok ds) :
    ds.length = cutoffs.length ∧ ∀ j (hj : j < cutoffs.length) (hj' : j < ds.length),
      ev.reference R [cutoffs[j]] = .ok [ds[j]] := by
  unfold Evaluator.reference at h
  split at h
  · rename_i hok
    injection h with h
    subst h
    refine ⟨by simp, fun j hj hj' => ?_⟩
    unfold Evaluator.reference
    rw [if_pos]
    · simp
    · rcases hok with hok | hok
      · exact Or.inl hok
      · right
        intro c hc
        simp only [List.mem_singleton] at hc
        subst hc
        exact hok _ (List.getElem_mem hj)
  · cases h

theorem evalBlock_ok_of_args (ev : Evaluator) (hw : ev.WF) (rows : List (ScoreRow S))
    (start : Nat) (hlen : 0 < rows.length) (hb : start + rows.length ≤ ev.nUsers)
    (ms : List (Nat × Metrics)) (hok : ∀ p ∈ ms, ev.ArgsOk p.1) :
    ∃ ms', ev.evalBlock rows start ms = .ok ms' ∧ ∀ p ∈ ms', ev.ArgsOk p.1 := by
  rw [evalBlock_eq ev hw (fun u => rows.getD (u - start) (fun _ => ⊥)) rows start hlen hb (by
    intro k hk
    simp [List.getD_eq_getElem?_getD, List.getElem?_eq_getElem hk]) ms, if_pos hok]
  refine ⟨_, rfl, ?_⟩
  intro p hp
  obtain ⟨q, hq, rfl⟩ := List.mem_map.mp hp
  exact hok q hq

theorem maskRows_length (mask : Option Mask) (start : Nat) (rows : List (ScoreRow S)) :
    (maskRows mask start rows).length = rows.length := by
  cases mask <;> simp [maskRows, applyMask_length]

theorem chunkLoop_error_args (ev : Evaluator) (hw : ev.WF) (mask : Option Mask)
    (chunks : List (Chunk S)) :
    ∀ (start : Nat) (ms : List (Nat × Metrics)) (e : Err), (∀ p ∈ ms, ev.ArgsOk p.1) →
    ev.chunkLoop mask chunks start ms = .error e → e = .valueError := by
  induction chunks with
  | nil => intro start ms e _ h; simp [Evaluator.chunkLoop] at h
  | cons ch chunks ih =>
    intro start ms e hok h
    unfold Evaluator.chunkLoop at h
    split at h
    · injection h with h; exact h.symm
    split at h
    · injection h with h; exact h.symm
    split at h
    · injection h with h; exact h.symm
    split at h
    · injection h with h; exact h.symm
    rename_i hb
    split at h
    · exact ih _ _ _ hok h
    · rename_i hne
      obtain ⟨ms', hms, hok'⟩ := evalBlock_ok_of_args ev hw (maskRows mask start ch.rows) start
        (by rw [maskRows_length]; omega) (by rw [maskRows_length]; omega) ms hok
      rw [hms] at h
      exact ih _ _ _ hok' h

/-! ### several cutoffs at once -/

theorem evalBlock_each (ev : Evaluator) (rows : List (ScoreRow S)) (start : Nat) :
    ∀ (ms ms' : List (Nat × Metrics)), ev.evalBlock rows start ms = .ok ms' →
    List.Forall₂ (fun p q => ev.evalBlock rows start [p] = .ok [q]) ms ms' := by
  intro ms
  induction ms with
  | nil => intro ms' h; simp [Evaluator.evalBlock] at h; subst h; exact List.Forall₂.nil
  | cons p ms ih =>
    obtain ⟨cutoff, m⟩ := p
    intro ms' h
    unfold Evaluator.evalBlock at h
    cases hg : ev.core.getMetrics rows cutoff start ev.nThreads ev.recallWithCutoff with
    | error e => rw [hg] at h; cases h
    | ok x =>
      rw [hg] at h
      simp only at h
      cases hr : ev.evalBlock rows start ms with
      | error e => rw [hr] at h; cases h
      | ok ms'' =>
        rw [hr] at h
        injection h with h
        subst h
        refine List.Forall₂.cons ?_ (ih _ hr)
        simp [Evaluator.evalBlock, hg]

theorem modelLoop_each (ev : Evaluator) (r : Recommender S) (starts : List Nat) :
    ∀ (ms ms' : List (Nat × Metrics)), ev.modelLoop r starts ms = .ok ms' →
    List.Forall₂ (fun p q => ev.modelLoop r starts [p] = .ok [q]) ms ms' := by
  induction starts with
  | nil =>
    intro ms ms' h
    simp [Evaluator.modelLoop] at h
    subst h
    simp [Evaluator.modelLoop, List.forall₂_same]
  | cons a rest ih =>
    intro ms ms' h
    unfold Evaluator.modelLoop at h
    simp only at h
    cases hb : r.block a (min (a + ev.mbSize) (ev.offset + ev.nUsers)) with
    | error e => rw [hb] at h; cases h
    | ok rows =>
      rw [hb] at h
      simp only at h
      cases he : ev.evalBlock (ev.maskModelRows r a rows) (a - ev.offset) ms with
      | error e => rw [he] at h; cases h
      | ok ms₁ =>
        rw [he] at h
        have h1 := evalBlock_each _ _ _ _ _ he
        have h2 := ih _ _ h
        clear h he
        induction h1 generalizing ms' with
        | nil => cases h2; exact List.Forall₂.nil
        | cons hp _ ih' =>
          cases h2 with
          | cons hq hrest =>
            refine List.Forall₂.cons ?_ (ih' _ hrest)
            unfold Evaluator.modelLoop
            simp only [hb, hp, hq]

theorem scoresOfModel_each (ev : Evaluator) (r : Recommender S) (cutoffs : List Nat) (ds : List PyDict)
    (h : ev.scoresOfModel r cutoffs = .ok ds) :
    List.Forall₂ (fun c d => ev.scoresOfModel r [c] = .ok [d]) cutoffs ds := by
  unfold Evaluator.scoresOfModel at h
  split at h
  · cases h
  rename_i h1
  split at h
  · cases h
  rename_i h2
  split at h
  · cases h
  rename_i h3
  cases hl : ev.modelLoop r (pyRange ev.offset (ev.offset + ev.nUsers) ev.mbSize)
      (cutoffs.map (fun c => (c, Metrics.empty))) with
  | error e => rw [hl] at h; cases h
  | ok ms =>
    rw [hl] at h
    injection h with h
    subst h
    have := modelLoop_each _ _ _ _ _ hl
    rw [List.forall₂_map_left_iff] at this
    rw [List.forall₂_map_right_iff]
    refine this.imp ?_
    intro c q hcq
    unfold Evaluator.scoresOfModel
    rw [if_neg h1, if_neg h2, if_neg h3]
    simp only [List.map_cons, List.map_nil, hcq]

/-- a run does not look at the evaluator's own `cutoff` attribute -/
theorem evalBlock_cutoff (ev : Evaluator) (c : Nat) (rows : List (ScoreRow S)) (start : Nat)
    (ms : List (Nat × Metrics)) :
    Evaluator.evalBlock { ev with cutoff := c } rows start ms = ev.evalBlock rows start ms := by
  induction ms with
  | nil => rfl
  | cons p ms ih => unfold Evaluator.evalBlock; rw [ih]

theorem modelLoop_cutoff (ev : Evaluator) (c : Nat) (r : Recommender S) (starts : List Nat) :
    ∀ ms : List (Nat × Metrics),
    Evaluator.modelLoop { ev with cutoff := c } r starts ms = ev.modelLoop r starts ms := by
  induction starts with
  | nil => intro ms; rfl
  | cons a rest ih =>
    intro ms
    unfold Evaluator.modelLoop
    simp only [evalBlock_cutoff, ih]
    rfl

theorem scoresOfModel_cutoff (ev : Evaluator) (c : Nat) (r : Recommender S) (cutoffs : List Nat) :
    Evaluator.scoresOfModel { ev with cutoff := c } r cutoffs = ev.scoresOfModel r cutoffs := by
  unfold Evaluator.scoresOfModel
  simp only [modelLoop_cutoff]
  rfl

theorem foldl_update (P : Nat → PyDict → Prop) (c : Nat) (l : List (Nat × PyDict))
    (hl : ∀ p ∈ l, P p.1 p.2) :
    ∀ acc : Nat → Option PyDict, (∀ c d, acc c = some d → P c d) →
    (∀ d, l.foldl (fun (acc : Nat → Option PyDict) p => Function.update acc p.1 (some p.2)) acc c = some d → P c d) ∧
    ((∃ d, (c, d) ∈ l) ∨ (∃ d, acc c = some d) →
      ∃ d, l.foldl (fun (acc : Nat → Option PyDict) p => Function.update acc p.1 (some p.2)) acc c = some d) ∧
    ((¬ ∃ d, (c, d) ∈ l) → acc c = none →
      l.foldl (fun (acc : Nat → Option PyDict) p => Function.update acc p.1 (some p.2)) acc c = none) := by
  induction l with
  | nil => intro acc hacc; simpa using hacc c
  | cons p l ih =>
    intro acc hacc
    have := ih (fun q hq => hl q (List.mem_cons_of_mem _ hq)) (Function.update acc p.1 (some p.2)) (by
      intro c' d' h'
      by_cases hc : c' = p.1
      · subst hc
        simp at h'
        subst h'
        exact hl p List.mem_cons_self
      · rw [Function.update_of_ne hc] at h'
        exact hacc _ _ h')
    simp only [List.foldl_cons]
    refine ⟨this.1, ?_, ?_⟩
    · intro h
      apply this.2.1
      rcases h with ⟨d, h⟩ | ⟨d, h⟩
      · rcases List.mem_cons.mp h with h | h
        · right; subst h; exact ⟨d, by simp⟩
        · left; exact ⟨d, h⟩
      · right
        by_cases hc : c = p.1
        · subst hc; exact ⟨p.2, by simp⟩
        · exact ⟨d, by rw [Function.update_of_ne hc]; exact h⟩
    · intro h hnone
      apply this.2.2
      · rintro ⟨d, hd⟩; exact h ⟨d, List.mem_cons_of_mem _ hd⟩
      · rw [Function.update_of_ne]
        · exact hnone
        · rintro rfl; exact h ⟨p.2, List.mem_cons_self⟩

theorem collect_spec (P : Nat → PyDict → Prop) (cutoffs : List Nat) (ds : List PyDict)
    (h : List.Forall₂ P cutoffs ds) :
    (∀ c ∈ cutoffs, ∃ d, collect cutoffs ds c = some d ∧ P c d) ∧
    (∀ c, c ∉ cutoffs → collect cutoffs ds c = none) := by
  have hl : ∀ p ∈ cutoffs.zip ds, P p.1 p.2 := by
    intro p hp
    exact (List.forall₂_iff_zip.mp h).2 hp
  have key := fun c => foldl_update P c (cutoffs.zip ds) hl (fun _ => none) (by intro _ _ h; cases h)
  have hmem : ∀ c ∈ cutoffs, ∃ d, (c, d) ∈ cutoffs.zip ds := by
    clear key hl
    induction h with
    | nil => intro c hc; cases hc
    | cons _ _ ih =>
      intro c hc
      rcases List.mem_cons.mp hc with rfl | hc
      · exact ⟨_, List.mem_cons_self⟩
      · obtain ⟨d, hd⟩ := ih c hc
        exact ⟨d, List.mem_cons_of_mem _ hd⟩
  refine ⟨fun c hc => ?_, fun c hc => ?_⟩
  · obtain ⟨d, hd⟩ := (key c).2.1 (Or.inl (hmem c hc))
    exact ⟨d, hd, (key c).1 d hd⟩
  · apply (key c).2.2 _ rfl
    rintro ⟨d, hd⟩
    exact hc (List.of_mem_zip hd).1

end Irspack.Evaluation

namespace Irspack.Evaluation
open Irspack Spec

variable {S : Type} [LinearOrder S] [OrderBot S]

/-! ### cold users -/

theorem coldLoop_eq (ev : ColdEvaluator) (hw : ev.base.WF) (h0 : ev.base.offset = 0)
    (r : ColdRecommender S) (score : Nat → ScoreRow S) (hmb : 0 < ev.base.mbSize)
    (hr : ∀ a b, b ≤ ev.base.nUsers →
      r.coldUser a b = .ok (ev.nWarm, (List.range' a (b - a)).map score)) :
    ∀ (d k : Nat) (ms : List (Nat × Metrics)), d = ev.base.nUsers - k → k ≤ ev.base.nUsers →
    ev.loop r (pyRange k ev.base.nUsers ev.base.mbSize) none ms =
      if ev.base.nUsers = k ∨ ∀ p ∈ ms, ev.base.ArgsOk p.1 then
        .ok (ms.map (fun p => (p.1, p.2 + ∑ u ∈ Finset.Ico k ev.base.nUsers,
          ev.base.rowG (fun u i => if ev.mask.nz u i then ⊥ else
            if ev.nCold ≠ 0 then padRow ev.nWarm (score u) i else score u i) p.1 u)))
      else .error .invalidArgument := by
  intro d
  induction d using Nat.strong_induction_on with
  | _ d ih =>
    intro k ms hd hk
    rw [pyRange_unfold _ _ _ hmb]
    by_cases h : ev.base.nUsers ≤ k
    · have : ev.base.nUsers = k := by omega
      rw [if_pos h, if_pos (Or.inl this)]
      simp [ColdEvaluator.loop, this]
    · rw [if_neg h]
      unfold ColdEvaluator.loop
      set b := min (k + ev.base.mbSize) (ev.base.offset + ev.base.nUsers) with hbdef
      have hb1 : b ≤ ev.base.nUsers := by omega
      have hb2 : k < b := by omega
      simp only [ColdRecommender.chunk]
      rw [hr k b hb1]
      simp only [true_and]
      set rows := (if ev.nCold ≠ 0 then ((List.range' k (b - k)).map score).map (padRow ev.nWarm)
        else (List.range' k (b - k)).map score) with hrows
      have hl : rows.length = b - k := by rw [hrows]; split <;> simp
      have hget : ∀ j (hj : j < rows.length), rows[j] = fun i =>
          if ev.nCold ≠ 0 then padRow ev.nWarm (score (k + j)) i else score (k + j) i := by
        intro j hj
        by_cases hc : ev.nCold ≠ 0
        · simp only [hrows, if_pos hc, List.getElem_map, List.getElem_range']
          funext i; simp
        · simp only [hrows, if_neg hc, List.getElem_map, List.getElem_range']
          funext i; simp
      have hm : ∀ j (hj : j < (applyMask ev.mask.nz k rows).length),
          (applyMask ev.mask.nz k rows)[j] = (fun u i => if ev.mask.nz u i then ⊥ else
            if ev.nCold ≠ 0 then padRow ev.nWarm (score u) i else score u i) (k + j) := by
        intro j hj
        have hj' : j < rows.length := by rwa [applyMask_length] at hj
        rw [applyMask_getElem _ _ _ _ hj hj', hget j hj']
      have hml := applyMask_length ev.mask.nz k rows
      rw [evalBlock_eq ev.base hw (fun u i => if ev.mask.nz u i then ⊥ else
        if ev.nCold ≠ 0 then padRow ev.nWarm (score u) i else score u i) _ k (by omega) (by omega)
        hm ms]
      by_cases hok : ∀ p ∈ ms, ev.base.ArgsOk p.1
      · rw [if_pos hok, if_pos (Or.inr hok)]
        simp only
        rw [hml, hl]
        by_cases hend : k + ev.base.mbSize ≤ ev.base.nUsers
        · have hb3 : b - k = ev.base.mbSize := by omega
          rw [hb3,
            ih (ev.base.nUsers - (k + ev.base.mbSize)) (by omega) (k + ev.base.mbSize) _ rfl (by omega),
            if_pos (Or.inr (by
              intro p hp
              obtain ⟨q, hq, rfl⟩ := List.mem_map.mp hp
              exact hok q hq))]
          congr 1
          rw [List.map_map]
          apply List.map_congr_left
          intro p _
          simp only [Function.comp]
          rw [add_assoc, Finset.sum_Ico_consecutive _ (by omega) (by omega)]
        · rw [pyRange_unfold _ _ _ hmb, if_pos (by omega)]
          have hb3 : k + (b - k) = ev.base.nUsers := by omega
          simp only [ColdEvaluator.loop, hb3]
      · rw [if_neg hok, if_neg (by rintro (h | h); omega; exact hok h)]

theorem coldScores_eq (ev : ColdEvaluator) (hw : ev.base.WF) (h0 : ev.base.offset = 0)
    (r : ColdRecommender S) (score : Nat → ScoreRow S) (hmb : 0 < ev.base.mbSize)
    (hi : r.nItems = ev.nWarm)
    (hf : ev.hasColdFeatures = false ∨ r.featureScorer = .error .notImplemented)
    (hr : ∀ a b, b ≤ ev.base.nUsers →
      r.coldUser a b = .ok (ev.nWarm, (List.range' a (b - a)).map score)) (cutoffs : List Nat) :
    ev.scoresOfModel r cutoffs = ev.base.reference (fun u i => if ev.mask.nz u i then ⊥ else
        if ev.nCold ≠ 0 then padRow ev.nWarm (score u) i else score u i) cutoffs := by
  unfold ColdEvaluator.scoresOfModel Evaluator.reference
  rw [if_neg (by simpa using hi), if_neg (by omega)]
  have hsc : ev.firstScorer r = .ok none := by
    unfold ColdEvaluator.firstScorer
    rcases hf with hf | hf <;> rw [hf] <;> simp
  rw [hsc]
  simp only
  have := coldLoop_eq ev hw h0 r score hmb hr ev.base.nUsers 0
    (cutoffs.map (fun c => (c, Metrics.empty))) rfl (Nat.zero_le _)
  rw [h0, Nat.zero_add, this]
  have hall : (∀ p ∈ cutoffs.map (fun c => (c, Metrics.empty)), ev.base.ArgsOk p.1) ↔
      ∀ c ∈ cutoffs, ev.base.ArgsOk c := by
    constructor
    · intro h c hc; exact h (c, Metrics.empty) (List.mem_map.mpr ⟨c, hc, rfl⟩)
    · intro h p hp
      obtain ⟨c, hc, rfl⟩ := List.mem_map.mp hp
      exact h c hc
  simp only [hall]
  by_cases h : ev.base.nUsers = 0 ∨ ∀ c ∈ cutoffs, ev.base.ArgsOk c
  · rw [if_pos h, if_pos h]
    simp only
    congr 1
    rw [List.map_map, List.map_map]
    apply List.map_congr_left
    intro c _
    simp only [Function.comp, empty_eq_zero, zero_add, Finset.range_eq_Ico]
  · rw [if_neg h, if_neg h]

theorem coldEvaluator_make {input : Mask} {gtRows : List (List Nat)} {nItems cutoff : Nat}
    {recommendable : Option (List Nat)} {perUser : Option (List (List Nat))} {masked : Option Mask}
    {nThreads : Nat} {capped : Bool} {mb : Nat} {nCold : Option Nat} {ev : ColdEvaluator}
    (h : ColdEvaluator.make input gtRows nItems cutoff recommendable perUser masked nThreads capped mb
      nCold = .ok ev) :
    input.nRows = gtRows.length ∧ (∀ k, nCold = some k → nItems = input.nCols + k) ∧
    ev.nWarm = input.nCols ∧ ev.nCold = nCold.getD 0 ∧ ev.hasColdFeatures = nCold.isSome ∧
    (∃ masked', Evaluator.make gtRows nItems 0 cutoff recommendable perUser masked' nThreads capped mb
      = .ok ev.base) ∧
    (masked = none → ∀ u i, ev.mask.nz u i =
      if nCold.getD 0 ≠ 0 then decide (i < input.nCols) && input.nz u i else input.nz u i) ∧
    (∀ msk, masked = some msk → ∀ u i, ev.mask.nz u i =
      if nCold.isSome ∧ msk.nRows = input.nRows ∧ msk.nCols = input.nCols
      then decide (i < msk.nCols) && msk.nz u i else msk.nz u i) := by
  unfold ColdEvaluator.make at h
  split at h
  · cases h
  rename_i h1
  split at h
  · cases h
  rename_i h2
  simp only at h
  split at h
  · cases h
  rename_i base hb
  injection h with h
  subst h
  have hmk := (evaluator_wf hb).2.2.2.2.1
  refine ⟨by simpa using h1, ?_, rfl, rfl, rfl, ⟨_, hb⟩, ?_, ?_⟩
  · intro k hk
    subst hk
    simpa using h2
  · intro hm u i
    subst hm
    have : base.masked = none := by rw [hmk]; cases nCold <;> rfl
    simp only [ColdEvaluator.mask, this]
    split <;> rfl
  · intro msk hm u i
    subst hm
    cases nCold with
    | none =>
      have : base.masked = some msk := by rw [hmk]
      simp [ColdEvaluator.mask, this]
    | some k =>
      by_cases hs : msk.nRows = input.nRows ∧ msk.nCols = input.nCols
      · have : base.masked = some (msk.padCols k) := by rw [hmk]; simp [hs]
        simp only [ColdEvaluator.mask, this]
        rw [if_pos (by simpa using hs)]
        rfl
      · have : base.masked = some msk := by rw [hmk]; simp [hs]
        simp only [ColdEvaluator.mask, this]
        rw [if_neg (by simpa using hs)]

end Irspack.Evaluation
