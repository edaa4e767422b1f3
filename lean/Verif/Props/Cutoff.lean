import Verif.Proofs.Cutoff
import Verif.Props.PyEvaluator
import Verif.Props.RetrievalBest

/-!
# C93: what the cutoff does to recommendation lists and to evaluation metrics
-/

namespace Irspack.Props
open Irspack Spec Evaluation Retrieval

/-! ## Evaluation -/

section
variable {S : Type} [LinearOrder S] [OrderBot S]
variable {gtRows : List (List Nat)} {nItems offset cutoff : Nat} {recommendable : Option (List Nat)}
  {perUser : Option (List (List Nat))} {masked : Option Mask} {nThreads : Nat} {capped : Bool} {mb : Nat}
  {ev : Evaluator}

/-- The list evaluated at a smaller cutoff is the beginning of the one evaluated at a larger
cutoff. -/
theorem C93_evaluated_list_is_prefix (c : Core) (u : Nat) (row : ScoreRow S) {k k' : Nat}
    (hk : k ≤ k') :
    topCutoff c.nItems (c.recommendableFor u) k row =
      (topCutoff c.nItems (c.recommendableFor u) k' row).take k :=
  topCutoff_take _ _ _ hk

/-- helper: the reports of the reference evaluation at all cutoffs, over common lists -/
theorem reference_lists
    (hev : Evaluator.make gtRows nItems offset cutoff recommendable perUser masked nThreads capped mb
      = .ok ev) (R : Nat → ScoreRow S) (cutoffs : List Nat) (ds : List PyDict)
    (h : ev.reference R cutoffs = .ok ds) :
    ∃ (G : Nat → Finset Nat) (L : Nat → Nat → List Nat),
      (∀ u i, i ∈ G u ↔ i ∈ gtRows.getD u [] ∧
        RecommendableTo (recLists recommendable perUser) u i) ∧
      (∀ k u, (L k u).Nodup ∧ (L k u).length ≤ k) ∧
      (∀ k k', k ≤ k' → ∀ u, L k u = (L k' u).take k) ∧
      (∀ k u, L k u = topCutoff ev.core.nItems (ev.core.recommendableFor u) k (R u)) ∧
      ∀ j (hj : j < cutoffs.length) (hj' : j < ds.length),
        IsReport gtRows.length nItems capped (L cutoffs[j]) G ds[j].base ∧
        ds[j] = ev.metricsAsDict (totalMetrics gtRows.length capped (L cutoffs[j]) G) := by
  obtain ⟨arg, ha, hc, he, -⟩ := evaluator_make hev
  obtain ⟨hw, hcw, hn, hi, -⟩ := evaluator_wf hev
  have ha := recommendableArg_ok ha
  subst ha
  have htop : ∀ k u, IsTopK (candSet ev.core.nItems (ev.core.recommendableFor u) (R u)) (R u) k
      (topCutoff ev.core.nItems (ev.core.recommendableFor u) k (R u)) :=
    fun k u => topCutoff_isTopK _ _ (R u) k (WF_recommendableFor hcw _)
  refine ⟨fun u => ev.core.gtSet u,
    fun k u => topCutoff ev.core.nItems (ev.core.recommendableFor u) k (R u),
    fun u i => gtSet_spec hc, fun k u => ⟨pairwise_before_nodup (htop k u).sorted, ?_⟩,
    fun k k' hk u => topCutoff_take _ _ _ hk, fun _ _ => rfl, ?_⟩
  · rw [(htop k u).length]; exact Nat.min_le_left _ _
  · intro j hj hj'
    exact reference_isReport hev R cutoffs ds h _
      (fun u => candSet ev.core.nItems (ev.core.recommendableFor u) (R u)) _ j hj hj'
      (fun u i => gtSet_spec hc) (fun u _ i => candSet_spec hc u (R u) i) (fun u _ => htop _ u)

theorem reference_compare
    (hev : Evaluator.make gtRows nItems offset cutoff recommendable perUser masked nThreads capped mb
      = .ok ev) (R : Nat → ScoreRow S) (cutoffs : List Nat) (ds : List PyDict)
    (h : ev.reference R cutoffs = .ok ds) (i j : Nat) (hi : i < cutoffs.length) (hi' : i < ds.length)
    (hj : j < cutoffs.length) (hj' : j < ds.length) (hle : cutoffs[i] ≤ cutoffs[j]) :
    GrowsWith cutoffs[i] cutoffs[j] capped ds[i].base ds[j].base ∧
    (∀ x x', ds[i].coverage = some x → ds[j].coverage = some x' → x ≤ x') ∧
    MetricsOrdered cutoffs[i] capped ds[i].base := by
  obtain ⟨G, L, -, hL, hpre, -, hrep⟩ := reference_lists hev R cutoffs ds h
  have hg := (hrep i hi hi').1.grows (hrep j hj hj').1 hle (fun u _ => (hL _ u).2)
    (fun u _ => hpre _ _ hle u)
  refine ⟨hg, ?_, (hrep i hi hi').1.ordered (fun u _ => (hL _ u).2) (fun u _ => (hL _ u).1)⟩
  intro x x' hx hx'
  have hap := hg.appearedItem
  rw [(hrep i hi hi').2] at hx hap
  rw [(hrep j hj hj').2] at hx' hap
  unfold Evaluator.metricsAsDict at hx hx' hap
  simp only at hx hx' hap
  split at hx
  · rename_i h0
    rw [if_pos h0] at hx'
    injection hx with hx
    injection hx' with hx'
    rw [← hx, ← hx']
    exact div_le_div_of_nonneg_right hap (Nat.cast_nonneg _)
  · cases hx

/-- C93 (scores given as chunks or as a matrix). Of two entries of one evaluation, the one with the
larger cutoff counts the same users, has at least the hit rate, mean average precision, number of
appeared items and catalogue coverage of the other, and at least its recall if recall is not capped.
Precision, nDCG and capped recall fall at most by the ratio of the normalisers. -/
theorem C93_chunks_larger_cutoff
    (hev : Evaluator.make gtRows nItems offset cutoff recommendable perUser masked nThreads capped mb
      = .ok ev) (chunks : List (Chunk S)) (cutoffs : List Nat) (ds : List PyDict)
    (h : ev.scoresFromChunks chunks cutoffs = .ok ds) (i j : Nat) (hi : i < cutoffs.length)
    (hi' : i < ds.length) (hj : j < cutoffs.length) (hj' : j < ds.length)
    (hle : cutoffs[i] ≤ cutoffs[j]) :
    GrowsWith cutoffs[i] cutoffs[j] capped ds[i].base ds[j].base ∧
    (∀ x x', ds[i].coverage = some x → ds[j].coverage = some x' → x ≤ x') := by
  obtain ⟨hw, hcw, hn, hit, hm, -⟩ := evaluator_wf hev
  obtain ⟨hg, hlen⟩ := (C11_row_mismatch_rejected hev chunks cutoffs).1 ⟨ds, h⟩
  simp only [← List.flatMap_def] at hlen
  unfold Evaluator.scoresFromChunks at h
  rw [scoresFromChunksWith_eq ev hw ev.masked
    (fun u => (chunks.flatMap Chunk.rows).getD u (fun _ => ⊥)) chunks cutoffs
    (by rw [hit]; exact hg) (by omega)
    (fun k hk => by rw [List.getD_eq_getElem?_getD, List.getElem?_eq_getElem hk, Option.getD_some])] at h
  have := reference_compare hev _ cutoffs ds h i j hi hi' hj hj' hle
  exact ⟨this.1, this.2.1⟩

/-- C93 (one entry). In every entry of an evaluation precision, recall and nDCG are at most the hit
rate, mean average precision is at most recall, capped recall is at least precision, the hit rate is
at most `cutoff` times precision, and at cutoff 1 precision, nDCG and capped recall are the hit
rate. -/
theorem C93_chunks_metrics_ordered
    (hev : Evaluator.make gtRows nItems offset cutoff recommendable perUser masked nThreads capped mb
      = .ok ev) (chunks : List (Chunk S)) (cutoffs : List Nat) (ds : List PyDict)
    (h : ev.scoresFromChunks chunks cutoffs = .ok ds) (i : Nat) (hi : i < cutoffs.length)
    (hi' : i < ds.length) : MetricsOrdered cutoffs[i] capped ds[i].base := by
  obtain ⟨hw, hcw, hn, hit, hm, -⟩ := evaluator_wf hev
  obtain ⟨hg, hlen⟩ := (C11_row_mismatch_rejected hev chunks cutoffs).1 ⟨ds, h⟩
  simp only [← List.flatMap_def] at hlen
  unfold Evaluator.scoresFromChunks at h
  rw [scoresFromChunksWith_eq ev hw ev.masked
    (fun u => (chunks.flatMap Chunk.rows).getD u (fun _ => ⊥)) chunks cutoffs
    (by rw [hit]; exact hg) (by omega)
    (fun k hk => by rw [List.getD_eq_getElem?_getD, List.getElem?_eq_getElem hk, Option.getD_some])] at h
  exact (reference_compare hev _ cutoffs ds h i i hi hi' hi hi' le_rfl).2.2

/-- helper: what a successful evaluation of a recommender is -/
theorem model_reference
    (hev : Evaluator.make gtRows nItems offset cutoff recommendable perUser masked nThreads capped mb
      = .ok ev) (r : Recommender S) (score : Nat → ScoreRow S) (hr : ScoresBy r score)
    (cutoffs : List Nat) (ds : List PyDict) (h : ev.scoresOfModel r cutoffs = .ok ds) :
    ev.reference (fun u i => if ev.modelMask r u i then ⊥ else score (ev.offset + u) i) cutoffs
      = .ok ds := by
  obtain ⟨hw, -⟩ := evaluator_wf hev
  have hguard : ev.offset + ev.nUsers ≤ r.nUsers ∧ ev.nItems = r.nItems ∧ 0 < ev.mbSize := by
    unfold Evaluator.scoresOfModel at h
    split at h
    · cases h
    split at h
    · cases h
    split at h
    · cases h
    · refine ⟨by omega, by simpa using ‹¬ ev.nItems ≠ r.nItems›, by omega⟩
  rw [← scoresOfModel_eq ev hw r score ⟨hr.block, hr.rows⟩ hguard.2.2 hguard.1 hguard.2.1]
  exact h

/-- C93 (`get_scores` of a recommender). The same for two cutoffs of one `get_scores` call. -/
theorem C93_model_larger_cutoff
    (hev : Evaluator.make gtRows nItems offset cutoff recommendable perUser masked nThreads capped mb
      = .ok ev) (r : Recommender S) (score : Nat → ScoreRow S) (hr : ScoresBy r score)
    (cutoffs : List Nat) (res : Nat → Option PyDict) (h : ev.getScores r cutoffs = .ok res)
    (k k' : Nat) (hk : k ≤ k') (d d' : PyDict) (hd : res k = some d) (hd' : res k' = some d') :
    GrowsWith k k' capped d.base d'.base ∧
    (∀ x x', d.coverage = some x → d'.coverage = some x' → x ≤ x') ∧
    MetricsOrdered k capped d.base ∧ MetricsOrdered k' capped d'.base := by
  obtain ⟨hw, -, hn, hit, hmk, hmbs, -, -, hoff, -⟩ := evaluator_wf hev
  -- each entry is the single-cutoff evaluation
  have hmulti := C14_multiple_cutoffs ev r cutoffs res h
  have hkm : k ∈ cutoffs := by
    by_contra hc; rw [hmulti.2 k hc] at hd; cases hd
  have hkm' : k' ∈ cutoffs := by
    by_contra hc; rw [hmulti.2 k' hc] at hd'; cases hd'
  unfold Evaluator.getScores at h
  cases hs : ev.scoresOfModel r cutoffs with
  | error e => rw [hs] at h; cases h
  | ok ds =>
    have href := model_reference hev r score hr cutoffs ds hs
    have hpair : ∃ ds2, ev.reference
        (fun u i => if ev.modelMask r u i then ⊥ else score (ev.offset + u) i) [k, k'] = .ok ds2 ∧
        ds2 = [d, d'] := by
      have hone : ∀ c ∈ cutoffs, ∀ e, res c = some e → ev.metricsAsDict
          (∑ u ∈ Finset.range ev.nUsers, ev.rowG
            (fun u i => if ev.modelMask r u i then ⊥ else score (ev.offset + u) i) c u) = e := by
        intro c hc e he
        obtain ⟨e', he', hsc⟩ := hmulti.1 c hc
        rw [he] at he'
        cases he'
        unfold Evaluator.getScore at hsc
        rw [scoresOfModel_cutoff] at hsc
        cases hs1 : ev.scoresOfModel r [c] with
        | error e => simp only [hs1] at hsc; cases hsc
        | ok ds1 =>
          have h1 := model_reference hev r score hr [c] ds1 hs1
          unfold Evaluator.reference at h1
          split at h1
          · injection h1 with h1
            subst h1
            simp only [hs1, List.map_cons] at hsc
            exact Except.ok.inj hsc
          · cases h1
      unfold Evaluator.reference at href ⊢
      split at href
      · rename_i hok
        rw [if_pos]
        · refine ⟨_, rfl, ?_⟩
          simp only [List.map_cons, List.map_nil]
          rw [hone k hkm d hd, hone k' hkm' d' hd']
        · rcases hok with hok | hok
          · exact Or.inl hok
          · right
            intro c hc
            rcases List.mem_cons.mp hc with rfl | hc
            · exact hok _ hkm
            · rw [List.mem_singleton] at hc
              subst hc
              exact hok _ hkm'
      · cases href
    obtain ⟨ds2, h2, rfl⟩ := hpair
    have a := reference_compare hev _ [k, k'] [d, d'] h2 0 1 (by simp) (by simp) (by simp) (by simp) hk
    have b := reference_compare hev _ [k, k'] [d, d'] h2 1 1 (by simp) (by simp) (by simp) (by simp)
      le_rfl
    exact ⟨a.1, a.2.1, a.2.2, b.2.2⟩

/-- C93 (`recall_with_cutoff`). Two evaluators that differ only in this flag give reports that differ
only in recall, and the capped recall is the larger one. -/
theorem C93_recall_flag {ev' : Evaluator}
    (hev : Evaluator.make gtRows nItems offset cutoff recommendable perUser masked nThreads false mb
      = .ok ev)
    (hev' : Evaluator.make gtRows nItems offset cutoff recommendable perUser masked nThreads true mb
      = .ok ev') (chunks : List (Chunk S)) (cutoffs : List Nat) (ds ds' : List PyDict)
    (h : ev.scoresFromChunks chunks cutoffs = .ok ds)
    (h' : ev'.scoresFromChunks chunks cutoffs = .ok ds') (j : Nat) (hj : j < cutoffs.length)
    (hjd : j < ds.length) (hjd' : j < ds'.length) :
    ds'[j] = { ds[j] with base := { ds[j].base with recall := ds'[j].base.recall } } ∧
    ds[j].base.recall ≤ ds'[j].base.recall := by
  obtain ⟨hw, hcw, hn, hit, hm, -⟩ := evaluator_wf hev
  obtain ⟨hw', hcw', hn', hit', hm', -⟩ := evaluator_wf hev'
  obtain ⟨hg, hlen⟩ := (C11_row_mismatch_rejected hev chunks cutoffs).1 ⟨ds, h⟩
  simp only [← List.flatMap_def] at hlen
  have hR : ∀ k (hk : k < (chunks.flatMap Chunk.rows).length), (chunks.flatMap Chunk.rows)[k] =
      (fun u => (chunks.flatMap Chunk.rows).getD u (fun _ => ⊥)) k := fun k hk => by
    simp only
    rw [List.getD_eq_getElem?_getD, List.getElem?_eq_getElem hk, Option.getD_some]
  unfold Evaluator.scoresFromChunks at h h'
  rw [scoresFromChunksWith_eq ev hw ev.masked _ chunks cutoffs
    (by rw [hit]; exact hg) (by omega) hR] at h
  rw [scoresFromChunksWith_eq ev' hw' ev'.masked _ chunks cutoffs
    (by rw [hit']; exact hg) (by omega) hR] at h'
  rw [hm] at h
  rw [hm'] at h'
  obtain ⟨arg, ha, hc, he, -⟩ := evaluator_make hev
  obtain ⟨arg', ha', hc', he', -⟩ := evaluator_make hev'
  rw [ha] at ha'
  cases ha'
  rw [hc] at hc'
  have hcore : ev'.core = ev.core := (Except.ok.inj hc').symm
  obtain ⟨G, L, hG, hL, -, htop, hrep⟩ := reference_lists hev _ cutoffs ds h
  obtain ⟨G', L', hG', -, -, htop', hrep'⟩ := reference_lists hev' _ cutoffs ds' h'
  have hGG : G' = G := by
    funext u; ext i; rw [hG, hG']
  have hLL : L' = L := by
    funext k u
    rw [htop, htop', hcore]
  subst hGG hLL
  obtain ⟨r1, e1⟩ := hrep j hj hjd
  obtain ⟨r2, e2⟩ := hrep' j hj hjd'
  have hcov : ds'[j].coverage = ds[j].coverage := by
    have hap : ds'[j].base.appearedItem = ds[j].base.appearedItem := by
      rw [r1.appearedItem, r2.appearedItem]
    rw [e1, e2] at hap ⊢
    unfold Evaluator.metricsAsDict at hap ⊢
    simp only at hap ⊢
    rw [hap]
    have : ev'.nRecommendable = ev.nRecommendable := by rw [he, he']
    rw [this]
  refine ⟨?_, ?_⟩
  · apply PyDict.ext
    · apply MetricDict.ext
      · rw [r1.totalUser, r2.totalUser]
      · rw [r1.validUser, r2.validUser]
      · rw [r1.itemNumber, r2.itemNumber]
      · rw [r1.hit, r2.hit]
      · rw [r1.ndcg, r2.ndcg]
      · rfl
      · rw [r1.map, r2.map]
      · rw [r1.precision, r2.precision]
      · rw [r1.appearedItem, r2.appearedItem]
      · rw [r1.entropy, r2.entropy]
      · rw [r1.giniIndex, r2.giniIndex]
    · exact hcov
  · rw [r1.recall, r2.recall]
    exact meanOver_mono _ _ _ _ (fun u _ hg => recall_false_le_recall true _ _ hg)

/-- C93 (leave-one-out). If no user has more than one ground-truth item, recall (capped or not) is
the hit rate at every cutoff. -/
theorem C93_one_relevant_item
    (hev : Evaluator.make gtRows nItems offset cutoff recommendable perUser masked nThreads capped mb
      = .ok ev) (hone : ∀ row ∈ gtRows, row.length ≤ 1) (chunks : List (Chunk S))
    (cutoffs : List Nat) (ds : List PyDict) (h : ev.scoresFromChunks chunks cutoffs = .ok ds)
    (d : PyDict) (hd : d ∈ ds) : d.base.recall = d.base.hit := by
  obtain ⟨hw, hcw, hn, hit, hm, -⟩ := evaluator_wf hev
  obtain ⟨hg, hlen⟩ := (C11_row_mismatch_rejected hev chunks cutoffs).1 ⟨ds, h⟩
  simp only [← List.flatMap_def] at hlen
  unfold Evaluator.scoresFromChunks at h
  rw [scoresFromChunksWith_eq ev hw ev.masked
    (fun u => (chunks.flatMap Chunk.rows).getD u (fun _ => ⊥)) chunks cutoffs
    (by rw [hit]; exact hg) (by omega)
    (fun k hk => by rw [List.getD_eq_getElem?_getD, List.getElem?_eq_getElem hk, Option.getD_some])] at h
  obtain ⟨G, L, hG, hL, -, -, hrep⟩ := reference_lists hev _ cutoffs ds h
  have hlen2 : ds.length = cutoffs.length := by
    unfold Evaluator.reference at h
    split at h
    · injection h with h
      rw [← h, List.length_map]
    · cases h
  obtain ⟨j, hj, rfl⟩ := List.mem_iff_getElem.mp hd
  have hr := (hrep j (by omega) hj).1
  rw [hr.recall, hr.hit]
  refine meanOver_congr _ _ _ _ (fun u hu hne => recall_one capped _ (hL _ u).1 _ ?_)
  have hsub : G u ⊆ (gtRows.getD u []).toFinset := by
    intro i hi
    rw [hG] at hi
    exact List.mem_toFinset.mpr hi.1
  have hrow : (gtRows.getD u []).length ≤ 1 := by
    rw [List.getD_eq_getElem?_getD, List.getElem?_eq_getElem hu, Option.getD_some]
    exact hone _ (List.getElem_mem hu)
  have h1 := Finset.card_le_card hsub
  have h2 := List.toFinset_card_le (gtRows.getD u [])
  have h3 := hne.card_pos
  omega

end

/-! ### Precision, nDCG and capped recall can fall -/

/-- The evaluator of the example: one user whose relevant items are 0 and 1, three items. -/
def cutoffEx : Evaluator := ⟨⟨3, [[0, 1]], []⟩, 3, 0, 1, 3, 1, 1, 8, none, true⟩

/-- The user's scores: item 0 first, then item 2, then item 1. -/
def cutoffExRow : ScoreRow (WithBot Nat) := fun i => if i = 0 then 3 else if i = 2 then 2 else 1

theorem cutoffEx_make : Evaluator.make [[0, 1]] 3 0 1 none none none 1 true 8 = .ok cutoffEx := rfl

theorem cutoffEx_report (ds : List PyDict)
    (h : cutoffEx.scoresFromChunks [⟨true, 3, true, [cutoffExRow]⟩] [1, 2] = .ok ds) :
    ∃ (h0 : 0 < ds.length) (h1 : 1 < ds.length),
      IsReport 1 3 true (fun _ => [0]) (fun u => if u = 0 then {0, 1} else ∅) ds[0].base ∧
      IsReport 1 3 true (fun _ => [0, 2]) (fun u => if u = 0 then {0, 1} else ∅) ds[1].base := by
  have hlen : ds.length = 2 := by
    obtain ⟨ds', h1, h2⟩ := ((C11_row_mismatch_rejected cutoffEx_make
      [⟨true, 3, true, [cutoffExRow]⟩] [1, 2]).2.2 (by decide) (by decide)).1
        ⟨by simp [GoodChunk], by simp⟩
    rw [h] at h1
    cases h1
    simpa using h2
  have hG : ∀ u i, i ∈ (if u = 0 then ({0, 1} : Finset Nat) else ∅) ↔
      i ∈ ([[0, 1]] : List (List Nat)).getD u [] ∧ RecommendableTo (recLists none none) u i := by
    intro u i
    cases u with
    | zero => simp [recLists, RecommendableTo]
    | succ u => simp
  have hC : ∀ u < ([[0, 1]] : List (List Nat)).length, ∀ i, i ∈ Finset.range 3 ↔ i < 3 ∧
      RecommendableTo (recLists none none) u i ∧
      (∀ m, (none : Option Mask) = some m → m.nz u i = false) ∧ cutoffExRow i ≠ ⊥ := by
    intro u _ i
    have : cutoffExRow i ≠ ⊥ := by
      unfold cutoffExRow
      split
      · decide
      · split <;> decide
    simp [recLists, RecommendableTo, this]
  have hrow : ∀ u (hu : u < ((([⟨true, 3, true, [cutoffExRow]⟩] : List (Chunk (WithBot Nat))).map
      Chunk.rows).flatten).length), cutoffExRow =
      ((([⟨true, 3, true, [cutoffExRow]⟩] : List (Chunk (WithBot Nat))).map Chunk.rows).flatten)[u] := by
    intro u hu
    have : u = 0 := by simpa using hu
    subst this
    rfl
  refine ⟨by omega, by omega, ?_, ?_⟩
  · refine C12_C04_C08_C13_chunk_report cutoffEx_make _ _ ds h (fun _ => cutoffExRow) hrow _
      (fun _ => Finset.range 3) _ 0 (by decide) (by omega) hG hC ?_
    intro u _
    refine ⟨by simp, by simp, by simp, ?_⟩
    intro i hi j hj hn
    simp only [List.mem_singleton, Finset.mem_range] at hi hj hn
    subst hi
    left
    have : j = 1 ∨ j = 2 := by omega
    rcases this with rfl | rfl <;> decide
  · refine C12_C04_C08_C13_chunk_report cutoffEx_make _ _ ds h (fun _ => cutoffExRow) hrow _
      (fun _ => Finset.range 3) _ 1 (by decide) (by omega) hG hC ?_
    intro u _
    refine ⟨by simp, by simp, ?_, ?_⟩
    · simp only [List.pairwise_cons, List.mem_singleton, forall_eq, List.not_mem_nil,
        IsEmpty.forall_iff, implies_true, List.Pairwise.nil, and_true]
      left; decide
    · intro i hi j hj hn
      simp only [List.mem_cons, List.not_mem_nil, or_false, Finset.mem_range, not_or] at hi hj hn
      have : j = 1 := by omega
      subst this
      left
      rcases hi with rfl | rfl <;> decide

theorem cutoffEx_ok : ∃ ds, cutoffEx.scoresFromChunks [⟨true, 3, true, [cutoffExRow]⟩] [1, 2] = .ok ds := by
  obtain ⟨ds', h1, _⟩ := ((C11_row_mismatch_rejected cutoffEx_make
    [⟨true, 3, true, [cutoffExRow]⟩] [1, 2]).2.2 (by decide) (by decide)).1
      ⟨by simp [GoodChunk], by simp⟩
  exact ⟨ds', h1⟩

theorem cutoffEx_mean (f : Nat → ℝ) :
    meanOver 1 (fun u => if u = 0 then ({0, 1} : Finset Nat) else ∅) f = f 0 := by
  have : validUsers 1 (fun u => if u = 0 then ({0, 1} : Finset Nat) else ∅) = {0} := by
    unfold validUsers
    rw [Finset.range_one, Finset.filter_singleton, if_pos]
    simp
  unfold meanOver
  rw [this]
  simp

theorem cutoffEx_relevant (l : List Nat) :
    Relevant (0 :: 2 :: l) ({0, 1} : Finset Nat) 0 ∧ ¬ Relevant (0 :: 2 :: l) ({0, 1} : Finset Nat) 1 := by
  constructor
  · exact ⟨0, rfl, by decide⟩
  · rintro ⟨i, hi, hg⟩
    simp at hi
    subst hi
    revert hg
    decide

theorem cutoffEx_hits : hitsAt [0] ({0, 1} : Finset Nat) 1 = 1 ∧
    hitsAt [0, 2] ({0, 1} : Finset Nat) 2 = 1 := by
  classical
  have h1 : Relevant [0] ({0, 1} : Finset Nat) 0 := ⟨0, rfl, by decide⟩
  obtain ⟨h2, h3⟩ := cutoffEx_relevant []
  constructor
  · rw [hitsAt_succ, hitsAt_zero, if_pos h1]
  · rw [hitsAt_succ, hitsAt_succ, hitsAt_zero, if_pos h2, if_neg h3]

/-- C93 (what does not grow). An evaluation in which the entry for cutoff 2 has a smaller precision,
a smaller nDCG and a smaller capped recall than the entry for cutoff 1: "larger lists can only help"
is false for these three. -/
theorem C93_precision_ndcg_recall_fall_counterexample :
    ∃ (ev : Evaluator) (rows : List (ScoreRow (WithBot Nat))) (ds : List PyDict)
      (h0 : 0 < ds.length) (h1 : 1 < ds.length),
      Evaluator.make [[0, 1]] 3 0 1 none none none 1 true 8 = .ok ev ∧
      ev.scoresFromChunks [⟨true, 3, true, rows⟩] [1, 2] = .ok ds ∧
      ds[1].base.precision < ds[0].base.precision ∧ ds[1].base.ndcg < ds[0].base.ndcg ∧
      ds[1].base.recall < ds[0].base.recall := by
  classical
  obtain ⟨ds, hds⟩ := cutoffEx_ok
  obtain ⟨h0, h1, r0, r1⟩ := cutoffEx_report ds hds
  obtain ⟨e0, e1⟩ := cutoffEx_hits
  refine ⟨cutoffEx, [cutoffExRow], ds, h0, h1, rfl, hds, ?_, ?_, ?_⟩
  · rw [r0.precision, r1.precision, cutoffEx_mean, cutoffEx_mean]
    unfold Spec.precision
    simp only [List.cons_ne_nil, if_false, if_true, List.length_cons, List.length_nil, Nat.zero_add]
    rw [e0, e1]
    norm_num
  · rw [r0.ndcg, r1.ndcg, cutoffEx_mean, cutoffEx_mean]
    simp only [if_true]
    have hlt : Spec.ndcg [0, 2] ({0, 1} : Finset Nat) < 1 := by
      have hle := (spec_unit_interval (recs := [0, 2]) (by decide) (gt := {0, 1}) (by decide) true).2.2.2.1.2
      refine lt_of_le_of_ne hle ?_
      intro he
      have hm : (Metrics.empty.update [0, 2] {0, 1} true).ndcg = 1 := by
        rw [update_eq, empty_eq_zero, zero_add]
        exact he
      rw [C06_ndcg_one_iff _ (by decide) (by decide) _ (by decide)] at hm
      obtain ⟨i, hi, hg⟩ := hm 1 (by decide)
      simp at hi
      subst hi
      revert hg
      decide
    have hone : Spec.ndcg [0] ({0, 1} : Finset Nat) = 1 := by
      have := (single_values [0] (by decide) ({0, 1} : Finset Nat) (by decide) (by decide)).2.1
      rw [this, hit_eq, if_pos]
      simp only [List.length_cons, List.length_nil, Nat.zero_add]
      rw [e0]
      exact Nat.one_pos
    rw [hone]
    exact hlt
  · rw [r0.recall, r1.recall, cutoffEx_mean, cutoffEx_mean]
    unfold Spec.recall
    simp only [List.cons_ne_nil, if_false, if_true, List.length_cons, List.length_nil, Nat.zero_add]
    rw [e0, e1, show ({0, 1} : Finset Nat).card = 2 from rfl]
    norm_num

/-- Non-vacuity of `C93_chunks_larger_cutoff`: the example evaluation, and there the bounds are not
all trivial. -/
example : ∃ (ds : List PyDict) (h0 : 0 < ds.length) (h1 : 1 < ds.length),
    cutoffEx.scoresFromChunks [⟨true, 3, true, [cutoffExRow]⟩] [1, 2] = .ok ds ∧
    GrowsWith 1 2 true ds[0].base ds[1].base ∧ ds[0].base.appearedItem < ds[1].base.appearedItem := by
  obtain ⟨ds, hds⟩ := cutoffEx_ok
  obtain ⟨h0, h1, r0, r1⟩ := cutoffEx_report ds hds
  refine ⟨ds, h0, h1, hds,
    (C93_chunks_larger_cutoff cutoffEx_make _ [1, 2] ds hds 0 1 (by decide) h0 (by decide) h1 (by decide)).1, ?_⟩
  rw [r0.appearedItem, r1.appearedItem]
  have hv : validUsers 1 (fun u => if u = 0 then ({0, 1} : Finset Nat) else ∅) = {0} := by
    unfold validUsers
    rw [Finset.range_one, Finset.filter_singleton, if_pos]
    simp
  unfold appeared recommendedCount
  rw [hv]
  simp only [Finset.sum_singleton]
  exact_mod_cast (show _ < _ by decide)

/-- Non-vacuity of `C93_model_larger_cutoff` and `C93_recall_flag`: see `ex_getScores`; both flags are
accepted. -/
example : (∃ ev, Evaluator.make [[0, 1]] 3 0 1 none none none 1 false 8 = .ok ev) ∧
    (∃ ev, Evaluator.make [[0, 1]] 3 0 1 none none none 1 true 8 = .ok ev) := ⟨⟨_, rfl⟩, ⟨_, rfl⟩⟩

/-! ## Retrieval -/

section
variable {I U S F : Type} [DecidableEq I] [DecidableEq U] [LinearOrder S] [BoundedOrder S]
  [LinearOrder F] [OrderBot F]

/-- C93 (recommendations, batch). Two batch calls for the same users that differ only in the cutoff:
the scores of the shorter list are the first scores of the longer one, and if no two items have the
same score for that user, the shorter list is the beginning of the longer one. -/
theorem C93_recommend_known_users (userIds : List U) (itemIds : List I) (m : IDMapper U I)
    (hm : IDMapper.make userIds itemIds = .ok m) {psort : Nat → List (Nat × F) → List (Nat × F)}
    (hps : IsPSort psort) (cast : S → F) (hcast : cast ⊥ = ⊥) (r : Rec S)
    (hru : r.nUsers = userIds.length) (hri : r.nItems = itemIds.length)
    (users : List U) (hu : ∀ u ∈ users, u ∈ userIds) (raw : List (List S))
    (hraw : r.getScore (users.map (fun u => userIds.idxOf u)) = .ok raw)
    (hlen : raw.length = users.length) (hrow : ∀ row ∈ raw, row.length = itemIds.length)
    (k k' : Nat) (hk : k ≤ k') (allowed : Option (List I)) (perUser forbidden : Option (List (List I)))
    (hpu : ∀ ls, perUser = some ls → ls.length = users.length)
    (hf : ∀ ls, forbidden = some ls → ls.length = users.length) (nThreads : Nat) (ht : 0 < nThreads) :
    ∃ res res', m.recommendKnownUserBatch psort cast r users k allowed perUser forbidden nThreads
        = .ok res ∧
      m.recommendKnownUserBatch psort cast r users k' allowed perUser forbidden nThreads = .ok res' ∧
      res.length = users.length ∧ res'.length = users.length ∧
      ∀ j (hj : j < res.length) (hj' : j < res'.length) (hr : j < raw.length),
        res[j].map Prod.snd = (res'[j].map Prod.snd).take k ∧
        ((raw[j].map cast).Nodup → res[j] = res'[j].take k) := by
  obtain ⟨rfl, rfl, hn⟩ := idmapper_make_ok hm
  obtain ⟨res, h1, hl, hb⟩ := C20_known_users_best m.userIds m.items.itemIds m hm hps cast hcast r hru hri
    users hu raw hraw hlen hrow k allowed perUser forbidden hpu hf nThreads ht
  obtain ⟨res', h1', hl', hb'⟩ := C20_known_users_best m.userIds m.items.itemIds m hm hps cast hcast r hru hri
    users hu raw hraw hlen hrow k' allowed perUser forbidden hpu hf nThreads ht
  refine ⟨res, res', h1, h1', hl, hl', ?_⟩
  intro j hj hj' hr
  have hju : j < users.length := by omega
  have hrl : raw[j].length = m.items.itemIds.length := hrow _ (List.getElem_mem hr)
  let sc : I → F := fun x => if r.trainNz (m.userIds.idxOf users[j]) (m.items.itemIds.idxOf x) = true
    then ⊥ else cast (raw[j].getD (m.items.itemIds.idxOf x) ⊥)
  have hsc : ∀ i (h : i < m.items.itemIds.length) (h' : i < raw[j].length), sc m.items.itemIds[i] =
      if r.trainNz (m.userIds.idxOf users[j]) i = true then ⊥ else cast raw[j][i] := by
    intro i h h'
    simp only [sc]
    rw [hn.idxOf_getElem, List.getD_eq_getElem?_getD, List.getElem?_eq_getElem h', Option.getD_some]
  obtain ⟨out, ho, htop⟩ := hb j hju hj hr sc hsc
  obtain ⟨out', ho', htop'⟩ := hb' j hju hj' hr sc hsc
  have hpre := htop'.take hk
  rw [ho, ho']
  constructor
  · rw [List.map_map, List.map_map, ← List.map_take]
    exact htop.scores_unique hpre
  · intro hnd
    rw [← List.map_take]
    congr 1
    refine htop.unique hpre ?_
    intro a ha b hb hab
    unfold eligible at ha hb
    rw [List.mem_filter, decide_eq_true_eq] at ha hb
    have hia := List.idxOf_lt_length_of_mem ha.2.1
    have hib := List.idxOf_lt_length_of_mem hb.2.1
    have hval : ∀ x ∈ m.items.itemIds, sc x ≠ ⊥ → ∀ (h : m.items.itemIds.idxOf x < raw[j].length),
        sc x = (raw[j].map cast)[m.items.itemIds.idxOf x]'(by rw [List.length_map]; exact h) := by
      intro x hx hne h
      simp only [sc] at hne ⊢
      split at hne
      · exact absurd rfl hne
      · rename_i hz
        rw [if_neg hz, List.getElem_map, List.getD_eq_getElem?_getD, List.getElem?_eq_getElem h,
          Option.getD_some]
    rw [hval a ha.2.1 ha.2.2.2 (by omega), hval b hb.2.1 hb.2.2.2 (by omega)] at hab
    have hidx := (List.Nodup.getElem_inj_iff hnd).mp hab
    exact (List.idxOf_inj ha.2.1).mp hidx

/-- C93 (recommendations, one user). The same for one known user (cutoffs of at least 1). -/
theorem C93_recommend_known_user (userIds : List U) (itemIds : List I) (m : IDMapper U I)
    (hm : IDMapper.make userIds itemIds = .ok m) {argsort : List S → List Nat} (has : IsASort argsort)
    (r : Rec S) (hru : r.nUsers = userIds.length) (user : U) (hu : user ∈ userIds) (row : List S)
    (hraw : r.getScore [userIds.idxOf user] = .ok [row]) (hrow : row.length = itemIds.length)
    (k k' : Nat) (hk1 : 1 ≤ k) (hk : k ≤ k') (allowed forbidden : Option (List I)) :
    ∃ l l', m.recommendKnownUser argsort r user k allowed forbidden = .ok l ∧
      m.recommendKnownUser argsort r user k' allowed forbidden = .ok l' ∧
      l.map Prod.snd = (l'.map Prod.snd).take k ∧ (row.Nodup → l = l'.take k) := by
  obtain ⟨rfl, rfl, hn⟩ := idmapper_make_ok hm
  let sc : I → S := fun x => if r.trainNz (m.userIds.idxOf user) (m.items.itemIds.idxOf x) = true
    then ⊥ else row.getD (m.items.itemIds.idxOf x) ⊥
  have hsc : ∀ i (h : i < m.items.itemIds.length) (h' : i < row.length), sc m.items.itemIds[i] =
      if r.trainNz (m.userIds.idxOf user) i = true then ⊥ else row[i] := by
    intro i h h'
    simp only [sc]
    rw [hn.idxOf_getElem, List.getD_eq_getElem?_getD, List.getElem?_eq_getElem h', Option.getD_some]
  obtain ⟨out, h1, htop⟩ := C20_known_user_best m.userIds m.items.itemIds m hm has r hru user hu row hraw
    hrow k hk1 allowed forbidden sc hsc
  obtain ⟨out', h1', htop'⟩ := C20_known_user_best m.userIds m.items.itemIds m hm has r hru user hu row hraw
    hrow k' (by omega) allowed forbidden sc hsc
  have hpre := htop'.take hk
  refine ⟨_, _, h1, h1', ?_, ?_⟩
  · rw [List.map_map, List.map_map, ← List.map_take]
    exact htop.scores_unique hpre
  · intro hnd
    rw [← List.map_take]
    congr 1
    refine htop.unique hpre ?_
    intro a ha b hb hab
    rw [List.mem_filter] at ha hb
    have ha := ha.1
    have hb := hb.1
    unfold eligible at ha hb
    rw [List.mem_filter, decide_eq_true_eq] at ha hb
    have hia := List.idxOf_lt_length_of_mem ha.2.1
    have hib := List.idxOf_lt_length_of_mem hb.2.1
    have hval : ∀ x ∈ m.items.itemIds, sc x ≠ ⊥ → ∀ (h : m.items.itemIds.idxOf x < row.length),
        sc x = row[m.items.itemIds.idxOf x] := by
      intro x hx hne h
      simp only [sc] at hne ⊢
      split at hne
      · exact absurd rfl hne
      · rename_i hz
        rw [if_neg hz, List.getD_eq_getElem?_getD, List.getElem?_eq_getElem h, Option.getD_some]
    rw [hval a ha.2.1 ha.2.2.2 (by omega), hval b hb.2.1 hb.2.2.2 (by omega)] at hab
    have hidx := (List.Nodup.getElem_inj_iff hnd).mp hab
    exact (List.idxOf_inj ha.2.1).mp hidx

/-- Non-vacuity: the calls of both theorems at cutoffs 1 and 2. -/
example : ∃ m : IDMapper String String, IDMapper.make ["u", "v"] ["a", "b", "c"] = .ok m ∧
    m.recommendKnownUserBatch insSort (id : Fin 5 → Fin 5)
      ⟨2, 3, fun u i => decide (u = i), fun us => .ok (us.map (fun u => if u = 0 then [4, 3, 2] else [1, 4, 2])),
        fun _ => .error .notImplemented⟩ ["v", "u"] 1 none none none 3
      = .ok [[("c", 2)], [("b", 3)]] ∧
    m.recommendKnownUserBatch insSort (id : Fin 5 → Fin 5)
      ⟨2, 3, fun u i => decide (u = i), fun us => .ok (us.map (fun u => if u = 0 then [4, 3, 2] else [1, 4, 2])),
        fun _ => .error .notImplemented⟩ ["v", "u"] 2 none none none 3
      = .ok [[("c", 2), ("a", 1)], [("b", 3), ("c", 2)]] :=
  ⟨⟨⟨["a", "b", "c"]⟩, ["u", "v"]⟩, by decide, by decide, by decide⟩

end

end Irspack.Props
