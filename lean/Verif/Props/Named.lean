import Verif.Proofs.Named
import Verif.Props.PyEvaluator

/-!
# C77: the labels of a report
-/

namespace Irspack.Evaluation.Named

open Irspack Irspack.Evaluation

variable {S : Type} [LinearOrder S] [OrderBot S]

theorem each_source {src : Source} (h : IsSource (S := S) src) : Each src := by
  cases h with
  | model ev r => exact each_model ev r
  | matrix ev m => exact each_matrixWith ev _ m
  | chunks ev l => exact each_chunksWith ev _ l
  | coldModel ev r => exact each_coldModel ev r
  | coldMatrix ev m => exact each_matrixWith _ _ m

theorem ofReport_get (d : PyDict) : ∀ n ∈ reported, (ofReport d).get n.toList = .ok (valueOf d n) := by
  intro n hn
  simp only [reported, List.mem_cons, List.not_mem_nil, or_false] at hn
  rcases hn with rfl | rfl | rfl | rfl | rfl | rfl | rfl | rfl | rfl <;> rfl

theorem zip_val {src : Source} {cs : List Nat} {ds : List PyDict}
    (h : List.Forall₂ (fun c d => src [c] = .ok [d]) cs ds) :
    ∃ val : Nat → Dict (Option ℝ), cs.zip (ds.map ofReport) = cs.map (fun c => (c, val c)) ∧
      ∀ c ∈ cs, ∃ d, src [c] = .ok [d] ∧ val c = ofReport d := by
  classical
  refine ⟨fun c => match src [c] with
    | .ok [d] => ofReport d
    | _ => [], ?_, ?_⟩
  · induction h with
    | nil => rfl
    | cons hc _ ih => simp only [List.map_cons, List.zip_cons_cons, ih, hc]
  · induction h with
    | nil => simp
    | @cons c d _ _ hc _ ih =>
      intro c' hc'
      rcases List.mem_cons.mp hc' with rfl | hc'
      · exact ⟨d, hc, by simp only [hc]⟩
      · exact ih c' hc'

/-- C77 (multiple cutoffs).  A report for several cutoffs is returned whenever the evaluation succeeds.
Its keys are `metric@cutoff`, for the cutoffs in the order in which they first appear in the argument and
all nine metrics; the value under `metric@cutoff` is what the evaluation with this cutoff alone reports for
the metric. -/
theorem C77_report (src : Source) (hs : IsSource (S := S) src) (cutoffs : List Nat) (ds : List PyDict)
    (h : src cutoffs = .ok ds) :
    ∃ D, getScores src cutoffs = .ok D ∧
      D.map Prod.fst = cutoffs.eraseDups.flatMap (fun c => reported.map (fun n => label n c)) ∧
      ∀ c ∈ cutoffs, ∃ d, src [c] = .ok [d] ∧ getScore src c = .ok (ofReport d) ∧
        ∀ n ∈ reported, D.get (label n c) = .ok (valueOf d n) ∧
          (ofReport d).get n.toList = .ok (valueOf d n) := by
  obtain ⟨val, h1, h2⟩ := zip_val (each_source hs cutoffs ds h)
  have hget : ∀ c ∈ cutoffs, ∀ n ∈ metricNames, ∃ v, (val c).get n = .ok v := by
    intro c hc n hn
    obtain ⟨d, -, hd⟩ := h2 c hc
    rw [names_eq] at hn
    obtain ⟨s, hs, rfl⟩ := List.mem_map.mp hn
    exact ⟨_, hd ▸ ofReport_get d s hs⟩
  obtain ⟨D, g1, g2, g3, -⟩ := addAll_ok val cutoffs [] hget
  refine ⟨D, ?_, ?_, ?_⟩
  · unfold getScores
    rw [h]
    show addAll (cutoffs.zip (ds.map ofReport)) [] = _
    rw [h1, g1]
  · rw [g2]
    have := foldl_ins_flatMap metricNames metricNames_nodup cutoffs []
    simp only [List.flatMap_nil, List.nil_append, List.not_mem_nil, not_false_eq_true, decide_true,
      List.filter_true] at this
    rw [List.map_nil, this, names_eq]
    simp only [List.map_map]
    congr 1
    funext c
    apply List.map_congr_left
    intro s _
    exact (label_eq s c).symm
  · intro c hc
    obtain ⟨d, hd, hv⟩ := h2 c hc
    refine ⟨d, hd, ?_, fun n hn => ⟨?_, ofReport_get d n hn⟩⟩
    · simp only [getScore, hd]
    · rw [label_eq, g3 c hc n.toList (by rw [names_eq]; exact List.mem_map_of_mem hn), hv, ofReport_get d n hn]

/-- C77 (errors).  Writing the report adds no error of its own: it fails exactly if the evaluation fails,
with the same error. -/
theorem C77_errors (src : Source) (hs : IsSource (S := S) src) (cutoffs : List Nat) (e : Err) :
    getScores src cutoffs = .error e ↔ src cutoffs = .error e := by
  cases h : src cutoffs with
  | error e' => simp only [getScores, h]; exact ⟨fun h => by injection h with h; rw [h],
      fun h => by injection h with h; rw [h]⟩
  | ok ds =>
    obtain ⟨D, hD, -⟩ := C77_report src hs cutoffs ds h
    rw [hD]
    exact ⟨nofun, nofun⟩

/-- C77 (labels).  Different metrics or different cutoffs never share a label, whatever the metrics are
called. -/
theorem C77_labels (n n' : String) (c c' : Nat) : label n c = label n' c' ↔ n = n' ∧ c = c' := by
  constructor
  · intro h
    rw [label_eq, label_eq] at h
    obtain ⟨h1, h2⟩ := key_inj h
    exact ⟨String.toList_injective h1, h2⟩
  · rintro ⟨rfl, rfl⟩; rfl

/-- C77 (choice of the target).  The constructor accepts exactly the five documented names. -/
theorem C77_target_names (s : String) :
    (s ∈ targets → ∃ t, targetOf s.toList = .ok t ∧ t.name = s.toList) ∧
      (s ∉ targets → targetOf s.toList = .error .keyError) := by
  constructor
  · intro h
    simp only [targets, List.mem_cons, List.not_mem_nil, or_false] at h
    rcases h with rfl | rfl | rfl | rfl | rfl
    · exact ⟨.ndcg, rfl, rfl⟩
    · exact ⟨.recall, rfl, rfl⟩
    · exact ⟨.hit, rfl, rfl⟩
    · exact ⟨.map, rfl, rfl⟩
    · exact ⟨.precision, rfl, rfl⟩
  · intro h
    simp only [targets, List.mem_cons, List.not_mem_nil, or_false, not_or] at h
    have hne : ∀ t : String, s ≠ t → s.toList ≠ t.toList := fun t ht he => ht (String.toList_injective he)
    unfold targetOf
    rw [if_neg (hne _ h.1), if_neg (hne _ h.2.1), if_neg (hne _ h.2.2.1), if_neg (hne _ h.2.2.2.1),
      if_neg (hne _ h.2.2.2.2)]

theorem history_get (score : Dict (Option ℝ)) (c : Nat) (hn : (score.map Prod.fst).Nodup) :
    ∀ n, (historyEntry score c).get (key n c) = score.get n := by
  have aux : ∀ (l : Dict (Option ℝ)) (acc : Dict (Option ℝ)), (l.map Prod.fst).Nodup →
      ∀ n, (l.foldl (fun d e => Dict.set d (key e.1 c) e.2) acc).get (key n c) =
        if n ∈ l.map Prod.fst then Dict.get l n else Dict.get acc (key n c) := by
    intro l
    induction l with
    | nil => intro acc _ n; simp
    | cons e l ih =>
      intro acc hn n
      rw [List.map_cons, List.nodup_cons] at hn
      rw [List.foldl_cons, ih _ hn.2, get_set]
      by_cases h : n = e.1
      · subst h
        rw [if_neg hn.1, if_pos rfl, if_pos (by simp)]
        simp [Dict.get, lookup_step]
      · rw [if_neg (fun he => h (key_inj he).1)]
        have hg : Dict.get (e :: l) n = Dict.get l n := by simp [Dict.get, lookup_step, h]
        simp only [List.map_cons, List.mem_cons, h, false_or, hg]
  intro n
  unfold historyEntry
  rw [aux score [] hn n]
  split_ifs with h
  · rfl
  · simp [Dict.get, lookup_of_not_mem _ _ h]

/-- C77 (tuning).  For a target metric with a label: `get_target_score`, the entry of the single-cutoff
report, the entry of the multi-cutoff report under `target_metric_name`, and the entry in the trial's
history are the same number, and optuna is given its negative. -/
theorem C77_target (src : Source) (hs : IsSource (S := S) src) (s : String) (t : TargetMetric) (c : Nat)
    (ht : targetOf s.toList = .ok t) (d : PyDict) (h : src [c] = .ok [d]) :
    ∃ (x : ℝ) (D : Dict (Option ℝ)), valueOf d s = some x ∧
      getTargetScore src t c = .ok (some x) ∧
      getScore src c = .ok (ofReport d) ∧ (ofReport d).get s.toList = .ok (some x) ∧
      getScores src [c] = .ok D ∧ D.get (label s c) = .ok (some x) ∧
      (historyEntry (ofReport d) c).get (label s c) = .ok (some x) ∧
      objectiveValue (ofReport d) t = .ok (some (-x)) := by
  have hmem : s ∈ targets := by
    by_contra hne
    rw [(C77_target_names s).2 hne] at ht
    cases ht
  have hname : t.name = s.toList := by
    obtain ⟨t', h1, h2⟩ := (C77_target_names s).1 hmem
    rw [ht] at h1
    injection h1 with h1
    rw [h1, h2]
  have hrep : s ∈ reported := by
    simp only [targets, List.mem_cons, List.not_mem_nil, or_false] at hmem
    rcases hmem with rfl | rfl | rfl | rfl | rfl <;> simp [reported]
  have hx : ∃ x, valueOf d s = some x := by
    simp only [targets, List.mem_cons, List.not_mem_nil, or_false] at hmem
    rcases hmem with rfl | rfl | rfl | rfl | rfl <;> exact ⟨_, rfl⟩
  obtain ⟨x, hx⟩ := hx
  obtain ⟨D, h1, -, h2⟩ := C77_report src hs [c] [d] h
  obtain ⟨d', h3, h4, h5⟩ := h2 c List.mem_cons_self
  rw [h] at h3
  have hd : d = d' := by injection h3 with h3; injection h3
  subst hd
  have h6 := h5 s hrep
  refine ⟨x, D, hx, ?_, h4, by rw [h6.2, hx], h1, by rw [h6.1, hx], ?_, ?_⟩
  · simp only [getTargetScore, h4, hname, h6.2, hx]
  · have hn : ((ofReport d).map Prod.fst).Nodup := by
      show (["appeared_item".toList, "entropy".toList, "gini_index".toList, "hit".toList, "map".toList,
        "n_items".toList, "ndcg".toList, "precision".toList, "recall".toList, "total_user".toList,
        "valid_user".toList, "catalog_coverage".toList] : List (List Char)).Nodup
      decide
    rw [label_eq, history_get _ _ hn, h6.2, hx]
  · simp only [objectiveValue, hname, h6.2, hx]
    rfl

/-- C77 (the whole history entry).  Every number of the single-cutoff report appears in the history of the
study under `name@cutoff`. -/
theorem C77_history (d : PyDict) (c : Nat) (n : String) (v : Option ℝ)
    (h : (ofReport d).get n.toList = .ok v) :
    (historyEntry (ofReport d) c).get (label n c) = .ok v := by
  have hn : ((ofReport d).map Prod.fst).Nodup := by
    show (["appeared_item".toList, "entropy".toList, "gini_index".toList, "hit".toList, "map".toList,
      "n_items".toList, "ndcg".toList, "precision".toList, "recall".toList, "total_user".toList,
      "valid_user".toList, "catalog_coverage".toList] : List (List Char)).Nodup
    decide
  rw [label_eq, history_get _ _ hn, h]

/-- non-vacuity: an evaluator with two users and a model give reports for the cutoffs 1, 2, 1 -/
example : ∃ (src : Source) (ds : List PyDict), IsSource (S := WithBot Nat) src ∧ src [1, 2, 1] = .ok ds ∧
    ([1, 2, 1] : List Nat).eraseDups = [1, 2] := by
  obtain ⟨ev, res, -, h⟩ := Props.ex_getScores
  unfold Evaluator.getScores at h
  cases hs : ev.scoresOfModel (⟨2, 3, fun _ _ => .error .notImplemented,
      fun idx => .ok (idx.map fun _ i => (i : WithBot Nat)), fun _ _ => false⟩ :
        Recommender (WithBot Nat)) [1, 2, 1] with
  | error e => rw [hs] at h; cases h
  | ok ds => exact ⟨_, ds, .model ev _, hs, by decide⟩

example : label "ndcg" 20 = "ndcg@20".toList ∧ targetOf "recall".toList = .ok .recall ∧
    targetOf "f1".toList = .error .keyError := by
  refine ⟨?_, rfl, rfl⟩
  rw [label_eq]
  rfl

end Irspack.Evaluation.Named
