import Verif.Proofs.Tuning
import Verif.Spec.Tuning
import Verif.Props.ParamRange
import Mathlib.Algebra.Order.Group.Int

/-!
# C54: tuning keeps fixed parameters and reports what it used

`optimize c m s` runs `m` trials on the study `s`; suggestion functions, sampler, training and evaluation are
arbitrary (fields of `c`).  `passed` records the data and the keyword arguments a recommender was constructed
with.  `Dict.WF`: the keys are distinct, as in every Python dictionary.
-/

namespace Irspack.Tuning

open Spec.Tuning Spec.ParamName

variable {K V Data : Type}

/-- a trial of the study after `optimize` is an old one or was made by it -/
theorem mem_optimize [Neg K] {c : Setup K V Data} {m : Nat} {s : Study K V Data} {t : Frozen K V Data}
    (h : t ∈ (optimize c m s).1.trials) : t ∈ s.trials ∨ MadeBy c t := by
  obtain ⟨l, h1, h2⟩ := optimize_trials c m s
  rw [h1] at h
  exact (List.mem_append.mp h).imp id (h2 t)

/-- C54 (fixed parameters).  In every trial in which a recommender is constructed, each fixed parameter is
passed with its fixed value, whatever the suggestion functions suggest; the other keyword arguments are
those returned by the parameter suggestion function; the data is that of the data suggestion function. -/
theorem C54_fixed_override [Neg K] (c : Setup K V Data) (hf : c.fixed.WF) (m : Nat) (s : Study K V Data)
    (t : Frozen K V Data) (ht : t ∈ (optimize c m s).1.trials) (hnew : t ∉ s.trials) (d : Data)
    (kw : Dict V) (hp : t.passed = some (d, kw)) :
    (∀ k v, c.fixed.get? k = some v → kw.get? k = some v) ∧
    ∃ (s₀ : Study K V Data) (ps : Dict V) (suggested : Dict V),
      c.dataSuggest.run (c.sample s₀) [] = (ps, .ok d) ∧
      c.paramSuggest.run (c.sample s₀) ps = (t.params, .ok suggested) ∧
      ∀ k, c.fixed.get? k = none → kw.get? k = suggested.get? k := by
  obtain ⟨s₀, -, h2, -⟩ := madeBy_cases c t ((mem_optimize ht).resolve_left hnew)
  obtain ⟨h3, sug, h4, rfl⟩ := h2 d kw hp
  refine ⟨fun k v hk => by rw [Dict.get?_update _ _ hf, hk]; rfl, s₀, _, sug, Prod.ext rfl h3, h4, ?_⟩
  intro k hk
  rw [Dict.get?_update _ _ hf, hk]
  rfl

/-- C54 (default suggestion).  With the data given and the default suggestion, a trial samples only default
ranges whose name is not fixed, each from its own range; and when the recommender is constructed, all of
them are sampled, the keyword arguments are exactly the fixed and the sampled parameters, and the data is
the given data. -/
theorem C54_default_suggestion [Neg K] (c : Setup K V Data) (ranges : List (ParameterRange K V)) (data : Data)
    (hd : c.dataSuggest = .ret data) (hs : c.paramSuggest = defaultSuggest c.fixed ranges [])
    (hf : c.fixed.WF) (m : Nat) (s : Study K V Data)
    (t : Frozen K V Data) (ht : t ∈ (optimize c m s).1.trials) (hnew : t ∉ s.trials) :
    (∀ k v, t.params.get? k = some v → c.fixed.get? k = none ∧
      ∃ r ∈ ranges, r.name = k ∧ ∃ s₀, c.sample s₀ k r.request = .ok v) ∧
    ∀ d kw, t.passed = some (d, kw) → d = data ∧
      (∀ r ∈ ranges, c.fixed.get? r.name = none → ∃ v, t.params.get? r.name = some v) ∧
      ∀ k, kw.get? k = (c.fixed.get? k).or (t.params.get? k) := by
  obtain ⟨s₀, h1, h2, -⟩ := madeBy_cases c t ((mem_optimize ht).resolve_left hnew)
  have hdr : c.dataSuggest.run (c.sample s₀) [] = ([], .ok data) := by rw [hd]; rfl
  rw [hdr] at h1 h2
  obtain ⟨j1, j2⟩ := defaultSuggest_run c.fixed (c.sample s₀) ranges [] [] Dict.wf_nil (by
    intro k v h; cases h)
  rw [← hs] at j1 j2
  have hsampled : ∀ k v, t.params.get? k = some v → c.fixed.get? k = none ∧
      ∃ r ∈ ranges, r.name = k ∧ ∃ s₀, c.sample s₀ k r.request = .ok v := by
    intro k v hk
    rcases h1 with h1 | ⟨d, -, h1⟩
    · rw [h1] at hk; cases hk
    · rw [h1] at hk
      rcases j1 k v hk with h | ⟨h3, r, h4, h5, h6⟩
      · cases h
      · exact ⟨h3, r, h4, h5, s₀, h6⟩
  refine ⟨hsampled, ?_⟩
  intro d kw hp
  obtain ⟨h3, sug, h4, rfl⟩ := h2 d kw hp
  obtain ⟨i1, -, i3⟩ := j2 sug (by rw [h4])
  rw [h4] at i3
  have hiff : ∀ k, sug.get? k = t.params.get? k := by
    intro k
    cases hk : sug.get? k with
    | some v => exact (i3 k v hk).1.symm
    | none =>
      cases hk' : t.params.get? k with
      | none => rfl
      | some v =>
        obtain ⟨h5, r, h6, rfl, -⟩ := hsampled k v hk'
        obtain ⟨w, hw⟩ := i1 r h6 h5
        rw [hk] at hw; cases hw
  refine ⟨(Except.ok.inj h3).symm, ?_, ?_⟩
  · intro r hr hn
    obtain ⟨v, hv⟩ := i1 r hr hn
    exact ⟨v, hiff r.name ▸ hv⟩
  · intro k
    rw [Dict.get?_update _ _ hf, hiff]

open Classical in
theorem get?_filter_valid (U : Chars) (d : Dict V) (k : List Char) :
    Dict.get? (d.filter (fun e => isValidParamName U e.1)) k =
      if isValidParamName U k then d.get? k else none := by
  induction d with
  | nil => simp [Dict.get?_nil]
  | cons e d ih =>
    rw [Dict.get?_cons, List.filter_cons]
    by_cases hv : isValidParamName U e.1
    · simp only [hv, decide_true, if_true]
      rw [Dict.get?_cons, ih]
      by_cases hk : e.1 = k
      · subst hk; simp [hv]
      · simp [hk]
    · simp only [hv, decide_false, Bool.false_eq_true, if_false]
      rw [ih]
      by_cases hk : e.1 = k
      · subst hk; simp [hv]
      · simp [hk]

open Classical in
theorem mergeBest_cases (U : Chars) (params attrs : Dict V) :
    ((∃ k, isValidParamName U k ∧ attrs.has k = true ∧ params.has k = true) →
      mergeBest U params attrs = .error .typeError) ∧
    ((¬ ∃ k, isValidParamName U k ∧ attrs.has k = true ∧ params.has k = true) →
      ∃ bp, mergeBest U params attrs = .ok bp ∧
        ∀ k, bp.get? k = (params.get? k).or (if isValidParamName U k then attrs.get? k else none)) := by
  have hiff : (attrs.filter (fun e => isValidParamName U e.1)).any (fun e => params.has e.1) = true ↔
      ∃ k, isValidParamName U k ∧ attrs.has k = true ∧ params.has k = true := by
    rw [List.any_eq_true]
    constructor
    · rintro ⟨e, he, hp⟩
      rw [List.mem_filter] at he
      exact ⟨e.1, by simpa using he.2, (Dict.has_iff_mem _ _).mpr (List.mem_map_of_mem he.1), hp⟩
    · rintro ⟨k, hk, ha, hp⟩
      obtain ⟨e, he, rfl⟩ := List.mem_map.mp ((Dict.has_iff_mem _ _).mp ha)
      exact ⟨e, List.mem_filter.mpr ⟨he, by simpa using hk⟩, hp⟩
  unfold mergeBest
  constructor
  · intro h
    exact if_pos (hiff.mpr h)
  · intro h
    refine ⟨_, if_neg (fun hc => h (hiff.mp hc)), ?_⟩
    intro k
    rw [Dict.get?_append, get?_filter_valid]

open Classical in
/-- C54 (best parameters).  When tuning returns, the parameters are those of the best trial: the sampled
ones and, among the attributes recorded after training, those with a valid parameter name. -/
theorem C54_best [Neg K] [LinearOrder K] (U : Chars) (c : Setup K V Data) (m : Nat) (s s' : Study K V Data)
    (bp : Dict V) (h : optimizeWithStudy U c m s = .ok (bp, s')) :
    optimize c m s = (s', none) ∧ ∃ b w, IsBest s'.trials b w ∧
      ∀ k, bp.get? k = (b.params.get? k).or (if isValidParamName U k then b.attrs.get? k else none) := by
  unfold optimizeWithStudy at h
  cases ho : optimize c m s with
  | mk s₁ e =>
    rw [ho] at h
    cases e with
    | some e => cases h
    | none =>
      simp only at h
      cases hb : bestOf s₁.trials with
      | none => rw [hb] at h; cases h
      | some p =>
        obtain ⟨b, w⟩ := p
        rw [hb] at h
        simp only [bind, Except.bind, pure, Except.pure] at h
        by_cases hdup : ∃ k, isValidParamName U k ∧ b.attrs.has k = true ∧ b.params.has k = true
        · rw [(mergeBest_cases U _ _).1 hdup] at h
          cases h
        · obtain ⟨bp', h1, h2⟩ := (mergeBest_cases U b.params b.attrs).2 hdup
          rw [h1] at h
          obtain ⟨rfl, rfl⟩ := Prod.mk.inj (Except.ok.inj h)
          exact ⟨rfl, b, w, bestOf_some _ _ _ hb, h2⟩

/-- C54 (errors).  An exception of a trial other than pruning ends tuning with this exception.  Otherwise
tuning raises `ValueError` iff no trial is completed, and `TypeError` iff a recorded attribute of the best
trial with a valid parameter name is also the name of a sampled parameter; else it returns. -/
theorem C54_errors [Neg K] [LinearOrder K] (U : Chars) (c : Setup K V Data) (m : Nat) (s s' : Study K V Data) :
    (∀ e, optimize c m s = (s', some e) → optimizeWithStudy U c m s = .error e) ∧
    (optimize c m s = (s', none) →
      ((∀ t ∈ s'.trials, ∀ v, t.outcome ≠ .complete v) → optimizeWithStudy U c m s = .error .valueError) ∧
      ∀ b w, IsBest s'.trials b w →
        ((∃ k, isValidParamName U k ∧ b.attrs.has k = true ∧ b.params.has k = true) →
          optimizeWithStudy U c m s = .error .typeError) ∧
        ((¬ ∃ k, isValidParamName U k ∧ b.attrs.has k = true ∧ b.params.has k = true) →
          ∃ bp, optimizeWithStudy U c m s = .ok (bp, s'))) := by
  constructor
  · intro e h
    unfold optimizeWithStudy
    rw [h]
  · intro h
    unfold optimizeWithStudy
    rw [h]
    simp only
    constructor
    · intro hn
      rw [(bestOf_none _).mpr hn]
    · intro b w hb
      have hbest : bestOf s'.trials = some (b, w) := isBest_bestOf hb
      rw [hbest]
      simp only [bind, Except.bind, pure, Except.pure]
      constructor
      · intro hdup
        rw [(mergeBest_cases U _ _).1 hdup]
      · intro hdup
        obtain ⟨bp, h1, -⟩ := (mergeBest_cases U b.params b.attrs).2 hdup
        rw [h1]
        exact ⟨bp, rfl⟩

/-- C54 (`tune`).  Without data and without a data suggestion function `ValueError` is raised before any
trial.  Otherwise `tune` is the optimiser with the given data, or the given function if there is no data, and
with the default suggestion unless a suggestion function is given. -/
theorem C54_tune [Neg K] [LinearOrder K] (U : Chars) (ranges : List (ParameterRange K V)) (c : Setup K V Data)
    (m : Nat) (s : Study K V Data) :
    (∀ f, tune U ranges none none f c m s = .error .valueError) ∧
    (∀ d g, tune U ranges (some d) g none c m s =
      optimizeWithStudy U { c with dataSuggest := .ret d, paramSuggest := defaultSuggest c.fixed ranges [] } m s) ∧
    (∀ d g f, tune U ranges (some d) g (some f) c m s =
      optimizeWithStudy U { c with dataSuggest := .ret d, paramSuggest := f } m s) ∧
    (∀ g, tune U ranges none (some g) none c m s =
      optimizeWithStudy U { c with dataSuggest := g, paramSuggest := defaultSuggest c.fixed ranges [] } m s) ∧
    (∀ g f, tune U ranges none (some g) (some f) c m s =
      optimizeWithStudy U { c with dataSuggest := g, paramSuggest := f } m s) :=
  ⟨fun _ => rfl, fun _ _ => rfl, fun _ _ _ => rfl, fun _ => rfl, fun _ _ => rfl⟩

/-- C54 (what is reported was used).  With the default suggestion and a new study, every reported parameter
was passed to the recommender of the best trial or was recorded after its training, and together with the
fixed parameters the reported ones contain everything that was passed. -/
theorem C54_reported_was_used [Neg K] [LinearOrder K] (U : Chars) (c : Setup K V Data)
    (ranges : List (ParameterRange K V)) (data : Data)
    (hd : c.dataSuggest = .ret data) (hs : c.paramSuggest = defaultSuggest c.fixed ranges [])
    (hf : c.fixed.WF) (m : Nat) (s' : Study K V Data) (bp : Dict V)
    (h : optimizeWithStudy U c m ⟨[], []⟩ = .ok (bp, s')) :
    ∃ b w kw, IsBest s'.trials b w ∧ b.passed = some (data, kw) ∧
      (∀ k v, bp.get? k = some v → kw.get? k = some v ∨ b.attrs.get? k = some v) ∧
      ∀ k v, kw.get? k = some v → c.fixed.get? k = some v ∨ bp.get? k = some v := by
  obtain ⟨ho, b, w, hb, hbp⟩ := C54_best U c m _ s' bp h
  have hmem : b ∈ (optimize c m ⟨[], []⟩).1.trials := by
    rw [ho]
    obtain ⟨pre, post, heq, -⟩ := hb
    rw [heq]; simp
  have hout : b.outcome = .complete w := by obtain ⟨_, _, _, h2, _⟩ := hb; exact h2
  have hmade := (mem_optimize hmem).resolve_left (by simp)
  obtain ⟨s₀, -, -, h3⟩ := madeBy_cases c b hmade
  obtain ⟨d, kw, learnt, score, x, hpass, -⟩ := h3 w hout
  obtain ⟨h4, h5⟩ := C54_default_suggestion c ranges data hd hs hf m ⟨[], []⟩ b hmem (by simp)
  obtain ⟨rfl, -, h6⟩ := h5 d kw hpass
  refine ⟨b, w, kw, hb, hpass, ?_, ?_⟩
  · intro k v hk
    rw [hbp] at hk
    cases hp : b.params.get? k with
    | some v' =>
      rw [hp] at hk
      left
      rw [h6, (h4 k v' hp).1, hp]
      exact hk
    | none =>
      rw [hp, Option.none_or] at hk
      right
      split at hk
      · exact hk
      · cases hk
  · intro k v hk
    rw [h6] at hk
    cases hfx : c.fixed.get? k with
    | some v' => rw [hfx] at hk; exact .inl hk
    | none =>
      rw [hfx, Option.none_or] at hk
      right
      rw [hbp, hk]
      rfl

/-- C54 (fixed parameters are not reported).  With the default suggestion, if training records no attribute
with a fixed name and the earlier trials of the study neither sampled nor recorded one, no fixed parameter is
among the returned ones.  Missing: an arbitrary suggestion function, and training that records a fixed name;
there it is false, see the two counterexamples. -/
theorem C54_fixed_not_reported_partial [Neg K] [LinearOrder K] (U : Chars) (c : Setup K V Data)
    (ranges : List (ParameterRange K V)) (data : Data)
    (hd : c.dataSuggest = .ret data) (hs : c.paramSuggest = defaultSuggest c.fixed ranges [])
    (hf : c.fixed.WF) (m : Nat) (s s' : Study K V Data) (bp : Dict V)
    (h : optimizeWithStudy U c m s = .ok (bp, s'))
    (hlearnt : ∀ s₀ d kw learnt score, c.fit s₀ d kw = .done learnt score →
      learnt.WF ∧ ∀ k, c.fixed.has k = true → learnt.get? k = none)
    (hold : ∀ t ∈ s.trials, ∀ k, c.fixed.has k = true → t.params.get? k = none ∧ t.attrs.get? k = none)
    (k : List Char) (hk : c.fixed.has k = true) : bp.get? k = none := by
  obtain ⟨ho, b, w, hb, hbp⟩ := C54_best U c m _ s' bp h
  have hmem : b ∈ (optimize c m s).1.trials := by
    rw [ho]
    obtain ⟨pre, post, heq, -⟩ := hb
    rw [heq]; simp
  rw [hbp]
  by_cases hin : b ∈ s.trials
  · obtain ⟨h1, h2⟩ := hold b hin k hk
    rw [h1, h2]; simp
  · have hout : b.outcome = .complete w := by obtain ⟨_, _, _, h2, _⟩ := hb; exact h2
    obtain ⟨s₀, -, -, h3⟩ := madeBy_cases c b ((mem_optimize hmem).resolve_left hin)
    obtain ⟨d, kw, learnt, score, x, hpass, hfit, hattrs, -⟩ := h3 w hout
    obtain ⟨h4, -⟩ := C54_default_suggestion c ranges data hd hs hf m s b hmem hin
    have hp : b.params.get? k = none := by
      cases hp : b.params.get? k with
      | none => rfl
      | some v =>
        obtain ⟨v', hv'⟩ := (Dict.has_iff _ _).mp hk
        rw [(h4 k v hp).1] at hv'; cases hv'
    have ha : b.attrs.get? k = none := by
      obtain ⟨h5, h6⟩ := hlearnt s₀ d kw learnt score hfit
      rw [hattrs, Dict.get?_update _ _ h5, h6 k hk]; rfl
    rw [hp, ha]; simp

/-! ## The history -/

theorem runTrial_scores [Neg K] (c : Setup K V Data) (s : Study K V Data) :
    ∃ t, t.number = s.trials.length ∧ (runTrial c s).1.trials = s.trials ++ [t] ∧
      (((runTrial c s).1.scores = s.scores ∧ ∀ v, t.outcome ≠ .complete v) ∨
       ∃ score y, score.get? c.target = some y ∧
        (runTrial c s).1.scores = addScore s.trials.length c.cutoffSuffix score s.scores ∧
        ∀ v, t.outcome = .complete v → ∃ x, y = some x ∧ v = -x) := by
  have hst : ∀ (ps : Dict V) (passed : Option (Data × Dict V)) (e : Err) (r : Option K),
      ∃ t, t.number = s.trials.length ∧
      (stopped s.trials.length ps passed s e r).1.trials = s.trials ++ [t] ∧
      (((stopped s.trials.length ps passed s e r).1.scores = s.scores ∧ ∀ v, t.outcome ≠ .complete v) ∨
       ∃ score y, score.get? c.target = some y ∧
        (stopped s.trials.length ps passed s e r).1.scores =
          addScore s.trials.length c.cutoffSuffix score s.scores ∧
        ∀ v, t.outcome = .complete v → ∃ x, y = some x ∧ v = -x) := by
    intro ps passed e r
    obtain ⟨o, ho, h1, h2⟩ := stopped_trials s.trials.length ps passed s e r
    refine ⟨_, by exact rfl, h1, .inl ⟨h2, ?_⟩⟩
    intro v
    rcases ho with rfl | rfl <;> simp
  unfold runTrial
  simp only
  split
  · exact hst _ _ _ _
  · split
    · exact hst _ _ _ _
    · split
      · exact hst _ _ _ _
      · split
        · exact hst _ _ _ _
        · rename_i x hx
          refine ⟨_, by exact rfl, rfl, .inr ⟨_, x, hx, rfl, ?_⟩⟩
          intro v hv
          cases x with
          | none => cases hv
          | some x => exact ⟨x, rfl, by simpa using hv.symm⟩

theorem get?_suffix (suffix : List Char) (score : Dict (Option K)) (k : List Char) :
    Dict.get? (score.map (fun e => (e.1 ++ suffix, e.2))) (k ++ suffix) = score.get? k := by
  induction score with
  | nil => rfl
  | cons e score ih =>
    rw [List.map_cons, Dict.get?_cons, Dict.get?_cons, ih]
    simp only [List.append_left_inj]

theorem runTrial_numbered [Neg K] (c : Setup K V Data) (s : Study K V Data) (h : Numbered s)
    (hr : Recorded c.target c.cutoffSuffix s) :
    Numbered (runTrial c s).1 ∧ Recorded c.target c.cutoffSuffix (runTrial c s).1 := by
  obtain ⟨t, hn, ht, hs⟩ := runTrial_scores c s
  obtain ⟨h1, h2, h3⟩ := h
  have hnum : (runTrial c s).1.trials.map (·.number) = List.range (runTrial c s).1.trials.length := by
    rw [ht, List.map_append, List.length_append, List.length_singleton, List.range_succ, h1]
    simp [hn]
  have hlen : (runTrial c s).1.trials.length = s.trials.length + 1 := by rw [ht]; simp
  rcases hs with ⟨hs, ho⟩ | ⟨score, y, hy, hs, ho⟩
  · refine ⟨⟨hnum, by rw [hs]; exact h2, ?_⟩, ?_⟩
    · intro e he
      rw [hs] at he
      have := h3 e he
      omega
    · intro t' ht' v hv
      rw [ht] at ht'
      rcases List.mem_append.mp ht' with ht' | ht'
      · rw [hs]; exact hr t' ht' v hv
      · rw [List.mem_singleton.mp ht'] at hv
        exact absurd hv (ho v)
  · unfold addScore at hs
    refine ⟨⟨hnum, ?_, ?_⟩, ?_⟩
    · rw [hs, List.map_append, List.nodup_append]
      refine ⟨h2, by simp, ?_⟩
      intro a ha b hb hab
      obtain ⟨e, he, rfl⟩ := List.mem_map.mp ha
      simp only [List.map_cons, List.map_nil, List.mem_singleton] at hb
      have := h3 e he
      omega
    · intro e he
      rw [hs] at he
      rcases List.mem_append.mp he with he | he
      · have := h3 e he; omega
      · rw [List.mem_singleton.mp he, hlen]; exact Nat.lt_succ_self _
    · intro t' ht' v hv
      rw [ht] at ht'
      rw [hs]
      rcases List.mem_append.mp ht' with ht' | ht'
      · obtain ⟨sc, x, i1, i2⟩ := hr t' ht' v hv
        exact ⟨sc, x, List.mem_append.mpr (.inl i1), i2⟩
      · rw [List.mem_singleton.mp ht'] at hv ⊢
        obtain ⟨x, rfl, hvx⟩ := ho v hv
        refine ⟨score.map (fun e => (e.1 ++ c.cutoffSuffix, e.2)), x, List.mem_append.mpr (.inr ?_), ?_, hvx⟩
        · rw [hn]; simp
        · rw [get?_suffix]; exact hy

theorem optimize_numbered [Neg K] (c : Setup K V Data) (m : Nat) : ∀ s : Study K V Data, Numbered s →
    Recorded c.target c.cutoffSuffix s →
    Numbered (optimize c m s).1 ∧ Recorded c.target c.cutoffSuffix (optimize c m s).1 := by
  induction m with
  | zero => intro s h1 h2; exact ⟨h1, h2⟩
  | succ m ih =>
    intro s h1 h2
    obtain ⟨h3, h4⟩ := runTrial_numbered c s h1 h2
    unfold optimize
    cases hr : runTrial c s with
    | mk s' o =>
      rw [hr] at h3 h4
      cases o with
      | some e => exact ⟨h3, h4⟩
      | none => exact ih s' h3 h4

theorem filter_singleton {α : Type} : ∀ (l : List (Nat × α)), (l.map (·.1)).Nodup → ∀ n,
    (l.filter (fun e => e.1 = n) = [] ∧ ∀ a, (n, a) ∉ l) ∨
    ∃ a, l.filter (fun e => e.1 = n) = [(n, a)] ∧ (n, a) ∈ l := by
  intro l
  induction l with
  | nil => intro _ n; exact .inl ⟨rfl, by simp⟩
  | cons e l ih =>
    intro h n
    rw [List.map_cons, List.nodup_cons] at h
    rw [List.filter_cons]
    by_cases he : e.1 = n
    · right
      subst he
      rcases ih h.2 e.1 with ⟨h1, -⟩ | ⟨a, -, h2⟩
      · refine ⟨e.2, ?_, by simp⟩
        simp [h1]
      · exact absurd (List.mem_map.mpr ⟨_, h2, rfl⟩) h.1
    · simp only [he, decide_false, Bool.false_eq_true, if_false]
      rcases ih h.2 n with ⟨h1, h2⟩ | ⟨a, h1, h2⟩
      · refine .inl ⟨h1, fun a ha => ?_⟩
        rcases List.mem_cons.mp ha with ha | ha
        · exact he (by rw [← ha])
        · exact h2 a ha
      · exact .inr ⟨a, h1, List.mem_cons_of_mem _ h2⟩

/-- C54 (history).  After any number of trials run one after another, starting from a new study or one with
complete bookkeeping, the history lists every trial exactly once and in order, with the scores recorded under
its number or none; the row of every completed trial has scores, and the score of the target metric is minus
the value of the trial. -/
theorem C54_history [Neg K] (c : Setup K V Data) (m : Nat) (s : Study K V Data) (hs : Numbered s)
    (hr : Recorded c.target c.cutoffSuffix s) :
    (history (optimize c m s).1).map (·.1) = (optimize c m s).1.trials ∧
    (optimize c m s).1.trials.map (·.number) = List.range (optimize c m s).1.trials.length ∧
    (∀ t sc, (t, some sc) ∈ history (optimize c m s).1 → (t.number, sc) ∈ (optimize c m s).1.scores) ∧
    ∀ t sc v, (t, sc) ∈ history (optimize c m s).1 → t.outcome = .complete v →
      ∃ sc' x, sc = some sc' ∧ Dict.get? sc' (c.target ++ c.cutoffSuffix) = some (some x) ∧ v = -x := by
  obtain ⟨h1, h2⟩ := optimize_numbered c m s hs hr
  generalize (optimize c m s).1 = s' at h1 h2
  obtain ⟨hn, hnd, -⟩ := h1
  have hrow : ∀ t : Frozen K V Data, (rowsOf s'.scores t = [(t, none)] ∧ ∀ a, (t.number, a) ∉ s'.scores) ∨
      ∃ a, rowsOf s'.scores t = [(t, some a)] ∧ (t.number, a) ∈ s'.scores := by
    intro t
    unfold rowsOf
    rcases filter_singleton s'.scores hnd t.number with ⟨i1, i2⟩ | ⟨a, i1, i2⟩
    · left; rw [i1]; exact ⟨rfl, i2⟩
    · right; rw [i1]; exact ⟨a, rfl, i2⟩
  have huniq : ∀ t a b, (t, a) ∈ s'.scores → (t, b) ∈ s'.scores → a = b := by
    intro t a b ha hb
    rcases filter_singleton s'.scores hnd t with ⟨-, i2⟩ | ⟨x, i1, -⟩
    · exact absurd ha (i2 a)
    · have ha' : (t, a) ∈ s'.scores.filter (fun e => e.1 = t) := List.mem_filter.mpr ⟨ha, by simp⟩
      have hb' : (t, b) ∈ s'.scores.filter (fun e => e.1 = t) := List.mem_filter.mpr ⟨hb, by simp⟩
      rw [i1, List.mem_singleton] at ha' hb'
      exact (Prod.mk.inj (ha'.trans hb'.symm)).2
  refine ⟨?_, hn, ?_, ?_⟩
  · unfold history
    have : ∀ ts : List (Frozen K V Data), (ts.flatMap (rowsOf s'.scores)).map (·.1) = ts := by
      intro ts
      induction ts with
      | nil => rfl
      | cons t ts ih =>
        rw [List.flatMap_cons, List.map_append, ih]
        rcases hrow t with ⟨h, -⟩ | ⟨a, h, -⟩
        · rw [h]; rfl
        · rw [h]; rfl
    exact this _
  · intro t sc h
    unfold history at h
    obtain ⟨t', ht', hin⟩ := List.mem_flatMap.mp h
    rcases hrow t' with ⟨h', -⟩ | ⟨a, h', ha⟩
    · rw [h', List.mem_singleton] at hin
      cases (Prod.mk.inj hin).2
    · rw [h', List.mem_singleton] at hin
      obtain ⟨rfl, hsc⟩ := Prod.mk.inj hin
      rw [Option.some.inj hsc]; exact ha
  · intro t sc v h hv
    unfold history at h
    obtain ⟨t', ht', hin⟩ := List.mem_flatMap.mp h
    have htt : t = t' := by
      rcases hrow t' with ⟨h', -⟩ | ⟨a, h', -⟩
      · rw [h', List.mem_singleton] at hin; exact (Prod.mk.inj hin).1
      · rw [h', List.mem_singleton] at hin; exact (Prod.mk.inj hin).1
    subst htt
    obtain ⟨sc', x, i1, i2, i3⟩ := h2 t ht' v hv
    rcases hrow t with ⟨h', hnone⟩ | ⟨a, h', ha⟩
    · exact absurd i1 (hnone sc')
    · rw [h', List.mem_singleton] at hin
      refine ⟨sc', x, ?_, i2, i3⟩
      rw [(Prod.mk.inj hin).2, huniq _ _ _ ha i1]

/-! ## Counterexamples and examples -/

open Classical in
/-- C54 (counterexample: direction of the study).  `tune` and `optimize_with_study` take a study of the
caller and always hand it the negated score.  If that study maximises, what is returned are the parameters
of a trial with the least score. -/
theorem C54_direction_counterexample [Neg K] [LinearOrder K] (U : Chars) (c : Setup K V Data) (m : Nat)
    (s s' : Study K V Data) (bp : Dict V) (h : optimizeWithMaximizingStudy U c m s = .ok (bp, s')) :
    optimize c m s = (s', none) ∧ ∃ b w, b ∈ s'.trials ∧ b.outcome = .complete w ∧
      (∀ t ∈ s'.trials, ∀ v, t.outcome = .complete v → v ≤ w) ∧
      ∀ k, bp.get? k = (b.params.get? k).or (if isValidParamName U k then b.attrs.get? k else none) := by
  unfold optimizeWithMaximizingStudy at h
  cases ho : optimize c m s with
  | mk s₁ e =>
    rw [ho] at h
    cases e with
    | some e => cases h
    | none =>
      simp only at h
      cases hb : @bestOf K V Data ⟨fun a b => b < a⟩ (fun a b => inferInstanceAs (Decidable (b < a)))
          s₁.trials with
      | none => rw [hb] at h; cases h
      | some p =>
        obtain ⟨b, w⟩ := p
        rw [hb] at h
        simp only [bind, Except.bind, pure, Except.pure] at h
        by_cases hdup : ∃ k, isValidParamName U k ∧ b.attrs.has k = true ∧ b.params.has k = true
        · rw [(mergeBest_cases U _ _).1 hdup] at h
          cases h
        · obtain ⟨bp', h1, h2⟩ := (mergeBest_cases U b.params b.attrs).2 hdup
          rw [h1] at h
          obtain ⟨rfl, rfl⟩ := Prod.mk.inj (Except.ok.inj h)
          obtain ⟨pre, post, e1, e2, e3, e4⟩ := @bestOf_some Kᵒᵈ V Data _ s₁.trials b w hb
          refine ⟨rfl, b, w, by rw [e1]; exact List.mem_append_right _ List.mem_cons_self, e2, ?_, h2⟩
          intro t ht v hv
          rw [e1] at ht
          rcases List.mem_append.mp ht with ht | ht
          · exact le_of_lt (e3 t ht v hv)
          · rcases List.mem_cons.mp ht with rfl | ht
            · exact le_of_eq (Outcome.complete.inj (hv.symm.trans e2))
            · exact e4 t ht v hv

/-- Two trials with the scores 1 and 2: the one with the score 1 is returned. -/
example (U : Chars) : ∃ bp s', optimizeWithMaximizingStudy U
    ({ dataSuggest := .ret (), paramSuggest := .ask "a".toList (.float (some 0) (some 9) false) (fun a =>
        .ret [("a".toList, a)]), fixed := [], target := "ndcg".toList, cutoffSuffix := "@10".toList,
       sample := fun s _ _ => .ok (s.trials.length + 1),
       fit := fun s _ _ => .done [] [("ndcg".toList, some (s.trials.length + 1))] } : Setup Int Int Unit)
    2 ⟨[], []⟩ = .ok (bp, s') ∧ s'.trials.map (·.outcome) = [.complete (-1), .complete (-2)] ∧
    Dict.get? bp "a".toList = some 1 := by
  refine ⟨[("a".toList, 1)], _, rfl, rfl, rfl⟩

/-- training that ignores its arguments and records nothing; the score of `"ndcg"` is 1 -/
def plainFit : Study Int Int Unit → Unit → Dict Int → FitResult Int Int :=
  fun _ _ _ => .done [] [("ndcg".toList, some 1)]

/-- a fixed parameter `alpha = 3`, and a suggestion function that samples `alpha` and `beta` -/
def customSetup : Setup Int Int Unit where
  dataSuggest := .ret ()
  paramSuggest := .ask "alpha".toList (.float (some 0) (some 9) false) (fun a =>
    .ask "beta".toList (.float (some 0) (some 9) false) (fun b =>
      .ret [("alpha".toList, a), ("beta".toList, b)]))
  fixed := [("alpha".toList, 3)]
  target := "ndcg".toList
  cutoffSuffix := "@10".toList
  sample := fun _ _ _ => .ok 7
  fit := plainFit

/-- C54 (counterexample: suggestion function).  The suggestion function samples a fixed name: the trial
uses the fixed value 3, but the returned best parameters report the sampled value 7 for it. -/
theorem C54_custom_suggestion_counterexample (U : Chars) :
    ∃ bp s' b, optimizeWithStudy U customSetup 1 ⟨[], []⟩ = .ok (bp, s') ∧ s'.trials = [b] ∧
      b.passed = some ((), [("alpha".toList, 3), ("beta".toList, 7)]) ∧
      Dict.get? bp "alpha".toList = some 7 := by
  refine ⟨[("alpha".toList, 7), ("beta".toList, 7)], (optimize customSetup 1 ⟨[], []⟩).1,
    ⟨0, .complete (-1), [("alpha".toList, 7), ("beta".toList, 7)], [],
      some ((), [("alpha".toList, 3), ("beta".toList, 7)])⟩, ?_, ?_, rfl, ?_⟩
  · show (do
      let bp ← mergeBest U ([("alpha".toList, 7), ("beta".toList, 7)] : Dict Int) []
      return (bp, _)) = _
    rfl
  · rfl
  · rfl

/-- a fixed number of epochs and training that records the best number of epochs, as early stopping does -/
def epochsSetup : Setup Int Int Unit where
  dataSuggest := .ret ()
  paramSuggest := defaultSuggest [("epochs".toList, 3)] [] []
  fixed := [("epochs".toList, 3)]
  target := "ndcg".toList
  cutoffSuffix := "@10".toList
  sample := fun _ _ _ => .ok 7
  fit := fun _ _ _ => .done [("epochs".toList, 5)] [("ndcg".toList, some 1)]

/-- C54 (counterexample: recorded name).  The default suggestion with a fixed parameter that training
records (`train_epochs` with early stopping; here named `epochs`): it is among the returned best
parameters. -/
theorem C54_recorded_name_counterexample :
    ∃ bp s', optimizeWithStudy Threads.ascii epochsSetup 1 ⟨[], []⟩ = .ok (bp, s') ∧
      Dict.get? bp "epochs".toList = some 5 := by
  have hvalid : isValidParamName Threads.ascii "epochs".toList :=
    (C55_names_partial _ _).mpr (.inl ⟨'e', ['p', 'o', 'c', 'h', 's'], by decide, .inl (by decide), by
      intro x hx
      simp only [List.mem_cons, List.not_mem_nil, or_false] at hx
      rcases hx with rfl | rfl | rfl | rfl | rfl <;> exact .inl (.inl (by decide))⟩)
  obtain ⟨bp, h1, h2⟩ := (mergeBest_cases Threads.ascii ([] : Dict Int) [("epochs".toList, 5)]).2 (by
    rintro ⟨k, -, -, h⟩; cases h)
  refine ⟨bp, (optimize epochsSetup 1 ⟨[], []⟩).1, ?_, ?_⟩
  · show (do
      let bp ← mergeBest Threads.ascii ([] : Dict Int) [("epochs".toList, 5)]
      return (bp, _)) = _
    rw [h1]
    rfl
  · rw [h2, if_pos hvalid]
    rfl

/-- two ranges, one of them fixed; the score is the sampled value, so the second trial (which samples 8
after 7) is the best -/
def exampleSetup : Setup Int Int Unit where
  dataSuggest := .ret ()
  paramSuggest := defaultSuggest [("alpha".toList, 3)]
    [⟨"alpha".toList, .float (some 0) (some 9) false⟩, ⟨"beta".toList, .float (some 0) (some 9) false⟩] []
  fixed := [("alpha".toList, 3)]
  target := "ndcg".toList
  cutoffSuffix := "@10".toList
  sample := fun s _ _ => .ok (7 + s.trials.length)
  fit := fun _ _ kw => .done [] [("ndcg".toList, Dict.get? kw "beta".toList)]

/-- the hypotheses of the theorems are met: the best parameters are `beta = 8`, without `alpha` -/
example (U : Chars) : (∃ s', optimizeWithStudy U exampleSetup 2 ⟨[], []⟩ = .ok ([("beta".toList, 8)], s')) ∧
    exampleSetup.fixed.WF ∧ Numbered (⟨[], []⟩ : Study Int Int Unit) ∧
    Recorded exampleSetup.target exampleSetup.cutoffSuffix (⟨[], []⟩ : Study Int Int Unit) :=
  ⟨⟨_, rfl⟩, by simp [Dict.WF, exampleSetup], ⟨rfl, by simp, by simp⟩, by intro t ht; cases ht⟩

end Irspack.Tuning
