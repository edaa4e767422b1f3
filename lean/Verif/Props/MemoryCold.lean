import Verif.Spec.MemoryCold
import Verif.Proofs.Memory

/-!
# C70, cold-user evaluation of models
-/

namespace Irspack.Memory

open Irspack Irspack.Evaluation

section
variable {S : Type} [LinearOrder S] [OrderBot S]

theorem read_pad (m : Mem S) (v : View) (k : Nat) :
    (m.pad v k).2.read (m.pad v k).1.own = (v.read m.caller).map (padRow v.cols) := by
  unfold View.read
  rw [List.map_map]
  apply List.map_congr_left
  intro i _
  funext j
  simp [Mem.pad, padRow]

theorem distinct_pad (m : Mem S) (v : View) (k : Nat) : Distinct (m.pad v k).2 := by
  intro i j k' l h
  simpa [Mem.pad] using h

theorem coldMasked_rows (ev : ColdEvaluator) (hm : InShape (some ev.mask) ev.base.nItems)
    (hn : ev.nCold ≠ 0 → ev.base.nItems = ev.nWarm + ev.nCold) (a : Nat) (v : View) (hd : Distinct v)
    (hc : v.cols = ev.base.nItems ∨ (v.cols = ev.nWarm ∧ ev.nCold ≠ 0)) (m : Mem S) :
    (coldMasked ev a v m).2 = applyMask ev.mask.nz a
      (if v.cols = ev.nWarm ∧ ev.nCold ≠ 0 then (v.read m.caller).map (padRow ev.nWarm)
        else v.read m.caller) := by
  have hz : ∀ u i, ev.mask.nz u i = true → i < ev.base.nItems := hm ev.mask rfl
  unfold coldMasked
  by_cases h : v.cols = ev.nWarm ∧ ev.nCold ≠ 0
  · rw [if_pos h, if_pos h]
    simp only
    rw [read_write _ _ ev.mask.nz a ev.base.nItems (distinct_pad m v _)
      (by rw [hn h.2, ← h.1]; rfl) hz, read_pad, h.1]
  · rw [if_neg h, if_neg h]
    simp only
    rw [read_write _ _ ev.mask.nz a ev.base.nItems hd (hc.resolve_right h) hz]

theorem coldMasked_sameOn (ev : ColdEvaluator) (a : Nat) (v : View) (m : Mem S) (st₀ : Store S)
    (kept : Nat → Prop) (hk : ¬ kept v.buf) (h : SameOn kept m.caller st₀) :
    SameOn kept (coldMasked ev a v m).1.caller st₀ := by
  unfold coldMasked
  split
  · exact h
  · intro b hb
    have hne : b ≠ v.buf := fun e => hk (e ▸ hb)
    simp only
    rw [write_other _ _ _ hne, h b hb]

omit [LinearOrder S] [OrderBot S] in
/-- The scorers in memory and as values agree. -/
theorem chunk_answers {kept : Nat → Prop} {st₀ : Store S} {model : ColdModel S} {r : ColdRecommender S}
    (h : ColdHandsOutNew kept st₀ model r) (a b : Nat) {st : Store S} (hs : SameOn kept st st₀)
    (sc : Option (Nat → Nat → Call S)) (sc' : Option (Nat → Nat → Except Err (Nat × List (ScoreRow S))))
    (hsc : match sc, sc' with
      | some f, some f' => ∀ a b, AnswersNew kept st₀ (f a b) (f' a b)
      | none, none => True
      | _, _ => False) :
    SameOn kept (model.chunk sc a b st).1 st₀ ∧
      match (model.chunk sc a b st).2, r.chunk sc' a b with
      | .ok (v, f), .ok (x, f') => ¬ kept v.buf ∧ v.cols = x.1 ∧ Distinct v ∧
          v.read (model.chunk sc a b st).1 = x.2 ∧ (f = sc ∧ f' = sc' ∨ f = none ∧ f' = none)
      | .error e, .error e' => e = e'
      | _, _ => False := by
  have plain : ∀ st : Store S, SameOn kept st st₀ →
      SameOn kept (model.coldUser a b st).1 st₀ ∧
      match (model.coldUser a b st).2.map (fun v => (v, (none : Option (Nat → Nat → Call S)))),
        (match r.coldUser a b with
          | .ok x => (.ok (x, none) : Except Err ((Nat × List (ScoreRow S)) ×
              Option (Nat → Nat → Except Err (Nat × List (ScoreRow S)))))
          | .error e => .error e) with
      | .ok (v, f), .ok (x, f') => ¬ kept v.buf ∧ v.cols = x.1 ∧ Distinct v ∧
          v.read (model.coldUser a b st).1 = x.2 ∧ (f = none ∧ f' = none)
      | .error e, .error e' => e = e'
      | _, _ => False := by
    intro st hs
    have h1 := h.2.1 a b st hs
    refine ⟨h1.1, ?_⟩
    have h2 := h1.2
    cases hv : (model.coldUser a b st).2 with
    | ok v =>
      cases hr : r.coldUser a b with
      | ok x => rw [hv, hr] at h2; exact ⟨h2.1, h2.2.1, h2.2.2.1, h2.2.2.2, rfl, rfl⟩
      | error e => rw [hv, hr] at h2; exact h2.elim
    | error e =>
      cases hr : r.coldUser a b with
      | ok x => rw [hv, hr] at h2; exact h2.elim
      | error e' => rw [hv, hr] at h2; exact h2
  have weaken : ∀ (o : Except Err (View × Option (Nat → Nat → Call S)))
      (o' : Except Err ((Nat × List (ScoreRow S)) ×
        Option (Nat → Nat → Except Err (Nat × List (ScoreRow S))))) (s : Store S),
      (match o, o' with
      | .ok (v, f), .ok (x, f') => ¬ kept v.buf ∧ v.cols = x.1 ∧ Distinct v ∧
          v.read s = x.2 ∧ (f = none ∧ f' = none)
      | .error e, .error e' => e = e'
      | _, _ => False) →
      (match o, o' with
      | .ok (v, f), .ok (x, f') => ¬ kept v.buf ∧ v.cols = x.1 ∧ Distinct v ∧
          v.read s = x.2 ∧ (f = sc ∧ f' = sc' ∨ f = none ∧ f' = none)
      | .error e, .error e' => e = e'
      | _, _ => False) := by
    intro o o' s
    cases o <;> cases o'
    · exact id
    · exact id
    · exact id
    · rintro ⟨h1, h2, h3, h4, h5⟩; exact ⟨h1, h2, h3, h4, Or.inr h5⟩
  match sc, sc', hsc with
  | none, none, _ =>
    obtain ⟨h1, h2⟩ := plain st hs
    exact ⟨h1, weaken _ _ _ h2⟩
  | some f, some f', hf =>
    have h1 := hf a b st hs
    unfold ColdModel.chunk ColdRecommender.chunk
    simp only
    cases hv : (f a b st).2 with
    | ok v =>
      cases hr : f' a b with
      | ok x =>
        rw [hv, hr] at h1
        exact ⟨h1.1, h1.2.1, h1.2.2.1, h1.2.2.2.1, h1.2.2.2.2, Or.inl ⟨rfl, rfl⟩⟩
      | error e => rw [hv, hr] at h1; exact h1.2.elim
    | error e =>
      cases hr : f' a b with
      | ok x => rw [hv, hr] at h1; exact h1.2.elim
      | error e' =>
        rw [hv, hr] at h1
        obtain ⟨hs1, rfl⟩ := h1
        cases e <;> first
          | exact ⟨hs1, rfl⟩
          | exact ⟨(plain _ hs1).1, weaken _ _ _ (plain _ hs1).2⟩

/-- The loop in memory is the loop on values. -/
theorem coldLoop_answers (ev : ColdEvaluator) (hm : InShape (some ev.mask) ev.base.nItems)
    (hn : ev.nCold ≠ 0 → ev.base.nItems = ev.nWarm + ev.nCold) {kept : Nat → Prop} {st₀ : Store S}
    {model : ColdModel S} {r : ColdRecommender S} (h : ColdHandsOutNew kept st₀ model r)
    (hfit : ColumnsFit ev r) (starts : List Nat) :
    ∀ (sc : Option (Nat → Nat → Call S))
      (sc' : Option (Nat → Nat → Except Err (Nat × List (ScoreRow S)))) (m : Mem S)
      (ms : List (Nat × Metrics)), SameOn kept m.caller st₀ →
      (∀ f', sc' = some f' → r.featureScorer = .ok f') →
      (match sc, sc' with
      | some f, some f' => ∀ a b, AnswersNew kept st₀ (f a b) (f' a b)
      | none, none => True
      | _, _ => False) →
      SameOn kept (coldLoop ev model starts sc m ms).1.caller st₀ ∧
      (coldLoop ev model starts sc m ms).2 = ev.loop r starts sc' ms := by
  induction starts with
  | nil => intro sc sc' m ms hs _ _; exact ⟨hs, rfl⟩
  | cons a rest ih =>
    intro sc sc' m ms hs hfs hsc
    obtain ⟨h1, h2⟩ := chunk_answers h a (min (a + ev.base.mbSize) (ev.base.offset + ev.base.nUsers)) hs
      sc sc' hsc
    unfold coldLoop ColdEvaluator.loop
    simp only
    have hcols : ∀ x f', r.chunk sc' a (min (a + ev.base.mbSize) (ev.base.offset + ev.base.nUsers))
        = .ok (x, f') → x.1 = ev.base.nItems ∨ (x.1 = ev.nWarm ∧ ev.nCold ≠ 0) := by
      intro x f' hx
      unfold ColdRecommender.chunk at hx
      have pl : ∀ f', (match r.coldUser a (min (a + ev.base.mbSize) (ev.base.offset + ev.base.nUsers)) with
          | .ok x => (.ok (x, none) : Except Err ((Nat × List (ScoreRow S)) ×
              Option (Nat → Nat → Except Err (Nat × List (ScoreRow S)))))
          | .error e => .error e) = .ok (x, f') →
          x.1 = ev.base.nItems ∨ (x.1 = ev.nWarm ∧ ev.nCold ≠ 0) := by
        intro f' hx
        cases hr : r.coldUser a (min (a + ev.base.mbSize) (ev.base.offset + ev.base.nUsers)) with
        | error e => rw [hr] at hx; cases hx
        | ok y =>
          rw [hr] at hx
          cases hx
          exact hfit x.1 x.2 (Or.inl ⟨_, _, hr⟩)
      cases hsc' : sc' with
      | none => rw [hsc'] at hx; exact pl f' hx
      | some g =>
        rw [hsc'] at hx
        simp only at hx
        cases hg : g a (min (a + ev.base.mbSize) (ev.base.offset + ev.base.nUsers)) with
        | ok y =>
          rw [hg] at hx
          cases hx
          exact hfit x.1 x.2 (Or.inr ⟨g, _, _, hfs g hsc', hg⟩)
        | error e =>
          rw [hg] at hx
          cases e <;> first
            | exact pl f' hx
            | cases hx
    revert h1 h2 hcols
    generalize model.chunk sc a (min (a + ev.base.mbSize) (ev.base.offset + ev.base.nUsers)) m.caller = out
    obtain ⟨st1, res⟩ := out
    intro h1 h2 hcols
    cases res with
    | error e =>
      cases hr : r.chunk sc' a (min (a + ev.base.mbSize) (ev.base.offset + ev.base.nUsers)) with
      | ok x => rw [hr] at h2; exact h2.elim
      | error e' =>
        rw [hr] at h2
        obtain rfl : e = e' := h2
        exact ⟨h1, rfl⟩
    | ok vf =>
      obtain ⟨v, f⟩ := vf
      cases hr : r.chunk sc' a (min (a + ev.base.mbSize) (ev.base.offset + ev.base.nUsers)) with
      | error e' => rw [hr] at h2; exact h2.elim
      | ok xf =>
        obtain ⟨⟨cols, rows⟩, f'⟩ := xf
        rw [hr] at h2
        obtain ⟨hk, hvc, hd, hread, hsame⟩ := h2
        simp only at hread h1 hvc ⊢
        have hfitc := hcols _ _ hr
        simp only at hfitc
        rw [coldMasked_rows ev hm hn a v hd (by rw [hvc]; exact hfitc) _]
        simp only [hread, hvc]
        have hs' := coldMasked_sameOn ev a v { m with caller := st1 } st₀ kept hk h1
        cases ev.base.evalBlock (applyMask ev.mask.nz a
          (if cols = ev.nWarm ∧ ev.nCold ≠ 0 then rows.map (padRow ev.nWarm) else rows)) a ms with
        | error e => exact ⟨hs', rfl⟩
        | ok ms' =>
          rcases hsame with ⟨rfl, rfl⟩ | ⟨rfl, rfl⟩
          · exact ih _ _ _ ms' hs' hfs hsc
          · exact ih _ _ _ ms' hs' (by simp) trivial

/-- Evaluating a model on cold users: if its scoring methods hand out new arrays, everything it keeps is
as it was, and the result is that of the model's answers as values. -/
theorem C70_cold_model_partial (ev : ColdEvaluator) (hm : InShape (some ev.mask) ev.base.nItems)
    (hn : ev.nCold ≠ 0 → ev.base.nItems = ev.nWarm + ev.nCold) (kept : Nat → Prop) (m : Mem S)
    (model : ColdModel S) (r : ColdRecommender S) (h : ColdHandsOutNew kept m.caller model r)
    (hfit : ColumnsFit ev r) (cutoffs : List Nat) :
    SameOn kept (coldScoresOfModel ev model m cutoffs).1.caller m.caller ∧
      (coldScoresOfModel ev model m cutoffs).2 = ev.scoresOfModel r cutoffs := by
  unfold coldScoresOfModel ColdEvaluator.scoresOfModel
  rw [h.1]
  by_cases h1 : r.nItems ≠ ev.nWarm
  · rw [if_pos h1, if_pos h1]; exact ⟨fun _ _ => rfl, rfl⟩
  rw [if_neg h1, if_neg h1]
  by_cases h3 : ev.base.mbSize = 0
  · rw [if_pos h3, if_pos h3]; exact ⟨fun _ _ => rfl, rfl⟩
  rw [if_neg h3, if_neg h3]
  have first : SameOn kept (coldFirst ev model m.caller).1 m.caller ∧
      ((∃ e, (coldFirst ev model m.caller).2 = .error e ∧ ev.firstScorer r = .error e) ∨
      ∃ sc sc', (coldFirst ev model m.caller).2 = .ok sc ∧ ev.firstScorer r = .ok sc' ∧
        (∀ f', sc' = some f' → r.featureScorer = .ok f') ∧
        (match sc, sc' with
        | some f, some f' => ∀ a b, AnswersNew kept m.caller (f a b) (f' a b)
        | none, none => True
        | _, _ => False)) := by
    unfold coldFirst ColdEvaluator.firstScorer
    by_cases hf : ev.hasColdFeatures = true
    · rw [if_pos hf, if_pos hf]
      simp only
      have h4 := h.2.2 m.caller (fun _ _ => rfl)
      cases hv : (model.featureScorer m.caller).2 with
      | ok f =>
        cases hr : r.featureScorer with
        | ok f' =>
          rw [hv, hr] at h4
          exact ⟨h4.1, Or.inr ⟨some f, some f', rfl, rfl, by rintro g ⟨⟩; rfl, h4.2⟩⟩
        | error e => rw [hv, hr] at h4; exact h4.2.elim
      | error e =>
        cases hr : r.featureScorer with
        | ok f' => rw [hv, hr] at h4; exact h4.2.elim
        | error e' =>
          rw [hv, hr] at h4
          obtain ⟨h5, rfl⟩ := h4
          cases e <;> first
            | exact ⟨h5, Or.inl ⟨_, rfl, rfl⟩⟩
            | exact ⟨h5, Or.inr ⟨none, none, rfl, rfl, by simp, trivial⟩⟩
    · rw [if_neg hf, if_neg hf]
      exact ⟨fun _ _ => rfl, Or.inr ⟨none, none, rfl, rfl, by simp, trivial⟩⟩
  obtain ⟨hs, ⟨e, h4, h5⟩ | ⟨sc, sc', h4, h5, h6, h7⟩⟩ := first
  · simp only [h4, h5]
    exact ⟨hs, trivial⟩
  · simp only [h4, h5]
    obtain ⟨h8, h9⟩ := coldLoop_answers ev hm hn h hfit
      (pyRange ev.base.offset (ev.base.offset + ev.base.nUsers) ev.base.mbSize) sc sc'
      { m with caller := (coldFirst ev model m.caller).1 } (cutoffs.map (fun c => (c, Metrics.empty)))
      hs h6 h7
    rw [h9]
    cases ev.loop r (pyRange ev.base.offset (ev.base.offset + ev.base.nUsers) ev.base.mbSize) sc'
      (cutoffs.map (fun c => (c, Metrics.empty))) with
    | error e => exact ⟨h8, rfl⟩
    | ok ms => exact ⟨h8, rfl⟩

/-- The chunk calls leave a buffer alone, and their answers have `n` columns. -/
theorem chunk_narrow {b n : Nat} {model : ColdModel S} (h : Narrow b n model) (i j : Nat) (st : Store S)
    (sc : Option (Nat → Nat → Call S)) (hsc : ∀ f, sc = some f → ∀ i j, NarrowCall b n (f i j)) :
    (model.chunk sc i j st).1 b = st b ∧
      ∀ v f, (model.chunk sc i j st).2 = .ok (v, f) → v.cols = n ∧ (f = sc ∨ f = none) := by
  have plain : ∀ st : Store S, (model.coldUser i j st).1 b = st b ∧
      ∀ v f, (model.coldUser i j st).2.map (fun v => (v, (none : Option (Nat → Nat → Call S)))) =
        .ok (v, f) → v.cols = n ∧ (f = sc ∨ f = none) := by
    intro st
    refine ⟨(h.1 i j st).1, fun v f hv => ?_⟩
    cases hx : (model.coldUser i j st).2 with
    | error e => rw [hx] at hv; cases hv
    | ok w =>
      rw [hx] at hv
      cases hv
      exact ⟨(h.1 i j st).2 _ hx, Or.inr rfl⟩
  cases sc with
  | none => exact plain st
  | some f =>
    unfold ColdModel.chunk
    simp only
    have h1 := hsc f rfl i j st
    cases hx : (f i j st).2 with
    | ok w =>
      refine ⟨h1.1, fun v g hv => ?_⟩
      cases hv
      exact ⟨h1.2 _ hx, Or.inl rfl⟩
    | error e =>
      cases e <;> first
        | (refine ⟨h1.1, fun v g hv => ?_⟩; cases hv)
        | exact ⟨((plain _).1).trans h1.1, (plain _).2⟩

theorem coldLoop_narrow (ev : ColdEvaluator) (hc : ev.nCold ≠ 0) {b : Nat} {model : ColdModel S}
    (h : Narrow b ev.nWarm model) (starts : List Nat) :
    ∀ (sc : Option (Nat → Nat → Call S)) (m : Mem S) (ms : List (Nat × Metrics)),
      (∀ f, sc = some f → ∀ i j, NarrowCall b ev.nWarm (f i j)) →
      (coldLoop ev model starts sc m ms).1.caller b = m.caller b := by
  induction starts with
  | nil => intro sc m ms _; rfl
  | cons a rest ih =>
    intro sc m ms hsc
    unfold coldLoop
    simp only
    obtain ⟨h1, h2⟩ := chunk_narrow h a (min (a + ev.base.mbSize) (ev.base.offset + ev.base.nUsers))
      m.caller sc hsc
    revert h1 h2
    generalize model.chunk sc a (min (a + ev.base.mbSize) (ev.base.offset + ev.base.nUsers)) m.caller = out
    obtain ⟨st1, res⟩ := out
    intro h1 h2
    cases res with
    | error e => exact h1
    | ok vf =>
      obtain ⟨v, f⟩ := vf
      simp only at h1 h2 ⊢
      obtain ⟨h3, h4⟩ := h2 v f rfl
      have hm : (coldMasked ev a v { m with caller := st1 }).1.caller = st1 := by
        unfold coldMasked
        rw [if_pos ⟨h3, hc⟩]
        rfl
      cases ev.base.evalBlock (coldMasked ev a v { m with caller := st1 }).2 a ms with
      | error e => simp only [hm]; exact h1
      | ok ms' =>
        simp only
        rw [ih f _ ms' ?_, hm]
        · exact h1
        · rcases h4 with rfl | rfl
          · exact hsc
          · simp

/-- With cold items in the evaluation, a model whose answers cover the warm items only is never written
to: a buffer that its own methods leave alone is unchanged, even if the answers are arrays it keeps,
because the columns of the cold items are appended in a new array before masking. -/
theorem C70_cold_narrow (ev : ColdEvaluator) (hc : ev.nCold ≠ 0) (b : Nat) (model : ColdModel S)
    (h : Narrow b ev.nWarm model) (m : Mem S) (cutoffs : List Nat) :
    (coldScoresOfModel ev model m cutoffs).1.caller b = m.caller b := by
  unfold coldScoresOfModel
  split_ifs with h1 h2
  · rfl
  · rfl
  · have first : (coldFirst ev model m.caller).1 b = m.caller b ∧
        ∀ sc, (coldFirst ev model m.caller).2 = .ok sc →
          ∀ f, sc = some f → ∀ i j, NarrowCall b ev.nWarm (f i j) := by
      unfold coldFirst
      split_ifs with hf
      · simp only
        have h4 := h.2 m.caller
        cases hv : (model.featureScorer m.caller).2 with
        | ok f =>
          refine ⟨h4.1, ?_⟩
          rintro sc ⟨⟩ g ⟨⟩
          exact h4.2 f hv
        | error e =>
          cases e <;> first
            | (refine ⟨h4.1, ?_⟩; rintro sc ⟨⟩; done)
            | (refine ⟨h4.1, ?_⟩; rintro sc ⟨⟩ g hg; cases hg)
      · refine ⟨rfl, ?_⟩
        rintro sc ⟨⟩ g hg
        cases hg
    simp only
    cases hsc : (coldFirst ev model m.caller).2 with
    | error e => exact first.1
    | ok sc =>
      simp only
      have := coldLoop_narrow ev hc h
        (pyRange ev.base.offset (ev.base.offset + ev.base.nUsers) ev.base.mbSize) sc
        { m with caller := (coldFirst ev model m.caller).1 } (cutoffs.map (fun c => (c, Metrics.empty)))
        (first.2 sc hsc)
      refine Eq.trans ?_ (this.trans first.1)
      cases (coldLoop ev model
        (pyRange ev.base.offset (ev.base.offset + ev.base.nUsers) ev.base.mbSize) sc
        { m with caller := (coldFirst ev model m.caller).1 }
        (cutoffs.map (fun c => (c, Metrics.empty)))).2 <;> rfl

end

/-! ### Concrete cases -/

/-- Two users and two warm items, of which user 0 has seen item 0; `nCold` further items. -/
def exCold (nCold : Nat) : ColdEvaluator where
  base := { core := ⟨2 + nCold, [[1], [0]], []⟩, nRecommendable := 2 + nCold, offset := 0, nUsers := 2
            nItems := 2 + nCold, cutoff := 1, nThreads := 1, mbSize := 1, masked := none
            recallWithCutoff := false }
  nWarm := 2
  nCold := nCold
  hasColdFeatures := true
  inputMask := ⟨2, 2 + nCold, fun u i => decide (u = 0 ∧ i = 0)⟩

/-- A model that precomputed its answers in buffer 0 and returns slices of it. -/
def exStoringCold : ColdModel (Fin 10) where
  nItems := 2
  coldUser := fun a b st => (st, .ok ((⟨0, 2, 2, Prod.mk⟩ : View).slice a b))
  featureScorer := fun st => (st, .error .notImplemented)

/-- Without cold items such a model is overwritten: its score of item 0 for user 0 becomes `-inf`. -/
theorem C70_cold_model_counterexample (cutoffs : List Nat) :
    (coldScoresOfModel (exCold 0) exStoringCold ⟨fun _ _ => 5, fun _ _ => 0, 0⟩ cutoffs).1.caller 0 (0, 0)
      = ⊥ := by
  have masked : ∀ (a : Nat) (v : View) (m : Mem (Fin 10)), m.caller 0 (0, 0) = ⊥ →
      (coldMasked (exCold 0) a v m).1.caller 0 (0, 0) = ⊥ := by
    intro a v m h
    unfold coldMasked
    rw [if_neg (by rintro ⟨-, h⟩; exact h rfl)]
    simp only [View.write]
    split_ifs
    · rfl
    · exact h
  have key : ∀ (starts : List Nat) (m : Mem (Fin 10)) (ms : List (Nat × Metrics)),
      m.caller 0 (0, 0) = ⊥ →
        (coldLoop (exCold 0) exStoringCold starts none m ms).1.caller 0 (0, 0) = ⊥ := by
    intro starts
    induction starts with
    | nil => intro m ms h; exact h
    | cons a rest ih =>
      intro m ms h
      unfold coldLoop
      simp only [ColdModel.chunk, exStoringCold, Except.map]
      have hk := fun v : View => masked a v m h
      cases (exCold 0).base.evalBlock (S := Fin 10) _ a ms with
      | error e => exact hk _
      | ok ms' => exact ih _ ms' (hk _)
  have h0 : pyRange (exCold 0).base.offset ((exCold 0).base.offset + (exCold 0).base.nUsers)
      (exCold 0).base.mbSize = [0, 1] := by decide
  have hfirst : coldFirst (exCold 0) exStoringCold (fun _ _ => 5) = (fun _ _ => 5, .ok none) := rfl
  have : (coldLoop (exCold 0) exStoringCold [0, 1] none ⟨fun _ _ => 5, fun _ _ => 0, 0⟩
      (cutoffs.map (fun c => (c, Metrics.empty)))).1.caller 0 (0, 0) = ⊥ := by
    unfold coldLoop
    simp only [ColdModel.chunk, exStoringCold, Except.map]
    have hk : (coldMasked (exCold 0) 0 ((⟨0, 2, 2, Prod.mk⟩ : View).slice 0
        (min (0 + (exCold 0).base.mbSize) ((exCold 0).base.offset + (exCold 0).base.nUsers)))
        (⟨fun _ _ => 5, fun _ _ => 0, 0⟩ : Mem (Fin 10))).1.caller 0 (0, 0) = ⊥ := by decide
    cases (exCold 0).base.evalBlock (S := Fin 10) _ 0 (cutoffs.map (fun c => (c, Metrics.empty))) with
    | error e => exact hk
    | ok ms' => exact key _ _ ms' hk
  unfold coldScoresOfModel
  rw [if_neg (by decide), if_neg (by decide), h0]
  simp only [hfirst]
  cases (coldLoop (exCold 0) exStoringCold [0, 1] none ⟨fun _ _ => 5, fun _ _ => 0, 0⟩
      (cutoffs.map (fun c => (c, Metrics.empty)))).2 <;> exact this

/-- The same model in an evaluation with one cold item satisfies the hypotheses of `C70_cold_narrow`. -/
example : (exCold 1).nCold ≠ 0 ∧ Narrow 0 (exCold 1).nWarm exStoringCold :=
  ⟨by decide, fun i j st => ⟨rfl, by rintro v ⟨⟩; rfl⟩, fun st => ⟨rfl, by rintro f ⟨⟩⟩⟩

/-- A model that answers with a new array in buffer 1 and keeps buffer 0. -/
def exCopyingCold : ColdModel (Fin 10) where
  nItems := 2
  coldUser := fun a b st =>
    (Function.update st 1 (fun x => st 0 (a + x.1, x.2)), .ok ⟨1, min b 2 - a, 2, Prod.mk⟩)
  featureScorer := fun st => (st, .error .notImplemented)

/-- The hypotheses of `C70_cold_model_partial` hold for it, with and without cold items. -/
example (nCold : Nat) :
    InShape (some (exCold nCold).mask) (exCold nCold).base.nItems ∧
    ((exCold nCold).nCold ≠ 0 → (exCold nCold).base.nItems = (exCold nCold).nWarm + (exCold nCold).nCold) ∧
    ∃ r : ColdRecommender (Fin 10), ColdHandsOutNew (fun b => b = 0) (fun _ _ => 5) exCopyingCold r ∧
      ColumnsFit (exCold nCold) r := by
  refine ⟨?_, fun _ => rfl,
    { nItems := 2, coldUser := fun a b => .ok (2, List.replicate (min b 2 - a) (fun _ => 5))
      featureScorer := .error .notImplemented }, ⟨rfl, ?_, ?_⟩, ?_⟩
  · rintro msk ⟨⟩ u i hz
    have : u = 0 ∧ i = 0 := of_decide_eq_true hz
    show i < 2 + nCold
    omega
  · intro a b st hs
    refine ⟨?_, ?_, rfl, ?_, ?_⟩
    · rintro b rfl
      simpa [exCopyingCold] using hs 0 rfl
    · exact Nat.one_ne_zero
    · intro i j k l h; simpa using h
    · have h5 := hs 0 rfl
      simp only [View.read, exCopyingCold, Function.update_self, h5]
      rw [List.map_const']
      simp
  · intro st hs
    exact ⟨hs, rfl⟩
  · rintro cols rows (⟨a, b, h⟩ | ⟨f, a, b, h, -⟩)
    · cases h
      rcases Nat.eq_zero_or_pos nCold with rfl | hp
      · exact Or.inl rfl
      · exact Or.inr ⟨rfl, by show nCold ≠ 0; omega⟩
    · cases h

end Irspack.Memory
