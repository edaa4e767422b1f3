import Verif.Model.Tuning
import Verif.Spec.Tuning
import Mathlib.Order.Basic
import Mathlib.Data.List.Nodup

namespace Irspack.Tuning

variable {K V Data A : Type}

/-! ## Dictionaries -/

namespace Dict

theorem get?_nil (k : List Char) : get? ([] : Dict V) k = none := rfl

theorem get?_cons (e : List Char × V) (d : Dict V) (k : List Char) :
    get? (e :: d) k = if e.1 = k then some e.2 else get? d k := by
  unfold get?
  rw [List.find?_cons]
  by_cases h : e.1 = k
  · simp [h]
  · simp [h]

theorem get?_append (d e : Dict V) (k : List Char) :
    get? (d ++ e) k = (get? d k).or (get? e k) := by
  induction d with
  | nil => simp [get?_nil]
  | cons x d ih =>
    rw [List.cons_append, get?_cons, get?_cons, ih]
    split
    · rfl
    · rfl

theorem has_iff (d : Dict V) (k : List Char) : d.has k = true ↔ ∃ v, d.get? k = some v := by
  induction d with
  | nil => simp [has, get?_nil]
  | cons x d ih =>
    unfold has at ih ⊢
    rw [List.any_cons, get?_cons]
    by_cases h : x.1 = k
    · simp [h]
    · simp only [h, decide_false, Bool.false_or, if_false]
      exact ih

theorem has_iff_mem (d : Dict V) (k : List Char) : d.has k = true ↔ k ∈ d.map (·.1) := by
  unfold has
  simp

theorem has_false_iff (d : Dict V) (k : List Char) : d.has k = false ↔ d.get? k = none := by
  rw [← Bool.not_eq_true, has_iff]
  cases d.get? k <;> simp

theorem get?_set (d : Dict V) (k : List Char) (v : V) (k' : List Char) :
    get? (d.set k v) k' = if k = k' then some v else get? d k' := by
  unfold set
  by_cases h : d.any (fun e => e.1 = k)
  · rw [if_pos h]
    have key : ∀ d : Dict V, get? (d.map (fun e => if e.1 = k then (k, v) else e)) k' =
        if k = k' then (if d.any (fun e => e.1 = k) then some v else none) else get? d k' := by
      intro d
      induction d with
      | nil => simp [get?_nil]
      | cons x d ih =>
        rw [List.map_cons, get?_cons, ih, List.any_cons, get?_cons]
        by_cases hx : x.1 = k
        · by_cases hk : k = k'
          · simp [hx, hk]
          · simp [hx, hk]
        · by_cases hk : k = k'
          · subst hk
            have hd' : decide (x.1 = k) = false := by simp [hx]
            rw [hd', Bool.false_or]
            simp [hx]
          · simp [hx, hk]
    rw [key, if_pos h]
  · rw [if_neg h, get?_append, get?_cons, get?_nil]
    by_cases hk : k = k'
    · subst hk
      have : get? d k = none := (has_false_iff d k).mp (by
        unfold has
        exact Bool.not_eq_true _ ▸ h)
      simp [this]
    · simp [hk]

/-- the keys of a dictionary are distinct -/
def WF (d : Dict V) : Prop := (d.map (·.1)).Nodup

theorem get?_update (d e : Dict V) (he : e.WF) (k : List Char) :
    get? (d.update e) k = (get? e k).or (get? d k) := by
  unfold update
  induction e generalizing d with
  | nil => simp [get?_nil]
  | cons x e ih =>
    unfold WF at he ih
    rw [List.map_cons, List.nodup_cons] at he
    rw [List.foldl_cons, ih _ he.2, get?_set, get?_cons]
    by_cases hk : x.1 = k
    · subst hk
      have : get? e x.1 = none := by
        rw [← has_false_iff, ← Bool.not_eq_true, has_iff_mem]
        exact he.1
      simp [this]
    · simp [hk]

theorem wf_set (d : Dict V) (h : d.WF) (k : List Char) (v : V) : (d.set k v).WF := by
  unfold set
  by_cases hk : d.any (fun e => e.1 = k)
  · rw [if_pos hk]
    unfold WF at h ⊢
    rw [List.map_map]
    have : ((fun e : List Char × V => e.1) ∘ fun e => if e.1 = k then (k, v) else e) = (·.1) := by
      funext e
      simp only [Function.comp_apply]
      split
      · rename_i he; exact he.symm
      · rfl
    rw [this]
    exact h
  · rw [if_neg hk]
    unfold WF at h ⊢
    rw [List.map_append, List.nodup_append]
    refine ⟨h, by simp, ?_⟩
    intro a ha b hb hab
    subst hab
    have : d.has k = true := (has_iff_mem d k).mpr (by simp at hb; rw [← hb]; exact ha)
    exact hk this

theorem wf_update (d e : Dict V) (h : d.WF) : (d.update e).WF := by
  unfold update
  induction e generalizing d with
  | nil => exact h
  | cons x e ih =>
    rw [List.foldl_cons]
    exact ih _ (wf_set d h _ _)

theorem wf_nil : WF ([] : Dict V) := by simp [WF]

end Dict

/-! ## Suggestions -/

/-- a run only adds to the parameters -/
theorem run_params (sample : List Char → Request K V → Except Err V) (p : Prog K V A) :
    ∀ params : Dict V, params.WF →
      (p.run sample params).1.WF ∧ ∀ k v, params.get? k = some v → (p.run sample params).1.get? k = some v := by
  induction p with
  | ret a => intro params h; exact ⟨h, fun _ _ h => h⟩
  | raise e => intro params h; exact ⟨h, fun _ _ h => h⟩
  | ask name req k ih =>
    intro params h
    unfold Prog.run
    cases hg : params.get? name with
    | some v => exact ih v params h
    | none =>
      simp only
      cases sample name req with
      | error e => exact ⟨h, fun _ _ h => h⟩
      | ok v =>
        simp only
        have hwf : Dict.WF (params ++ [(name, v)]) := by
          unfold Dict.WF at h ⊢
          rw [List.map_append, List.nodup_append]
          refine ⟨h, by simp, ?_⟩
          intro a ha b hb hab
          subst hab
          have h2 : params.has name = true := (Dict.has_iff_mem params name).mpr (by
            simp at hb; rw [← hb]; exact ha)
          rw [(Dict.has_false_iff params name).mpr hg] at h2
          cases h2
        obtain ⟨h1, h2⟩ := ih v _ hwf
        refine ⟨h1, fun k' v' hk => h2 k' v' ?_⟩
        rw [Dict.get?_append, hk]
        rfl

/-- what the default suggestion asks for, and what it returns -/
theorem defaultSuggest_run (fixed : Dict V) (sample : List Char → Request K V → Except Err V)
    (ranges : List (ParameterRange K V)) : ∀ (acc params : Dict V), params.WF →
    (∀ k v, acc.get? k = some v → params.get? k = some v) →
    (∀ k v, ((defaultSuggest fixed ranges acc).run sample params).1.get? k = some v →
      params.get? k = some v ∨ (fixed.get? k = none ∧ ∃ r ∈ ranges, r.name = k ∧ sample k r.request = .ok v)) ∧
    ∀ d, ((defaultSuggest fixed ranges acc).run sample params).2 = .ok d →
      (∀ r ∈ ranges, fixed.get? r.name = none → ∃ v, d.get? r.name = some v) ∧
      (∀ k v, acc.get? k = some v → ∃ v', d.get? k = some v') ∧
      ∀ k v, d.get? k = some v →
        ((defaultSuggest fixed ranges acc).run sample params).1.get? k = some v ∧
        ((∃ v', acc.get? k = some v') ∨ (fixed.get? k = none ∧ ∃ r ∈ ranges, r.name = k)) := by
  induction ranges with
  | nil =>
    intro acc params _ hacc
    refine ⟨fun k v h => .inl h, ?_⟩
    intro d hd
    have : acc = d := Except.ok.inj hd
    subst this
    exact ⟨by simp, fun k v h => ⟨v, h⟩, fun k v h => ⟨hacc k v h, .inl ⟨v, h⟩⟩⟩
  | cons r rs ih =>
    intro acc params hwf hacc
    unfold defaultSuggest
    cases hf : fixed.has r.name with
    | true =>
      simp only [if_true]
      obtain ⟨i1, i2⟩ := ih acc params hwf hacc
      refine ⟨fun k v h => ?_, fun d hd => ?_⟩
      · rcases i1 k v h with h | ⟨h, r', hr', h'⟩
        · exact .inl h
        · exact .inr ⟨h, r', by simp [hr'], h'⟩
      · obtain ⟨j1, j2, j3⟩ := i2 d hd
        refine ⟨fun r' hr' hn => ?_, j2, fun k v h => ?_⟩
        · rcases List.mem_cons.mp hr' with rfl | hr'
          · obtain ⟨v, hv⟩ := (Dict.has_iff fixed r'.name).mp hf
            rw [hv] at hn; cases hn
          · exact j1 r' hr' hn
        · obtain ⟨a, b⟩ := j3 k v h
          refine ⟨a, ?_⟩
          rcases b with b | ⟨b, r', hr', h'⟩
          · exact .inl b
          · exact .inr ⟨b, r', by simp [hr'], h'⟩
    | false =>
      simp only [Bool.false_eq_true, if_false]
      have hfn : fixed.get? r.name = none := (Dict.has_false_iff _ _).mp hf
      unfold Prog.run
      -- one continuation for both cases
      have key : ∀ (v : V) (params' : Dict V), params'.WF → params'.get? r.name = some v →
          (∀ k v', params.get? k = some v' → params'.get? k = some v') →
          (∀ k v', params'.get? k = some v' → params.get? k = some v' ∨
            (k = r.name ∧ sample k r.request = .ok v')) →
          (∀ k v', ((defaultSuggest fixed rs (acc.set r.name v)).run sample params').1.get? k = some v' →
            params.get? k = some v' ∨ (fixed.get? k = none ∧ ∃ r' ∈ r :: rs, r'.name = k ∧
              sample k r'.request = .ok v')) ∧
          ∀ d, ((defaultSuggest fixed rs (acc.set r.name v)).run sample params').2 = .ok d →
            (∀ r' ∈ r :: rs, fixed.get? r'.name = none → ∃ v, d.get? r'.name = some v) ∧
            (∀ k v, acc.get? k = some v → ∃ v', d.get? k = some v') ∧
            ∀ k v', d.get? k = some v' →
              ((defaultSuggest fixed rs (acc.set r.name v)).run sample params').1.get? k = some v' ∧
              ((∃ v', acc.get? k = some v') ∨ (fixed.get? k = none ∧ ∃ r' ∈ r :: rs, r'.name = k)) := by
        intro v params' hwf' hv hmono hnew
        obtain ⟨i1, i2⟩ := ih (acc.set r.name v) params' hwf' (by
          intro k w hk
          rw [Dict.get?_set] at hk
          by_cases hkr : r.name = k
          · rw [if_pos hkr] at hk
            rw [← hkr, hv, ← hk]
          · rw [if_neg hkr] at hk
            exact hmono k w (hacc k w hk))
        refine ⟨fun k w h => ?_, fun d hd => ?_⟩
        · rcases i1 k w h with h | ⟨h, r', hr', h'⟩
          · rcases hnew k w h with h | ⟨rfl, h⟩
            · exact .inl h
            · exact .inr ⟨hfn, r, by simp, rfl, h⟩
          · exact .inr ⟨h, r', by simp [hr'], h'⟩
        · obtain ⟨j1, j2, j3⟩ := i2 d hd
          refine ⟨fun r' hr' hn => ?_, fun k w hk => ?_, fun k w h => ?_⟩
          · rcases List.mem_cons.mp hr' with rfl | hr'
            · exact j2 r'.name v (by rw [Dict.get?_set, if_pos rfl])
            · exact j1 r' hr' hn
          · by_cases hkr : r.name = k
            · exact j2 k v (by rw [Dict.get?_set, if_pos hkr])
            · exact j2 k w (by rw [Dict.get?_set, if_neg hkr]; exact hk)
          · obtain ⟨a, b⟩ := j3 k w h
            refine ⟨a, ?_⟩
            rcases b with ⟨v', b⟩ | ⟨b, r', hr', h'⟩
            · rw [Dict.get?_set] at b
              by_cases hkr : r.name = k
              · exact .inr ⟨hkr ▸ hfn, r, by simp, hkr⟩
              · rw [if_neg hkr] at b; exact .inl ⟨v', b⟩
            · exact .inr ⟨b, r', by simp [hr'], h'⟩
      cases hg : params.get? r.name with
      | some v =>
        simp only
        exact key v params hwf hg (fun _ _ h => h) (fun _ _ h => .inl h)
      | none =>
        simp only
        cases hs : sample r.name r.request with
        | error e =>
          simp only
          exact ⟨fun k v h => .inl h, fun d hd => by cases hd⟩
        | ok v =>
          simp only
          have hwf' := (run_params sample (Prog.ask r.name r.request (fun _ => Prog.ret ())) params hwf).1
          have heq : ((Prog.ask r.name r.request (fun _ => Prog.ret ())).run sample params).1 =
              params ++ [(r.name, v)] := by
            unfold Prog.run
            simp only [hg, hs]
            rfl
          rw [heq] at hwf'
          refine key v _ hwf' ?_ ?_ ?_
          · rw [Dict.get?_append, hg, Dict.get?_cons, if_pos rfl]
            rfl
          · intro k v' hk
            rw [Dict.get?_append, hk]
            rfl
          · intro k v' hk
            rw [Dict.get?_append, Dict.get?_cons, Dict.get?_nil] at hk
            cases hp : params.get? k with
            | some w => rw [hp] at hk; exact .inl hk
            | none =>
              rw [hp] at hk
              by_cases hkr : r.name = k
              · rw [if_pos hkr] at hk
                right
                refine ⟨hkr.symm, ?_⟩
                rw [← hkr, hs]
                have : v = v' := by simpa using hk
                rw [this]
              · rw [if_neg hkr] at hk
                cases hk

/-! ## Trials -/

/-- a trial made by the objective function -/
def MadeBy [Neg K] (c : Setup K V Data) (t : Frozen K V Data) : Prop :=
  ∃ s : Study K V Data, (runTrial c s).1.trials = s.trials ++ [t]

theorem stopped_trials (n : Nat) (ps : Dict V) (passed : Option (Data × Dict V)) (s : Study K V Data)
    (e : Err) (r : Option K) : ∃ o, (o = .pruned r ∨ o = .failed) ∧
      (stopped n ps passed s e r).1.trials = s.trials ++ [⟨n, o, ps, [], passed⟩] ∧
      (stopped n ps passed s e r).1.scores = s.scores := by
  unfold stopped
  cases e <;> first
    | exact ⟨.pruned r, .inl rfl, rfl, rfl⟩
    | exact ⟨.failed, .inr rfl, rfl, rfl⟩

theorem runTrial_trials [Neg K] (c : Setup K V Data) (s : Study K V Data) :
    ∃ t, t.number = s.trials.length ∧ (runTrial c s).1.trials = s.trials ++ [t] := by
  unfold runTrial
  simp only
  split
  · obtain ⟨o, -, h, -⟩ := stopped_trials s.trials.length (Data := Data) ‹_› none s ‹_› none
    exact ⟨_, rfl, h⟩
  · split
    · obtain ⟨o, -, h, -⟩ := stopped_trials s.trials.length (Data := Data) ‹_› none s ‹_› none
      exact ⟨_, rfl, h⟩
    · split
      · obtain ⟨o, -, h, -⟩ := stopped_trials s.trials.length (Data := Data) _ (some _) s _ _
        exact ⟨_, by exact rfl, h⟩
      · split
        · obtain ⟨o, -, h, -⟩ := stopped_trials s.trials.length (Data := Data) _ (some _) s _ _
          exact ⟨_, by exact rfl, h⟩
        · exact ⟨_, by exact rfl, rfl⟩

theorem optimize_trials [Neg K] (c : Setup K V Data) (m : Nat) : ∀ s : Study K V Data,
    ∃ l, (optimize c m s).1.trials = s.trials ++ l ∧ ∀ t ∈ l, MadeBy c t := by
  induction m with
  | zero => intro s; exact ⟨[], by simp [optimize], by simp⟩
  | succ m ih =>
    intro s
    unfold optimize
    obtain ⟨t, -, ht⟩ := runTrial_trials c s
    have hmade : MadeBy c t := ⟨s, ht⟩
    cases hr : runTrial c s with
    | mk s' o =>
      rw [hr] at ht
      cases o with
      | some e => exact ⟨[t], ht, by simpa using hmade⟩
      | none =>
        simp only
        obtain ⟨l, h1, h2⟩ := ih s'
        refine ⟨t :: l, ?_, ?_⟩
        · rw [h1, ht]; simp
        · intro t' ht'
          rcases List.mem_cons.mp ht' with rfl | ht'
          · exact hmade
          · exact h2 t' ht'

/-- everything about a made trial -/
theorem madeBy_cases [Neg K] (c : Setup K V Data) (t : Frozen K V Data) (h : MadeBy c t) :
    ∃ s : Study K V Data,
      (t.params = (c.dataSuggest.run (c.sample s) []).1 ∨
        ∃ d, (c.dataSuggest.run (c.sample s) []).2 = .ok d ∧
          t.params = (c.paramSuggest.run (c.sample s) (c.dataSuggest.run (c.sample s) []).1).1) ∧
      (∀ d kw, t.passed = some (d, kw) →
        (c.dataSuggest.run (c.sample s) []).2 = .ok d ∧
        ∃ sug, c.paramSuggest.run (c.sample s) (c.dataSuggest.run (c.sample s) []).1 = (t.params, .ok sug) ∧
          kw = sug.update c.fixed) ∧
      (∀ v, t.outcome = .complete v → ∃ d kw learnt score x, t.passed = some (d, kw) ∧
        c.fit s d kw = .done learnt score ∧ t.attrs = Dict.update [] learnt ∧
        score.get? c.target = some (some x) ∧ v = -x) := by
  obtain ⟨s, hs⟩ := h
  refine ⟨s, ?_⟩
  unfold runTrial at hs
  simp only at hs
  cases hd : c.dataSuggest.run (c.sample s) [] with
  | mk ps r =>
    rw [hd] at hs
    cases r with
    | error e =>
      simp only at hs
      obtain ⟨o, ho, h, -⟩ := stopped_trials s.trials.length ps (none : Option (Data × Dict V)) s e none
      rw [h] at hs
      have ht := List.singleton_injective (List.append_cancel_left hs)
      subst ht
      refine ⟨.inl rfl, fun d kw h => (by cases h), fun v hv => ?_⟩
      rcases ho with rfl | rfl <;> cases hv
    | ok d =>
      simp only at hs ⊢
      cases hp : c.paramSuggest.run (c.sample s) ps with
      | mk ps' r =>
        rw [hp] at hs
        cases r with
        | error e =>
          simp only at hs
          obtain ⟨o, ho, h, -⟩ := stopped_trials s.trials.length ps' (none : Option (Data × Dict V)) s e none
          rw [h] at hs
          have ht := List.singleton_injective (List.append_cancel_left hs)
          subst ht
          refine ⟨.inr ⟨d, rfl, rfl⟩, fun d kw h => (by cases h), fun v hv => ?_⟩
          rcases ho with rfl | rfl <;> cases hv
        | ok sug =>
          simp only at hs
          cases hf : c.fit s d (sug.update c.fixed) with
          | raised e r =>
            rw [hf] at hs
            simp only at hs
            obtain ⟨o, ho, h, -⟩ := stopped_trials s.trials.length ps' (some (d, sug.update c.fixed)) s e r
            rw [h] at hs
            have ht := List.singleton_injective (List.append_cancel_left hs)
            subst ht
            refine ⟨.inr ⟨d, rfl, rfl⟩, ?_, fun v hv => ?_⟩
            · intro d' kw h
              obtain ⟨rfl, rfl⟩ := Prod.mk.inj (Option.some.inj h)
              exact ⟨rfl, sug, rfl, rfl⟩
            · rcases ho with rfl | rfl <;> cases hv
          | done learnt score =>
            rw [hf] at hs
            simp only at hs
            cases hg : score.get? c.target with
            | none =>
              rw [hg] at hs
              simp only at hs
              obtain ⟨o, ho, h, -⟩ := stopped_trials s.trials.length ps' (some (d, sug.update c.fixed)) s .keyError none
              rw [h] at hs
              have ht := List.singleton_injective (List.append_cancel_left hs)
              subst ht
              refine ⟨.inr ⟨d, rfl, rfl⟩, ?_, fun v hv => ?_⟩
              · intro d' kw h
                obtain ⟨rfl, rfl⟩ := Prod.mk.inj (Option.some.inj h)
                exact ⟨rfl, sug, rfl, rfl⟩
              · rcases ho with rfl | rfl <;> cases hv
            | some x =>
              rw [hg] at hs
              simp only at hs
              have ht := List.singleton_injective (List.append_cancel_left hs)
              subst ht
              refine ⟨.inr ⟨d, rfl, rfl⟩, ?_, fun v hv => ?_⟩
              · intro d' kw h
                obtain ⟨rfl, rfl⟩ := Prod.mk.inj (Option.some.inj h)
                exact ⟨rfl, sug, rfl, rfl⟩
              · refine ⟨d, sug.update c.fixed, learnt, score, ?_⟩
                cases x with
                | none => cases hv
                | some x =>
                  refine ⟨x, rfl, hf, rfl, hg, ?_⟩
                  simpa using hv.symm

/-! ## The best trial -/

theorem bestOf_none [LinearOrder K] (ts : List (Frozen K V Data)) :
    bestOf ts = none ↔ ∀ t ∈ ts, ∀ v, t.outcome ≠ .complete v := by
  induction ts with
  | nil => simp [bestOf]
  | cons t ts ih =>
    unfold bestOf
    cases ho : t.outcome with
    | complete v =>
      simp only
      constructor
      · intro h
        cases hb : bestOf ts with
        | none => rw [hb] at h; cases h
        | some b =>
          rw [hb] at h
          simp only at h
          split at h <;> cases h
      · intro h
        exact absurd ho (h t (by simp) v)
    | pruned r =>
      simp only [ih]
      constructor
      · intro h t' ht' v
        rcases List.mem_cons.mp ht' with rfl | ht'
        · rw [ho]; simp
        · exact h t' ht' v
      · intro h t' ht'; exact h t' (by simp [ht'])
    | failed =>
      simp only [ih]
      constructor
      · intro h t' ht' v
        rcases List.mem_cons.mp ht' with rfl | ht'
        · rw [ho]; simp
        · exact h t' ht' v
      · intro h t' ht'; exact h t' (by simp [ht'])

/-- the best trial is completed, no completed trial has a lesser value, and no earlier one has the same -/
theorem bestOf_some [LinearOrder K] (ts : List (Frozen K V Data)) (b : Frozen K V Data) (w : K)
    (h : bestOf ts = some (b, w)) :
    ∃ pre post, ts = pre ++ b :: post ∧ b.outcome = .complete w ∧
      (∀ t ∈ pre, ∀ v, t.outcome = .complete v → w < v) ∧
      ∀ t ∈ post, ∀ v, t.outcome = .complete v → w ≤ v := by
  induction ts generalizing b w with
  | nil => cases h
  | cons t ts ih =>
    unfold bestOf at h
    cases ho : t.outcome with
    | complete v =>
      rw [ho] at h
      simp only at h
      cases hb : bestOf ts with
      | none =>
        rw [hb] at h
        obtain ⟨rfl, rfl⟩ := Prod.mk.inj (Option.some.inj h)
        refine ⟨[], ts, rfl, ho, by simp, ?_⟩
        intro t' ht' v' hv'
        exact absurd hv' ((bestOf_none ts).mp hb t' ht' v')
      | some p =>
        obtain ⟨b', w'⟩ := p
        rw [hb] at h
        simp only at h
        obtain ⟨pre, post, h1, h2, h3, h4⟩ := ih b' w' hb
        by_cases hlt : w' < v
        · rw [if_pos hlt] at h
          obtain ⟨rfl, rfl⟩ := Prod.mk.inj (Option.some.inj h)
          refine ⟨t :: pre, post, by rw [h1]; rfl, h2, ?_, h4⟩
          intro t' ht' v' hv'
          rcases List.mem_cons.mp ht' with rfl | ht'
          · rw [ho] at hv'
            cases hv'
            exact hlt
          · exact h3 t' ht' v' hv'
        · rw [if_neg hlt] at h
          obtain ⟨rfl, rfl⟩ := Prod.mk.inj (Option.some.inj h)
          refine ⟨[], ts, rfl, ho, by simp, ?_⟩
          intro t' ht' v' hv'
          have hle : v ≤ w' := not_lt.mp hlt
          rw [h1] at ht'
          rcases List.mem_append.mp ht' with ht' | ht'
          · exact hle.trans (h3 t' ht' v' hv').le
          · rcases List.mem_cons.mp ht' with rfl | ht'
            · rw [h2] at hv'; cases hv'; exact hle
            · exact hle.trans (h4 t' ht' v' hv')
    | pruned r =>
      rw [ho] at h
      simp only at h
      obtain ⟨pre, post, h1, h2, h3, h4⟩ := ih b w h
      refine ⟨t :: pre, post, by rw [h1]; rfl, h2, ?_, h4⟩
      intro t' ht' v' hv'
      rcases List.mem_cons.mp ht' with rfl | ht'
      · rw [ho] at hv'; cases hv'
      · exact h3 t' ht' v' hv'
    | failed =>
      rw [ho] at h
      simp only at h
      obtain ⟨pre, post, h1, h2, h3, h4⟩ := ih b w h
      refine ⟨t :: pre, post, by rw [h1]; rfl, h2, ?_, h4⟩
      intro t' ht' v' hv'
      rcases List.mem_cons.mp ht' with rfl | ht'
      · rw [ho] at hv'; cases hv'
      · exact h3 t' ht' v' hv'

theorem isBest_bestOf [LinearOrder K] {ts : List (Frozen K V Data)} {b : Frozen K V Data} {w : K}
    (h : Spec.Tuning.IsBest ts b w) : bestOf ts = some (b, w) := by
  obtain ⟨pre, post, h1, h2, h3, h4⟩ := h
  cases hb : bestOf ts with
  | none =>
    exact absurd h2 ((bestOf_none ts).mp hb b (by rw [h1]; simp) w)
  | some p =>
    obtain ⟨b', w'⟩ := p
    obtain ⟨pre', post', i1, i2, i3, i4⟩ := bestOf_some ts b' w' hb
    have heq : pre ++ b :: post = pre' ++ b' :: post' := h1 ▸ i1
    rcases List.append_eq_append_iff.mp heq with ⟨as, j1, j2⟩ | ⟨cs, j1, j2⟩
    · cases as with
      | nil =>
        obtain ⟨rfl, -⟩ := List.cons.inj j2
        rw [h2] at i2
        rw [Outcome.complete.inj i2]
      | cons a as =>
        obtain ⟨rfl, rfl⟩ := List.cons.inj j2
        have k1 := i3 b (by rw [j1]; simp) w h2
        have k2 := h4 b' (by simp) w' i2
        exact absurd k1 (not_lt.mpr k2)
    · cases cs with
      | nil =>
        obtain ⟨rfl, -⟩ := List.cons.inj j2
        rw [h2] at i2
        rw [Outcome.complete.inj i2]
      | cons a as =>
        obtain ⟨rfl, rfl⟩ := List.cons.inj j2
        have k1 := h3 b' (by rw [j1]; simp) w' i2
        have k2 := i4 b (by simp) w h2
        exact absurd k1 (not_lt.mpr k2)

end Irspack.Tuning
