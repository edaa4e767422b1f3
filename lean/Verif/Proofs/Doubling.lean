import Verif.Proofs.Tuning
import Verif.Props.Tuning
import Mathlib.Tactic.Ring

namespace Irspack.Tuning

open Spec.Tuning

variable {K V Data : Type} [Field K] [LinearOrder K]

omit [Field K] [LinearOrder K] in
theorem mem_valuesOf (ts : List (Frozen K V Data)) (v : K) :
    v ∈ valuesOf ts ↔ ∃ t ∈ ts, HasValue t v := by
  unfold valuesOf HasValue
  rw [List.mem_filterMap]
  constructor
  · rintro ⟨t, ht, h⟩
    refine ⟨t, ht, ?_⟩
    cases ho : t.outcome with
    | complete x => rw [ho] at h; exact .inl (by simpa using h)
    | pruned r => rw [ho] at h; exact .inr (by rw [show r = some v from h])
    | failed => rw [ho] at h; cases h
  · rintro ⟨t, ht, h | h⟩
    · exact ⟨t, ht, by rw [h]⟩
    · exact ⟨t, ht, by rw [h]⟩

omit [Field K] in
theorem foldl_min_spec (l : List K) : ∀ v, (l.foldl min v = v ∨ l.foldl min v ∈ l) ∧
    l.foldl min v ≤ v ∧ ∀ x ∈ l, l.foldl min v ≤ x := by
  induction l with
  | nil => intro v; simp
  | cons a l ih =>
    intro v
    rw [List.foldl_cons]
    obtain ⟨h1, h2, h3⟩ := ih (min v a)
    refine ⟨?_, h2.trans (min_le_left _ _), ?_⟩
    · rcases h1 with h1 | h1
      · rw [h1]
        rcases min_choice v a with h | h
        · exact .inl h
        · rw [h]; simp
      · exact .inr (by simp [h1])
    · intro x hx
      rcases List.mem_cons.mp hx with rfl | hx
      · exact h2.trans (min_le_right _ _)
      · exact h3 x hx

/-- the arguments of the optimiser in a round -/
def setupOf (c : Doubling K V Data) (dimension : Nat) (prev : Option (Dict V)) : Setup K V Data where
  dataSuggest := .ret c.data
  paramSuggest := match prev with
    | none => c.initialSuggest.getD (defaultSuggest [(nComponents, c.int dimension)] c.ranges [])
    | some p => neighbourhood c.asFloat c.scale p []
  fixed := [(nComponents, c.int dimension)]
  target := c.target
  cutoffSuffix := c.cutoffSuffix
  sample := c.sample dimension
  fit := c.fit

def trialsOf (c : Doubling K V Data) (prev : Option (Dict V)) : Nat :=
  match prev with
  | none => c.trialsInitial
  | some _ => c.trialsFollowing

theorem roundOf_eq (U : Chars) (c : Doubling K V Data) (dimension : Nat) (prev : Option (Dict V)) :
    roundOf U c dimension prev =
      match optimizeWithStudy U (setupOf c dimension prev) (trialsOf c prev) ⟨[], []⟩ with
      | .error e => .error e
      | .ok (bp, study) =>
        match bestOf study.trials with
        | none => .error .valueError
        | some (t, v) => .ok (((valuesOf study.trials).foldl min v, bp.set nComponents (c.int dimension), study),
            t.params) := by
  cases prev <;> rfl

open Classical in
theorem roundOf_ok (U : Chars) (c : Doubling K V Data) (dimension : Nat) (prev : Option (Dict V))
    {least : K} {bp : Dict V} {study : Study K V Data} {p : Dict V}
    (h : roundOf U c dimension prev = .ok ((least, bp, study), p)) :
    optimize (setupOf c dimension prev) (trialsOf c prev) ⟨[], []⟩ = (study, none) ∧
    ∃ b w, IsBest study.trials b w ∧ p = b.params ∧
      bp.get? nComponents = some (c.int dimension) ∧
      (∀ k, k ≠ nComponents →
        bp.get? k = (b.params.get? k).or (if isValidParamName U k then b.attrs.get? k else none)) ∧
      (∃ t ∈ study.trials, HasValue t least) ∧ ∀ t ∈ study.trials, ∀ v, HasValue t v → least ≤ v := by
  rw [roundOf_eq] at h
  cases ho : optimizeWithStudy U (setupOf c dimension prev) (trialsOf c prev) ⟨[], []⟩ with
  | error e => rw [ho] at h; cases h
  | ok r =>
    obtain ⟨bp0, study'⟩ := r
    rw [ho] at h
    simp only at h
    obtain ⟨h1, b, w, h2, h3⟩ := C54_best U _ _ _ study' bp0 ho
    rw [isBest_bestOf h2] at h
    simp only at h
    obtain ⟨hr, rfl⟩ := Prod.mk.inj (Except.ok.inj h)
    obtain ⟨hl, hr⟩ := Prod.mk.inj hr
    obtain ⟨rfl, rfl⟩ := Prod.mk.inj hr
    subst hl
    have hw : w ∈ valuesOf study'.trials := by
      obtain ⟨pre, post, e1, e2, -⟩ := h2
      exact (mem_valuesOf _ _).mpr ⟨b, by rw [e1]; simp, .inl e2⟩
    obtain ⟨f1, -, f3⟩ := foldl_min_spec (valuesOf study'.trials) w
    refine ⟨h1, b, w, h2, rfl, ?_, ?_, ?_, ?_⟩
    · rw [Dict.get?_set, if_pos rfl]
    · intro k hk
      rw [Dict.get?_set, if_neg (fun e => hk e.symm), h3]
    · rcases f1 with f1 | f1
      · rw [f1]; exact (mem_valuesOf _ _).mp hw
      · exact (mem_valuesOf _ _).mp f1
    · intro t ht v hv
      exact f3 v ((mem_valuesOf _ _).mpr ⟨t, ht, hv⟩)

/-- the rounds from a dimension on -/
def Rounds (U : Chars) (c : Doubling K V Data) (maximal : Nat) :
    Nat → Option (Dict V) → List (K × Dict V × Study K V Data) → Prop
  | dimension, _, [] => maximal < dimension
  | dimension, prev, r :: rs => dimension ≤ maximal ∧
      ∃ p, roundOf U c dimension prev = .ok (r, p) ∧ Rounds U c maximal (dimension * 2) (some p) rs

theorem doublingLoop_ok (U : Chars) (c : Doubling K V Data) (maximal : Nat) : ∀ (fuel dimension : Nat)
    (prev : Option (Dict V)) (results rs : List (K × Dict V × Study K V Data)),
    doublingLoop U c maximal fuel dimension prev results = some (.ok rs) →
    ∃ l, rs = results ++ l ∧ Rounds U c maximal dimension prev l := by
  intro fuel
  induction fuel with
  | zero => intro _ _ _ _ h; cases h
  | succ fuel ih =>
    intro dimension prev results rs h
    unfold doublingLoop at h
    by_cases hd : dimension ≤ maximal
    · rw [if_pos hd] at h
      cases hr : roundOf U c dimension prev with
      | error e => rw [hr] at h; cases h
      | ok x =>
        obtain ⟨r, p⟩ := x
        rw [hr] at h
        obtain ⟨l, rfl, h2⟩ := ih _ _ _ _ h
        exact ⟨r :: l, by simp, hd, p, hr, h2⟩
    · rw [if_neg hd] at h
      have : results = rs := Except.ok.inj (Option.some.inj h)
      subst this
      exact ⟨[], by simp, not_le.mp hd⟩

theorem rounds_length (U : Chars) (c : Doubling K V Data) (maximal : Nat) :
    ∀ (l : List (K × Dict V × Study K V Data)) (dimension : Nat) (prev : Option (Dict V)), 1 ≤ dimension →
    Rounds U c maximal dimension prev l → ∀ k, k < l.length ↔ dimension * 2 ^ k ≤ maximal := by
  intro l
  induction l with
  | nil =>
    intro dimension prev hd h k
    simp only [List.length_nil, Nat.not_lt_zero, false_iff, not_le]
    exact lt_of_lt_of_le h (Nat.le_mul_of_pos_right _ (by positivity))
  | cons r l ih =>
    intro dimension prev hd h k
    obtain ⟨h1, p, -, h2⟩ := h
    cases k with
    | zero => simpa using h1
    | succ k =>
      rw [List.length_cons, Nat.add_lt_add_iff_right, ih _ _ (by omega) h2 k, pow_succ]
      rw [show dimension * 2 * 2 ^ k = dimension * (2 ^ k * 2) by ring]

theorem rounds_get (U : Chars) (c : Doubling K V Data) (maximal : Nat) :
    ∀ (l : List (K × Dict V × Study K V Data)) (dimension : Nat) (prev : Option (Dict V)),
    Rounds U c maximal dimension prev l → ∀ k r, l[k]? = some r →
      ∃ prev' p, roundOf U c (dimension * 2 ^ k) prev' = .ok (r, p) ∧
        ∀ r', l[k + 1]? = some r' → ∃ p', roundOf U c (dimension * 2 ^ (k + 1)) (some p) = .ok (r', p') := by
  intro l
  induction l with
  | nil => intro _ _ _ k r h; simp at h
  | cons r0 l ih =>
    intro dimension prev h k r hk
    obtain ⟨h1, p, h2, h3⟩ := h
    cases k with
    | zero =>
      simp only [List.getElem?_cons_zero, Option.some.injEq] at hk
      subst hk
      refine ⟨prev, p, by simpa using h2, ?_⟩
      intro r' hr'
      rw [List.getElem?_cons_succ] at hr'
      cases l with
      | nil => simp at hr'
      | cons a l =>
        simp only [List.getElem?_cons_zero, Option.some.injEq] at hr'
        subst hr'
        obtain ⟨-, p', h4, -⟩ := h3
        exact ⟨p', by simpa using h4⟩
    | succ k =>
      rw [List.getElem?_cons_succ] at hk
      obtain ⟨prev', p', h4, h5⟩ := ih _ _ h3 k r hk
      refine ⟨prev', p', ?_, ?_⟩
      · rw [show dimension * 2 ^ (k + 1) = dimension * 2 * 2 ^ k by ring]; exact h4
      · intro r' hr'
        rw [List.getElem?_cons_succ] at hr'
        rw [show dimension * 2 ^ (k + 1 + 1) = dimension * 2 * 2 ^ (k + 1) by ring]
        exact h5 r' hr'

theorem doublingLoop_ends (U : Chars) (c : Doubling K V Data) (maximal : Nat) : ∀ (fuel dimension : Nat)
    (prev : Option (Dict V)) (results : List (K × Dict V × Study K V Data)), 1 ≤ dimension →
    maximal + 2 ≤ fuel + dimension → 1 ≤ fuel →
    doublingLoop U c maximal fuel dimension prev results ≠ none := by
  intro fuel
  induction fuel with
  | zero => intro _ _ _ _ _ h; omega
  | succ fuel ih =>
    intro dimension prev results h1 h2 _
    unfold doublingLoop
    by_cases hd : dimension ≤ maximal
    · rw [if_pos hd]
      cases roundOf U c dimension prev with
      | error e => simp
      | ok x =>
        simp only
        by_cases hf : fuel = 0
        · subst hf
          -- the dimension is the maximal one, one more round is needed
          omega
        · exact ih _ _ _ (by omega) (by omega) (by omega)
    · rw [if_neg hd]; simp

theorem doublingLoop_mono (U : Chars) (c : Doubling K V Data) (maximal : Nat) : ∀ (fuel dimension : Nat)
    (prev : Option (Dict V)) (results : List (K × Dict V × Study K V Data)) (r) (fuel' : Nat),
    doublingLoop U c maximal fuel dimension prev results = some r → fuel ≤ fuel' →
    doublingLoop U c maximal fuel' dimension prev results = some r := by
  intro fuel
  induction fuel with
  | zero => intro _ _ _ _ _ h _; cases h
  | succ fuel ih =>
    intro dimension prev results r fuel' h hle
    obtain ⟨f, rfl⟩ : ∃ f, fuel' = f + 1 := ⟨fuel' - 1, by omega⟩
    unfold doublingLoop at h ⊢
    by_cases hd : dimension ≤ maximal
    · rw [if_pos hd] at h ⊢
      cases hr : roundOf U c dimension prev with
      | error e => rw [hr] at h; exact h
      | ok x =>
        rw [hr] at h
        exact ih _ _ _ _ _ h (by omega)
    · rw [if_neg hd] at h ⊢
      exact h

theorem doublingLoop_zero (U : Chars) (c : Doubling K V Data) (maximal : Nat) : ∀ (fuel : Nat)
    (prev : Option (Dict V)) (results : List (K × Dict V × Study K V Data)) (r),
    doublingLoop U c maximal fuel 0 prev results = some r → ∃ e, r = .error e := by
  intro fuel
  induction fuel with
  | zero => intro _ _ _ h; cases h
  | succ fuel ih =>
    intro prev results r h
    unfold doublingLoop at h
    rw [if_pos (Nat.zero_le _)] at h
    cases hr : roundOf U c 0 prev with
    | error e => rw [hr] at h; exact ⟨e, (Option.some.inj h).symm⟩
    | ok x => rw [hr] at h; exact ih _ _ _ h

omit [Field K] in
theorem leastOf_none (l : List (K × Dict V × Study K V Data)) : leastOf l = none ↔ l = [] := by
  cases l with
  | nil => simp [leastOf]
  | cons r l =>
    unfold leastOf
    cases leastOf l with
    | none => simp
    | some b => simp only; split <;> simp

omit [Field K] in
theorem leastOf_spec (l : List (K × Dict V × Study K V Data)) (r) (h : leastOf l = some r) :
    r ∈ l ∧ ∀ r' ∈ l, r.1 ≤ r'.1 := by
  induction l generalizing r with
  | nil => cases h
  | cons a l ih =>
    unfold leastOf at h
    cases hl : leastOf l with
    | none =>
      rw [hl] at h
      have : a = r := Option.some.inj h
      subst this
      rw [(leastOf_none l).mp hl]
      simp
    | some b =>
      rw [hl] at h
      simp only at h
      obtain ⟨h1, h2⟩ := ih b hl
      by_cases hb : b.1 < a.1
      · rw [if_pos hb] at h
        have : b = r := Option.some.inj h
        subst this
        refine ⟨by simp [h1], ?_⟩
        intro r' hr'
        rcases List.mem_cons.mp hr' with rfl | hr'
        · exact hb.le
        · exact h2 r' hr'
      · rw [if_neg hb] at h
        have : a = r := Option.some.inj h
        subst this
        refine ⟨by simp, ?_⟩
        intro r' hr'
        rcases List.mem_cons.mp hr' with rfl | hr'
        · exact le_refl _
        · exact (not_lt.mp hb).trans (h2 r' hr')

theorem tuneDoubling_ok (U : Chars) (c : Doubling K V Data) (initial maximal fuel : Nat) {bp : Dict V}
    {studies : List (Study K V Data)}
    (h : tuneDoubling U c initial maximal fuel = some (.ok (bp, studies))) :
    ∃ l r, Rounds U c maximal initial none l ∧ r ∈ l ∧ (∀ r' ∈ l, r.1 ≤ r'.1) ∧ (l.map (·.1)).Nodup ∧
      bp = r.2.1 ∧ studies = l.map (·.2.2) := by
  unfold tuneDoubling at h
  cases hl : doublingLoop U c maximal fuel initial none [] with
  | none => rw [hl] at h; cases h
  | some x =>
    rw [hl] at h
    cases x with
    | error e => cases h
    | ok rs =>
      simp only at h
      obtain ⟨l, h1, h2⟩ := doublingLoop_ok U c maximal _ _ _ _ _ hl
      rw [List.nil_append] at h1
      subst h1
      unfold doublingResult at h
      cases hr : leastOf rs with
      | none => rw [hr] at h; cases h
      | some r =>
        rw [hr] at h
        simp only at h
        obtain ⟨h3, h4⟩ := leastOf_spec rs r hr
        by_cases hn : (rs.map (·.1)).Nodup
        · rw [if_pos hn] at h
          obtain ⟨rfl, rfl⟩ := Prod.mk.inj (Except.ok.inj (Option.some.inj h))
          exact ⟨rs, r, h2, h3, h4, hn, rfl, rfl⟩
        · rw [if_neg hn] at h; cases h

/-! ## The neighbourhood -/

omit [Field K] [LinearOrder K] in
theorem set_new (d : Dict V) (k : List Char) (v : V) (h : d.get? k = none) : d.set k v = d ++ [(k, v)] := by
  unfold Dict.set
  have : d.any (fun e => e.1 = k) = false := (Dict.has_false_iff d k).mpr h
  rw [this]
  simp

theorem neighbourhood_run (asFloat : V → Option K) (scale : K)
    (sample : List Char → Request K V → Except Err V) : ∀ (prev acc : Dict V), prev.WF →
    (∀ k v, prev.get? k = some v → acc.get? k = none) → ∀ ps d,
    (neighbourhood asFloat scale prev acc).run sample acc = (ps, .ok d) →
    (∀ k v, acc.get? k = some v → d.get? k = some v) ∧
    ∀ k, acc.get? k = none →
      (∀ v x, prev.get? k = some v → asFloat v = some x → ∃ w, d.get? k = some w ∧
        sample k (.float (some (x / scale)) (some (x * scale)) true) = .ok w) ∧
      ((∀ v x, prev.get? k = some v → asFloat v ≠ some x) → d.get? k = none) := by
  intro prev
  induction prev with
  | nil =>
    intro acc _ _ ps d h
    have : acc = d := Except.ok.inj (Prod.mk.inj h).2
    subst this
    exact ⟨fun _ _ h => h, fun k hk => ⟨fun v x h => (by cases h), fun _ => hk⟩⟩
  | cons e prev ih =>
    intro acc hwf hdis ps d h
    obtain ⟨key, v⟩ := e
    have hwf' : Dict.WF prev := by
      unfold Dict.WF at hwf ⊢
      rw [List.map_cons, List.nodup_cons] at hwf
      exact hwf.2
    have hkey : Dict.get? prev key = none := by
      unfold Dict.WF at hwf
      rw [List.map_cons, List.nodup_cons] at hwf
      rw [← Dict.has_false_iff, ← Bool.not_eq_true, Dict.has_iff_mem]
      exact hwf.1
    have hprev : ∀ k w, Dict.get? prev k = some w → Dict.get? ((key, v) :: prev) k = some w := by
      intro k w hk
      rw [Dict.get?_cons]
      by_cases hkk : key = k
      · subst hkk; rw [hkey] at hk; cases hk
      · rw [if_neg hkk]; exact hk
    unfold neighbourhood at h
    cases hf : asFloat v with
    | none =>
      rw [hf] at h
      simp only at h
      obtain ⟨i1, i2⟩ := ih acc hwf' (fun k w hk => hdis k w (hprev k w hk)) ps d h
      refine ⟨i1, fun k hk => ?_⟩
      obtain ⟨i3, i4⟩ := i2 k hk
      rw [Dict.get?_cons]
      by_cases hkk : key = k
      · subst hkk
        simp only [if_true]
        refine ⟨fun w x hw hx => ?_, fun _ => i4 (by rw [hkey]; simp)⟩
        cases hw
        rw [hf] at hx; cases hx
      · rw [if_neg hkk]
        exact ⟨i3, i4⟩
    | some x =>
      rw [hf] at h
      simp only at h
      by_cases hz : scale = 0
      · rw [if_pos hz] at h
        cases (Prod.mk.inj h).2
      · rw [if_neg hz] at h
        unfold Prog.run at h
        have hacc : acc.get? key = none := hdis key v (by rw [Dict.get?_cons, if_pos rfl])
        rw [hacc] at h
        simp only at h
        cases hs : sample key (.float (some (x / scale)) (some (x * scale)) true) with
        | error e => rw [hs] at h; cases (Prod.mk.inj h).2
        | ok w =>
          rw [hs] at h
          simp only at h
          rw [← set_new acc key w hacc] at h
          obtain ⟨i1, i2⟩ := ih (acc.set key w) hwf' (by
            intro k w' hk
            rw [Dict.get?_set]
            by_cases hkk : key = k
            · subst hkk; rw [hkey] at hk; cases hk
            · rw [if_neg hkk]; exact hdis k w' (hprev k w' hk)) ps d h
          refine ⟨?_, fun k hk => ?_⟩
          · intro k w' hk
            apply i1
            rw [Dict.get?_set]
            by_cases hkk : key = k
            · subst hkk; rw [hacc] at hk; cases hk
            · rw [if_neg hkk]; exact hk
          · rw [Dict.get?_cons]
            by_cases hkk : key = k
            · subst hkk
              simp only [if_true]
              refine ⟨fun v' x' hv hx => ?_, fun hc => absurd hf (hc v x rfl)⟩
              cases hv
              rw [hf] at hx
              cases hx
              exact ⟨w, i1 key w (by rw [Dict.get?_set, if_pos rfl]), hs⟩
            · rw [if_neg hkk]
              exact i2 k (by rw [Dict.get?_set, if_neg hkk]; exact hk)

omit [Field K] [LinearOrder K] in
theorem madeBy_params_wf [Neg K] (c : Setup K V Data) (t : Frozen K V Data) (h : MadeBy c t) : t.params.WF := by
  obtain ⟨s, h1, -, -⟩ := madeBy_cases c t h
  have h2 := (run_params (c.sample s) c.dataSuggest [] Dict.wf_nil).1
  rcases h1 with h1 | ⟨d, -, h1⟩
  · rw [h1]; exact h2
  · rw [h1]; exact (run_params (c.sample s) c.paramSuggest _ h2).1

end Irspack.Tuning
