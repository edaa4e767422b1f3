import Verif.Model.ParamRange
import Verif.Spec.ParamName
import Verif.Props.Threads

/-! # C55: names and bounds of parameter ranges -/

namespace Irspack.Tuning

open Spec.ParamName

variable {U : Chars}

theorem alnum_iff (c : Char) : alnum U c = true ↔ LetterOrDigit U c := by
  unfold alnum LetterOrDigit
  simp only [Bool.or_eq_true, Bool.and_eq_true, decide_eq_true_eq, Option.isSome_iff_exists]
  tauto

theorem dash_iff (c : Char) : dash c = true ↔ c = '-' ∨ c = '_' := by
  unfold dash
  simp

theorem star_cls {p : Char → Bool} (s : List Char) : Matches (.star (.cls p)) s ↔ ∀ c ∈ s, p c = true := by
  constructor
  · intro h
    generalize hr : Re.star (.cls p) = r at h
    induction h with
    | cls _ => cases hr
    | seq _ _ _ _ => cases hr
    | plus _ _ _ _ => cases hr
    | starNil => simp
    | starCons h1 _ _ ih =>
      cases hr
      cases h1 with
      | cls hc =>
        intro c hc'
        rcases List.mem_append.mp hc' with h | h
        · rw [List.mem_singleton.mp h]; exact hc
        · exact ih rfl c h
  · intro h
    induction s with
    | nil => exact .starNil
    | cons c s ih => exact .starCons (.cls (h c (by simp))) (ih (fun x hx => h x (by simp [hx])))

theorem plus_cls {p : Char → Bool} (s : List Char) :
    Matches (.plus (.cls p)) s ↔ s ≠ [] ∧ ∀ c ∈ s, p c = true := by
  constructor
  · intro h
    cases h with
    | plus h1 h2 =>
      cases h1 with
      | cls hc =>
        refine ⟨by simp, ?_⟩
        intro c hc'
        rcases List.mem_append.mp hc' with h | h
        · rw [List.mem_singleton.mp h]; exact hc
        · exact (star_cls _).mp h2 c h
  · rintro ⟨h1, h2⟩
    obtain ⟨c, t, rfl⟩ := List.exists_cons_of_ne_nil h1
    exact .plus (.cls (h2 c (by simp))) ((star_cls t).mpr (fun x hx => h2 x (by simp [hx])))

theorem group_iff (s : List Char) : Matches (.seq (.plus (.cls (alnum U))) (.star (.cls dash))) s ↔
    ∃ a b, s = a ++ b ∧ a ≠ [] ∧ (∀ c ∈ a, alnum U c = true) ∧ ∀ c ∈ b, dash c = true := by
  constructor
  · intro h
    cases h with
    | seq h1 h2 =>
      exact ⟨_, _, rfl, ((plus_cls _).mp h1).1, ((plus_cls _).mp h1).2, (star_cls _).mp h2⟩
  · rintro ⟨a, b, rfl, h1, h2, h3⟩
    exact .seq ((plus_cls a).mpr ⟨h1, h2⟩) ((star_cls b).mpr h3)

theorem groups_sound {s : List Char}
    (h : Matches (.star (.seq (.plus (.cls (alnum U))) (.star (.cls dash)))) s) :
    (s = [] ∨ ∃ c t, s = c :: t ∧ alnum U c = true) ∧ ∀ c ∈ s, alnum U c = true ∨ dash c = true := by
  generalize hr : Re.star (.seq (.plus (.cls (alnum U))) (.star (.cls dash))) = r at h
  induction h with
  | cls _ => cases hr
  | seq _ _ _ _ => cases hr
  | plus _ _ _ _ => cases hr
  | starNil => exact ⟨.inl rfl, by simp⟩
  | starCons h1 _ _ ih =>
    cases hr
    obtain ⟨a, b, rfl, ha, h2, h3⟩ := (group_iff _).mp h1
    obtain ⟨c, t, rfl⟩ := List.exists_cons_of_ne_nil ha
    refine ⟨.inr ⟨c, _, rfl, h2 c (by simp)⟩, ?_⟩
    intro x hx
    rcases List.mem_append.mp hx with hx | hx
    · rcases List.mem_append.mp hx with hx | hx
      · exact .inl (h2 x hx)
      · exact .inr (h3 x hx)
    · exact (ih rfl).2 x hx

theorem groups_complete : ∀ (k : Nat) (s : List Char), s.length ≤ k →
    (s = [] ∨ ∃ c t, s = c :: t ∧ alnum U c = true) → (∀ c ∈ s, alnum U c = true ∨ dash c = true) →
    Matches (.star (.seq (.plus (.cls (alnum U))) (.star (.cls dash)))) s := by
  intro k
  induction k with
  | zero =>
    intro s hs _ _
    have : s = [] := List.length_eq_zero_iff.mp (by omega)
    subst this
    exact .starNil
  | succ k ih =>
    intro s hs hhead hall
    rcases hhead with rfl | ⟨c, t, rfl, hc⟩
    · exact .starNil
    · -- the leading letters, then the dashes, then the rest
      have hsplit : c :: t = [c] ++ (t.takeWhile dash) ++ t.dropWhile dash := by
        simp [List.takeWhile_append_dropWhile]
      rw [hsplit]
      refine .starCons ((group_iff _).mpr ⟨[c], t.takeWhile dash, rfl, by simp, by simpa using hc,
        fun x hx => Threads.takeWhile_imp hx⟩) ?_
      have hlen : (t.dropWhile dash).length ≤ k := by
        have := (List.dropWhile_sublist dash (l := t)).length_le
        simp only [List.length_cons] at hs
        omega
      apply ih _ hlen
      · cases hd : t.dropWhile dash with
        | nil => exact .inl rfl
        | cons x y =>
          right
          refine ⟨x, y, rfl, ?_⟩
          have hx : x ∈ t := (List.dropWhile_sublist dash (l := t)).mem (by rw [hd]; simp)
          have hnd : dash x = false := by
            have := List.head_dropWhile_not dash (l := t) (by rw [hd]; simp)
            simpa [hd] using this
          rcases hall x (by simp [hx]) with h | h
          · exact h
          · rw [hnd] at h; cases h
      · intro x hx
        exact hall x (by simp [(List.dropWhile_sublist dash (l := t)).mem hx])

theorem nameChecker_iff (s : List Char) : Matches (nameChecker U) s ↔ Documented U s := by
  constructor
  · intro h
    cases h with
    | plus h1 h2 =>
      obtain ⟨a, b, rfl, ha, h3, h4⟩ := (group_iff _).mp h1
      obtain ⟨c, t, rfl⟩ := List.exists_cons_of_ne_nil ha
      refine ⟨c, _, rfl, (alnum_iff c).mp (h3 c (by simp)), ?_⟩
      intro x hx
      rcases List.mem_append.mp hx with hx | hx
      · rcases List.mem_append.mp hx with hx | hx
        · exact .inl ((alnum_iff x).mp (h3 x (by simp [hx])))
        · exact .inr ((dash_iff x).mp (h4 x hx))
      · rcases (groups_sound h2).2 x hx with h | h
        · exact .inl ((alnum_iff x).mp h)
        · exact .inr ((dash_iff x).mp h)
  · rintro ⟨c, rest, rfl, hc, hrest⟩
    have h := groups_complete (U := U) (c :: rest).length (c :: rest) (le_refl _)
      (.inr ⟨c, rest, rfl, (alnum_iff c).mpr hc⟩) (by
        intro x hx
        rcases List.mem_cons.mp hx with rfl | hx
        · exact .inl ((alnum_iff x).mpr hc)
        · rcases hrest x hx with h | h
          · exact .inl ((alnum_iff x).mpr h)
          · exact .inr ((dash_iff x).mpr h))
    generalize hs : c :: rest = s at h ⊢
    cases h with
    | starNil => cases hs
    | starCons h1 h2 => exact .plus h1 h2

/-- C55 (names).  A name is accepted iff it has the documented form, possibly followed by one newline. -/
theorem C55_names_partial (U : Chars) (name : List Char) :
    isValidParamName U name ↔ Documented U name ∨ ∃ n, name = n ++ ['\n'] ∧ Documented U n := by
  unfold isValidParamName
  constructor
  · rintro ⟨m, rest, rfl, h, rfl | rfl⟩
    · rw [List.append_nil]; exact .inl ((nameChecker_iff m).mp h)
    · exact .inr ⟨m, rfl, (nameChecker_iff m).mp h⟩
  · rintro (h | ⟨n, rfl, h⟩)
    · exact ⟨name, [], by simp, (nameChecker_iff name).mpr h, .inl rfl⟩
    · exact ⟨n, ['\n'], rfl, (nameChecker_iff n).mpr h, .inr rfl⟩

/-- C55 (names, counterexample).  The check is weaker than the documented form: `"top_k\n"` is accepted. -/
theorem C55_names_counterexample : isValidParamName Threads.ascii "top_k\n".toList ∧
    ¬ Documented Threads.ascii "top_k\n".toList := by
  constructor
  · refine (C55_names_partial _ _).mpr (.inr ⟨"top_k".toList, by decide, 't', ['o', 'p', '_', 'k'], by decide,
      .inl (by decide), ?_⟩)
    intro x hx
    simp only [List.mem_cons, List.not_mem_nil, or_false] at hx
    rcases hx with rfl | rfl | rfl | rfl
    · exact .inl (.inl (by decide))
    · exact .inl (.inl (by decide))
    · exact .inr (.inr rfl)
    · exact .inl (.inl (by decide))
  · rintro ⟨c, rest, h1, -, h3⟩
    have hmem : '\n' ∈ rest := by
      have : "top_k\n".toList = ['t', 'o', 'p', '_', 'k', '\n'] := by decide
      rw [this] at h1
      rw [← (List.cons.inj h1).2]
      simp
    rcases h3 '\n' hmem with (h | h | ⟨d, h⟩) | h | h
    · exact absurd h (by decide)
    · exact absurd h (by decide)
    · exact absurd h (by rw [show Threads.ascii.digit '\n' = none by decide]; simp)
    · exact absurd h (by decide)
    · exact absurd h (by decide)

/-- C55 (ranges).  For numbers, a range with bounds is created iff its name is accepted and `low ≤ high`;
otherwise `ValueError` is raised.  The created range has the given name and asks the trial for a value
between the given bounds, on a logarithmic scale for the `Log` classes. -/
theorem C55_ranges {K V : Type} [LinearOrder K] (U : Chars) (name : List Char) (low high : K) (step : Int)
    (choices : List V) :
    (isValidParamName U name ∧ low ≤ high →
      uniformFloat (V := V) U name (some low) (some high) = .ok ⟨name, .float (some low) (some high) false⟩ ∧
      logUniformFloat (V := V) U name (some low) (some high) = .ok ⟨name, .float (some low) (some high) true⟩ ∧
      uniformInteger (V := V) U name (some low) (some high) step =
        .ok ⟨name, .int (some low) (some high) step false⟩ ∧
      logUniformInteger (V := V) U name (some low) (some high) =
        .ok ⟨name, .int (some low) (some high) 1 true⟩) ∧
    (¬ (isValidParamName U name ∧ low ≤ high) →
      uniformFloat (V := V) U name (some low) (some high) = .error .valueError ∧
      logUniformFloat (V := V) U name (some low) (some high) = .error .valueError ∧
      uniformInteger (V := V) U name (some low) (some high) step = .error .valueError ∧
      logUniformInteger (V := V) U name (some low) (some high) = .error .valueError) ∧
    (isValidParamName U name → categorical (K := K) U name choices = .ok ⟨name, .categorical choices⟩) ∧
    (¬ isValidParamName U name → categorical (K := K) U name choices = .error .valueError) := by
  refine ⟨?_, ?_, ?_, ?_⟩
  · rintro ⟨h1, h2⟩
    have h3 : ¬ gt (some low) (some high) := not_lt.mpr h2
    unfold uniformFloat logUniformFloat uniformInteger logUniformInteger boundedRange
    simp [h1, h3]
  · intro h
    unfold uniformFloat logUniformFloat uniformInteger logUniformInteger boundedRange
    by_cases h1 : isValidParamName U name
    · have h3 : gt (some low) (some high) := not_le.mp (fun h2 => h ⟨h1, h2⟩)
      simp [h3]
    · simp [h1]
  · intro h
    unfold categorical
    rw [if_neg (not_not.mpr h)]
  · intro h
    unfold categorical
    rw [if_pos h]

/-- C55 (ranges, NaN).  A bound that is not a number is accepted. -/
theorem C55_nan_counterexample {K V : Type} [LinearOrder K] (U : Chars) (name : List Char)
    (h : isValidParamName U name) (b : PyNum K) :
    uniformFloat (V := V) U name none b = .ok ⟨name, .float none b false⟩ ∧
    uniformFloat (V := V) U name b none = .ok ⟨name, .float b none false⟩ := by
  unfold uniformFloat boundedRange
  have h1 : ¬ gt none b := id
  have h2 : ¬ gt b none := by cases b <;> exact id
  simp [h, h1, h2]

/-- a documented name -/
example : isValidParamName Threads.ascii "top_k".toList :=
  (C55_names_partial _ _).mpr (.inl ⟨'t', ['o', 'p', '_', 'k'], by decide, .inl (by decide), by
    intro x hx
    simp only [List.mem_cons, List.not_mem_nil, or_false] at hx
    rcases hx with rfl | rfl | rfl | rfl
    · exact .inl (.inl (by decide))
    · exact .inl (.inl (by decide))
    · exact .inr (.inr rfl)
    · exact .inl (.inl (by decide))⟩)

end Irspack.Tuning
