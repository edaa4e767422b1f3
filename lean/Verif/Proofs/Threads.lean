import Verif.Spec.Numeral
import Mathlib.Tactic.Ring

namespace Irspack.Threads

open Spec.Numeral

variable {U : Chars}

theorem ofDigits_reverse_cons (d : Nat) (ds : List Nat) :
    Nat.ofDigits 10 (d :: ds).reverse = d * 10 ^ ds.length + Nat.ofDigits 10 ds.reverse := by
  rw [List.reverse_cons, Nat.ofDigits_append, List.length_reverse, Nat.ofDigits_singleton]
  ring

/-- what may follow a digit -/
inductive Tail (U : Chars) : List Char → List Nat → Prop
  | nil : Tail U [] []
  | digit {c d t ds} : U.digit c = some d → Tail U t ds → Tail U (c :: t) (d :: ds)
  | underscore {c d t ds} : U.digit c = some d → Tail U t ds → Tail U ('_' :: c :: t) (d :: ds)

theorem digitsAfter_iff (hU : U.Sane) : ∀ (k : Nat) (t : List Char), t.length ≤ k → ∀ (acc n : Nat),
    digitsAfter U acc t = some n ↔
      ∃ ds, Tail U t ds ∧ n = acc * 10 ^ ds.length + Nat.ofDigits 10 ds.reverse := by
  intro k
  induction k with
  | zero =>
    intro t ht acc n
    have : t = [] := List.length_eq_zero_iff.mp (by omega)
    subst this
    unfold digitsAfter
    constructor
    · intro h
      exact ⟨[], .nil, by simpa using (Option.some.inj h).symm⟩
    · rintro ⟨ds, hds, rfl⟩
      cases hds
      simp
  | succ k ih =>
    intro t ht acc n
    have hstep : ∀ (c : Char) (t : List Char), t.length ≤ k →
        ((U.digit c).bind (fun d => digitsAfter U (10 * acc + d) t) = some n ↔
          ∃ d ds, U.digit c = some d ∧ Tail U t ds ∧
            n = acc * 10 ^ (d :: ds).length + Nat.ofDigits 10 (d :: ds).reverse) := by
      intro c t ht
      cases hc : U.digit c with
      | none => simp
      | some d =>
        simp only [Option.bind_some, ih t ht]
        constructor
        · rintro ⟨ds, h1, h2⟩
          refine ⟨d, ds, rfl, h1, ?_⟩
          rw [h2, ofDigits_reverse_cons, List.length_cons, pow_succ]
          ring
        · rintro ⟨d', ds, hd, h1, h2⟩
          obtain rfl := Option.some.inj hd
          refine ⟨ds, h1, ?_⟩
          rw [h2, ofDigits_reverse_cons, List.length_cons, pow_succ]
          ring
    match t, ht with
    | [], _ =>
      unfold digitsAfter
      constructor
      · intro h
        exact ⟨[], .nil, by simpa using (Option.some.inj h).symm⟩
      · rintro ⟨ds, hds, rfl⟩
        cases hds
        simp
    | c :: t, ht =>
      have ht' : t.length ≤ k := by simpa using ht
      by_cases hc : c = '_'
      · subst hc
        match t, ht' with
        | [], _ =>
          rw [digitsAfter, (hU.signs '_' (by simp)).2]
          · constructor
            · intro h; cases h
            rintro ⟨ds, hds, -⟩
            cases hds with
            | digit h _ => rw [(hU.signs '_' (by simp)).2] at h; cases h
          · intro _ _ _ h; cases h
        | c' :: t', ht' =>
          rw [digitsAfter]
          rw [hstep c' t' (by simp at ht'; omega)]
          constructor
          · rintro ⟨d, ds, h1, h2, h3⟩
            exact ⟨d :: ds, .underscore h1 h2, h3⟩
          · rintro ⟨ds, hds, h3⟩
            cases hds with
            | digit h _ => rw [(hU.signs '_' (by simp)).2] at h; cases h
            | underscore h1 h2 => exact ⟨_, _, h1, h2, h3⟩
      · rw [digitsAfter]
        · rw [hstep c t ht']
          constructor
          · rintro ⟨d, ds, h1, h2, h3⟩
            exact ⟨d :: ds, .digit h1 h2, h3⟩
          · rintro ⟨ds, hds, h3⟩
            cases hds with
            | digit h1 h2 => exact ⟨_, _, h1, h2, h3⟩
            | underscore h1 h2 => exact absurd rfl hc
        · intro c' t' h; exact absurd h hc

theorem intercalate_cons_cons (a b : List Char) (l : List (List Char)) :
    ['_'].intercalate (a :: b :: l) = a ++ '_' :: ['_'].intercalate (b :: l) := by
  simp [List.intercalate]

theorem intercalate_singleton (a : List Char) : ['_'].intercalate [a] = a := by
  simp [List.intercalate]

theorem tail_iff (t : List Char) (ds : List Nat) : Tail U t ds ↔
    ∃ (g : List Char) (groups : List (List Char)), (∀ g' ∈ groups, g' ≠ []) ∧
      t = ['_'].intercalate (g :: groups) ∧ (g :: groups).flatten.map U.digit = ds.map some := by
  constructor
  · intro h
    induction h with
    | nil => exact ⟨[], [], by simp, by simp [intercalate_singleton], by simp⟩
    | @digit c d t ds hc _ ih =>
      obtain ⟨g, groups, h1, h2, h3⟩ := ih
      refine ⟨c :: g, groups, h1, ?_, ?_⟩
      · cases groups with
        | nil => rw [h2, intercalate_singleton, intercalate_singleton]
        | cons b l => rw [h2, intercalate_cons_cons, intercalate_cons_cons]; rfl
      · simp only [List.flatten_cons, List.cons_append, List.map_cons, hc] at h3 ⊢
        rw [h3]
    | @underscore c d t ds hc _ ih =>
      obtain ⟨g, groups, h1, h2, h3⟩ := ih
      refine ⟨[], (c :: g) :: groups, ?_, ?_, ?_⟩
      · intro g' hg'
        rcases List.mem_cons.mp hg' with rfl | hg'
        · simp
        · exact h1 g' hg'
      · rw [intercalate_cons_cons]
        cases groups with
        | nil => rw [h2, intercalate_singleton, intercalate_singleton]; rfl
        | cons b l => rw [h2, intercalate_cons_cons, intercalate_cons_cons]; rfl
      · simp only [List.flatten_cons, List.nil_append, List.cons_append, List.map_cons, hc] at h3 ⊢
        rw [h3]
  · rintro ⟨g, groups, h1, h2, h3⟩
    subst h2
    induction groups generalizing g ds with
    | nil =>
      rw [intercalate_singleton]
      simp only [List.flatten_cons, List.flatten_nil, List.append_nil] at h3
      induction g generalizing ds with
      | nil => cases ds with
        | nil => exact .nil
        | cons _ _ => simp at h3
      | cons c g ih => cases ds with
        | nil => simp at h3
        | cons d ds =>
          simp only [List.map_cons, List.cons.injEq] at h3
          exact .digit h3.1 (ih ds h3.2)
    | cons b l ih =>
      rw [intercalate_cons_cons]
      simp only [List.flatten_cons] at h3
      induction g generalizing ds with
      | nil =>
        obtain ⟨c, b', rfl⟩ := List.exists_cons_of_ne_nil (h1 b (by simp))
        cases ds with
        | nil => simp at h3
        | cons d ds =>
          simp only [List.nil_append, List.cons_append, List.map_cons, List.cons.injEq] at h3
          have := ih ds b' (fun g' hg' => h1 g' (by simp [hg'])) (by simpa using h3.2)
          have hsplit : ['_'].intercalate ((c :: b') :: l) = c :: ['_'].intercalate (b' :: l) := by
            cases l with
            | nil => rw [intercalate_singleton, intercalate_singleton]
            | cons x l => rw [intercalate_cons_cons, intercalate_cons_cons]; rfl
          rw [List.nil_append, hsplit]
          exact .underscore h3.1 this
      | cons c g ihg => cases ds with
        | nil => simp at h3
        | cons d ds =>
          simp only [List.cons_append, List.map_cons, List.cons.injEq] at h3
          exact .digit h3.1 (ihg ds h3.2)

theorem natural_iff (hU : U.Sane) (s : List Char) (n : Nat) : natural U s = some n ↔ Decimal U s n := by
  unfold natural Decimal
  cases s with
  | nil =>
    simp only [reduceCtorEq, false_iff]
    rintro ⟨groups, h1, h2, h3, -⟩
    obtain ⟨g, l, rfl⟩ := List.exists_cons_of_ne_nil h1
    have hg := h2 g (by simp)
    cases l with
    | nil => rw [intercalate_singleton] at h3; exact hg h3.symm
    | cons b l =>
      rw [intercalate_cons_cons] at h3
      exact absurd h3 (by simp)
  | cons c t =>
    constructor
    · intro h
      cases hc : U.digit c with
      | none => simp [hc] at h
      | some d =>
        simp only [hc, Option.bind_some] at h
        obtain ⟨ds, h1, h2⟩ := (digitsAfter_iff hU t.length t (le_refl _) d n).mp h
        obtain ⟨g, groups, g1, g2, g3⟩ := (tail_iff t ds).mp h1
        refine ⟨(c :: g) :: groups, by simp, ?_, ?_, d :: ds, ?_, ?_⟩
        · intro g' hg'
          rcases List.mem_cons.mp hg' with rfl | hg'
          · simp
          · exact g1 g' hg'
        · cases groups with
          | nil => rw [g2, intercalate_singleton, intercalate_singleton]
          | cons b l => rw [g2, intercalate_cons_cons, intercalate_cons_cons]; rfl
        · simp only [List.flatten_cons, List.cons_append, List.map_cons, hc] at g3 ⊢
          rw [g3]
        · rw [ofDigits_reverse_cons]; exact h2
    · rintro ⟨groups, h1, h2, h3, ds, h4, h5⟩
      obtain ⟨g, l, rfl⟩ := List.exists_cons_of_ne_nil h1
      obtain ⟨c', g', rfl⟩ := List.exists_cons_of_ne_nil (h2 g (by simp))
      have hsplit : ['_'].intercalate ((c' :: g') :: l) = c' :: ['_'].intercalate (g' :: l) := by
        cases l with
        | nil => rw [intercalate_singleton, intercalate_singleton]
        | cons x l => rw [intercalate_cons_cons, intercalate_cons_cons]; rfl
      rw [hsplit] at h3
      obtain ⟨rfl, ht⟩ := List.cons.inj h3
      cases ds with
      | nil => simp at h4
      | cons d ds =>
        simp only [List.flatten_cons, List.cons_append, List.map_cons, List.cons.injEq] at h4
        simp only [h4.1, Option.bind_some]
        refine (digitsAfter_iff hU t.length t (le_refl _) d n).mpr ⟨ds, ?_, ?_⟩
        · exact (tail_iff t ds).mpr ⟨g', l, fun x hx => h2 x (by simp [hx]), ht, by simpa using h4.2⟩
        · rw [← ofDigits_reverse_cons]; exact h5

/-- a numeral starts and ends with a digit -/
theorem decimal_ends {body : List Char} {k : Nat} (h : Decimal U body k) :
    (∃ c t, body = c :: t ∧ (U.digit c).isSome) ∧ ∃ t c, body = t ++ [c] ∧ (U.digit c).isSome := by
  obtain ⟨groups, h1, h2, h3, ds, h4, -⟩ := h
  have hall : ∀ c ∈ groups.flatten, (U.digit c).isSome := by
    intro c hc
    have : U.digit c ∈ ds.map some := by rw [← h4]; exact List.mem_map_of_mem hc
    obtain ⟨d, _, hd⟩ := List.mem_map.mp this
    rw [← hd]; rfl
  constructor
  · obtain ⟨g, l, rfl⟩ := List.exists_cons_of_ne_nil h1
    obtain ⟨c, g', rfl⟩ := List.exists_cons_of_ne_nil (h2 g (by simp))
    have hc := hall c (by simp)
    cases l with
    | nil => exact ⟨c, g', by rw [h3, intercalate_singleton], hc⟩
    | cons x l => exact ⟨c, _, by rw [h3, intercalate_cons_cons]; rfl, hc⟩
  · subst h3
    clear h4
    induction groups with
    | nil => exact absurd rfl h1
    | cons g l ih =>
      cases l with
      | nil =>
        have hg := h2 g (by simp)
        rw [intercalate_singleton]
        refine ⟨g.dropLast, g.getLast hg, (List.dropLast_concat_getLast hg).symm, ?_⟩
        exact hall _ (by simp)
      | cons x l =>
        obtain ⟨t, c, h, hc⟩ := ih (by simp) (fun g hg => h2 g (by simp [hg]))
          (fun c hc => hall c (by simp only [List.flatten_cons] at hc ⊢; simp [hc]))
        refine ⟨g ++ '_' :: t, c, ?_, hc⟩
        rw [intercalate_cons_cons, h]
        simp

theorem dropWhile_append_of {p : Char → Bool} {a b : List Char} (ha : ∀ c ∈ a, p c)
    (hb : ∀ c t, b = c :: t → p c = false) : (a ++ b).dropWhile p = b := by
  induction a with
  | nil =>
    cases b with
    | nil => rfl
    | cons c t => rw [List.nil_append, List.dropWhile_cons, hb c t rfl]; rfl
  | cons x a ih =>
    rw [List.cons_append, List.dropWhile_cons, ha x (by simp)]
    exact ih (fun c hc => ha c (by simp [hc]))

theorem strip_of {pre core post : List Char} (h1 : ∀ c ∈ pre, U.space c) (h2 : ∀ c ∈ post, U.space c)
    (hf : ∃ c t, core = c :: t ∧ U.space c = false) (hl : ∃ t c, core = t ++ [c] ∧ U.space c = false) :
    strip U (pre ++ core ++ post) = core := by
  unfold strip
  obtain ⟨c, t, hc, hcs⟩ := hf
  obtain ⟨t', c', hc', hcs'⟩ := hl
  rw [List.append_assoc, dropWhile_append_of h1 (by
    intro x y hxy
    rw [hc] at hxy
    have := (List.cons.inj hxy).1
    rw [← this]; exact hcs)]
  rw [List.reverse_append, dropWhile_append_of (by
    intro c hc
    exact h2 c (List.mem_reverse.mp hc)) (by
    intro x y hxy
    rw [hc', List.reverse_append] at hxy
    have := (List.cons.inj hxy).1
    rw [← this]; exact hcs'), List.reverse_reverse]

theorem takeWhile_imp {p : Char → Bool} {l : List Char} {c : Char} (h : c ∈ l.takeWhile p) : p c = true := by
  induction l with
  | nil => simp at h
  | cons x l ih =>
    rw [List.takeWhile_cons] at h
    split at h
    · rcases List.mem_cons.mp h with rfl | h
      · assumption
      · exact ih h
    · simp at h

/-- stripping leaves white space on both sides -/
theorem strip_spec (s : List Char) : ∃ pre post, (∀ c ∈ pre, U.space c) ∧ (∀ c ∈ post, U.space c) ∧
    s = pre ++ strip U s ++ post := by
  unfold strip
  refine ⟨s.takeWhile U.space, ((s.dropWhile U.space).reverse.takeWhile U.space).reverse, ?_, ?_, ?_⟩
  · intro c hc
    exact takeWhile_imp hc
  · intro c hc
    exact takeWhile_imp (List.mem_reverse.mp hc)
  · rw [List.append_assoc, ← List.reverse_append, List.takeWhile_append_dropWhile, List.reverse_reverse,
      List.takeWhile_append_dropWhile]

theorem pyInt_iff (hU : U.Sane) (s : List Char) (n : Int) : pyInt U s = some n ↔ IntegerLiteral U s n := by
  have hnospace : ∀ c, (U.digit c).isSome → U.space c = false := by
    intro c hc
    by_contra hs
    rw [hU.disjoint c (by simpa using hs)] at hc
    cases hc
  constructor
  · intro h
    obtain ⟨pre, post, h1, h2, h3⟩ := strip_spec (U := U) s
    unfold pyInt at h
    split at h
    · rename_i t ht
      rw [Option.map_eq_some_iff] at h
      obtain ⟨k, hk, rfl⟩ := h
      exact ⟨pre, t, post, k, h1, h2, (natural_iff hU t k).mp hk, .inr (.inl ⟨by rw [h3, ht], rfl⟩)⟩
    · rename_i t ht
      rw [Option.map_eq_some_iff] at h
      obtain ⟨k, hk, rfl⟩ := h
      exact ⟨pre, t, post, k, h1, h2, (natural_iff hU t k).mp hk, .inr (.inr ⟨by rw [h3, ht], rfl⟩)⟩
    · rw [Option.map_eq_some_iff] at h
      obtain ⟨k, hk, rfl⟩ := h
      exact ⟨pre, _, post, k, h1, h2, (natural_iff hU _ k).mp hk, .inl ⟨h3, rfl⟩⟩
  · rintro ⟨pre, body, post, k, h1, h2, hd, h⟩
    obtain ⟨⟨c, t, hc, hcd⟩, ⟨t', c', hc', hcd'⟩⟩ := decimal_ends hd
    have hnat := (natural_iff hU body k).mpr hd
    rcases h with ⟨rfl, rfl⟩ | ⟨rfl, rfl⟩ | ⟨rfl, rfl⟩
    · have hs : strip U (pre ++ body ++ post) = body :=
        strip_of h1 h2 ⟨c, t, hc, hnospace c hcd⟩ ⟨t', c', hc', hnospace c' hcd'⟩
      unfold pyInt
      rw [hs]
      split
      · rw [← (List.cons.inj hc).1, (hU.signs '+' (by simp)).2] at hcd
        cases hcd
      · rw [← (List.cons.inj hc).1, (hU.signs '-' (by simp)).2] at hcd
        cases hcd
      · rw [hnat]; rfl
    · have hs : strip U (pre ++ '+' :: body ++ post) = '+' :: body :=
        strip_of h1 h2 ⟨'+', body, rfl, (hU.signs '+' (by simp)).1⟩
          ⟨'+' :: t', c', by rw [hc']; rfl, hnospace c' hcd'⟩
      unfold pyInt
      rw [hs]
      simp only [hnat, Option.map_some]
    · have hs : strip U (pre ++ '-' :: body ++ post) = '-' :: body :=
        strip_of h1 h2 ⟨'-', body, rfl, (hU.signs '-' (by simp)).1⟩
          ⟨'-' :: t', c', by rw [hc']; rfl, hnospace c' hcd'⟩
      unfold pyInt
      rw [hs]
      simp only [hnat, Option.map_some]

end Irspack.Threads
