import Verif.Model.Datasets
import Verif.Spec.Mind
import Verif.Proofs.Mind
import Verif.Proofs.Threads

namespace Irspack.Datasets

open Text Spec Spec.Numeral Threads

variable {U : Chars}

/-! ## Lines -/

theorem linesFrom_body (b : List Char) (hb : '\n' ∉ b) (s : List Char) : ∀ acc,
    linesFrom acc (b ++ '\n' :: s) = (acc ++ b ++ ['\n']) :: linesFrom [] s := by
  induction b with
  | nil => intro acc; simp [linesFrom]
  | cons c b ih =>
    intro acc
    have hc : c ≠ '\n' := fun h => hb (by simp [h])
    rw [List.cons_append, linesFrom, if_neg hc, ih (fun h => hb (by simp [h]))]
    simp

theorem lines_flatMap {α : Type} (body : α → List Char) (l : List α) (h : ∀ a ∈ l, '\n' ∉ body a) :
    lines (l.flatMap (fun a => body a ++ ['\n'])) = l.map (fun a => body a ++ ['\n']) := by
  unfold lines
  induction l with
  | nil => rfl
  | cons a l ih =>
    rw [List.flatMap_cons, List.append_assoc]
    have := linesFrom_body (body a) (h a (by simp)) (l.flatMap (fun a => body a ++ ['\n'])) []
    rw [show ['\n'] ++ l.flatMap (fun a => body a ++ ['\n']) = '\n' :: l.flatMap (fun a => body a ++ ['\n']) from rfl,
      this, ih (fun x hx => h x (by simp [hx]))]
    simp

/-! ## Numbers -/

theorem toInt_iff (hU : U.Sane) (s : List Char) (n : Int) : toInt U s = .ok n ↔ IntegerLiteral U s n := by
  rw [← pyInt_iff hU]
  unfold toInt
  cases pyInt U s <;> simp

theorem toInt_error (s : List Char) (e : Err) (h : toInt U s = .error e) : e = .valueError := by
  unfold toInt at h
  cases hp : pyInt U s with
  | none => rw [hp] at h; cases h; rfl
  | some n => rw [hp] at h; cases h

/-! ## The pattern -/

theorem takeWhile_append_of {p : Char → Bool} {a b : List Char} (ha : ∀ c ∈ a, p c = true)
    (hb : ∀ c t, b = c :: t → p c = false) : (a ++ b).takeWhile p = a := by
  induction a with
  | nil =>
    cases b with
    | nil => rfl
    | cons c t => rw [List.nil_append, List.takeWhile_cons, hb c t rfl]; rfl
  | cons x a ih =>
    rw [List.cons_append, List.takeWhile_cons, ha x (by simp)]
    simp only [if_true]
    rw [ih (fun c hc => ha c (by simp [hc]))]

theorem digit_not_space (hU : U.Sane) {c : Char} (h : isDigit U c = true) : U.space c = false := by
  by_contra hs
  unfold isDigit at h
  rw [hU.disjoint c (by simpa using hs)] at h
  cases h

theorem spacedNumber_of (hU : U.Sane) (s1 ds s2 : List Char) (x : Char) (rest : List Char)
    (h1 : ∀ c ∈ s1, U.space c = true) (hds : ds ≠ []) (hd : ∀ c ∈ ds, isDigit U c = true)
    (h2 : ∀ c ∈ s2, U.space c = true) (hx : U.space x = false) (hx' : isDigit U x = false) :
    spacedNumber U (s1 ++ ds ++ s2 ++ x :: rest) = some (ds, x :: rest) := by
  have e1 : (s1 ++ ds ++ s2 ++ x :: rest).dropWhile U.space = ds ++ (s2 ++ x :: rest) := by
    rw [List.append_assoc, List.append_assoc]
    apply dropWhile_append_of h1
    intro c t hc
    cases ds with
    | nil => exact absurd rfl hds
    | cons d ds =>
      simp only [List.cons_append, List.cons.injEq] at hc
      rw [← hc.1]
      exact digit_not_space hU (hd d (by simp))
  have hhead : ∀ c t, s2 ++ x :: rest = c :: t → isDigit U c = false := by
    intro c t hc
    cases s2 with
    | nil =>
      simp only [List.nil_append, List.cons.injEq] at hc
      rw [← hc.1]; exact hx'
    | cons y s2 =>
      simp only [List.cons_append, List.cons.injEq] at hc
      rw [← hc.1]
      unfold isDigit
      rw [hU.disjoint y (h2 y (by simp))]
      rfl
  unfold spacedNumber
  simp only [e1]
  rw [takeWhile_append_of hd hhead, dropWhile_append_of hd hhead, if_neg hds, dropWhile_append_of h2 (by
    intro c t hc
    rw [← (List.cons.inj hc).1]; exact hx)]

/-- What is true of the punctuation: neither white space nor digits. -/
structure Punctuation (U : Chars) : Prop where
  plain : ∀ c, c = '(' ∨ c = ',' ∨ c = ')' → U.space c = false ∧ U.digit c = none
  tab : U.space '\t' = true
  newline : U.space '\n' = true

theorem matchPrefix_of (hU : U.Sane) (hP : Punctuation U) (s1 u s2 s3 i s4 rest : List Char)
    (h1 : ∀ c ∈ s1, U.space c = true) (hu : u ≠ []) (hu' : ∀ c ∈ u, isDigit U c = true)
    (h2 : ∀ c ∈ s2, U.space c = true) (h3 : ∀ c ∈ s3, U.space c = true) (hi : i ≠ [])
    (hi' : ∀ c ∈ i, isDigit U c = true) (h4 : ∀ c ∈ s4, U.space c = true) :
    matchPrefix U ('(' :: (s1 ++ u ++ s2 ++ ',' :: (s3 ++ i ++ s4 ++ ')' :: rest))) = some (u, i, rest) := by
  have c1 := hP.plain ',' (by simp)
  have c2 := hP.plain ')' (by simp)
  rw [matchPrefix, spacedNumber_of hU s1 u s2 ',' _ h1 hu hu' h2 c1.1 (by simp [isDigit, c1.2])]
  simp only
  rw [spacedNumber_of hU s3 i s4 ')' _ h3 hi hi' h4 c2.1 (by simp [isDigit, c2.2])]
  rfl

theorem matchPrefix_other (c : Char) (s : List Char) (hc : c ≠ '(') : matchPrefix U (c :: s) = none := by
  unfold matchPrefix
  split
  · rename_i h
    exact absurd (List.cons.inj h).1 hc
  · rfl

theorem removeFrom_skip (p rest : List Char) : removeFrom U p.length (p ++ rest) = removeFrom U 0 rest := by
  induction p with
  | nil => rfl
  | cons c p ih => rw [List.length_cons, List.cons_append, removeFrom, ih]

theorem removeFrom_none (s : List Char) (h : '(' ∉ s) : removeFrom U 0 s = s := by
  induction s with
  | nil => rfl
  | cons c s ih =>
    have hc : c ≠ '(' := fun e => h (by simp [e])
    rw [removeFrom, matchPrefix_other c s hc]
    simp only
    rw [ih (fun hm => h (by simp [hm]))]

/-! ## Repeated rows -/

theorem dropRepeated_mem (rows : List TestRow) : ∀ seen r,
    r ∈ dropRepeated seen rows ↔
      ∃ before after, rows = before ++ r :: after ∧ (r.user, r.item) ∉ seen ∧
        ∀ y ∈ before, (y.user, y.item) ≠ (r.user, r.item) := by
  induction rows with
  | nil => intro seen r; simp [dropRepeated]
  | cons x rows ih =>
    intro seen r
    rw [dropRepeated]
    split
    · rename_i hx
      rw [ih]
      constructor
      · rintro ⟨b, a, rfl, h1, h2⟩
        refine ⟨x :: b, a, rfl, h1, ?_⟩
        intro y hy
        rcases List.mem_cons.mp hy with rfl | hy
        · intro e; rw [e] at hx; exact h1 hx
        · exact h2 y hy
      · rintro ⟨b, a, he, h1, h2⟩
        cases b with
        | nil =>
          simp only [List.nil_append, List.cons.injEq] at he
          rw [he.1] at hx
          exact absurd hx h1
        | cons y b =>
          simp only [List.cons_append, List.cons.injEq] at he
          exact ⟨b, a, he.2, h1, fun z hz => h2 z (by simp [hz])⟩
    · rename_i hx
      rw [List.mem_cons, ih]
      constructor
      · rintro (rfl | ⟨b, a, rfl, h1, h2⟩)
        · exact ⟨[], rows, rfl, hx, by simp⟩
        · rw [List.mem_append, List.mem_singleton, not_or] at h1
          refine ⟨x :: b, a, rfl, h1.1, ?_⟩
          intro y hy
          rcases List.mem_cons.mp hy with rfl | hy
          · exact Ne.symm h1.2
          · exact h2 y hy
      · rintro ⟨b, a, he, h1, h2⟩
        cases b with
        | nil =>
          simp only [List.nil_append, List.cons.injEq] at he
          exact .inl he.1.symm
        | cons y b =>
          simp only [List.cons_append, List.cons.injEq] at he
          right
          refine ⟨b, a, he.2, ?_, fun z hz => h2 z (by simp [hz])⟩
          rw [List.mem_append, List.mem_singleton, not_or]
          refine ⟨h1, ?_⟩
          rw [he.1]
          exact Ne.symm (h2 y (by simp))

theorem dropRepeated_sublist (rows : List TestRow) : ∀ seen, (dropRepeated seen rows).Sublist rows := by
  induction rows with
  | nil => intro seen; exact .slnil
  | cons x rows ih =>
    intro seen
    rw [dropRepeated]
    split
    · exact (ih _).cons x
    · exact (ih _).cons_cons x

theorem dropRepeated_nodup (rows : List TestRow) : ∀ seen,
    ((dropRepeated seen rows).map (fun r => (r.user, r.item))).Nodup := by
  induction rows with
  | nil => intro seen; simp [dropRepeated]
  | cons x rows ih =>
    intro seen
    rw [dropRepeated]
    split
    · exact ih _
    · rw [List.map_cons, List.nodup_cons]
      refine ⟨?_, ih _⟩
      intro hm
      obtain ⟨r, hr, he⟩ := List.mem_map.mp hm
      obtain ⟨-, -, -, h1, -⟩ := (dropRepeated_mem rows _ r).mp hr
      exact h1 (by rw [List.mem_append, List.mem_singleton]; exact .inr he)

/-- a row that is there remains, perhaps with the other label -/
theorem dropRepeated_key (rows : List TestRow) (r : TestRow) (hr : r ∈ rows) :
    ∃ r' ∈ dropRepeated [] rows, r'.user = r.user ∧ r'.item = r.item := by
  have : ∀ (rows : List TestRow), r ∈ rows → ∃ before r' after, rows = before ++ r' :: after ∧
      (r'.user, r'.item) = (r.user, r.item) ∧ ∀ y ∈ before, (y.user, y.item) ≠ (r.user, r.item) := by
    intro rows
    induction rows with
    | nil => simp
    | cons x rows ih =>
      intro hm
      by_cases hx : (x.user, x.item) = (r.user, r.item)
      · exact ⟨[], x, rows, rfl, hx, by simp⟩
      · rcases List.mem_cons.mp hm with rfl | hm
        · exact absurd rfl hx
        · obtain ⟨b, r', a, rfl, h1, h2⟩ := ih hm
          refine ⟨x :: b, r', a, rfl, h1, ?_⟩
          intro y hy
          rcases List.mem_cons.mp hy with rfl | hy
          · exact hx
          · exact h2 y hy
  obtain ⟨b, r', a, h1, h2, h3⟩ := this rows hr
  refine ⟨r', (dropRepeated_mem rows [] r').mpr ⟨b, a, h1, by simp, fun y hy => by rw [h2]; exact h3 y hy⟩, ?_⟩
  simpa using h2

/-! ## Joined numbers -/

theorem join_digits_ends (l : List (List Char)) (hl : l ≠ []) (h : ∀ s ∈ l, s ≠ [] ∧ ∀ c ∈ s, isDigit U c = true) :
    (∃ c t, join '\t' l = c :: t ∧ isDigit U c = true) ∧ ∃ t c, join '\t' l = t ++ [c] ∧ isDigit U c = true := by
  induction l with
  | nil => exact absurd rfl hl
  | cons s l ih =>
    obtain ⟨h1, h2⟩ := h s (by simp)
    have hfirst : ∀ r, ∃ c t, s ++ r = c :: t ∧ isDigit U c = true := by
      intro r
      cases s with
      | nil => exact absurd rfl h1
      | cons c s => exact ⟨c, s ++ r, rfl, h2 c (by simp)⟩
    cases l with
    | nil =>
      refine ⟨by simpa [join] using hfirst [], ?_⟩
      rcases List.eq_nil_or_concat s with he | ⟨t, c, he⟩
      · exact absurd he h1
      · rw [List.concat_eq_append] at he
        exact ⟨t, c, by simpa [join] using he, h2 c (by simp [he])⟩
    | cons s' l =>
      obtain ⟨-, t, c, h3, h4⟩ := ih (by simp) (fun x hx => h x (by simp [hx]))
      rw [join]
      exact ⟨hfirst _, s ++ '\t' :: t, c, by rw [h3]; simp, h4⟩

theorem mem_join (d : Char) (l : List (List Char)) : ∀ c ∈ join d l, c = d ∨ ∃ s ∈ l, c ∈ s := by
  induction l with
  | nil => intro c hc; simp [join] at hc
  | cons s l ih =>
    intro c hc
    cases l with
    | nil => exact .inr ⟨s, by simp, hc⟩
    | cons s' l =>
      rw [join] at hc
      rcases List.mem_append.mp hc with hc | hc
      · exact .inr ⟨s, by simp, hc⟩
      · rcases List.mem_cons.mp hc with rfl | hc
        · exact .inl rfl
        · rcases ih c hc with h | ⟨x, hx, h⟩
          · exact .inl h
          · exact .inr ⟨x, by simp [hx], h⟩

end Irspack.Datasets
