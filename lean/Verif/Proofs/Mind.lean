import Verif.Model.Mind
import Verif.Spec.Mind
import Verif.Proofs.Text

namespace Irspack.Mind

open Text Spec

variable {T : Type}

/-- item and click of a candidate that is there -/
def pairOf (t : List Char) : List Char × Bool :=
  ((labelsOf (some t)).1.getD [], decide ((labelsOf (some t)).2 = some ['1']))

theorem labelsOf_item (t : List Char) : (labelsOf (some t)).1 = some (pairOf t).1 := by
  unfold pairOf labelsOf
  cases h : lastDash t <;> simp [h]

theorem pairOf_means (t : List Char) : CandidateMeans t (pairOf t).1 (pairOf t).2 := by
  unfold CandidateMeans pairOf labelsOf
  cases h : lastDash t with
  | none =>
    right
    refine ⟨(lastDash_none t).mp h, ?_⟩
    simp [h]
  | some p =>
    obtain ⟨a, b⟩ := p
    left
    refine ⟨b, ?_, by simp [h]⟩
    simp only [h]
    exact (lastDash_iff t a b).mp h

theorem means_unique {t : List Char} {item item' : List Char} {c c' : Bool} (h : CandidateMeans t item c)
    (h' : CandidateMeans t item' c') : item = item' ∧ c = c' := by
  rcases h with ⟨l, h1, h2⟩ | ⟨h1, h2, h3⟩ <;> rcases h' with ⟨l', h1', h2'⟩ | ⟨h1', h2', h3'⟩
  · have e1 := (lastDash_iff _ _ _).mpr h1
    have e2 := (lastDash_iff _ _ _).mpr h1'
    rw [e1] at e2
    cases e2
    refine ⟨rfl, ?_⟩
    rw [Bool.eq_iff_iff, h2, h2']
  · exact absurd (by rw [h1.1]; simp) h1'
  · exact absurd (by rw [h1'.1]; simp) h1
  · exact ⟨h2.trans h2'.symm, h3.trans h3'.symm⟩

theorem forall2_pairs (ts : List (List Char)) (pairs : List (List Char × Bool)) :
    List.Forall₂ (fun t p => CandidateMeans t p.1 p.2) ts pairs ↔ pairs = ts.map pairOf := by
  induction ts generalizing pairs with
  | nil => simp
  | cons t ts ih =>
    cases pairs with
    | nil => simp
    | cons p ps =>
      rw [List.forall₂_cons, ih, List.map_cons, List.cons.injEq]
      constructor
      · rintro ⟨h1, h2⟩
        obtain ⟨e1, e2⟩ := means_unique h1 (pairOf_means t)
        exact ⟨Prod.ext e1 e2, h2⟩
      · rintro ⟨rfl, h2⟩
        exact ⟨pairOf_means t, h2⟩

theorem impressionsMean_iff (space : Char → Bool) (s : List Char) (pairs : List (List Char × Bool)) :
    ImpressionsMean space s pairs ↔ pairs = (words space s).map pairOf := by
  unfold ImpressionsMean
  constructor
  · rintro ⟨ts, h1, h2⟩
    rw [(words_iff space s ts).mp h1]
    exact (forall2_pairs ts pairs).mp h2
  · intro h
    exact ⟨_, (words_iff space s _).mpr rfl, (forall2_pairs _ _).mpr h⟩

/-! ## Numbering -/

theorem number_length (split : String) (l : List (Behavior T × Option (List Char))) : ∀ seen,
    (number split seen l).length = l.length := by
  induction l with
  | nil => intro seen; rfl
  | cons x l ih => intro seen; obtain ⟨b, c⟩ := x; simp [number, ih]

theorem number_ids (split : String) (l : List (Behavior T × Option (List Char))) : ∀ seen,
    (number split seen l).map (·.impressionId) = l.map (fun x => x.1.impressionId) := by
  induction l with
  | nil => intro seen; rfl
  | cons x l ih => intro seen; obtain ⟨b, c⟩ := x; simp [number, ih]

/-- everything but the position -/
def rowOf (split : String) (x : Behavior T × Option (List Char)) :
    Option (List Char) × Option (List Char) × T × Option (List Char) × Bool × String :=
  (x.1.impressionId, x.1.userId, x.1.timestamp, (labelsOf x.2).1, decide ((labelsOf x.2).2 = some ['1']), split)

theorem number_rows (split : String) (l : List (Behavior T × Option (List Char))) : ∀ seen,
    (number split seen l).map (fun c => (c.impressionId, c.userId, c.timestamp, c.item, c.clicked, c.split)) =
      l.map (rowOf split) := by
  induction l with
  | nil => intro seen; rfl
  | cons x l ih => intro seen; obtain ⟨b, c⟩ := x; simp [number, ih, rowOf]

theorem number_append (split : String) (l l' : List (Behavior T × Option (List Char))) : ∀ seen,
    number split seen (l ++ l') =
      number split seen l ++ number split (seen ++ l.map (fun x => x.1.impressionId)) l' := by
  induction l with
  | nil => intro seen; simp [number]
  | cons x l ih => intro seen; obtain ⟨b, c⟩ := x; simp [number, ih]

theorem number_position (split : String) (l : List (Behavior T × Option (List Char))) (before after : List (Candidate T))
    (c : Candidate T) (seen) (h : number split seen l = before ++ c :: after) :
    c.position = (seen ++ before.map (·.impressionId)).count c.impressionId := by
  induction l generalizing seen before with
  | nil => simp [number] at h
  | cons x l ih =>
    obtain ⟨b, d⟩ := x
    rw [number] at h
    cases before with
    | nil =>
      simp only [List.nil_append, List.cons.injEq] at h
      rw [← h.1]
      simp
    | cons y before =>
      simp only [List.cons_append, List.cons.injEq] at h
      have := ih before _ h.2
      rw [this, ← h.1]
      simp

/-! ## Lists of results -/

theorem mapRows_ok {α β : Type} (f : α → Except Err β) (g : α → β) (l : List α) (h : ∀ a ∈ l, f a = .ok (g a)) :
    mapRows f l = .ok (l.map g) := by
  induction l with
  | nil => rfl
  | cons a l ih =>
    rw [mapRows, h a (by simp), ih (fun x hx => h x (by simp [hx]))]
    rfl

theorem mapRows_forall2 {α β : Type} (f : α → Except Err β) (l : List α) (r : List β) :
    mapRows f l = .ok r ↔ List.Forall₂ (fun a b => f a = .ok b) l r := by
  induction l generalizing r with
  | nil =>
    cases r with
    | nil => simp [mapRows]
    | cons b r => simp [mapRows]
  | cons a l ih =>
    rw [mapRows]
    simp only [bind, Except.bind]
    cases h1 : f a with
    | error e =>
      cases r <;> simp [h1]
    | ok b =>
      cases h2 : mapRows f l with
      | error e =>
        cases r with
        | nil => simp
        | cons b' r =>
          simp only [List.forall₂_cons, h1, ← ih, h2]
          simp
      | ok bs =>
        cases r with
        | nil => simp
        | cons b' r =>
          simp only [List.forall₂_cons, h1, ← ih, h2]
          simp

theorem mapRows_error {α β : Type} (f : α → Except Err β) (l : List α) (e : Err) (h : mapRows f l = .error e) :
    ∃ before a after, l = before ++ a :: after ∧ f a = .error e ∧ ∀ x ∈ before, ∃ y, f x = .ok y := by
  induction l with
  | nil => simp [mapRows] at h
  | cons a l ih =>
    rw [mapRows] at h
    simp only [bind, Except.bind] at h
    cases h1 : f a with
    | error e' =>
      rw [h1] at h
      simp only at h
      cases h
      exact ⟨[], a, l, rfl, h1, by simp⟩
    | ok b =>
      rw [h1] at h
      simp only at h
      cases h2 : mapRows f l with
      | ok bs => rw [h2] at h; cases h
      | error e' =>
        rw [h2] at h
        simp only at h
        cases h
        obtain ⟨before, x, after, rfl, h3, h4⟩ := ih h2
        refine ⟨a :: before, x, after, rfl, h3, ?_⟩
        intro y hy
        rcases List.mem_cons.mp hy with rfl | hy
        · exact ⟨b, h1⟩
        · exact h4 y hy

/-! ## First rows -/

theorem keepFirst_mem (rows : List (List (Option (List Char)))) : ∀ seen r,
    r ∈ keepFirst seen rows ↔
      ∃ before after, rows = before ++ r :: after ∧ column r 0 ∉ seen ∧ ∀ y ∈ before, column y 0 ≠ column r 0 := by
  induction rows with
  | nil => intro seen r; simp [keepFirst]
  | cons x rows ih =>
    intro seen r
    rw [keepFirst]
    split
    · rename_i hx
      rw [ih]
      constructor
      · rintro ⟨b, a, rfl, h1, h2⟩
        refine ⟨x :: b, a, rfl, h1, ?_⟩
        intro y hy
        rcases List.mem_cons.mp hy with rfl | hy
        · intro e; rw [e] at hx; exact h1 hx
        · exact h2 y hy
      · rintro ⟨b, a, he, h1, h2⟩
        cases b with
        | nil =>
          simp only [List.nil_append, List.cons.injEq] at he
          rw [he.1] at hx
          exact absurd hx h1
        | cons y b =>
          simp only [List.cons_append, List.cons.injEq] at he
          exact ⟨b, a, he.2, h1, fun z hz => h2 z (by simp [hz])⟩
    · rename_i hx
      rw [List.mem_cons, ih]
      constructor
      · rintro (rfl | ⟨b, a, rfl, h1, h2⟩)
        · exact ⟨[], rows, rfl, hx, by simp⟩
        · simp only [List.mem_append, List.mem_singleton, not_or] at h1
          refine ⟨x :: b, a, rfl, h1.1, ?_⟩
          intro y hy
          rcases List.mem_cons.mp hy with rfl | hy
          · exact Ne.symm h1.2
          · exact h2 y hy
      · rintro ⟨b, a, he, h1, h2⟩
        cases b with
        | nil =>
          simp only [List.nil_append, List.cons.injEq] at he
          exact .inl he.1.symm
        | cons y b =>
          simp only [List.cons_append, List.cons.injEq] at he
          right
          refine ⟨b, a, he.2, ?_, fun z hz => h2 z (by simp [hz])⟩
          simp only [List.mem_append, List.mem_singleton, not_or]
          refine ⟨h1, ?_⟩
          rw [he.1]
          exact Ne.symm (h2 y (by simp))

theorem keepFirst_sublist (rows : List (List (Option (List Char)))) : ∀ seen,
    (keepFirst seen rows).Sublist rows := by
  induction rows with
  | nil => intro seen; exact .slnil
  | cons x rows ih =>
    intro seen
    rw [keepFirst]
    split
    · exact (ih _).cons x
    · exact (ih _).cons_cons x

theorem keepFirst_nodup (rows : List (List (Option (List Char)))) : ∀ seen,
    ((keepFirst seen rows).map (fun r => column r 0)).Nodup := by
  induction rows with
  | nil => intro seen; simp [keepFirst]
  | cons x rows ih =>
    intro seen
    rw [keepFirst]
    split
    · exact ih _
    · rw [List.map_cons, List.nodup_cons]
      refine ⟨?_, ih _⟩
      intro hm
      obtain ⟨r, hr, he⟩ := List.mem_map.mp hm
      obtain ⟨-, -, -, h1, -⟩ := (keepFirst_mem rows _ r).mp hr
      exact h1 (by rw [he]; simp)

end Irspack.Mind
