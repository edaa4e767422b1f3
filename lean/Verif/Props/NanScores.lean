import Verif.Model.NanScores
import Verif.Spec.NanScores
import Verif.Props.Evaluator

/-!
# C103: scores that are NaN
-/

namespace Irspack.Nan

open Spec.Nan

variable {S : Type} [LinearOrder S] [OrderBot S]

section Lemmas

open Evaluation

/-- two arrangements of the same elements whose first `k` are sorted and precede the others agree on these -/
theorem take_unique (k : Nat) (a b : List (S × Nat)) (hp : a.Perm b)
    (ha : (a.take k).Pairwise (fun x y => pairLE x y = true)) (ha' : ∀ x ∈ a.take k, ∀ y ∈ a.drop k, pairLE x y = true)
    (hb : (b.take k).Pairwise (fun x y => pairLE x y = true)) (hb' : ∀ x ∈ b.take k, ∀ y ∈ b.drop k, pairLE x y = true) :
    a.take k = b.take k := by
  have key : ∀ c : List (S × Nat), (c.take k).Pairwise (fun x y => pairLE x y = true) →
      (∀ x ∈ c.take k, ∀ y ∈ c.drop k, pairLE x y = true) →
      (c.take k ++ (c.drop k).mergeSort pairLE).Pairwise (fun x y => pairLE x y = true) ∧
      (c.take k ++ (c.drop k).mergeSort pairLE).Perm c := by
    intro c h1 h2
    refine ⟨List.pairwise_append.mpr ⟨h1, List.pairwise_mergeSort pairLE_trans pairLE_total _, ?_⟩, ?_⟩
    · intro x hx y hy
      exact h2 x hx y (List.mem_mergeSort.mp hy)
    · calc (c.take k ++ (c.drop k).mergeSort pairLE).Perm (c.take k ++ c.drop k) :=
            List.Perm.append_left _ (List.mergeSort_perm _ _)
        _ = c := List.take_append_drop k c
  obtain ⟨a1, a2⟩ := key a ha ha'
  obtain ⟨b1, b2⟩ := key b hb hb'
  have e := (a2.trans (hp.trans b2.symm)).eq_of_pairwise (le := fun x y => pairLE x y = true) (by
    rintro ⟨x, i⟩ ⟨y, j⟩ - - h1 h2
    rw [pairLE_iff] at h1 h2
    simp only at h1 h2
    rcases h1 with h1 | ⟨h1, h1'⟩ <;> rcases h2 with h2 | ⟨h2, h2'⟩
    · exact absurd h1 (lt_asymm h2)
    · exact absurd h1 (by rw [h2]; exact lt_irrefl _)
    · exact absurd h2 (by rw [h1]; exact lt_irrefl _)
    · exact Prod.ext h1 (le_antisymm h1' h2')) a1 b1
  have hlen : (a.take k).length = (b.take k).length := by simp [hp.length_eq]
  exact (List.append_inj e hlen).1

/-- If the pairs, read as `e` says, are those of a row of numbers, and are compared as those, the evaluated list is
that of the row of numbers. -/
theorem evaluated_eq (sort : Nat → List (Option S × Nat) → List (Option S × Nat)) (nItems : Nat)
    (rec : Option (List Nat)) (cutoff : Nat) (row : Nat → Option S) (row' : ScoreRow S) (e : Option S × Nat → S × Nat)
    (he : ∀ a, (e a).2 = a.2) (hc : (candidates nItems rec row).map e = Evaluation.candidates nItems rec row')
    (hlt : ∀ a ∈ candidates nItems rec row, ∀ b ∈ candidates nItems rec row, pairLess b a = false →
      pairLE (e a) (e b) = true)
    (hw : StrictWeak pairLess (candidates nItems rec row))
    (hs : ∀ k l, PartialSorted pairLess k l (sort k l)) :
    evaluated sort nItems rec cutoff row = topCutoff nItems rec cutoff row' := by
  unfold evaluated topCutoff
  simp only
  have hlen : (candidates nItems rec row).length = (Evaluation.candidates nItems rec row').length := by
    rw [← hc, List.length_map]
  rw [← hlen]
  set k := min cutoff (candidates nItems rec row).length with hk
  obtain ⟨h1, h2, h3⟩ := hs k _ hw
  have hm : ∀ a ∈ sort k (candidates nItems rec row), a ∈ candidates nItems rec row := fun a h => h1.mem_iff.mp h
  have hE : ((sort k (candidates nItems rec row)).map e).take k =
      ((Evaluation.candidates nItems rec row').mergeSort pairLE).take k := by
    refine take_unique k _ _ ?_ ?_ ?_ ?_ ?_
    · exact ((h1.map e).trans (by rw [hc])).trans (List.mergeSort_perm _ _).symm
    · rw [← List.map_take, List.pairwise_map]
      refine h2.imp_of_mem ?_
      intro a b ha hb hab
      exact hlt a (hm a (List.mem_of_mem_take ha)) b (hm b (List.mem_of_mem_take hb)) hab
    · rw [← List.map_take, ← List.map_drop]
      intro x hx y hy
      obtain ⟨a, ha, rfl⟩ := List.mem_map.mp hx
      obtain ⟨b, hb, rfl⟩ := List.mem_map.mp hy
      exact hlt a (hm a (List.mem_of_mem_take ha)) b (hm b (List.mem_of_mem_drop hb)) (h3 a ha b hb)
    · exact (List.pairwise_mergeSort pairLE_trans pairLE_total _).sublist (List.take_sublist _ _)
    · have := List.pairwise_mergeSort (le := pairLE) pairLE_trans pairLE_total (Evaluation.candidates nItems rec row')
      rw [← List.take_append_drop k (List.mergeSort _ _), List.pairwise_append] at this
      exact this.2.2
  rw [← hE, ← List.map_take, List.map_map]
  exact List.map_congr_left (fun a _ => (he a).symm)

theorem candidates_unique (nItems : Nat) (rec : Option (List Nat)) (row : Nat → Option S) :
    ∀ a ∈ candidates nItems rec row, ∀ b ∈ candidates nItems rec row, a.2 = b.2 → a = b := by
  have : ∀ a ∈ candidates nItems rec row, a.1 = row a.2 := by
    intro a ha
    obtain ⟨i, -, rfl⟩ := List.mem_map.mp (List.mem_of_mem_filter ha)
    rfl
  intro a ha b hb h
  exact Prod.ext (by rw [this a ha, this b hb, h]) h

end Lemmas

/-- C103 (evaluation, C++17): the sort of a user's candidates is defined exactly when no item with a NaN score
stands, in the numbering of the items, between an item and a later one with a larger score. -/
theorem C103_defined_iff (l : List (Option S × Nat)) (hl : ∀ a ∈ l, ∀ b ∈ l, a.2 = b.2 → a = b) :
    StrictWeak pairLess l ↔
      ∀ i n j x y, (some x, i) ∈ l → (none, n) ∈ l → (some y, j) ∈ l → i < n → n < j → y ≤ x := by
  constructor
  · intro h i n j x y hi hn hj h1 h2
    by_contra hc
    rw [not_le] at hc
    have := h.trans _ hj _ hi _ hn (by simp [pairLess, below, hc]) (by simp [pairLess, below, h1])
    simp [pairLess, below] at this
    omega
  · intro h
    refine ⟨?_, ?_, ?_⟩
    · rintro ⟨_ | x, i⟩ - <;> simp [pairLess, below]
    · rintro ⟨a, i⟩ ha ⟨b, j⟩ hb ⟨c, k⟩ hc h1 h2
      rcases a with _ | x <;> rcases b with _ | y <;> rcases c with _ | z <;>
        simp [pairLess, below] at h1 h2 ⊢
      · omega
      · omega
      · omega
      · rcases h2 with h2 | h2
        · by_contra hk
          have hjk : k ≠ i := fun e => by have := hl _ ha _ hc e.symm; cases this
          have := h k i j z y hc ha hb (by omega) (by omega)
          exact absurd h2 (not_lt.mpr this)
        · omega
      · omega
      · have hzx := h i j k x z ha hb hc h1 h2
        exact .inr ⟨hzx, by omega⟩
      · by_contra hk
        have hne : i ≠ k := fun e => by have := hl _ ha _ hc e; cases this
        rcases h1 with h1 | h1
        · have := h j k i y x hb hc ha h2 (by omega)
          exact absurd h1 (not_lt.mpr this)
        · omega
      · rcases h1 with h1 | ⟨h1, h1'⟩ <;> rcases h2 with h2 | ⟨h2, h2'⟩
        · exact .inl (h2.trans h1)
        · exact .inl (h2.trans_lt h1)
        · exact .inl (h2.trans_le h1)
        · exact .inr ⟨h2.trans h1, by omega⟩
    · have key : ∀ a ∈ l, ∀ b ∈ l, pairLess a b = false → pairLess b a = false → a = b := by
        rintro ⟨a, i⟩ ha ⟨b, j⟩ hb h1 h2
        refine hl _ ha _ hb ?_
        rcases a with _ | x <;> rcases b with _ | y <;> simp [pairLess, below] at h1 h2 ⊢
        · omega
        · omega
        · omega
        · have h3 := h1.2 h2.1
          have h4 := h2.2 h1.1
          omega
      intro a ha b hb c hc h1 h2 h3 h4
      have e1 := key a ha b hb h1 h2
      have e2 := key b hb c hc h3 h4
      subst e1 e2
      exact ⟨h1, h1⟩

/-- The same in C++20: it is defined exactly when no score is NaN or at most one is a number. -/
theorem C103_defined_iff_cpp20 (l : List (Option S × Nat)) (hl : ∀ a ∈ l, ∀ b ∈ l, a.2 = b.2 → a = b) :
    StrictWeak pairLess20 l ↔
      (∀ a ∈ l, a.1 ≠ none) ∨ ∀ i j x y, (some x, i) ∈ l → (some y, j) ∈ l → i = j := by
  constructor
  · intro h
    by_cases hn : ∀ a ∈ l, a.1 ≠ none
    · exact .inl hn
    · right
      push Not at hn
      obtain ⟨⟨_, n⟩, hn, rfl⟩ := hn
      intro i j x y hi hj
      have := h.incomp _ hi _ hn _ hj (by simp [pairLess20, below]) (by simp [pairLess20, below])
        (by simp [pairLess20, below]) (by simp [pairLess20, below])
      simp [pairLess20, below] at this
      obtain ⟨⟨h1, h2⟩, h3, h4⟩ := this
      have e : x = y := le_antisymm h1 h3
      have := h2 e
      have := h4 e.symm
      omega
  · intro h
    refine ⟨?_, ?_, ?_⟩
    · rintro ⟨_ | x, i⟩ - <;> simp [pairLess20, below]
    · rintro ⟨a, i⟩ ha ⟨b, j⟩ hb ⟨c, k⟩ hc h1 h2
      rcases a with _ | x <;> rcases b with _ | y <;> rcases c with _ | z <;>
        simp [pairLess20, below] at h1 h2 ⊢
      rcases h1 with h1 | ⟨h1, h1'⟩ <;> rcases h2 with h2 | ⟨h2, h2'⟩
      · exact .inl (h2.trans h1)
      · exact .inl (h2 ▸ h1)
      · exact .inl (h1 ▸ h2)
      · exact .inr ⟨h1.trans h2, by omega⟩
    · rintro ⟨a, i⟩ ha ⟨b, j⟩ hb ⟨c, k⟩ hc h1 h2 h3 h4
      rcases h with h | h
      · have key : ∀ a ∈ l, ∀ b ∈ l, pairLess20 a b = false → pairLess20 b a = false → a = b := by
          rintro ⟨a, i⟩ ha ⟨b, j⟩ hb h1 h2
          refine hl _ ha _ hb ?_
          rcases a with _ | x
          · exact absurd rfl (h _ ha)
          · rcases b with _ | y
            · exact absurd rfl (h _ hb)
            · simp [pairLess20, below] at h1 h2 ⊢
              have e : x = y := le_antisymm h1.1 h2.1
              have h3 := h1.2 e
              have h4 := h2.2 e.symm
              omega
        have e1 := key _ ha _ hb h1 h2
        have e2 := key _ hb _ hc h3 h4
        rw [← e2, ← e1]
        rw [← e1] at h1
        exact ⟨h1, h1⟩
      · rcases a with _ | x <;> rcases c with _ | z
        · simp [pairLess20, below]
        · simp [pairLess20, below]
        · simp [pairLess20, below]
        · have e := hl _ ha _ hc (h i k x z ha hc)
          rw [← e]
          constructor <;> simp [pairLess20, below]

/-- C103 (retrieval): the sort is defined exactly when no candidate's score is NaN or all that are numbers are
equal. -/
theorem C103_retrieval_defined_iff (l : List (Nat × Option S)) :
    StrictWeak retrieveLess l ↔
      (∀ a ∈ l, a.2 ≠ none) ∨ ∀ i j x y, (i, some x) ∈ l → (j, some y) ∈ l → x = y := by
  constructor
  · intro h
    by_cases hn : ∀ a ∈ l, a.2 ≠ none
    · exact .inl hn
    · right
      push Not at hn
      obtain ⟨⟨n, _⟩, hn, rfl⟩ := hn
      intro i j x y hi hj
      have := h.incomp _ hi _ hn _ hj (by simp [retrieveLess, below]) (by simp [retrieveLess, below])
        (by simp [retrieveLess, below]) (by simp [retrieveLess, below])
      simp [retrieveLess, below] at this
      exact le_antisymm this.1 this.2
  · intro h
    refine ⟨?_, ?_, ?_⟩
    · rintro ⟨i, _ | x⟩ - <;> simp [retrieveLess, below]
    · rintro ⟨i, a⟩ ha ⟨j, b⟩ hb ⟨k, c⟩ hc h1 h2
      rcases a with _ | x <;> rcases b with _ | y <;> rcases c with _ | z <;>
        simp [retrieveLess, below] at h1 h2 ⊢
      exact h2.trans h1
    · rintro ⟨i, a⟩ ha ⟨j, b⟩ hb ⟨k, c⟩ hc h1 h2 h3 h4
      rcases a with _ | x <;> rcases c with _ | z
      · simp [retrieveLess, below]
      · simp [retrieveLess, below]
      · simp [retrieveLess, below]
      · rcases h with h | h
        · rcases b with _ | y
          · exact absurd rfl (h _ hb)
          · simp [retrieveLess, below] at h1 h2 h3 h4 ⊢
            exact ⟨h1.trans h3, h4.trans h2⟩
        · have := h i k x z ha hc
          subst this
          simp [retrieveLess, below]

/-- A model that scores three items 1, NaN and 2: the evaluation of its users is undefined behaviour, in either
version of the language, and so is retrieval. -/
theorem C103_undefined_counterexample :
    ¬ StrictWeak pairLess (candidates 3 none (fun i => [some 1, none, some (2 : Nat)].getD i none)) ∧
    ¬ StrictWeak pairLess20 (candidates 3 none (fun i => [some 1, none, some (2 : Nat)].getD i none)) ∧
    ¬ StrictWeak retrieveLess [(0, some 1), (1, none), (2, some (2 : Nat))] := by
  refine ⟨fun h => ?_, fun h => ?_, fun h => ?_⟩
  · exact absurd (h.trans (some 2, 2) (by decide) (some 1, 0) (by decide) (none, 1) (by decide) (by decide) (by decide))
      (by decide)
  · exact absurd (h.incomp (some 2, 2) (by decide) (none, 1) (by decide) (some 1, 0) (by decide) (by decide)
      (by decide) (by decide) (by decide)).1 (by decide)
  · exact absurd (h.incomp (2, some 2) (by decide) (1, none) (by decide) (0, some 1) (by decide) (by decide)
      (by decide) (by decide) (by decide)).1 (by decide)

/-- C103: if no score is NaN, the evaluated list is the one of the other claims (`C04`). -/
theorem C103_numbers (sort : Nat → List (Option S × Nat) → List (Option S × Nat))
    (hs : ∀ k l, PartialSorted pairLess k l (sort k l)) (nItems : Nat) (rec : Option (List Nat)) (cutoff : Nat)
    (row : Evaluation.ScoreRow S) :
    evaluated sort nItems rec cutoff (fun i => some (row i)) = Evaluation.topCutoff nItems rec cutoff row := by
  have hn : ∀ a ∈ candidates nItems rec (fun i => some (row i)), ∃ x, a.1 = some x := by
    intro a ha
    obtain ⟨i, -, rfl⟩ := List.mem_map.mp (List.mem_of_mem_filter ha)
    exact ⟨_, rfl⟩
  refine evaluated_eq sort nItems rec cutoff _ row (fun a => (a.1.getD ⊥, a.2)) (fun _ => rfl) ?_ ?_ ?_ hs
  · unfold candidates Evaluation.candidates
    rw [List.filter_map, List.map_map, List.filter_map]
    congr 1
    apply List.filter_congr
    intro i _
    simp
  · rintro ⟨a, i⟩ ha ⟨b, j⟩ hb h
    obtain ⟨x, hx⟩ := hn _ ha
    obtain ⟨y, hy⟩ := hn _ hb
    simp only at hx hy
    subst hx hy
    rw [Evaluation.pairLE_iff]
    simp [pairLess, below] at h ⊢
    rcases h.1.lt_or_eq with h' | h'
    · exact .inl h'
    · exact .inr ⟨h'.symm, h.2 h'.symm.le⟩
  · rw [C103_defined_iff _ (candidates_unique _ _ _)]
    intro i n j x y _ h2
    obtain ⟨z, hz⟩ := hn _ h2
    cases hz

/-- C103: a model all of whose scores are NaN (for instance after its training diverged), but for the items masked with
`-inf`, is evaluated without an exception, exactly like a model that scores the items that are not masked the same:
those with the smallest numbers are taken. -/
theorem C103_all_nan (sort : Nat → List (Option S × Nat) → List (Option S × Nat))
    (hs : ∀ k l, PartialSorted pairLess k l (sort k l)) (nItems : Nat) (rec : Option (List Nat)) (cutoff : Nat)
    (masked : Nat → Bool) (s : S) (h : s ≠ ⊥) :
    evaluated sort nItems rec cutoff (fun i => if masked i then some ⊥ else none) =
      Evaluation.topCutoff nItems rec cutoff (fun i => if masked i then ⊥ else s) := by
  have hn : ∀ a ∈ candidates (S := S) nItems rec (fun i => if masked i then some ⊥ else none),
      a.1 = none ∧ masked a.2 = false := by
    intro a ha
    have hf := List.of_mem_filter ha
    obtain ⟨i, -, rfl⟩ := List.mem_map.mp (List.mem_of_mem_filter ha)
    cases hi : masked i with
    | true => simp [hi] at hf
    | false => simp [hi]
  refine evaluated_eq sort nItems rec cutoff _ _ (fun a => (if masked a.2 then ⊥ else s, a.2)) (fun _ => rfl) ?_ ?_ ?_ hs
  · unfold candidates Evaluation.candidates
    rw [List.filter_map, List.map_map, List.filter_map]
    congr 1
    apply List.filter_congr
    intro i _
    cases hi : masked i <;> simp [hi, h]
  · rintro ⟨a, i⟩ ha ⟨b, j⟩ hb h
    obtain ⟨hx, hx'⟩ := hn _ ha
    obtain ⟨hy, hy'⟩ := hn _ hb
    simp only at hx hy hx' hy'
    subst hx hy
    rw [Evaluation.pairLE_iff]
    simp [pairLess, below] at h
    simp [hx', hy', h]
  · rw [C103_defined_iff _ (candidates_unique _ _ _)]
    intro i n j x y h1
    cases (hn _ h1).1

theorem emit_all (cutoff : Nat) (l : List (Nat × Option S)) (h : ∀ p ∈ l, p.2 = none) (n : Nat) :
    emit cutoff n l = l.take (cutoff - n) := by
  induction l generalizing n with
  | nil => simp [emit]
  | cons p rest ih =>
    unfold emit
    rw [h p (by simp)]
    by_cases hn : n ≥ cutoff
    · rw [if_pos hn, show cutoff - n = 0 by omega]; rfl
    · rw [if_neg hn, if_neg (by simp), ih (fun q hq => h q (by simp [hq])),
        show cutoff - n = (cutoff - (n + 1)) + 1 by omega]
      rfl

/-- C103 (retrieval): if all scores are NaN, the result is `cutoff` (or all) of the allowed items, each with the score
NaN: nothing tells the caller but the scores. -/
theorem C103_retrieval_all_nan (sort : Nat → List (Nat × Option S) → List (Nat × Option S))
    (hs : ∀ k l, PartialSorted retrieveLess k l (sort k l)) (cutoff : Nat) (l : List (Nat × Option S))
    (h : ∀ p ∈ l, p.2 = none) :
    (retrieved sort cutoff l).length = min cutoff l.length ∧
    (∀ p ∈ retrieved sort cutoff l, p ∈ l ∧ p.2 = none) := by
  have hw : StrictWeak retrieveLess l := (C103_retrieval_defined_iff l).mpr (.inr fun i j x y hi _ => by cases h _ hi)
  obtain ⟨hp, -, -⟩ := hs (min cutoff l.length) l hw
  unfold retrieved
  rw [emit_all _ _ (fun p hp' => h p (hp.mem_iff.mp hp'))]
  refine ⟨by simp [hp.length_eq], fun p hp' => ?_⟩
  have := hp.mem_iff.mp (List.mem_of_mem_take hp')
  exact ⟨this, h p this⟩

/-- C103 (retrieval): next to NaN the masked items (score `-inf`) are in unspecified order, and `-inf` ends the list:
two sorts that both keep to the standard give the item with the score NaN and nothing. -/
theorem C103_retrieval_masked_counterexample :
    ∃ sort₁ sort₂ : Nat → List (Nat × Option Nat) → List (Nat × Option Nat),
      PartialSorted retrieveLess 1 [(0, none), (1, some 0)] (sort₁ 1 [(0, none), (1, some 0)]) ∧
      PartialSorted retrieveLess 1 [(0, none), (1, some 0)] (sort₂ 1 [(0, none), (1, some 0)]) ∧
      retrieved sort₁ 1 [(0, none), (1, some 0)] = [(0, none)] ∧
      retrieved sort₂ 1 [(0, none), (1, some 0)] = [] := by
  refine ⟨fun _ l => l, fun _ l => l.reverse, fun _ => ?_, fun _ => ?_, by decide, by decide⟩
  · refine ⟨List.Perm.refl _, by decide, by decide⟩
  · refine ⟨List.reverse_perm _, by decide, by decide⟩

/-- A sort that keeps to the standard exists, for every comparison: the hypotheses `hs` above can be met. -/
theorem partialSort_exists {A : Type} (lt : A → A → Bool) :
    ∃ sort : Nat → List A → List A, ∀ k l, PartialSorted lt k l (sort k l) := by
  have : ∀ (_ : Nat) (l : List A), ∃ l' : List A, ∀ k, PartialSorted lt k l l' := by
    intro _ l
    let le : {a // a ∈ l} → {a // a ∈ l} → Bool := fun a b => !(lt b.1 a.1)
    refine ⟨(l.attach.mergeSort le).map Subtype.val, fun k hw => ?_⟩
    have htrans : ∀ a b c, le a b = true → le b c = true → le a c = true := by
      rintro ⟨a, ha⟩ ⟨b, hb⟩ ⟨c, hc⟩ h1 h2
      simp only [le, Bool.not_eq_true'] at h1 h2 ⊢
      by_contra h3
      rw [Bool.not_eq_false] at h3
      cases h4 : lt a b with
      | true => rw [hw.trans c hc a ha b hb h3 h4] at h2; cases h2
      | false =>
        cases h5 : lt b c with
        | true => rw [hw.trans b hb c hc a ha h5 h3] at h1; cases h1
        | false => rw [(hw.incomp a ha b hb c hc h4 h1 h5 h2).2] at h3; cases h3
    have htot : ∀ a b, (le a b || le b a) = true := by
      rintro ⟨a, ha⟩ ⟨b, hb⟩
      simp only [le, Bool.or_eq_true, Bool.not_eq_true']
      by_contra h
      rw [not_or, Bool.not_eq_false, Bool.not_eq_false] at h
      have := hw.trans a ha b hb a ha h.2 h.1
      rw [hw.irrefl a ha] at this
      cases this
    have hs := List.pairwise_mergeSort htrans htot l.attach
    have hs' : ((l.attach.mergeSort le).map Subtype.val).Pairwise (fun a b => lt b a = false) := by
      rw [List.pairwise_map]
      exact hs.imp (fun {a b} h => by simpa [le] using h)
    refine ⟨?_, hs'.sublist (List.take_sublist _ _), ?_⟩
    · exact ((List.mergeSort_perm _ _).map _).trans (by rw [List.attach_map_subtype_val])
    · rw [← List.take_append_drop k (List.map _ _), List.pairwise_append] at hs'
      exact hs'.2.2
  exact ⟨fun k l => (this k l).choose, fun k l => (this k l).choose_spec k⟩

/-- three candidates for which the sort is defined although one is NaN, and three for which it is not -/
example : StrictWeak pairLess [(some 5, 0), (none, 1), (some 3, 2)] ∧
    ¬ StrictWeak pairLess [((some 3 : Option Nat), 0), (none, 1), (some 5, 2)] := by
  refine ⟨⟨by decide, by decide, by decide⟩, fun h => ?_⟩
  have := h.trans (some 5, 2) (by decide) (some 3, 0) (by decide) (none, 1) (by decide) (by decide) (by decide)
  revert this
  decide

/-- a model with NaN for three items and a fourth, masked one and a cutoff of two is evaluated as if it had recommended
the items 1 and 2 -/
example : ∃ sort : Nat → List (Option Nat × Nat) → List (Option Nat × Nat),
    (∀ k l, PartialSorted pairLess k l (sort k l)) ∧
    evaluated sort 4 none 2 (fun i => if i == 0 then some ⊥ else none) = [1, 2] ∧
    evaluated sort 3 none 2 (fun i => some (9 - i)) = [0, 1] := by
  obtain ⟨sort, hs⟩ := partialSort_exists (pairLess (S := Nat))
  refine ⟨sort, hs, ?_, ?_⟩
  · rw [C103_all_nan sort hs 4 none 2 (fun i => i == 0) 1 (by decide)]
    have hc : Evaluation.candidates 4 none (fun i => if i == 0 then ⊥ else (1 : Nat)) = [(1, 1), (1, 2), (1, 3)] := by
      decide
    unfold Evaluation.topCutoff
    rw [hc, List.mergeSort_of_pairwise (by decide)]
    rfl
  · rw [C103_numbers sort hs 3 none 2 (fun i => 9 - i)]
    have hc : Evaluation.candidates 3 none (fun i => 9 - i) = [(9, 0), (8, 1), (7, 2)] := by decide
    unfold Evaluation.topCutoff
    rw [hc, List.mergeSort_of_pairwise (by decide)]
    rfl

example : ∃ sort : Nat → List (Nat × Option Nat) → List (Nat × Option Nat),
    (∀ k l, PartialSorted retrieveLess k l (sort k l)) ∧
    (retrieved sort 1 [(0, none), (1, none)]).length = 1 := by
  obtain ⟨sort, hs⟩ := partialSort_exists (retrieveLess (S := Nat))
  exact ⟨sort, hs, (C103_retrieval_all_nan sort hs 1 _ (by decide)).1⟩

end Irspack.Nan
