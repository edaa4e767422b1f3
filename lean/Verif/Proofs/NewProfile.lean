import Verif.Model.NewProfile
import Verif.Spec.NewProfile
import Verif.Proofs.Profile
import Verif.Proofs.Score
import Verif.Proofs.Zeros
import Verif.Proofs.ZerosIals

namespace Irspack.NewProfile

open Retrieval Spec.NewProfile

variable {I : Type} [DecidableEq I]

/-- the entries stored for a profile -/
noncomputable def entries (m : ItemIDMapper I) (p : Profile I) : SpVec ℝ :=
  match p with
  | .ids l => l.filterMap (fun x => (m.index? x).map (fun i => (i, (1 : ℝ))))
  | .weights l => l.filterMap (fun q => (m.index? q.1).map (fun i => (i, q.2)))

theorem entries_zip (m : ItemIDMapper I) (p : Profile I) :
    (m.profileDataCol p).2.zip (m.profileDataCol p).1 = entries m p := by
  obtain ⟨L, hL, rfl⟩ := dataCol_pairs m p
  rw [hL]
  simp only
  rw [List.zip_map', ]
  cases p with
  | ids l =>
    simp only [entries, List.map_filterMap, Option.map_map]
    rfl
  | weights l =>
    simp only [entries, List.map_filterMap, Option.map_map]
    rfl

theorem zip_flatMap {A B C : Type} (f : A → List B) (g : A → List C) (h : ∀ a, (f a).length = (g a).length) (l : List A) :
    (l.flatMap f).zip (l.flatMap g) = l.flatMap (fun a => (f a).zip (g a)) := by
  induction l with
  | nil => rfl
  | cons a l ih =>
    rw [List.flatMap_cons, List.flatMap_cons, List.flatMap_cons, List.zip_append (h a), ih]

theorem slice_flatMap {A B : Type} (f : A → List B) (l : List A) (u : Nat) (hu : u < l.length) :
    ((l.flatMap f).take ((l.take (u + 1)).flatMap f).length).drop ((l.take u).flatMap f).length = f l[u] := by
  have h1 : l.flatMap f = (l.take (u + 1)).flatMap f ++ (l.drop (u + 1)).flatMap f := by
    rw [← List.flatMap_append, List.take_append_drop]
  rw [h1, List.take_left', List.take_succ_eq_append_getElem hu, List.flatMap_append, List.drop_left']
  · simp
  · rfl
  · rfl

theorem newUsers_eq (m : ItemIDMapper I) (ps : List (Profile I)) :
    newUsers m ps = ⟨m.itemIds.length, ps.map (entries m)⟩ := by
  unfold newUsers toCSR
  have h1 : (m.profilesToMatrix ps).nCols = m.itemIds.length := rfl
  have h2 : (m.profilesToMatrix ps).nRows = ps.length := rfl
  have hz : (m.profilesToMatrix ps).indices.zip (m.profilesToMatrix ps).data = ps.flatMap (entries m) := by
    unfold ItemIDMapper.profilesToMatrix
    rw [matrixLoop_eq]
    simp only [List.nil_append]
    rw [zip_flatMap _ _ (fun p => (dataCol_length m p).symm)]
    congr 1
    funext p
    exact entries_zip m p
  rw [h1, h2, hz]
  congr 1
  apply List.ext_getElem
  · simp
  · intro u hu hu'
    have hu2 : u < ps.length := by simpa using hu
    have ho : ∀ v, v ≤ ps.length → (m.profilesToMatrix ps).indptr.getD v 0 = ((ps.take v).flatMap (entries m)).length := by
      intro v hv
      rw [indptr_get m ps v hv]
      unfold offset
      rw [List.length_flatMap, List.length_flatMap]
      congr 1
      apply List.map_congr_left
      intro p _
      rw [← entries_zip m p, List.length_zip, dataCol_length, min_self]
    rw [List.getElem_map, List.getElem_map, List.getElem_range, ho u (by omega), ho (u + 1) (by omega)]
    exact slice_flatMap (entries m) ps u hu2

theorem newUser_eq (m : ItemIDMapper I) (p : Profile I) : newUser m p = newUsers m [p] := by
  rw [newUsers_eq]
  unfold newUser toCSR
  simp only [List.range_one, List.map_cons, List.map_nil, zero_add]
  congr 2
  rw [entries_zip]
  have : (m.profileDataCol p).2.length = (entries m p).length := by
    rw [← entries_zip m p, List.length_zip, dataCol_length, min_self]
  simp [this]

theorem index?_lt (m : ItemIDMapper I) (x : I) (i : Nat) (h : m.index? x = some i) : i < m.itemIds.length := by
  unfold ItemIDMapper.index? at h
  split at h
  · rename_i hx
    injection h with h
    rw [← h]
    exact List.idxOf_lt_length_of_mem hx
  · cases h

theorem entries_lt (m : ItemIDMapper I) (p : Profile I) : ∀ e ∈ entries m p, e.1 < m.itemIds.length := by
  intro e he
  cases p with
  | ids l =>
    obtain ⟨x, -, hx⟩ := List.mem_filterMap.mp he
    cases hi : m.index? x with
    | none => rw [hi] at hx; cases hx
    | some i => rw [hi] at hx; cases hx; exact index?_lt m x i hi
  | weights l =>
    obtain ⟨x, -, hx⟩ := List.mem_filterMap.mp he
    cases hi : m.index? x.1 with
    | none => rw [hi] at hx; cases hx
    | some i => rw [hi] at hx; cases hx; exact index?_lt m x.1 i hi

theorem entries_get (ids : List I) (m : ItemIDMapper I) (hm : ItemIDMapper.make ids = .ok m) (p : Profile I) (k : Nat)
    (hk : k < ids.length) : (entries m p).get k = amount p ids[k] := by
  obtain ⟨hn, rfl⟩ := make_ok hm
  have hidx : ∀ x, m.index? x = some k ↔ x = m.itemIds[k] := by
    intro x
    rw [index?_eq_some m hn, List.getElem?_eq_getElem hk]
    constructor
    · intro h; injection h with h; exact h.symm
    · rintro rfl; rfl
  cases p with
  | ids l =>
    simp only [entries, amount]
    induction l with
    | nil => simp [SpVec.get]
    | cons a l ih =>
      rw [List.filterMap_cons, List.count_cons]
      cases h : m.index? a with
      | none =>
        have : ¬ a = m.itemIds[k] := fun e => by rw [(hidx a).mpr e] at h; cases h
        simp only [Option.map_none]
        rw [ih]
        simp [this]
      | some i =>
        simp only [Option.map_some, Score.spGet_cons, ih]
        by_cases hi : i = k
        · subst hi
          have := (hidx a).mp h
          simp [this, add_comm]
        · have : ¬ a = m.itemIds[k] := fun e => by
            rw [(hidx a).mpr e] at h; injection h with h; exact hi h.symm
          simp [this, hi]
  | weights l =>
    simp only [entries, amount]
    induction l with
    | nil => simp [SpVec.get]
    | cons a l ih =>
      rw [List.filterMap_cons, List.filter_cons]
      cases h : m.index? a.1 with
      | none =>
        have : ¬ a.1 = m.itemIds[k] := fun e => by rw [(hidx a.1).mpr e] at h; cases h
        simp only [Option.map_none]
        rw [ih]
        simp [this]
      | some i =>
        simp only [Option.map_some, Score.spGet_cons, ih]
        by_cases hi : i = k
        · subst hi
          have := (hidx a.1).mp h
          simp [this]
        · have : ¬ a.1 = m.itemIds[k] := fun e => by
            rw [(hidx a.1).mpr e] at h; injection h with h; exact hi h.symm
          simp [this, hi]

theorem entries_perm (m : ItemIDMapper I) {p q : Profile I} (h : Reordered p q) : (entries m p).Perm (entries m q) := by
  cases p <;> cases q
  · exact List.Perm.filterMap _ h
  · exact h.elim
  · exact h.elim
  · exact List.Perm.filterMap _ h

theorem entries_nonneg (m : ItemIDMapper I) {p : Profile I} (h : NonNegative p) : ∀ e ∈ entries m p, 0 ≤ e.2 := by
  intro e he
  cases p with
  | ids l =>
    obtain ⟨x, -, hx⟩ := List.mem_filterMap.mp he
    cases hi : m.index? x with
    | none => rw [hi] at hx; cases hx
    | some i => rw [hi] at hx; cases hx; exact zero_le_one
  | weights l =>
    obtain ⟨x, hx', hx⟩ := List.mem_filterMap.mp he
    cases hi : m.index? x.1 with
    | none => rw [hi] at hx; cases hx
    | some i => rw [hi] at hx; cases hx; exact h _ hx'

theorem entries_pos (m : ItemIDMapper I) {p : Profile I} (h : Positive p) : ∀ e ∈ entries m p, 0 < e.2 := by
  intro e he
  cases p with
  | ids l =>
    obtain ⟨x, -, hx⟩ := List.mem_filterMap.mp he
    cases hi : m.index? x with
    | none => rw [hi] at hx; cases hx
    | some i => rw [hi] at hx; cases hx; exact zero_lt_one
  | weights l =>
    obtain ⟨x, hx', hx⟩ := List.mem_filterMap.mp he
    cases hi : m.index? x.1 with
    | none => rw [hi] at hx; cases hx
    | some i => rw [hi] at hx; cases hx; exact h _ hx'

/-- rows with the same values -/
theorem entries_same (ids : List I) (m : ItemIDMapper I) (hm : ItemIDMapper.make ids = .ok m) {p q : Profile I}
    (h : SameAmounts ids p q) (k : Nat) : (entries m p).get k = (entries m q).get k := by
  rcases Nat.lt_or_ge k ids.length with hk | hk
  · rw [entries_get ids m hm p k hk, entries_get ids m hm q k hk]
    exact h _ (List.getElem_mem hk)
  · have : ∀ p, (entries m p).get k = 0 := by
      intro p
      have hl := (make_ok hm).2
      have hlt := entries_lt m p
      rw [hl] at hlt
      generalize entries m p = v at hlt
      induction v with
      | nil => simp [SpVec.get]
      | cons e v ih =>
        rw [Score.spGet_cons, ih (fun e' he' => hlt e' (by simp [he'])), if_neg, add_zero]
        have := hlt e (by simp)
        omega
    rw [this, this]

end Irspack.NewProfile
