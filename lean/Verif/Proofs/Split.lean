import Verif.Spec.Split
import Mathlib.Algebra.BigOperators.Group.List.Lemmas
import Mathlib.Algebra.BigOperators.Group.List.Basic
import Mathlib.Algebra.Order.Floor.Semiring
import Mathlib.Tactic.Linarith
import Mathlib.Tactic.NormNum
import Mathlib.Tactic.Positivity

namespace Irspack.Split
open Irspack Spec

section rows
variable {V : Type} [AddCommMonoid V]

theorem rowEntry_perm {a b : List (Nat × V)} (h : a.Perm b) (i : Nat) : rowEntry a i = rowEntry b i := by
  unfold rowEntry
  exact ((h.filter _).map _).sum_eq

theorem rowEntry_append (a b : List (Nat × V)) (i : Nat) :
    rowEntry (a ++ b) i = rowEntry a i + rowEntry b i := by
  unfold rowEntry
  rw [List.filter_append, List.map_append, List.sum_append]

theorem rowEntry_cons (p : Nat × V) (b : List (Nat × V)) (i : Nat) :
    rowEntry (p :: b) i = (if p.1 = i then p.2 else 0) + rowEntry b i := by
  unfold rowEntry
  rw [List.filter_cons]
  by_cases h : p.1 = i <;> simp [h]

theorem rowEntry_not_mem (a : List (Nat × V)) (i : Nat) (h : i ∉ a.map Prod.fst) : rowEntry a i = 0 := by
  unfold rowEntry
  rw [List.filter_eq_nil_iff.mpr]
  · rfl
  · intro p hp
    simp only [decide_eq_true_eq]
    rintro rfl
    exact h (List.mem_map.mpr ⟨p, hp, rfl⟩)

theorem rowEntry_map_fn (cs : List Nat) (hn : cs.Nodup) (f : Nat → V) (i : Nat) :
    rowEntry (cs.map (fun c => (c, f c))) i = if i ∈ cs then f i else 0 := by
  induction cs with
  | nil => rfl
  | cons c cs ih =>
    rw [List.nodup_cons] at hn
    rw [List.map_cons, rowEntry_cons, ih hn.2]
    by_cases h : c = i
    · subst h
      simp [hn.1]
    · have h' : ¬ i = c := fun e => h e.symm
      simp only [h, if_false, zero_add, List.mem_cons, h', false_or]

theorem collapse_cols (row : List (Nat × V)) :
    (collapse row).map Prod.fst = (row.map Prod.fst).dedup.insertionSort (· ≤ ·) := by
  unfold collapse
  rw [List.map_map]
  exact List.map_id _

theorem collapse_nodup (row : List (Nat × V)) : ((collapse row).map Prod.fst).Nodup := by
  rw [collapse_cols]
  exact (List.perm_insertionSort _ _).nodup_iff.mpr (List.nodup_dedup _)

theorem mem_collapse_cols (row : List (Nat × V)) (c : Nat) :
    c ∈ (collapse row).map Prod.fst ↔ c ∈ row.map Prod.fst := by
  rw [collapse_cols, (List.perm_insertionSort _ _).mem_iff, List.mem_dedup]

theorem rowEntry_collapse (row : List (Nat × V)) (i : Nat) :
    rowEntry (collapse row) i = rowEntry row i := by
  have hn : ((row.map Prod.fst).dedup.insertionSort (· ≤ ·)).Nodup := by
    rw [← collapse_cols]; exact collapse_nodup row
  unfold collapse
  rw [rowEntry_map_fn _ hn]
  split
  · rfl
  · rename_i h
    rw [(List.perm_insertionSort _ _).mem_iff, List.mem_dedup] at h
    exact (rowEntry_not_mem row i h).symm

theorem rowEntry_mem (row : List (Nat × V)) (hn : (row.map Prod.fst).Nodup) (p : Nat × V)
    (hp : p ∈ row) : rowEntry row p.1 = p.2 := by
  induction row with
  | nil => simp at hp
  | cons q row ih =>
    rw [List.map_cons, List.nodup_cons] at hn
    rw [rowEntry_cons]
    rcases List.mem_cons.mp hp with rfl | hp
    · rw [if_pos rfl, rowEntry_not_mem row _ hn.1, add_zero]
    · rw [if_neg, zero_add]
      · exact ih hn.2 hp
      · intro h
        exact hn.1 (List.mem_map.mpr ⟨p, hp, h.symm⟩)

/-- A row without repeated columns is only reordered. -/
theorem collapse_perm (row : List (Nat × V)) (hn : (row.map Prod.fst).Nodup) :
    (collapse row).Perm row := by
  unfold collapse
  refine ((List.perm_insertionSort _ _).map _).trans ?_
  rw [hn.dedup, List.map_map]
  have : row.map ((fun c => (c, rowEntry row c)) ∘ Prod.fst) = row := by
    conv_rhs => rw [← List.map_id row]
    apply List.map_congr_left
    intro p hp
    simp only [Function.comp, id]
    have : rowEntry row p.1 = p.2 := rowEntry_mem row hn p hp
    rw [this]
  rw [this]

end rows

theorem filterMap_perm_range {A B : Type} (row : List A) (f : A → B) (perm : List Nat)
    (hp : perm.Perm (List.range row.length)) :
    (perm.filterMap (fun k => (row[k]?).map f)).Perm (row.map f) := by
  refine (hp.filterMap _).trans ?_
  have : (List.range row.length).filterMap (fun k => (row[k]?).map f) = row.map f := by
    clear hp
    induction row with
    | nil => rfl
    | cons a row ih =>
      rw [List.length_cons, List.range_succ_eq_map, List.filterMap_cons, List.filterMap_map]
      simp only [List.getElem?_cons_zero, Option.map_some, List.map_cons]
      rw [← ih]
      rfl
  rw [this]

theorem rowTriplets_perm (row : List (Nat × ℝ)) (perm : List Nat)
    (hp : perm.Perm (List.range row.length)) :
    (rowTriplets row perm).Perm (row.map (fun p => (p.1, truncZ p.2))) :=
  filterMap_perm_range row _ perm hp

theorem truncZ_int (z : ℤ) : truncZ (z : ℝ) = z := by
  unfold truncZ; split <;> simp

theorem splitRow_perm (nTest : Nat → Nat) (row : List (Nat × ℝ)) (perm : List Nat)
    (hp : perm.Perm (List.range row.length)) (hn : (row.map Prod.fst).Nodup) :
    ((splitRow nTest row perm).1 ++ (splitRow nTest row perm).2).Perm
      (row.map (fun p => (p.1, truncZ p.2))) ∧
    (splitRow nTest row perm).1.length = row.length - nTest row.length ∧
    (splitRow nTest row perm).2.length = min (nTest row.length) row.length := by
  have ht := rowTriplets_perm row perm hp
  have hnd : ((rowTriplets row perm).map Prod.fst).Nodup := by
    rw [(ht.map Prod.fst).nodup_iff, List.map_map]
    exact hn
  have hlen : (rowTriplets row perm).length = row.length := by rw [ht.length_eq, List.length_map]
  have h1 := collapse_perm ((rowTriplets row perm).drop (nTest row.length))
    (hnd.sublist ((List.drop_sublist _ _).map _))
  have h2 := collapse_perm ((rowTriplets row perm).take (nTest row.length))
    (hnd.sublist ((List.take_sublist _ _).map _))
  unfold splitRow
  simp only
  refine ⟨?_, ?_, ?_⟩
  · refine ((h1.append h2).trans List.perm_append_comm).trans ?_
    rw [List.take_append_drop]
    exact ht
  · rw [h1.length_eq, List.length_drop, hlen]
  · rw [h2.length_eq, List.length_take, hlen]

theorem splitRow_entry (nTest : Nat → Nat) (row : List (Nat × ℝ)) (perm : List Nat)
    (hp : perm.Perm (List.range row.length)) (i : Nat) :
    rowEntry (splitRow nTest row perm).1 i + rowEntry (splitRow nTest row perm).2 i =
      rowEntry (row.map (fun p => (p.1, truncZ p.2))) i := by
  unfold splitRow
  simp only
  rw [rowEntry_collapse, rowEntry_collapse, add_comm, ← rowEntry_append, List.take_append_drop]
  exact rowEntry_perm (rowTriplets_perm row perm hp) i

theorem rowEntry_toReal (l : List (Nat × ℤ)) (i : Nat) :
    rowEntry (l.map (fun p => (p.1, (p.2 : ℝ)))) i = ((rowEntry l i : ℤ) : ℝ) := by
  induction l with
  | nil => simp [rowEntry]
  | cons p l ih =>
    rw [List.map_cons, rowEntry_cons, rowEntry_cons, ih]
    push_cast
    split <;> simp

theorem entry_eq (X : Csr ℝ) (u i : Nat) : entry X u i = rowEntry (X.rows.getD u []) i := rfl

/-! ### Sizes -/

theorem nTestRatio_le {fl : ℝ → ℝ} (hfl : IsRounding fl) {ratio : ℝ} (h0 : 0 ≤ ratio) (h1 : ratio ≤ 1)
    (ceil : Bool) (n : Nat) (hn : n ≤ 2 ^ 53) : nTestRatio fl ratio ceil n ≤ n := by
  have hle : fl (n * ratio) ≤ n := by
    have := hfl.mono (show (n : ℝ) * ratio ≤ n by
      have : (0 : ℝ) ≤ n := Nat.cast_nonneg n
      nlinarith)
    rwa [hfl.nat n hn] at this
  unfold nTestRatio
  split
  · exact Nat.ceil_le.mpr hle
  · exact Nat.floor_le_of_le hle

/-! ### Time split -/

section time
variable {U I T : Type} [LinearOrder U] [LinearOrder I] [LinearOrder T]

theorem withLater_fst (l : List (Row U I T)) : (withLater l).map Prod.fst = l := by
  induction l with
  | nil => rfl
  | cons r l ih => simp [withLater, ih]

theorem withLater_lt (l : List (Row U I T)) : ∀ p ∈ withLater l,
    p.2 < l.countP (fun q => decide (q.user = p.1.user)) := by
  induction l with
  | nil => intro p hp; simp [withLater] at hp
  | cons r l ih =>
    intro p hp
    rw [withLater] at hp
    rcases List.mem_cons.mp hp with rfl | hp
    · simp
    · have := ih p hp
      rw [List.countP_cons]
      omega

theorem time_count (l : List (Row U I T)) (held : U → Int) (u : U) :
    (((withLater l).filter (fun p => decide ((p.2 : Int) < held p.1.user))).map Prod.fst).countP
      (fun q => decide (q.user = u)) = min (l.countP (fun q => decide (q.user = u))) (held u).toNat := by
  induction l with
  | nil => simp [withLater]
  | cons r l ih =>
    rw [withLater, List.filter_cons, List.countP_cons]
    by_cases hu : r.user = u
    · subst hu
      by_cases hc : ((l.countP (fun q => decide (q.user = r.user)) : Nat) : Int) < held r.user
      · simp only [hc, decide_true, if_true, List.map_cons, List.countP_cons, ih]
        omega
      · simp only [hc, decide_false, Bool.false_eq_true, if_false, decide_true, if_true, ih]
        omega
    · by_cases hc : ((l.countP (fun q => decide (q.user = r.user)) : Nat) : Int) < held r.user
      · simp only [hc, decide_true, if_true, List.map_cons, List.countP_cons, ih, hu, decide_false,
          Bool.false_eq_true, if_false, Nat.add_zero]
      · simp only [hc, decide_false, Bool.false_eq_true, if_false, ih, hu, Nat.add_zero]

theorem time_order (l : List (Row U I T))
    (hs : l.Pairwise (fun a b => a.user < b.user ∨ (a.user = b.user ∧ a.time ≤ b.time)))
    (held : U → Int) : ∀ p ∈ withLater l, ∀ q ∈ withLater l, p.1.user = q.1.user →
      held p.1.user ≤ (p.2 : Int) → (q.2 : Int) < held q.1.user → p.1.time ≤ q.1.time := by
  induction l with
  | nil => intro p hp; simp [withLater] at hp
  | cons r l ih =>
    rw [List.pairwise_cons] at hs
    intro p hp q hq hu h1 h2
    rw [withLater] at hp hq
    rcases List.mem_cons.mp hp with rfl | hp
    · rcases List.mem_cons.mp hq with rfl | hq
      · exact le_refl _
      · have hqm : q.1 ∈ l := by
          rw [← withLater_fst l]; exact List.mem_map.mpr ⟨q, hq, rfl⟩
        rcases hs.1 q.1 hqm with h | h
        · exact absurd hu (ne_of_lt h)
        · exact h.2
    · rcases List.mem_cons.mp hq with rfl | hq
      · exfalso
        have := withLater_lt l p hp
        simp only at h2 hu
        rw [hu] at this h1
        omega
      · exact ih hs.2 p hp q hq hu h1 h2

end time

end Irspack.Split
