import Verif.Proofs.Retrieval

namespace Irspack.Retrieval
open Irspack Spec

variable {I : Type} [DecidableEq I]

theorem dataCol_length (m : ItemIDMapper I) (p : Profile I) :
    (m.profileDataCol p).1.length = (m.profileDataCol p).2.length := by
  unfold ItemIDMapper.profileDataCol
  cases p <;> simp

/-- row offsets -/
def offset (m : ItemIDMapper I) (ps : List (Profile I)) (u : Nat) : Nat :=
  ((ps.take u).flatMap (fun p => (m.profileDataCol p).2)).length

theorem matrixLoop_eq (m : ItemIDMapper I) (ps : List (Profile I)) (data : List ℝ)
    (col indptr : List Nat) (cur : Nat) :
    m.matrixLoop ps (data, col, indptr, cur) =
      (data ++ ps.flatMap (fun p => (m.profileDataCol p).1),
       col ++ ps.flatMap (fun p => (m.profileDataCol p).2),
       indptr ++ (List.range ps.length).map (fun u => cur + offset m ps (u + 1)),
       cur + offset m ps ps.length) := by
  induction ps generalizing data col indptr cur with
  | nil => simp [ItemIDMapper.matrixLoop, offset]
  | cons p ps ih =>
    unfold ItemIDMapper.matrixLoop
    simp only
    rw [ih]
    have hoff : ∀ u, offset m (p :: ps) (u + 1) = (m.profileDataCol p).2.length + offset m ps u := by
      intro u; unfold offset; rw [List.take_succ_cons, List.flatMap_cons, List.length_append]
    simp only [List.flatMap_cons, List.append_assoc, List.length_cons, Prod.mk.injEq, true_and]
    refine ⟨?_, ?_⟩
    · rw [List.range_succ_eq_map, List.map_cons, List.map_map, List.cons_append, List.nil_append]
      congr 1
      congr 1
      · rw [hoff]; simp [offset]
      · apply List.map_congr_left
        intro u _
        simp only [Function.comp]
        rw [hoff]; omega
    · rw [hoff]; omega

theorem offset_succ (m : ItemIDMapper I) (ps : List (Profile I)) (u : Nat) (hu : u < ps.length) :
    offset m ps (u + 1) = offset m ps u + (m.profileDataCol ps[u]).2.length := by
  unfold offset
  rw [List.take_succ_eq_append_getElem hu, List.flatMap_append, List.length_append]
  simp

theorem indptr_get (m : ItemIDMapper I) (ps : List (Profile I)) (u : Nat) (hu : u ≤ ps.length) :
    (m.profilesToMatrix ps).indptr.getD u 0 = offset m ps u := by
  unfold ItemIDMapper.profilesToMatrix
  rw [matrixLoop_eq]
  simp only
  cases u with
  | zero => simp [offset]
  | succ u =>
    rw [List.getD_eq_getElem?_getD, List.getElem?_append_right (by simp)]
    simp only [List.length_cons, List.length_nil, zero_add, Nat.add_sub_cancel, Nat.zero_add]
    rw [List.getElem?_map, List.getElem?_range (by omega)]
    rfl

theorem flat_get {B : Type} (m : ItemIDMapper I) (ps : List (Profile I)) (f : Profile I → List B)
    (hf : ∀ p, (f p).length = (m.profileDataCol p).2.length) (u : Nat) (hu : u < ps.length) (t : Nat)
    (ht : t < (f ps[u]).length) : (ps.flatMap f)[offset m ps u + t]? = (f ps[u])[t]? := by
  have hlen : ∀ l : List (Profile I), (l.flatMap f).length =
      (l.flatMap (fun p => (m.profileDataCol p).2)).length := by
    intro l
    induction l with
    | nil => rfl
    | cons a l ih => simp only [List.flatMap_cons, List.length_append, ih, hf]
  have hsplit : ps = ps.take u ++ ps[u] :: ps.drop (u + 1) := by
    rw [List.cons_getElem_drop_succ, List.take_append_drop]
  have ho : offset m ps u = ((ps.take u).flatMap f).length := by rw [hlen]; rfl
  have hflat : ps.flatMap f = (ps.take u).flatMap f ++ (f ps[u] ++ (ps.drop (u + 1)).flatMap f) := by
    rw [← List.flatMap_cons, ← List.flatMap_append, ← hsplit]
  rw [ho, hflat, List.getElem?_append_right (by omega), Nat.add_sub_cancel_left,
    List.getElem?_append_left ht]

theorem indices_get (m : ItemIDMapper I) (ps : List (Profile I)) (u : Nat) (hu : u < ps.length)
    (t : Nat) (ht : t < (m.profileDataCol ps[u]).2.length) :
    (m.profilesToMatrix ps).indices[offset m ps u + t]? = (m.profileDataCol ps[u]).2[t]? := by
  unfold ItemIDMapper.profilesToMatrix
  rw [matrixLoop_eq]
  exact flat_get m ps (fun p => (m.profileDataCol p).2) (fun _ => rfl) u hu t ht

theorem data_get (m : ItemIDMapper I) (ps : List (Profile I)) (u : Nat) (hu : u < ps.length)
    (t : Nat) (ht : t < (m.profileDataCol ps[u]).2.length) :
    (m.profilesToMatrix ps).data.getD (offset m ps u + t) 0 = (m.profileDataCol ps[u]).1.getD t 0 := by
  rw [List.getD_eq_getElem?_getD, List.getD_eq_getElem?_getD]
  congr 1
  unfold ItemIDMapper.profilesToMatrix
  rw [matrixLoop_eq]
  exact flat_get m ps (fun p => (m.profileDataCol p).1) (dataCol_length m) u hu t
    (by rw [dataCol_length]; exact ht)

/-- weight an item gets from (data, col) pairs -/
noncomputable def colWeight (dc : List ℝ × List Nat) (i : Nat) : ℝ :=
  (((List.range dc.2.length).filter (fun t => decide (dc.2[t]? = some i))).map
    (fun t => dc.1.getD t 0)).sum

theorem get_row (m : ItemIDMapper I) (ps : List (Profile I)) (u : Nat) (hu : u < ps.length) (i : Nat) :
    (m.profilesToMatrix ps).get u i = colWeight (m.profileDataCol ps[u]) i := by
  unfold CsrArrays.get colWeight
  rw [indptr_get m ps u (by omega), indptr_get m ps (u + 1) (by omega), offset_succ m ps u hu,
    Nat.add_sub_cancel_left, List.range'_eq_map_range, List.filter_map, List.map_map]
  have hf : List.filter ((fun k => decide ((m.profilesToMatrix ps).indices[k]? = some i)) ∘
      fun x => offset m ps u + x) (List.range (m.profileDataCol ps[u]).2.length) =
      List.filter (fun t => decide ((m.profileDataCol ps[u]).2[t]? = some i))
        (List.range (m.profileDataCol ps[u]).2.length) := by
    apply List.filter_congr
    intro t ht
    simp only [Function.comp]
    rw [indices_get m ps u hu t (by simpa using ht)]
  rw [hf]
  congr 1
  apply List.map_congr_left
  intro t ht
  have := (List.mem_filter.mp ht).1
  exact data_get m ps u hu t (by simpa using this)

/-- entry of the pairs -/
def colNonzero (dc : List ℝ × List Nat) (i : Nat) : Prop :=
  ∃ t, t < dc.2.length ∧ dc.2[t]? = some i ∧ dc.1.getD t 0 ≠ 0

theorem nonzero_row (m : ItemIDMapper I) (ps : List (Profile I)) (u : Nat) (hu : u < ps.length)
    (i : Nat) : (m.profilesToMatrix ps).nonzero u i ↔ colNonzero (m.profileDataCol ps[u]) i := by
  unfold CsrArrays.nonzero colNonzero
  rw [indptr_get m ps u (by omega), indptr_get m ps (u + 1) (by omega), offset_succ m ps u hu]
  constructor
  · rintro ⟨k, h1, h2, h3, h4⟩
    obtain ⟨t, rfl⟩ : ∃ t, k = offset m ps u + t := ⟨k - offset m ps u, by omega⟩
    have ht : t < (m.profileDataCol ps[u]).2.length := by omega
    rw [indices_get m ps u hu t ht] at h3
    rw [data_get m ps u hu t ht] at h4
    exact ⟨t, ht, h3, h4⟩
  · rintro ⟨t, ht, h3, h4⟩
    exact ⟨offset m ps u + t, by omega, by omega, by rw [indices_get m ps u hu t ht]; exact h3,
      by rw [data_get m ps u hu t ht]; exact h4⟩

theorem single_nonzero (dc : List ℝ × List Nat) (n i : Nat) :
    (⟨dc.1, dc.2, [0, dc.2.length], 1, n⟩ : CsrArrays).nonzero 0 i ↔ colNonzero dc i := by
  unfold CsrArrays.nonzero colNonzero
  constructor
  · rintro ⟨k, -, h2, h3, h4⟩; exact ⟨k, by simpa using h2, h3, h4⟩
  · rintro ⟨k, h2, h3, h4⟩; exact ⟨k, by simp, by simpa using h2, h3, h4⟩

/-! ### Pairs as sums -/

theorem colWeight_pairs (l : List (ℝ × Nat)) (i : Nat) :
    colWeight (l.map Prod.fst, l.map Prod.snd) i =
      ((l.filter (fun q => decide (q.2 = i))).map Prod.fst).sum := by
  induction l with
  | nil => simp [colWeight]
  | cons q l ih =>
    unfold colWeight at ih ⊢
    simp only [List.map_cons, List.length_cons]
    rw [List.range_succ_eq_map, List.filter_cons, List.filter_map]
    have h0 : (decide ((q.2 :: l.map Prod.snd)[0]? = some i)) = decide (q.2 = i) := by simp
    have h1 : ((fun t => decide ((q.2 :: l.map Prod.snd)[t]? = some i)) ∘ Nat.succ) =
        fun t => decide ((l.map Prod.snd)[t]? = some i) := by
      funext t; simp [Function.comp]
    rw [h0, h1, List.filter_cons]
    have h2 : ∀ L : List Nat, ((L.map Nat.succ).map (fun t => (q.1 :: l.map Prod.fst).getD t 0)) =
        L.map (fun t => (l.map Prod.fst).getD t 0) := by
      intro L; rw [List.map_map]; apply List.map_congr_left; intro t _; simp
    by_cases h : q.2 = i
    · simp only [h, decide_true, if_true, List.map_cons, List.sum_cons, h2, ih]
      simp
    · simp only [h, decide_false, Bool.false_eq_true, if_false, h2, ih]

theorem index?_eq_some (m : ItemIDMapper I) (hn : m.itemIds.Nodup) (x : I) (k : Nat) :
    m.index? x = some k ↔ m.itemIds[k]? = some x := by
  unfold ItemIDMapper.index?
  constructor
  · intro h
    split at h
    · rename_i hx
      injection h with h
      subst h
      exact getElem_idxOf hx
    · cases h
  · intro h
    obtain ⟨hk, rfl⟩ := List.getElem?_eq_some_iff.mp h
    rw [if_pos (List.getElem_mem hk), hn.idxOf_getElem]

theorem idmapper_make_ok {U : Type} [DecidableEq U] {us : List U} {ids : List I} {m : IDMapper U I}
    (h : IDMapper.make us ids = .ok m) : m.userIds = us ∧ m.items.itemIds = ids ∧ m.items.itemIds.Nodup := by
  unfold IDMapper.make at h
  cases hi : ItemIDMapper.make ids with
  | error e => rw [hi] at h; cases h
  | ok m' =>
    rw [hi] at h
    simp only at h
    split at h
    · cases h
    · injection h with h
      subst h
      obtain ⟨h1, h2⟩ := make_ok hi
      exact ⟨rfl, h2, by simp only [h2]; exact h1⟩

/-- (data, col) as pairs -/
theorem dataCol_pairs (m : ItemIDMapper I) (p : Profile I) :
    ∃ l : List (ℝ × Nat), m.profileDataCol p = (l.map Prod.fst, l.map Prod.snd) ∧
      l = (match p with
        | .ids l => l.filterMap (fun x => (m.index? x).map (fun i => ((1 : ℝ), i)))
        | .weights l => l.filterMap (fun q => (m.index? q.1).map (fun i => (q.2, i)))) := by
  refine ⟨_, ?_, rfl⟩
  cases p with
  | weights l => rfl
  | ids l =>
    simp only [ItemIDMapper.profileDataCol, ItemIDMapper.toIndexList]
    induction l with
    | nil => simp
    | cons a l ih =>
      simp only [Prod.mk.injEq] at ih ⊢
      rw [List.filterMap_cons, List.filterMap_cons]
      cases h : m.index? a with
      | none => simpa using ih
      | some i =>
        simp only [Option.map_some, List.length_cons, List.replicate_succ, List.map_cons, ← ih.1,
          ← ih.2, true_and]

end Irspack.Retrieval
