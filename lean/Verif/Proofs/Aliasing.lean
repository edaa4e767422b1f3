import Verif.Spec.Aliasing
import Mathlib.Algebra.BigOperators.Group.List.Basic
import Mathlib.Tactic

/-! # Lemmas about sparse matrices in memory -/

namespace Irspack.Aliasing

open Irspack.Spec.Aliasing

theorem total_nil (i : Nat) : total [] i = 0 := by simp [total]

theorem total_cons (e : Nat × ℝ) (l : Line) (i : Nat) :
    total (e :: l) i = (if e.1 = i then e.2 else 0) + total l i := by
  by_cases h : e.1 = i <;> simp [total, h]

theorem total_append (a b : Line) (i : Nat) : total (a ++ b) i = total a i + total b i := by
  simp [total]

theorem total_perm {a b : Line} (h : a.Perm b) (i : Nat) : total a i = total b i := by
  unfold total
  exact ((h.filter _).map _).sum_eq

theorem total_sortLine (l : Line) (i : Nat) : total (sortLine l) i = total l i :=
  total_perm (List.perm_insertionSort _ l) i

theorem total_nodup_keys (ks : List Nat) (hk : ks.Nodup) (g : Nat → ℝ) (i : Nat) :
    total (ks.map (fun k => (k, g k))) i = if i ∈ ks then g i else 0 := by
  induction ks with
  | nil => simp [total]
  | cons k ks ih =>
    rw [List.nodup_cons] at hk
    rw [List.map_cons, total_cons, ih hk.2]
    by_cases h : k = i
    · subst h
      simp [hk.1]
    · have h' : i ≠ k := fun e => h e.symm
      simp [h, h']

theorem total_not_mem (l : Line) (i : Nat) (h : i ∉ l.map Prod.fst) : total l i = 0 := by
  induction l with
  | nil => simp [total]
  | cons e l ih =>
    simp only [List.map_cons, List.mem_cons, not_or] at h
    rw [total_cons, ih h.2, if_neg (fun c => h.1 c.symm), add_zero]

theorem total_sumDuplicates (l : Line) (i : Nat) : total (sumDuplicates l) i = total l i := by
  unfold sumDuplicates
  rw [total_nodup_keys _ (List.nodup_dedup _) (fun k => ((l.filter (fun e => e.1 = k)).map Prod.snd).sum)]
  by_cases h : i ∈ l.map Prod.fst
  · rw [if_pos (by rw [List.mem_dedup, List.mem_insertionSort]; exact h)]
    rfl
  · rw [if_neg (by rw [List.mem_dedup, List.mem_insertionSort]; exact h), total_not_mem l i h]

theorem total_filter_ne_zero (l : Line) (i : Nat) : total (l.filter (fun e => e.2 ≠ 0)) i = total l i := by
  induction l with
  | nil => simp
  | cons e l ih =>
    by_cases h : e.2 = 0
    · rw [List.filter_cons_of_neg (by simp [h]), ih, total_cons, h]
      simp
    · rw [List.filter_cons_of_pos (by simp [h]), total_cons, total_cons, ih]

theorem zip_fst_snd (l : Line) : List.zip (l.map Prod.fst) (l.map Prod.snd) = l := by
  induction l with
  | nil => rfl
  | cons e l ih => simp [ih]

theorem zipWith_zip_split (L : List Line) :
    List.zipWith List.zip (L.map (fun l => l.map Prod.fst)) (L.map (fun l => l.map Prod.snd)) = L := by
  induction L with
  | nil => rfl
  | cons l L ih => simp only [List.map_cons, List.zipWith_cons_cons, ih, zip_fst_snd]

theorem alloc_lines (h : Heap) (d : Dtype) (r c : Nat) (L : List Line) :
    (h.alloc d r c L).2.lines (h.alloc d r c L).1 = L := by
  simp only [Obj.lines, Heap.alloc, Function.update_self]
  exact zipWith_zip_split L

theorem alloc_untouched (h : Heap) (d : Dtype) (r c : Nat) (L : List Line) :
    Untouched h (h.alloc d r c L).1 := by
  intro a ha
  simp only [Heap.alloc]
  rw [Function.update_of_ne (by omega), Function.update_of_ne (by omega)]
  exact ⟨rfl, rfl⟩

theorem untouched_trans {h h' h'' : Heap} (a : Untouched h h') (b : Untouched h' h'') (n : h.next ≤ h'.next) :
    Untouched h h'' := by
  intro x hx
  obtain ⟨b1, b2⟩ := b x (by omega)
  obtain ⟨a1, a2⟩ := a x hx
  exact ⟨b1.trans a1, b2.trans a2⟩

theorem lines_congr {h h' : Heap} (X : Obj) (d : h'.data X.data = h.data X.data) (i : h'.idx X.idx = h.idx X.idx) :
    X.lines h' = X.lines h := by
  simp only [Obj.lines, d, i]

theorem value_congr {h h' : Heap} (X : Obj) (d : h'.data X.data = h.data X.data) (i : h'.idx X.idx = h.idx X.idx)
    (u j : Nat) : value h' X u j = value h X u j := by
  unfold value
  rw [lines_congr X d i]

theorem untouched_value {h h' : Heap} (a : Untouched h h') {X : Obj} (v : Valid h X) (u i : Nat) :
    value h' X u i = value h X u i :=
  value_congr X (a _ v.data).1 (a _ v.idx).2 u i

theorem getD_map_nil (L : List Line) (f : Line → Line) (hf : f [] = []) (u : Nat) :
    (L.map f).getD u [] = f (L.getD u []) := by
  simp only [List.getD_eq_getElem?_getD, List.getElem?_map]
  cases L[u]? <;> simp [hf]

theorem sortIndices_lines (h : Heap) (X : Obj) :
    X.lines (sortIndices h X) = if X.Sorted h then X.lines h else (X.lines h).map sortLine := by
  unfold sortIndices
  by_cases s : X.Sorted h
  · rw [if_pos s, if_pos s]
  · rw [if_neg s, if_neg s]
    conv_lhs => unfold Obj.lines
    simp only [Function.update_self]
    have := zipWith_zip_split ((X.lines h).map sortLine)
    rw [List.map_map, List.map_map] at this
    exact this

theorem sortIndices_next (h : Heap) (X : Obj) : (sortIndices h X).next = h.next := by
  unfold sortIndices
  split <;> rfl

theorem sortIndices_other (h : Heap) (X : Obj) (a : Nat) :
    (a ≠ X.data → (sortIndices h X).data a = h.data a) ∧ (a ≠ X.idx → (sortIndices h X).idx a = h.idx a) := by
  unfold sortIndices
  split
  · exact ⟨fun _ => rfl, fun _ => rfl⟩
  · exact ⟨fun ha => Function.update_of_ne ha _ _, fun ha => Function.update_of_ne ha _ _⟩

theorem lines_getD_total_sort (h : Heap) (X : Obj) (a b : Nat) :
    total ((X.lines (sortIndices h X)).getD a []) b = total ((X.lines h).getD a []) b := by
  rw [sortIndices_lines]
  split
  · rfl
  · rw [getD_map_nil _ sortLine (by simp [sortLine]), total_sortLine]

theorem sortIndices_value (h : Heap) (X : Obj) (u i : Nat) : value (sortIndices h X) X u i = value h X u i := by
  unfold value
  cases X.fmt <;> exact lines_getD_total_sort h X _ _

/-- an object with the same two buffers as `X`, or with neither -/
theorem sortIndices_value_other (h : Heap) (X Y : Obj)
    (hY : (Y.data = X.data ∧ Y.idx = X.idx) ∨ (Y.data ≠ X.data ∧ Y.idx ≠ X.idx)) (u i : Nat) :
    value (sortIndices h X) Y u i = value h Y u i := by
  rcases hY with ⟨d, e⟩ | ⟨d, e⟩
  · have hl : ∀ g, Y.lines g = X.lines g := fun g => by simp only [Obj.lines, d, e]
    unfold value
    rw [hl, hl]
    cases Y.fmt <;> exact lines_getD_total_sort h X _ _
  · exact value_congr Y ((sortIndices_other h X _).1 d) ((sortIndices_other h X _).2 e) u i

theorem total_column (col : Line) (c r i : Nat) :
    total (col.filterMap (fun e => if e.1 = r then some (c, e.2) else none)) i = if c = i then total col r else 0 := by
  induction col with
  | nil => simp [total]
  | cons e l ih =>
    by_cases h : e.1 = r
    · rw [List.filterMap_cons_some (b := (c, e.2)) (by simp [h]), total_cons, ih, total_cons, if_pos h]
      by_cases hc : c = i <;> simp [hc]
    · rw [List.filterMap_cons_none (by simp [h]), ih, total_cons, if_neg h, zero_add]

theorem total_columns (L : List Line) (r i n : Nat) :
    total ((L.zipIdx n).flatMap (fun col => col.1.filterMap (fun e => if e.1 = r then some (col.2, e.2) else none))) i
      = if n ≤ i then total (L.getD (i - n) []) r else 0 := by
  induction L generalizing n with
  | nil => simp [total]
  | cons l L ih =>
    rw [List.zipIdx_cons, List.flatMap_cons, total_append, total_column, ih]
    rcases lt_trichotomy n i with h | h | h
    · rw [if_neg (by omega), if_pos (by omega), if_pos (by omega), zero_add]
      obtain ⟨k, rfl⟩ : ∃ k, i = n + 1 + k := ⟨i - (n + 1), by omega⟩
      have e1 : n + 1 + k - (n + 1) = k := by omega
      have e2 : n + 1 + k - n = k + 1 := by omega
      rw [e1, e2]
      rfl
    · subst h
      simp
    · rw [if_neg (by omega), if_neg (by omega), if_neg (by omega), add_zero]

theorem rowLines_total (h : Heap) (X : Obj) (u i : Nat) (hu : u < X.rows) :
    total ((X.rowLines h).getD u []) i = value h X u i := by
  unfold Obj.rowLines value
  cases X.fmt with
  | csr => rfl
  | csc =>
    simp only [List.getD_eq_getElem?_getD, List.getElem?_map, List.getElem?_range hu, Option.map_some,
      Option.getD_some]
    rw [total_columns]
    simp [List.getD_eq_getElem?_getD]

theorem rowLines_csr (h : Heap) (X : Obj) (c : X.fmt = .csr) : X.rowLines h = X.lines h := by
  unfold Obj.rowLines; rw [c]

theorem csrMatrix_fmt (h : Heap) (X : Obj) : (csrMatrix h X).2.fmt = .csr := by
  unfold csrMatrix
  cases c : X.fmt with
  | csr => exact c
  | csc => rfl

theorem csrMatrix_lines (h : Heap) (X : Obj) : (csrMatrix h X).2.lines (csrMatrix h X).1 = X.rowLines h := by
  unfold csrMatrix
  cases c : X.fmt with
  | csr => exact (rowLines_csr h X c).symm
  | csc => exact alloc_lines ..

theorem csrMatrix_rows (h : Heap) (X : Obj) :
    (csrMatrix h X).2.rows = X.rows ∧ (csrMatrix h X).2.cols = X.cols ∧ (csrMatrix h X).2.dtype = X.dtype := by
  unfold csrMatrix
  cases X.fmt <;> exact ⟨rfl, rfl, rfl⟩

theorem csrMatrix_next (h : Heap) (X : Obj) : h.next ≤ (csrMatrix h X).1.next := by
  unfold csrMatrix
  cases X.fmt with
  | csr => exact le_rfl
  | csc => simp [Heap.alloc]

theorem csrMatrix_untouched (h : Heap) (X : Obj) : Untouched h (csrMatrix h X).1 := by
  unfold csrMatrix
  cases X.fmt with
  | csr => exact fun _ _ => ⟨rfl, rfl⟩
  | csc => exact alloc_untouched _ _ _ _ _

theorem rowLines_length {h : Heap} {X : Obj} (v : Valid h X) : (X.rowLines h).length = X.rows := by
  unfold Obj.rowLines
  have hs := v.shape
  have hl := v.fits.length_eq
  cases c : X.fmt with
  | csr =>
    rw [c] at hs
    simp only [Obj.lines, List.length_zipWith, ← hl, min_self]
    exact hs
  | csc => simp

/-- the copy that `csr_matrix(X).astype(np.float64)` makes -/
theorem astype_facts (h : Heap) (X : Obj) (d : Dtype) :
    (astype id h X d).2.data = h.next ∧ (astype id h X d).2.idx = h.next ∧ (astype id h X d).2.fmt = .csr ∧
    (astype id h X d).1.next = h.next + 1 ∧ (astype id h X d).2.rows = X.rows ∧ (astype id h X d).2.cols = X.cols ∧
    Untouched h (astype id h X d).1 ∧
    ∀ u i, total (((astype id h X d).2.lines (astype id h X d).1).getD u []) i = total ((X.lines h).getD u []) i := by
  unfold astype
  split
  · refine ⟨rfl, rfl, rfl, rfl, rfl, rfl, alloc_untouched _ _ _ _ _, fun u i => ?_⟩
    rw [alloc_lines]
  · refine ⟨rfl, rfl, rfl, rfl, rfl, rfl, alloc_untouched _ _ _ _ _, fun u i => ?_⟩
    rw [alloc_lines, getD_map_nil _ _ (by simp [sumDuplicates]), total_sumDuplicates]
    simp

theorem sortIndices_sorted (h : Heap) (X : Obj) : X.Sorted (sortIndices h X) := by
  unfold sortIndices
  by_cases s : X.Sorted h
  · rw [if_pos s]; exact s
  · rw [if_neg s]
    unfold Obj.Sorted
    simp only [Function.update_self]
    intro l hl
    obtain ⟨m, -, rfl⟩ := List.mem_map.mp hl
    have : (sortLine m).Pairwise (fun a b => a.1 ≤ b.1) :=
      List.pairwise_insertionSort (r := fun a b : Nat × ℝ => a.1 ≤ b.1) m
    exact List.pairwise_map.mpr this

end Irspack.Aliasing

namespace Irspack.Aliasing

open Irspack.Spec.Aliasing

/-- everything about the private copy that the constructors make -/
theorem recommenderInit_facts (h : Heap) (X : Obj) :
    h.next ≤ (recommenderInit h X).2.data ∧ h.next ≤ (recommenderInit h X).2.idx ∧
    h.next ≤ (recommenderInit h X).1.next ∧
    (recommenderInit h X).2.fmt = .csr ∧
    (recommenderInit h X).2.rows = X.rows ∧ (recommenderInit h X).2.cols = X.cols ∧
    Untouched h (recommenderInit h X).1 ∧
    (recommenderInit h X).2.Sorted (recommenderInit h X).1 ∧
    ∀ u i, u < X.rows →
      total (((recommenderInit h X).2.lines (recommenderInit h X).1).getD u []) i = value h X u i := by
  obtain ⟨a1, a2, a3, a4, a5, a6, a7, a8⟩ := astype_facts (csrMatrix h X).1 (csrMatrix h X).2 .float64
  obtain ⟨c1, c2, c3⟩ := csrMatrix_rows h X
  have n := csrMatrix_next h X
  have e : recommenderInit h X = (sortIndices (astype id (csrMatrix h X).1 (csrMatrix h X).2 .float64).1
      (astype id (csrMatrix h X).1 (csrMatrix h X).2 .float64).2,
      (astype id (csrMatrix h X).1 (csrMatrix h X).2 .float64).2) := rfl
  rw [e]
  refine ⟨by rw [a1]; exact n, by rw [a2]; exact n, ?_, a3, a5.trans c1, a6.trans c2, ?_, sortIndices_sorted _ _, ?_⟩
  · rw [sortIndices_next, a4]; omega
  · intro a ha
    have h1 := csrMatrix_untouched h X a ha
    have h2 := a7 a (by omega)
    have h3 := sortIndices_other (astype id (csrMatrix h X).1 (csrMatrix h X).2 .float64).1
      (astype id (csrMatrix h X).1 (csrMatrix h X).2 .float64).2 a
    exact ⟨(h3.1 (by rw [a1]; omega)).trans (h2.1.trans h1.1), (h3.2 (by rw [a2]; omega)).trans (h2.2.trans h1.2)⟩
  · intro u i hu
    rw [lines_getD_total_sort, a8, csrMatrix_lines, rowLines_total h X u i hu]

theorem evaluatorInit_core (sorts : Bool) (h : Heap) (G : Obj) (mask : Option Obj) :
    (evaluatorInit sorts h G mask).2.core = (recommenderInit h G).2.lines (recommenderInit h G).1 ∧
    (evaluatorInit sorts h G mask) =
      match mask with
      | none => ((recommenderInit h G).1, ⟨(recommenderInit h G).2.lines (recommenderInit h G).1, none⟩)
      | some m => ((csrMatrix (recommenderInit h G).1 m).1,
          ⟨(recommenderInit h G).2.lines (recommenderInit h G).1, some (csrMatrix (recommenderInit h G).1 m).2⟩) := by
  have s : (recommenderInit h G).2.Sorted (recommenderInit h G).1 := (recommenderInit_facts h G).2.2.2.2.2.2.2.1
  have e : ∀ b : Bool, toNative b (recommenderInit h G).1 (recommenderInit h G).2 =
      ((recommenderInit h G).1, (recommenderInit h G).2.lines (recommenderInit h G).1) := by
    intro b
    unfold toNative
    have e' : sortIndices (recommenderInit h G).1 (recommenderInit h G).2 = (recommenderInit h G).1 := by
      unfold sortIndices; rw [if_pos s]
    cases b <;> simp [e']
  have e2 : evaluatorInit sorts h G mask =
      match mask with
      | none => ((toNative sorts (recommenderInit h G).1 (recommenderInit h G).2).1,
          ⟨(toNative sorts (recommenderInit h G).1 (recommenderInit h G).2).2, none⟩)
      | some m => ((csrMatrix (toNative sorts (recommenderInit h G).1 (recommenderInit h G).2).1 m).1,
          ⟨(toNative sorts (recommenderInit h G).1 (recommenderInit h G).2).2,
            some (csrMatrix (toNative sorts (recommenderInit h G).1 (recommenderInit h G).2).1 m).2⟩) := by
    cases mask <;> rfl
  rw [e] at e2
  refine ⟨?_, e2⟩
  rw [e2]
  cases mask <;> rfl

/-- `csr_matrix(X)` is the same matrix; of a CSC matrix it is a private copy -/
theorem csrMatrix_value {h : Heap} {X : Obj} (u i : Nat) (hu : u < X.rows) :
    value (csrMatrix h X).1 (csrMatrix h X).2 u i = value h X u i := by
  have : value (csrMatrix h X).1 (csrMatrix h X).2 u i
      = total (((csrMatrix h X).2.lines (csrMatrix h X).1).getD u []) i := by
    unfold value; rw [csrMatrix_fmt]
  rw [this, csrMatrix_lines, rowLines_total h X u i hu]

theorem csrMatrix_private {h : Heap} {X : Obj} (c : X.fmt = .csc) :
    (csrMatrix h X).2.data = h.next ∧ (csrMatrix h X).2.idx = h.next := by
  unfold csrMatrix; rw [c]; exact ⟨rfl, rfl⟩

theorem csrMatrix_bounds {h : Heap} {X : Obj} (v : Valid h X) :
    (csrMatrix h X).2.data < (csrMatrix h X).1.next ∧ (csrMatrix h X).2.idx < (csrMatrix h X).1.next := by
  unfold csrMatrix
  cases X.fmt with
  | csr => exact ⟨v.data, v.idx⟩
  | csc => exact ⟨Nat.lt_succ_self _, Nat.lt_succ_self _⟩

theorem valid_mono {h h' : Heap} {X : Obj} (v : Valid h X) (t : Untouched h h') (n : h.next ≤ h'.next) : Valid h' X where
  data := lt_of_lt_of_le v.data n
  idx := lt_of_lt_of_le v.idx n
  fits := by rw [(t _ v.data).1, (t _ v.idx).2]; exact v.fits
  shape := by rw [(t _ v.idx).2]; exact v.shape

theorem rowLines_congr {h h' : Heap} (X : Obj) (d : h'.data X.data = h.data X.data) (i : h'.idx X.idx = h.idx X.idx) :
    X.rowLines h' = X.rowLines h := by
  unfold Obj.rowLines
  rw [lines_congr X d i]

theorem getD_addLines (a b : List Line) (hl : a.length = b.length) (u i : Nat) :
    total ((addLines a b).getD u []) i = total (a.getD u []) i + total (b.getD u []) i := by
  unfold addLines
  simp only [List.getD_eq_getElem?_getD, List.getElem?_zipWith]
  by_cases hu : u < a.length
  · rw [List.getElem?_eq_getElem hu, List.getElem?_eq_getElem (hl ▸ hu)]
    simp only [Option.getD_some]
    rw [total_filter_ne_zero, total_sumDuplicates, total_append]
  · rw [List.getElem?_eq_none (by omega), List.getElem?_eq_none (by omega)]
    simp [total]

/-- rounding each stored value rounds the entry, where nothing is stored twice -/
theorem total_round (r : ℝ → ℝ) (r0 : r 0 = 0) (l : Line) (nd : (l.map Prod.fst).Nodup) (i : Nat) :
    total (l.map (fun e => (e.1, r e.2))) i = r (total l i) := by
  induction l with
  | nil => simp [total, r0]
  | cons e l ih =>
    rw [List.map_cons, List.nodup_cons] at nd
    rw [List.map_cons, total_cons, total_cons, ih nd.2]
    by_cases h : e.1 = i
    · have : total l i = 0 := total_not_mem l i (h ▸ nd.1)
      simp [h, this, r0]
    · simp [h]

theorem zip_map_snd (a : List Nat) (b : List ℝ) (r : ℝ → ℝ) :
    List.zip a (b.map r) = (List.zip a b).map (fun e => (e.1, r e.2)) := by
  induction a generalizing b with
  | nil => simp
  | cons x a ih => cases b with
    | nil => simp
    | cons y b => simp [ih]

theorem zipWith_zip_map (a : List (List Nat)) (b : List (List ℝ)) (r : ℝ → ℝ) :
    List.zipWith List.zip a (b.map (fun l => l.map r)) =
      (List.zipWith List.zip a b).map (fun l => l.map (fun e => (e.1, r e.2))) := by
  induction a generalizing b with
  | nil => simp
  | cons x a ih => cases b with
    | nil => simp
    | cons y b => simp [ih, zip_map_snd]

/-- the conversion applied to the features -/
def toFloat32 (round : ℝ → ℝ) (X : Obj) : ℝ → ℝ := if X.dtype = .float32 then id else round

theorem featureMatrix_lines (round : ℝ → ℝ) (h : Heap) (X : Obj) :
    (featureMatrix round h X).2.lines (featureMatrix round h X).1 =
      (X.rowLines h).map (fun l => l.map (fun e => (e.1, toFloat32 round X e.2))) := by
  unfold featureMatrix toFloat32
  cases c : X.fmt with
  | csr =>
    rw [rowLines_csr h X c]
    by_cases d : X.dtype = .float32
    · simp [d]
    · simp only [d, if_false, Obj.lines, Function.update_self]
      exact zipWith_zip_map _ _ _
  | csc => exact alloc_lines _ _ _ _ _

theorem featureMatrix_facts (round : ℝ → ℝ) (h : Heap) (X : Obj) :
    Untouched h (featureMatrix round h X).1 ∧ h.next ≤ (featureMatrix round h X).1.next ∧
    (featureMatrix round h X).2.fmt = .csr ∧ (featureMatrix round h X).2.dtype = .float32 := by
  unfold featureMatrix
  cases c : X.fmt with
  | csr =>
    by_cases d : X.dtype = .float32
    · simp only [d, if_true]
      exact ⟨fun _ _ => ⟨rfl, rfl⟩, le_rfl, c, trivial⟩
    · simp only [d, if_false]
      refine ⟨fun a ha => ⟨Function.update_of_ne (by omega) _ _, rfl⟩, Nat.le_succ _, trivial, trivial⟩
  | csc => exact ⟨alloc_untouched _ _ _ _ _, Nat.le_succ _, rfl, rfl⟩

/-- a float32 CSR matrix is handed on as it is -/
theorem nativeFeatures_float32 (round : ℝ → ℝ) (sorts : Bool) (h : Heap) (F : Obj) (c : F.fmt = .csr)
    (d : F.dtype = .float32) : nativeFeatures round sorts h F = toNative sorts h F := by
  unfold nativeFeatures featureMatrix
  rw [c]
  simp [d]

end Irspack.Aliasing
