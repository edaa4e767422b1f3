import Mathlib.Algebra.BigOperators.Ring.Finset
import Mathlib.Data.List.GetD
import Verif.Model.Score
import Verif.Spec.Score

/-! # Lemmas on indexing, products and masks -/

namespace Irspack.Score

open Spec.Score

variable {R : Type}

theorem resolveIndex_ok_iff (n : Nat) (i : Int) (u : Nat) : resolveIndex n i = .ok u ↔ Names n i u := by
  unfold resolveIndex Names
  split
  · split
    · simp only [Except.ok.injEq]; omega
    · simp only [reduceCtorEq, false_iff]; omega
  · split
    · simp only [Except.ok.injEq]; omega
    · simp only [reduceCtorEq, false_iff]; omega

theorem resolveIndex_error (n : Nat) (i : Int) (e : Err) (h : resolveIndex n i = .error e) :
    e = .indexError ∧ ∀ u, ¬ Names n i u := by
  constructor
  · unfold resolveIndex at h
    split at h
    · split at h
      · cases h
      · exact (Except.error.inj h).symm
    · split at h
      · cases h
      · exact (Except.error.inj h).symm
  · intro u hu
    rw [← resolveIndex_ok_iff, h] at hu
    cases hu

theorem resolveAll_ok_iff (n : Nat) (idx : List Int) : ∀ us, resolveAll n idx = .ok us ↔ NamesAll n idx us := by
  unfold resolveAll NamesAll
  induction idx with
  | nil =>
    intro us
    simp only [List.mapM_nil, List.forall₂_nil_left_iff]
    constructor
    · intro h; exact (Except.ok.inj h).symm
    · rintro rfl; rfl
  | cons i idx ih =>
    intro us
    rw [List.mapM_cons]
    simp only [bind, Except.bind, pure, Except.pure]
    cases hi : resolveIndex n i with
    | error e =>
      simp only [reduceCtorEq, false_iff]
      rintro (_ | ⟨h, _⟩)
      exact (resolveIndex_error n i e hi).2 _ h
    | ok u =>
      simp only
      cases hr : idx.mapM (resolveIndex n) with
      | error e =>
        simp only [reduceCtorEq, false_iff]
        rintro (_ | ⟨_, h⟩)
        rw [← ih, hr] at h
        cases h
      | ok l =>
        simp only [Except.ok.injEq]
        constructor
        · rintro rfl
          exact .cons ((resolveIndex_ok_iff n i u).mp hi) ((ih l).mp hr)
        · rintro (_ | ⟨h1, h2⟩)
          rw [← resolveIndex_ok_iff, hi] at h1
          rw [← ih, hr] at h2
          rw [Except.ok.inj h1, Except.ok.inj h2]

theorem resolveAll_error (n : Nat) (idx : List Int) (e : Err) (h : resolveAll n idx = .error e) :
    e = .indexError := by
  unfold resolveAll at h
  induction idx with
  | nil => cases h
  | cons i idx ih =>
    rw [List.mapM_cons] at h
    simp only [bind, Except.bind, pure, Except.pure] at h
    cases hi : resolveIndex n i with
    | error e' =>
      rw [hi] at h
      simp only [Except.error.injEq] at h
      rw [← h]
      exact (resolveIndex_error n i e' hi).1
    | ok u =>
      rw [hi] at h
      simp only at h
      cases hr : idx.mapM (resolveIndex n) with
      | error e' => rw [hr] at h; exact ih (by rw [hr]; exact congrArg _ (Except.error.inj h))
      | ok l => rw [hr] at h; cases h

theorem NamesAll.lt {n : Nat} {idx : List Int} {us : List Nat} (h : NamesAll n idx us) : ∀ u ∈ us, u < n := by
  induction h with
  | nil => intro u hu; cases hu
  | cons h1 _ ih =>
    intro u hu
    rcases List.mem_cons.mp hu with rfl | hu
    · exact h1.1
    · exact ih u hu

theorem NamesAll.length {n : Nat} {idx : List Int} {us : List Nat} (h : NamesAll n idx us) :
    us.length = idx.length := (List.Forall₂.length_eq h).symm

theorem namesAll_range (n b e : Nat) (he : e ≤ n) :
    NamesAll n (List.map (fun u : Nat => (u : Int)) (List.range' b (e - b))) (List.range' b (e - b)) := by
  unfold NamesAll
  rw [List.forall₂_map_left_iff]
  refine List.forall₂_same.mpr ?_
  intro u hu
  rw [List.mem_range'_1] at hu
  exact ⟨by omega, .inl rfl⟩

theorem pickRows_eq (X : CSR R) {idx : List Int} {us : List Nat} (h : NamesAll X.nrows idx us) :
    pickRows X idx = .ok ⟨X.cols, us.map X.row⟩ := by
  unfold pickRows
  rw [(resolveAll_ok_iff _ _ _).mpr h]
  rfl

theorem pickRows_error (X : CSR R) {idx : List Int} (h : ¬ ∃ us, NamesAll X.nrows idx us) :
    pickRows X idx = .error .indexError := by
  unfold pickRows
  cases hr : resolveAll X.nrows idx with
  | ok us => exact absurd ⟨us, (resolveAll_ok_iff _ _ _).mp hr⟩ h
  | error e => rw [resolveAll_error _ _ _ hr]; rfl

theorem pick_eq [Zero R] (A : Dense R) {idx : List Int} {us : List Nat}
    (h : NamesAll A.rows.length idx us) : A.pick idx = .ok ⟨A.cols, us.map (fun u j => A.get u j)⟩ := by
  unfold Dense.pick
  rw [(resolveAll_ok_iff _ _ _).mpr h]
  rfl

theorem pick_error [Zero R] (A : Dense R) {idx : List Int} (h : ¬ ∃ us, NamesAll A.rows.length idx us) :
    A.pick idx = .error .indexError := by
  unfold Dense.pick
  cases hr : resolveAll A.rows.length idx with
  | ok us => exact absurd ⟨us, (resolveAll_ok_iff _ _ _).mp hr⟩ h
  | error e => rw [resolveAll_error _ _ _ hr]; rfl

theorem take_drop_eq {A : Type} (d : A) (l : List A) (b e : Nat) (he : e ≤ l.length) :
    (l.take e).drop b = (List.range' b (e - b)).map (fun u => l.getD u d) := by
  apply List.ext_getElem
  · simp; omega
  · intro k h1 h2
    simp only [List.length_drop, List.length_take] at h1
    rw [List.getElem_drop, List.getElem_take, List.getElem_map, List.getElem_range',
      List.getD_eq_getElem _ _ (by omega)]
    congr 1
    omega

theorem clip_nat (n b : Nat) : clip n (b : Int) = min b n := by
  unfold clip
  rw [if_pos (by omega)]
  rfl

theorem sliceRows_eq (X : CSR R) (b e : Nat) (he : e ≤ X.nrows) :
    sliceRows X b e = ⟨X.cols, (List.range' b (e - b)).map X.row⟩ := by
  unfold sliceRows
  rw [clip_nat, clip_nat, Nat.min_eq_left he]
  congr 1
  rcases Nat.le_total b X.nrows with hb | hb
  · rw [Nat.min_eq_left hb]
    exact take_drop_eq [] X.rows b e he
  · rw [Nat.min_eq_right hb]
    have h1 : e - b = 0 := by omega
    rw [h1]
    simp only [List.range'_zero, List.map_nil]
    apply List.drop_eq_nil_of_le
    rw [List.length_take]
    exact (Nat.min_le_left _ _).trans he

theorem slice_eq [Zero R] (A : Dense R) (b e : Nat) (he : e ≤ A.rows.length) :
    A.slice b e = ⟨A.cols, (List.range' b (e - b)).map (fun u j => A.get u j)⟩ := by
  unfold Dense.slice
  rw [clip_nat, clip_nat, Nat.min_eq_left he]
  congr 1
  rcases Nat.le_total b A.rows.length with hb | hb
  · rw [Nat.min_eq_left hb]
    exact take_drop_eq (fun _ => 0) A.rows b e he
  · rw [Nat.min_eq_right hb]
    have h1 : e - b = 0 := by omega
    rw [h1]
    simp only [List.range'_zero, List.map_nil]
    apply List.drop_eq_nil_of_le
    rw [List.length_take]
    exact (Nat.min_le_left _ _).trans he

theorem clip_beyond (n : Nat) (e : Int) (h : (n : Int) ≤ e) : clip n e = n := by
  unfold clip
  rw [if_pos (by omega)]
  omega

section
variable [Semiring R]

theorem spGet_cons (e : Nat × R) (v : SpVec R) (j : Nat) :
    SpVec.get (e :: v) j = (if e.1 = j then e.2 else 0) + SpVec.get v j := by
  unfold SpVec.get
  by_cases h : e.1 = j
  · simp [h]
  · simp [h]

/-- summing over the stored entries is summing over all columns -/
theorem sum_entries_get (row : SpVec R) (N : Nat) (h : ∀ e ∈ row, e.1 < N) (f : Nat → R) :
    (row.map (fun e => e.2 * f e.1)).sum = ∑ i ∈ Finset.range N, SpVec.get row i * f i := by
  induction row with
  | nil => simp [SpVec.get]
  | cons e row ih =>
    rw [List.map_cons, List.sum_cons, ih (fun e' he' => h e' (by simp [he']))]
    have h1 : ∀ i ∈ Finset.range N, SpVec.get (e :: row) i * f i =
        (if e.1 = i then e.2 * f e.1 else 0) + SpVec.get row i * f i := by
      intro i _
      rw [spGet_cons, add_mul]
      by_cases hi : e.1 = i
      · rw [if_pos hi, if_pos hi, hi]
      · rw [if_neg hi, if_neg hi, zero_mul]
    rw [Finset.sum_congr rfl h1, Finset.sum_add_distrib, Finset.sum_ite_eq,
      if_pos (Finset.mem_range.mpr (h e (by simp)))]

theorem row_wf {X : CSR R} (hX : X.WF) (u : Nat) : ∀ e ∈ X.row u, e.1 < X.cols := by
  unfold CSR.row
  rcases Nat.lt_or_ge u X.rows.length with hu | hu
  · rw [List.getD_eq_getElem _ _ hu]
    exact hX _ (List.getElem_mem _)
  · rw [List.getD_eq_default _ _ hu]
    intro e he; cases he

theorem dotSparse_rows (X : CSR R) (W : Dense R) (us : List Nat) (hX : X.WF) (h : X.cols = W.rows.length) :
    dotSparse ⟨X.cols, us.map X.row⟩ W = .ok ⟨W.cols, us.map (itemBased X W.get)⟩ := by
  unfold dotSparse
  rw [if_pos h]
  congr 2
  rw [List.map_map]
  apply List.map_congr_left
  intro u _
  funext j
  exact sum_entries_get (X.row u) X.cols (row_wf hX u) (fun i => W.get i j)

theorem dotDense_rows (A B : Dense R) (us : List Nat) (h : A.cols = B.rows.length) :
    dotDense ⟨A.cols, us.map (fun u j => A.get u j)⟩ B =
      .ok ⟨B.cols, us.map (fun u j => ∑ c ∈ Finset.range A.cols, A.get u c * B.get c j)⟩ := by
  unfold dotDense
  rw [if_pos h, List.map_map]
  rfl

theorem T_length (A : Dense R) : A.T.rows.length = A.cols := by simp [Dense.T]

theorem T_cols (A : Dense R) : A.T.cols = A.rows.length := rfl

theorem T_get (A : Dense R) (c j : Nat) (hc : c < A.cols) : A.T.get c j = A.get j c := by
  unfold Dense.T Dense.get
  rw [List.getD_eq_getElem _ _ (by simpa using hc)]
  simp

theorem toDense_get (X : CSR R) (v j : Nat) (hv : v < X.nrows) : (toDense X).get v j = X.get v j := by
  unfold toDense Dense.get
  rw [List.getD_eq_getElem _ _ (by simpa using hv)]
  simp

theorem toDense_length (X : CSR R) : (toDense X).rows.length = X.nrows := by simp [toDense]

end

section
variable [Semiring R] [DecidableEq R]

theorem nonzeroAt_iff (m : CSR R) (u j : Nat) : nonzeroAt m u j = true ↔ Seen m u j := by
  unfold nonzeroAt Seen
  rw [List.any_eq_true]
  constructor
  · rintro ⟨e, he, h⟩
    simp only [Bool.and_eq_true, beq_iff_eq, decide_eq_true_eq] at h
    exact ⟨e.2, h.1 ▸ he, h.2⟩
  · rintro ⟨v, hv, h⟩
    exact ⟨(j, v), hv, by simp [h]⟩

open Classical in
theorem maskSeen_eq (m : CSR R) (s : Dense R) (hm : m.WF) (hc : m.cols ≤ s.cols)
    (hr : m.nrows ≤ s.rows.length) :
    maskSeen m s = .ok ⟨s.cols, s.rows.mapIdx (fun u row j =>
      if Seen m u j then ⊥ else (row j : WithBot R))⟩ := by
  unfold maskSeen
  rw [if_pos]
  · congr 2
    apply List.ext_getElem
    · simp
    · intro k _ _
      simp only [List.getElem_mapIdx]
      funext j
      by_cases h : Seen m k j
      · rw [if_pos h, if_pos ((nonzeroAt_iff m k j).mpr h)]
      · rw [if_neg h, if_neg (fun h' => h ((nonzeroAt_iff m k j).mp h'))]
  · rw [List.all_eq_true]
    intro u hu
    rw [List.mem_range] at hu
    rw [List.all_eq_true]
    intro e he
    have := row_wf hm u e he
    simp only [Bool.or_eq_true, Bool.and_eq_true, decide_eq_true_eq]
    right
    omega

end

end Irspack.Score
