import Verif.Model.NanServing
import Verif.Spec.NanServing
import Verif.Props.NanArgs
import Verif.Props.NanScores
import Verif.Proofs.Separate
import Verif.Proofs.Walk
import Verif.Proofs.Influence

/-!
# C112: what becomes of NaN arguments
-/

namespace Irspack.NanArgs
open Irspack Sim Irspack.Spec

theorem nan_mul (a : ℝ) : (Fp.fin a).mul .nan = .nan := rfl

theorem inner_fold (row : List (Nat × Fp)) (a : ℝ) (j : Nat) (acc : Fp) :
    row.foldl (fun acc b => if b.1 = j then acc.add ((Fp.fin a).mul b.2) else acc) acc =
      ((row.filter (fun b => decide (b.1 = j))).map (fun b => (Fp.fin a).mul b.2)).foldl Fp.add acc := by
  induction row generalizing acc with
  | nil => rfl
  | cons b row ih =>
    rw [List.foldl_cons, ih]
    by_cases h : b.1 = j
    · simp [h]
    · simp [h]

theorem score_terms (kind : KindFp) (s : Fp) (X : CSR ℝ) (u j : Nat) :
    scoreFp kind s X u j = ((X.row u).flatMap (fun a =>
      ((itemRowFp kind s X a.1).filter (fun b => decide (b.1 = j))).map (fun b => (Fp.fin a.2).mul b.2))).foldl
        Fp.add (.fin 0) := by
  unfold scoreFp
  generalize Fp.fin 0 = acc
  induction X.row u generalizing acc with
  | nil => rfl
  | cons a row ih => rw [List.foldl_cons, ih, List.flatMap_cons, List.foldl_append, inner_fold]

theorem foldl_of_nan {l : List Fp} (h : Fp.nan ∈ l) (acc : Fp) : l.foldl Fp.add acc = .nan := by
  induction l generalizing acc with
  | nil => simp at h
  | cons a l ih =>
    rcases List.mem_cons.mp h with h | h
    · rw [← h, List.foldl_cons, add_nan_right, foldl_nan]
    · exact ih h _

theorem foldl_zero {l : List Fp} (h : ∀ a ∈ l, a = .fin 0) : l.foldl Fp.add (.fin 0) = .fin 0 := by
  induction l with
  | nil => rfl
  | cons a l ih =>
    rw [List.foldl_cons, h a (by simp)]
    show l.foldl Fp.add (.fin (0 + 0)) = _
    rw [add_zero]
    exact ih (fun b hb => h b (by simp [hb]))

theorem stored_transpose {X : CSR ℝ} (hX : X.WF) {u i : Nat} {x : ℝ} : (i, x) ∈ X.row u ↔ (u, x) ∈ (transpose X).row i := by
  constructor
  · intro h
    have hu : u < X.nrows := by
      by_contra hc
      simp [CSR.row, List.getD_eq_getElem?_getD, List.getElem?_eq_none (Nat.le_of_not_lt hc)] at h
    have hi : i < X.cols := hX _ (row_mem X hu) _ h
    rw [transpose_row X hi]
    exact List.mem_flatMap.mpr ⟨u, List.mem_range.mpr hu, List.mem_filterMap.mpr ⟨_, h, by simp⟩⟩
  · intro h
    exact mem_transpose_row h

theorem shares_iff (t x : SpVec ℝ) : shares t x = true ↔ ∃ k, (∃ a, (k, a) ∈ t) ∧ ∃ b, (k, b) ∈ x := by
  unfold shares
  simp only [List.any_eq_true, decide_eq_true_eq]
  constructor
  · rintro ⟨e, he, f, hf, h⟩
    exact ⟨e.1, ⟨_, he⟩, f.2, by rw [← h]; exact hf⟩
  · rintro ⟨k, ⟨a, ha⟩, b, hb⟩
    exact ⟨_, ha, _, hb, rfl⟩

theorem productRow_keys (t : SpVec ℝ) (X : CSR ℝ) (j : Nat) :
    (∃ v, (j, v) ∈ productRow t X) ↔ j < X.nrows ∧ ∃ k, (∃ a, (k, a) ∈ t) ∧ ∃ b, (k, b) ∈ X.row j := by
  rw [productRow_eq, ← shares_iff]
  simp only [List.mem_map, List.mem_filter, List.mem_range]
  constructor
  · rintro ⟨v, i, ⟨h1, h2⟩, h3⟩
    injection h3 with h3 _
    subst h3
    exact ⟨h1, h2⟩
  · rintro ⟨h1, h2⟩
    exact ⟨_, j, ⟨h1, h2⟩, rfl⟩

theorem binarize_keys (t : SpVec ℝ) (k : Nat) : (∃ a, (k, a) ∈ binarize t) ↔ ∃ a, (k, a) ∈ t := by
  unfold binarize
  simp only [List.mem_map]
  constructor
  · rintro ⟨a, e, he, h⟩
    injection h with h _
    exact ⟨e.2, by rw [← h]; exact he⟩
  · rintro ⟨a, ha⟩
    exact ⟨1, _, ha, rfl⟩

theorem simRowFp_keys (kind : KindFp) (s : Fp) (X : CSR ℝ) (t : SpVec ℝ) (j : Nat) :
    (∃ v, (j, v) ∈ simRowFp kind s X t) ↔ j < X.nrows ∧ ∃ k, (∃ a, (k, a) ∈ t) ∧ ∃ b, (k, b) ∈ X.row j := by
  have hmap : ∀ (row : SpVec ℝ) (f : Nat × ℝ → Fp), (∃ v, (j, v) ∈ row.map (fun e => (e.1, f e))) ↔ ∃ v, (j, v) ∈ row := by
    intro row f
    simp only [List.mem_map]
    constructor
    · rintro ⟨v, e, he, h⟩
      injection h with h _
      exact ⟨e.2, by rw [← h]; exact he⟩
    · rintro ⟨v, hv⟩
      exact ⟨_, _, hv, rfl⟩
  have hb : (∃ v, (j, v) ∈ productRow (binarize t) ⟨X.cols, X.rows.map binarize⟩) ↔
      j < X.nrows ∧ ∃ k, (∃ a, (k, a) ∈ t) ∧ ∃ b, (k, b) ∈ X.row j := by
    rw [productRow_keys]
    have hrow : CSR.row (⟨X.cols, X.rows.map binarize⟩ : CSR ℝ) j = binarize (X.row j) := by
      exact row_mapRows X.cols X.rows binarize rfl j
    rw [hrow]
    simp only [binarize_keys]
    simp [CSR.nrows]
  unfold simRowFp
  simp only
  rw [hmap]
  cases kind with
  | cosine => exact productRow_keys _ _ _
  | asymmetric => exact productRow_keys _ _ _
  | jaccard => exact hb
  | tversky => exact hb

/-- C112 fails for NaN.  With a NaN `shrinkage`, or a NaN argument of the Tversky index, and a `top_k` that keeps all
neighbours, the score of a user for an item is NaN if the item shares a user with another item of that user; the
other scores are 0. -/
theorem C112_nan_scores_counterexample (kind : KindFp) (s : Fp)
    (h : s = .nan ∨ (∃ b, kind = .tversky .nan b) ∨ ∃ a, kind = .tversky a .nan) (X : CSR ℝ) (hX : X.WF) (u j : Nat) :
    ((∃ i, i ≠ j ∧ Has X u i ∧ Together X i j) → scoreFp kind s X u j = .nan) ∧
    (¬ (∃ i, i ≠ j ∧ Has X u i ∧ Together X i j) → scoreFp kind s X u j = .fin 0) := by
  have hnan : ∀ X t, ∀ e ∈ simRowFp kind s X t, e.2 = .nan := by
    intro X t
    rcases h with rfl | ⟨b, rfl⟩ | ⟨a, rfl⟩
    · exact C112_nan_counterexample.2.1 kind X t
    · exact (C112_nan_counterexample.2.2.2 s b X t).1
    · exact (C112_nan_counterexample.2.2.2 s a X t).2
  have hkeys : ∀ i, (∃ v, (j, v) ∈ simRowFp kind s (transpose X) ((transpose X).row i)) ↔ Together X i j := by
    intro i
    rw [simRowFp_keys]
    unfold Together Has
    simp only [← stored_transpose hX]
    constructor
    · rintro ⟨-, h⟩; exact h
    · rintro ⟨w, h1, x, hx⟩
      refine ⟨?_, w, h1, x, hx⟩
      rw [transpose_nrows]
      have hw : w < X.nrows := by
        by_contra hc
        simp [CSR.row, List.getD_eq_getElem?_getD, List.getElem?_eq_none (Nat.le_of_not_lt hc)] at hx
      exact hX _ (row_mem X hw) _ hx
  rw [score_terms]
  refine ⟨?_, fun hno => foldl_zero ?_⟩
  · rintro ⟨i, hij, ⟨x, hx⟩, ht⟩
    apply foldl_of_nan
    obtain ⟨v, hv⟩ := (hkeys i).mpr ht
    have hvn : v = .nan := hnan _ _ _ hv
    subst hvn
    refine List.mem_flatMap.mpr ⟨_, hx, List.mem_map.mpr ⟨(j, .nan), List.mem_filter.mpr ⟨?_, by simp⟩, rfl⟩⟩
    exact List.mem_map.mpr ⟨_, hv, by simp [hij]⟩
  · intro a ha
    obtain ⟨⟨i, x⟩, hx, ha⟩ := List.mem_flatMap.mp ha
    obtain ⟨⟨j', v⟩, hv, rfl⟩ := List.mem_map.mp ha
    have hj : j' = j := by simpa using List.of_mem_filter hv
    have hw := List.mem_of_mem_filter hv
    subst hj
    unfold itemRowFp zeroAtFp at hw
    obtain ⟨f, hf, hfe⟩ := List.mem_map.mp hw
    simp only at hfe hf
    by_cases hi : i = f.1
    · rw [if_pos hi] at hfe
      injection hfe with _ hfe
      subst hfe
      simp [Fp.mul]
    · rw [if_neg hi] at hfe
      subst hfe
      exact absurd ⟨i, hi, ⟨x, hx⟩, (hkeys i).mp ⟨v, hf⟩⟩ hno

/-! ### Finite arguments -/

theorem sum_flatMap_map {A : Type} (l : List A) (f : A → List ℝ) : (l.flatMap f).sum = (l.map (fun a => (f a).sum)).sum := by
  induction l with
  | nil => rfl
  | cons a l ih => simp [ih]

theorem zeroAt_sum (i j : Nat) (a : ℝ) (row : SpVec ℝ) :
    (((zeroAt i row).filter (fun b => decide (b.1 = j))).map (fun b => a * b.2)).sum =
      a * if i = j then 0 else row.get j := by
  unfold SpVec.get
  induction row with
  | nil => simp [zeroAt]
  | cons e row ih =>
    unfold zeroAt at ih ⊢
    by_cases h : e.1 = j
    · by_cases hi : i = j
      · subst hi; subst h
        simp at ih ⊢
        exact ih
      · subst h
        simp [hi] at ih ⊢
        rw [ih]; ring
    · by_cases hi : i = e.1
      · have hij : i ≠ j := fun hc => h (hi ▸ hc)
        simp [h, hi] at ih ⊢
        exact ih
      · simp [h, hi] at ih ⊢
        exact ih

/-- C112 for finite arguments: every score is a number, the sum over the user's interactions of their value times the
similarity of the two items. -/
theorem C112_finite_scores {kind : KindFp} {k : Kind} (hk : IsReal kind k) (s : ℝ) (hs : 0 ≤ s) (X : CSR ℝ)
    (hX : Spec.Sim.Proper X) (hz : Spec.Sim.NoStoredZero X) (u j : Nat) (hj : j < X.cols) :
    scoreFp kind (.fin s) X u j = .fin (((X.row u).map (fun a => a.2 * if a.1 = j then 0 else
      formula k X.nrows s (fun w => X.get w a.1) (fun w => X.get w j))).sum) := by
  have hT := transpose_proper X hX
  have hzT := transpose_noZero X hz
  have hrow : ∀ i, itemRowFp kind (.fin s) X i =
      (zeroAt i (simRow k s (transpose X) ((transpose X).row i))).map (fun e => (e.1, Fp.fin e.2)) := by
    intro i
    unfold itemRowFp
    rw [C112_finite hk s hs _ hT _ (row_bound hT i) (row_nodup hT i) hzT (row_nonzero hzT i)]
    unfold zeroAtFp zeroAt
    rw [List.map_map, List.map_map]
    apply List.map_congr_left
    intro e _
    simp only [Function.comp]
    split_ifs <;> rfl
  rw [score_terms]
  have : (X.row u).flatMap (fun a =>
      ((itemRowFp kind (.fin s) X a.1).filter (fun b => decide (b.1 = j))).map (fun b => (Fp.fin a.2).mul b.2)) =
      ((X.row u).flatMap (fun a => ((zeroAt a.1 (simRow k s (transpose X) ((transpose X).row a.1))).filter
        (fun b => decide (b.1 = j))).map (fun b => a.2 * b.2))).map Fp.fin := by
    rw [List.map_flatMap]
    apply List.flatMap_congr
    intro a _
    rw [hrow, List.filter_map, List.map_map, List.map_map]
    rfl
  rw [this, foldl_fin, zero_add, sum_flatMap_map]
  simp only [zeroAt_sum]
  congr 2
  apply List.map_congr_left
  intro a ha
  by_cases h : a.1 = j
  · simp [h]
  · simp only [h, if_false]
    rw [simRow_get k s _ hT _ (row_bound hT _) (row_nodup hT _) (fun _ => ⟨hzT, row_nonzero hzT _⟩) j
      (by rw [transpose_nrows]; exact hj)]
    rw [transpose_cols]
    have hg : ∀ i, ((transpose X).row i).get = fun w => X.get w i := fun i => funext (transpose_get X hX i)
    rw [hg, hg]

/-! ### Evaluation -/

open Nan in
theorem evaluated_tied (sort : Nat → List (Option EReal × Nat) → List (Option EReal × Nat))
    (hs : ∀ k l, Spec.Nan.PartialSorted pairLess k l (sort k l)) (nItems cutoff : Nat) (masked : Nat → Bool)
    (row : Nat → Option EReal) (h1 : ∀ i, i < nItems → masked i = true → row i = some ⊥)
    (h2 : ∀ i, i < nItems → masked i = false → row i = none ∨ row i = some 0) :
    evaluated sort nItems none cutoff row = ((List.range nItems).filter (fun i => !masked i)).take cutoff := by
  have hn : ∀ a ∈ candidates nItems none row, (a.1 = none ∨ a.1 = some 0) ∧ a.2 < nItems ∧ masked a.2 = false := by
    intro a ha
    have hf := List.of_mem_filter ha
    obtain ⟨i, hi, rfl⟩ := List.mem_map.mp (List.mem_of_mem_filter ha)
    have hi' : i < nItems := List.mem_range.mp hi
    cases hm : masked i with
    | true => simp [h1 i hi' hm] at hf
    | false => exact ⟨h2 i hi' hm, hi', rfl⟩
  rw [evaluated_eq sort nItems none cutoff row (fun i => if masked i then ⊥ else 0)
    (fun a => (if masked a.2 then ⊥ else 0, a.2)) (fun _ => rfl) ?_ ?_ ?_ hs]
  · unfold Evaluation.topCutoff Evaluation.candidates
    simp only
    have hc : (((List.range nItems).map (fun i => ((if masked i then ⊥ else 0 : EReal), i))).filter
        (fun p => decide (p.1 ≠ ⊥))) = ((List.range nItems).filter (fun i => !masked i)).map (fun i => ((0 : EReal), i)) := by
      rw [List.filter_map]
      have hf : (List.range nItems).filter ((fun p : EReal × Nat => decide (p.1 ≠ ⊥)) ∘
          fun i => ((if masked i then ⊥ else 0 : EReal), i)) = (List.range nItems).filter (fun i => !masked i) := by
        apply List.filter_congr
        intro i _
        cases hm : masked i <;> simp [hm]
      rw [hf]
      apply List.map_congr_left
      intro i hi
      have := List.of_mem_filter hi
      simp at this
      simp [this]
    rw [hc, List.mergeSort_of_pairwise]
    · rw [← List.map_take, List.map_map, List.length_map]
      have : (Prod.snd ∘ fun i : Nat => ((0 : EReal), i)) = id := rfl
      rw [this, List.map_id, ← List.take_eq_take_min]
    · rw [List.pairwise_map]
      refine ((List.pairwise_lt_range (n := nItems)).filter _).imp ?_
      intro a b hab
      rw [Evaluation.pairLE_iff]
      exact .inr ⟨rfl, hab.le⟩
  · unfold candidates Evaluation.candidates
    rw [List.filter_map, List.map_map, List.filter_map]
    congr 1
    apply List.filter_congr
    intro i hi
    have hi' : i < nItems := List.mem_range.mp hi
    cases hm : masked i with
    | true => simp [h1 i hi' hm, hm]
    | false => rcases h2 i hi' hm with h | h <;> simp [h, hm]
  · rintro ⟨a, i⟩ ha ⟨b, j⟩ hb h
    obtain ⟨hx, -, hx'⟩ := hn _ ha
    obtain ⟨hy, -, hy'⟩ := hn _ hb
    simp only at hx hy hx' hy'
    rw [Evaluation.pairLE_iff]
    have hij : i ≤ j := by
      rcases hx with rfl | rfl <;> rcases hy with rfl | rfl <;> simpa [pairLess, below] using h
    simp [hx', hy', hij]
  · rw [C103_defined_iff _ (candidates_unique _ _ _)]
    intro i n j x y hi _ hj _ _
    have e1 := (hn _ hi).1
    have e2 := (hn _ hj).1
    simp at e1 e2
    rw [e1, e2]

/-- C112 fails for NaN.  With a NaN `shrinkage` the evaluator raises nothing and takes, for each user, the items that are
not masked with the smallest numbers, whatever the data. -/
theorem C112_nan_evaluated_counterexample (sort : Nat → List (Option EReal × Nat) → List (Option EReal × Nat))
    (hs : ∀ k l, Spec.Nan.PartialSorted Nan.pairLess k l (sort k l)) (kind : KindFp)
    (hk : construct kind (.fin 0) = .ok ()) (X : CSR ℝ) (hX : X.WF) (u cutoff : Nat) (masked : Nat → Bool) :
    construct kind .nan = .ok () ∧
    Nan.evaluated sort X.cols none cutoff (fun j => if masked j then some ⊥ else (scoreFp kind .nan X u j).read) =
      ((List.range X.cols).filter (fun j => !masked j)).take cutoff := by
  refine ⟨C112_nan_counterexample.1 kind hk, evaluated_tied sort hs X.cols cutoff masked _ ?_ ?_⟩
  · intro i _ hm; simp [hm]
  · intro i _ hm
    have h := C112_nan_scores_counterexample kind .nan (.inl rfl) X hX u i
    simp only [hm]
    by_cases hc : ∃ i', i' ≠ i ∧ Has X u i' ∧ Together X i' i
    · left; rw [h.1 hc]; rfl
    · right; rw [h.2 hc]; simp [Fp.read]

/-- Two users and three items: the first user's score for item 1 is NaN, for item 2 it is 0. -/
example : scoreFp .cosine .nan ⟨3, [[(0, 1), (1, 2)], [(1, 1)]]⟩ 0 1 = .nan ∧
    scoreFp .cosine .nan ⟨3, [[(0, 1), (1, 2)], [(1, 1)]]⟩ 0 2 = .fin 0 := by
  have hX : (⟨3, [[(0, 1), (1, 2)], [(1, 1)]]⟩ : CSR ℝ).WF := by
    unfold CSR.WF
    simp only [List.forall_mem_cons]
    simp
  refine ⟨(C112_nan_scores_counterexample .cosine .nan (.inl rfl) _ hX 0 1).1 ⟨0, by decide, ⟨1, ?_⟩, 0, ⟨1, ?_⟩, ⟨2, ?_⟩⟩,
    (C112_nan_scores_counterexample .cosine .nan (.inl rfl) _ hX 0 2).2 ?_⟩
  · simp [CSR.row]
  · simp [CSR.row]
  · simp [CSR.row]
  · rintro ⟨i, -, -, w, -, x, hx⟩
    rcases w with _ | _ | w <;> simp [CSR.row] at hx

end Irspack.NanArgs
