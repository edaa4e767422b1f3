import Verif.Proofs.Silent
import Verif.Proofs.Scale
import Verif.Spec.Zeros
import Verif.Spec.Scale
import Verif.Model.Slim
import Verif.Model.Score

/-! Helper lemmas for C94: matrices in which zeros are stored. -/

namespace Irspack.Sim
open Spec.Sim Spec.Zeros Spec.Scale

section
variable {R : Type} [AddMonoid R] [DecidableEq R]

theorem kept_sum {M : Type} [AddMonoid M] (f : Nat × R → M) (h : ∀ i, f (i, 0) = 0) (v : SpVec R) :
    ((kept v).map f).sum = (v.map f).sum := by
  induction v with
  | nil => rfl
  | cons e v ih =>
    obtain ⟨i, x⟩ := e
    unfold kept at ih ⊢
    rw [List.filter_cons]
    by_cases hx : x = 0
    · subst hx
      rw [if_neg (by simp), ih, List.map_cons, List.sum_cons, h, zero_add]
    · rw [if_pos (by simpa using hx), List.map_cons, List.map_cons, List.sum_cons, List.sum_cons, ih]

theorem kept_get (v : SpVec R) (j : Nat) : (kept v).get j = v.get j := by
  have h : ∀ w : SpVec R, w.get j = (w.map (fun e => if e.1 = j then e.2 else 0)).sum := by
    intro w
    unfold SpVec.get
    induction w with
    | nil => rfl
    | cons e w ih =>
      rw [List.map_cons, List.sum_cons, ← ih, List.filter_cons]
      by_cases he : e.1 = j
      · rw [if_pos (by simpa using he), if_pos he, List.map_cons, List.sum_cons]
      · rw [if_neg (by simpa using he), if_neg he, zero_add]
  rw [h, h]
  exact kept_sum (fun e : Nat × R => if e.1 = j then e.2 else 0) (fun i => by simp) v

theorem mem_kept (v : SpVec R) (e : Nat × R) : e ∈ kept v ↔ e ∈ v ∧ e.2 ≠ 0 := by
  unfold kept
  rw [List.mem_filter]
  simp

theorem kept_kept (v : SpVec R) : kept (kept v) = kept v := by
  unfold kept
  rw [List.filter_filter]
  simp

theorem withoutZeros_row (X : CSR R) (i : Nat) : (withoutZeros X).row i = kept (X.row i) := by
  unfold CSR.row withoutZeros
  simp only [List.getD_eq_getElem?_getD, List.getElem?_map]
  cases X.rows[i]? with
  | none => rfl
  | some r => rfl

theorem withoutZeros_nrows (X : CSR R) : (withoutZeros X).nrows = X.nrows := by
  simp [withoutZeros, CSR.nrows]

theorem withoutZeros_get (X : CSR R) (i j : Nat) : (withoutZeros X).get i j = X.get i j := by
  unfold CSR.get
  rw [withoutZeros_row, kept_get]

theorem withoutZeros_twice (X : CSR R) : withoutZeros (withoutZeros X) = withoutZeros X := by
  unfold withoutZeros
  simp only [List.map_map, CSR.mk.injEq, true_and]
  exact List.map_congr_left (fun r _ => kept_kept r)

end

theorem nonNegative_row {X : CSR ℝ} (hX : NonNegative X) (i : Nat) : ∀ e ∈ X.row i, 0 ≤ e.2 := by
  by_cases h : i < X.nrows
  · exact hX _ (row_mem X h)
  · rw [row_nil X h]; intro e he; cases he

theorem nonNegative_get {v : SpVec ℝ} (hv : ∀ e ∈ v, 0 ≤ e.2) (j : Nat) : 0 ≤ v.get j := by
  unfold SpVec.get
  apply List.sum_nonneg
  intro x hx
  obtain ⟨e, he, rfl⟩ := List.mem_map.mp hx
  exact hv e (List.mem_filter.mp he).1

theorem sum_ne_zero_iff {A : Type} (l : List A) (f : A → ℝ) (h : ∀ a ∈ l, 0 ≤ f a) :
    (l.map f).sum ≠ 0 ↔ ∃ a ∈ l, f a ≠ 0 := by
  induction l with
  | nil => simp
  | cons a l ih =>
    have h1 := h a List.mem_cons_self
    have h2 := ih (fun b hb => h b (List.mem_cons_of_mem _ hb))
    have h3 : 0 ≤ (l.map f).sum := List.sum_nonneg (by
      intro x hx
      obtain ⟨b, hb, rfl⟩ := List.mem_map.mp hx
      exact h b (List.mem_cons_of_mem _ hb))
    rw [List.map_cons, List.sum_cons]
    constructor
    · intro hne
      by_cases ha : f a = 0
      · obtain ⟨b, hb, hfb⟩ := h2.mp (by rw [ha, zero_add] at hne; exact hne)
        exact ⟨b, List.mem_cons_of_mem _ hb, hfb⟩
      · exact ⟨a, List.mem_cons_self, ha⟩
    · rintro ⟨b, hb, hfb⟩
      rcases List.mem_cons.mp hb with rfl | hb
      · have := lt_of_le_of_ne h1 (Ne.symm hfb)
        linarith
      · have := lt_of_le_of_ne h3 (Ne.symm (h2.mpr ⟨b, hb, hfb⟩))
        linarith

theorem get_ne_zero_iff {v : SpVec ℝ} (hv : ∀ e ∈ v, 0 ≤ e.2) (j : Nat) : v.get j ≠ 0 ↔ ∃ e ∈ v, e.1 = j ∧ e.2 ≠ 0 := by
  unfold SpVec.get
  rw [sum_ne_zero_iff _ _ (fun e he => hv e (List.mem_filter.mp he).1)]
  constructor
  · rintro ⟨e, he, h⟩
    obtain ⟨h1, h2⟩ := List.mem_filter.mp he
    exact ⟨e, h1, by simpa using h2, h⟩
  · rintro ⟨e, he, h1, h⟩
    exact ⟨e, List.mem_filter.mpr ⟨he, by simpa using h1⟩, h⟩

theorem productRow_kept (t : SpVec ℝ) (X : CSR ℝ) (ht : ∀ e ∈ t, 0 ≤ e.2) (hX : NonNegative X) :
    productRow (kept t) (withoutZeros X) = kept (productRow t X) ∧ ∀ e ∈ productRow t X, 0 ≤ e.2 := by
  have hterm : ∀ j, ∀ e ∈ t, 0 ≤ e.2 * (X.row j).get e.1 := fun j e he =>
    mul_nonneg (ht e he) (nonNegative_get (nonNegative_row hX j) _)
  have hval : ∀ j, ((kept t).map (fun e => e.2 * ((withoutZeros X).row j).get e.1)).sum =
      (t.map (fun e => e.2 * (X.row j).get e.1)).sum := by
    intro j
    rw [withoutZeros_row]
    simp only [kept_get]
    exact kept_sum (fun e : Nat × ℝ => e.2 * (X.row j).get e.1) (fun i => by simp) t
  constructor
  · rw [productRow_eq, productRow_eq, withoutZeros_nrows]
    conv_rhs => rw [kept, List.filter_map, List.filter_filter]
    simp only [hval]
    congr 1
    apply List.filter_congr
    intro j _
    rw [Bool.eq_iff_iff]
    simp only [Function.comp, Bool.and_eq_true, decide_eq_true_eq]
    rw [sum_ne_zero_iff _ _ (hterm j), withoutZeros_row]
    unfold shares
    simp only [List.any_eq_true, decide_eq_true_eq]
    constructor
    · rintro ⟨e, he, f, hf, hfe⟩
      rw [mem_kept] at he hf
      refine ⟨⟨e, he.1, mul_ne_zero he.2 ?_⟩, e, he.1, f, hf.1, hfe⟩
      exact (get_ne_zero_iff (nonNegative_row hX j) _).mpr ⟨f, hf.1, hfe, hf.2⟩
    · rintro ⟨⟨e, he, hne⟩, -⟩
      obtain ⟨f, hf, hfe, hf0⟩ := (get_ne_zero_iff (nonNegative_row hX j) e.1).mp (right_ne_zero_of_mul hne)
      exact ⟨e, (mem_kept _ _).mpr ⟨he, left_ne_zero_of_mul hne⟩, f, (mem_kept _ _).mpr ⟨hf, hf0⟩, hfe⟩
  · intro e he
    rw [productRow_eq] at he
    obtain ⟨j, -, rfl⟩ := List.mem_map.mp he
    apply List.sum_nonneg
    intro x hx
    obtain ⟨e, he, rfl⟩ := List.mem_map.mp hx
    exact hterm j e he

theorem sqNorm_kept (v : SpVec ℝ) : sqNorm (kept v) = sqNorm v :=
  kept_sum (fun e : Nat × ℝ => e.2 ^ 2) (fun i => by simp) v

theorem sqNorm_nonneg' (v : SpVec ℝ) : 0 ≤ sqNorm v := by
  unfold sqNorm
  apply List.sum_nonneg
  intro x hx
  obtain ⟨e, -, rfl⟩ := List.mem_map.mp hx
  positivity

/-- the kinds that look at values only -/
def ByValue : Kind → Prop
  | .cosine _ => True
  | .asymmetric _ => True
  | .raw => True
  | _ => False

theorem kept_map_div (v : SpVec ℝ) (d : Nat → ℝ) (hd : ∀ j, d j ≠ 0) :
    (kept v).map (fun e => (e.1, e.2 / d e.1)) = kept (v.map (fun e => (e.1, e.2 / d e.1))) := by
  unfold kept
  rw [List.filter_map]
  congr 1
  apply List.filter_congr
  intro e _
  simp only [Function.comp, ne_eq, div_eq_zero_iff, hd, or_false]

theorem simRow_kept (kind : Kind) (hk : ByValue kind) (s : ℝ) (hs : 0 ≤ s) (X : CSR ℝ) (t : SpVec ℝ)
    (ht : ∀ e ∈ t, 0 ≤ e.2) (hX : NonNegative X) :
    simRow kind s (withoutZeros X) (kept t) = kept (simRow kind s X t) ∧ ∀ e ∈ simRow kind s X t, 0 ≤ e.2 := by
  obtain ⟨h1, h2⟩ := productRow_kept t X ht hX
  have key : ∀ d : Nat → ℝ, (∀ j, 0 < d j) → (productRow (kept t) (withoutZeros X)).map (fun e => (e.1, e.2 / d e.1)) =
      kept ((productRow t X).map (fun e => (e.1, e.2 / d e.1))) ∧
      ∀ e ∈ (productRow t X).map (fun e => (e.1, e.2 / d e.1)), 0 ≤ e.2 := by
    intro d hd
    refine ⟨by rw [h1]; exact kept_map_div _ d (fun j => (hd j).ne'), ?_⟩
    intro e he
    obtain ⟨f, hf, rfl⟩ := List.mem_map.mp he
    exact div_nonneg (h2 f hf) (hd _).le
  cases kind with
  | raw => exact ⟨h1, h2⟩
  | jaccard => exact hk.elim
  | tversky _ _ => exact hk.elim
  | asymmetric a =>
    simp only [simRow, withoutZeros_row, sqNorm_kept]
    refine key (fun j => sqNorm (X.row j) ^ (1 - a) * sqNorm t ^ a + s + 1e-6) (fun j => ?_)
    have := mul_nonneg (Real.rpow_nonneg (sqNorm_nonneg' (X.row j)) (1 - a)) (Real.rpow_nonneg (sqNorm_nonneg' t) a)
    have : (0 : ℝ) < 1e-6 := by norm_num
    linarith
  | cosine b =>
    cases b with
    | false => exact ⟨h1, h2⟩
    | true =>
      simp only [simRow, withoutZeros_row, sqNorm_kept]
      refine key (fun j => Real.sqrt (sqNorm (X.row j)) * Real.sqrt (sqNorm t) + s + 1e-6) (fun j => ?_)
      have := mul_nonneg (Real.sqrt_nonneg (sqNorm (X.row j))) (Real.sqrt_nonneg (sqNorm t))
      have : (0 : ℝ) < 1e-6 := by norm_num
      linarith

/-- the best entries that are not zero are the best of those that are not zero -/
theorem bestOf_kept (k : Nat) (row : SpVec ℝ) (h : ∀ e ∈ row, 0 ≤ e.2) : bestOf k (kept row) = kept (bestOf k row) := by
  classical
  unfold bestOf kept
  rw [List.filter_filter, List.filter_filter]
  apply List.filter_congr
  intro e he
  rw [Bool.eq_iff_iff]
  simp only [Bool.and_eq_true, decide_eq_true_eq]
  refine ⟨fun ⟨h1, h2⟩ => ⟨h2, ?_⟩, fun ⟨h1, h2⟩ => ⟨?_, h1⟩⟩
  · refine lt_of_eq_of_lt ?_ h1
    rw [List.countP_filter]
    apply List.countP_congr
    intro f hf
    simp only [Bool.and_eq_true, decide_eq_true_eq]
    refine ⟨fun hb => ⟨hb, ?_⟩, fun hb => hb.1⟩
    have := lt_of_le_of_ne (h e he) (Ne.symm h2)
    rcases hb with hb | hb
    · exact (this.trans hb).ne'
    · rw [hb.1]; exact this.ne'
  · exact lt_of_le_of_lt (List.Sublist.countP_le List.filter_sublist) h2

theorem computeSimilarity_withoutZeros {nth : Nat → SpVec ℝ → List Nat} (hnth : NthOk nth) (kind : Kind) (hk : ByValue kind)
    (s : ℝ) (X target : CSR ℝ) (hX : NonNegative X) (ht : NonNegative target) (T chunk k : Nat) :
    computeSimilarity nth kind s (withoutZeros X) (withoutZeros target) T chunk k =
      (computeSimilarity nth kind s X target T chunk k).map withoutZeros := by
  by_cases ha : Accepted kind s X target T chunk
  · have ha' : Accepted kind s (withoutZeros X) (withoutZeros target) T chunk := ha
    rw [computeSimilarity_eq hnth _ _ _ _ _ _ _ ha, computeSimilarity_eq hnth _ _ _ _ _ _ _ ha', withoutZeros_nrows,
      withoutZeros_nrows]
    simp only [Except.map, withoutZeros, List.map_map, Except.ok.injEq, CSR.mk.injEq, true_and]
    apply List.map_congr_left
    intro r _
    obtain ⟨h1, h2⟩ := simRow_kept kind hk s ha.1 X (target.row r) (nonNegative_row ht r) hX
    have := withoutZeros_row target r
    simp only [withoutZeros] at this h1
    simp only [Function.comp]
    rw [this, h1, bestOf_kept k _ h2]
  · have ha' : ¬ Accepted kind s (withoutZeros X) (withoutZeros target) T chunk := ha
    rw [computeSimilarity_error _ _ _ _ _ _ _ _ ha, computeSimilarity_error _ _ _ _ _ _ _ _ ha']
    rfl

theorem removeDiagonal_withoutZeros (S : CSR ℝ) :
    (removeDiagonal (withoutZeros S)).map withoutZeros = (removeDiagonal S).map withoutZeros := by
  unfold removeDiagonal
  rw [withoutZeros_nrows]
  have hc : (withoutZeros S).cols = S.cols := rfl
  rw [hc]
  by_cases h : S.nrows ≠ S.cols
  · rw [if_pos h, if_pos h]
  · rw [if_neg h, if_neg h]
    simp only [Except.map, withoutZeros, Except.ok.injEq, CSR.mk.injEq, true_and]
    apply List.ext_getElem?
    intro i
    simp only [List.getElem?_map, List.getElem?_mapIdx, Option.map_map]
    cases S.rows[i]? with
    | none => rfl
    | some row =>
      simp only [Option.map_some, Function.comp, Option.some.injEq]
      unfold zeroAt kept
      induction row with
      | nil => rfl
      | cons e row ih =>
        rw [List.filter_cons]
        by_cases he : e.2 = 0
        · rw [if_neg (by simpa using he), ih, List.map_cons, List.filter_cons, if_neg]
          by_cases hi : i = e.1
          · rw [if_pos hi]; simp
          · rw [if_neg hi]; simpa using he
        · rw [if_pos (by simpa using he), List.map_cons, List.map_cons, List.filter_cons, List.filter_cons, ih]

theorem transpose_withoutZeros (X : CSR ℝ) : transpose (withoutZeros X) = withoutZeros (transpose X) := by
  have h : ∀ i j, ((withoutZeros X).row i).filterMap (fun e => if e.1 = j then some (i, e.2) else none) =
      kept ((X.row i).filterMap (fun e => if e.1 = j then some (i, e.2) else none)) := by
    intro i j
    rw [withoutZeros_row]
    unfold kept
    rw [List.filterMap_filter, List.filter_filterMap]
    apply List.filterMap_congr
    intro e _
    by_cases he : e.1 = j <;> by_cases h0 : e.2 = 0 <;> simp [he, h0, Option.filter]
  unfold transpose
  rw [withoutZeros_nrows]
  simp only [h]
  simp only [withoutZeros, List.map_map, CSR.mk.injEq, true_and]
  apply List.map_congr_left
  intro j _
  simp only [Function.comp, kept, List.filter_flatMap]

/-! ### random walks -/

theorem rpow_ne_zero_iff {x a : ℝ} (hx : 0 ≤ x) (ha : 0 < a) : x ^ a ≠ 0 ↔ x ≠ 0 := by
  rw [Ne, Real.rpow_eq_zero hx ha.ne']

theorem kept_map_of (v : SpVec ℝ) (f : Nat × ℝ → ℝ) (hf : ∀ e ∈ v, f e ≠ 0 ↔ e.2 ≠ 0) :
    (kept v).map (fun e => (e.1, f e)) = kept (v.map (fun e => (e.1, f e))) := by
  unfold kept
  rw [List.filter_map]
  congr 1
  apply List.filter_congr
  intro e he
  simp only [Function.comp]
  rw [Bool.eq_iff_iff]
  simp only [decide_eq_true_eq]
  exact (hf e he).symm

theorem rowPower_ne_zero {alpha : ℝ} (ha : 0 < alpha) {row : SpVec ℝ} (hr : ∀ e ∈ row, 0 ≤ e.2) {e : Nat × ℝ} (he : e ∈ row)
    (h : e.2 ≠ 0) : (row.map (fun e => e.2 ^ alpha)).sum ≠ 0 :=
  (sum_ne_zero_iff row (fun e => e.2 ^ alpha) (fun a h => Real.rpow_nonneg (hr a h) _)).mpr
    ⟨e, he, (rpow_ne_zero_iff (hr e he) ha).mpr h⟩

theorem itemToUser_withoutZeros (alpha : ℝ) (ha : 0 < alpha) (X : CSR ℝ) (hX : NonNegative X) :
    itemToUser alpha (withoutZeros X) = withoutZeros (itemToUser alpha X) ∧ NonNegative (itemToUser alpha X) := by
  constructor
  · unfold itemToUser withoutZeros
    simp only [List.map_map, CSR.mk.injEq, true_and]
    apply List.map_congr_left
    intro row hrow
    simp only [Function.comp]
    rw [kept_sum (fun e : Nat × ℝ => e.2 ^ alpha) (fun i => Real.zero_rpow ha.ne')]
    refine kept_map_of row (fun e => e.2 ^ alpha / (row.map (fun e => e.2 ^ alpha)).sum) (fun e he => ?_)
    constructor
    · intro h h0
      apply h
      simp only [h0, Real.zero_rpow ha.ne', zero_div]
    · intro h
      exact div_ne_zero ((rpow_ne_zero_iff (hX row hrow e he) ha).mpr h) (rowPower_ne_zero ha (hX row hrow) he h)
  · intro row hrow e he
    obtain ⟨r, hr, rfl⟩ := List.mem_map.mp hrow
    obtain ⟨f, hf, rfl⟩ := List.mem_map.mp he
    apply div_nonneg (Real.rpow_nonneg (hX r hr f hf) _)
    apply List.sum_nonneg
    intro x hx
    obtain ⟨g, hg, rfl⟩ := List.mem_map.mp hx
    exact Real.rpow_nonneg (hX r hr g hg) _

theorem userNorm_withoutZeros (alpha : ℝ) (ha : 0 < alpha) (X : CSR ℝ) (u : Nat) :
    userNorm alpha (withoutZeros X) u = userNorm alpha X u := by
  unfold userNorm withoutZeros
  simp only [List.map_map]
  congr 1
  apply List.map_congr_left
  intro row _
  simp only [Function.comp]
  have : (kept row).filter (fun e => decide (e.1 = u)) = kept (row.filter (fun e => decide (e.1 = u))) := by
    unfold kept
    rw [List.filter_filter, List.filter_filter]
    apply List.filter_congr
    intro e _
    rw [Bool.and_comm]
  rw [this]
  exact kept_sum (fun e : Nat × ℝ => e.2 ^ alpha) (fun i => Real.zero_rpow ha.ne') _

theorem userNorm_nonneg' (alpha : ℝ) (X : CSR ℝ) (hX : NonNegative X) (u : Nat) : 0 ≤ userNorm alpha X u := by
  unfold userNorm
  apply List.sum_nonneg
  intro x hx
  obtain ⟨row, hrow, rfl⟩ := List.mem_map.mp hx
  apply List.sum_nonneg
  intro y hy
  obtain ⟨e, he, rfl⟩ := List.mem_map.mp hy
  exact Real.rpow_nonneg (hX row hrow e (List.mem_filter.mp he).1) _

theorem userNorm_ne_zero {alpha : ℝ} (ha : 0 < alpha) {X : CSR ℝ} (hX : NonNegative X) {row : SpVec ℝ} (hrow : row ∈ X.rows)
    {e : Nat × ℝ} (he : e ∈ row) (h : e.2 ≠ 0) : userNorm alpha X e.1 ≠ 0 := by
  unfold userNorm
  have hnn : ∀ row ∈ X.rows, ∀ f ∈ row.filter (fun f => decide (f.1 = e.1)), 0 ≤ f.2 ^ alpha := fun row hrow f hf =>
    Real.rpow_nonneg (hX row hrow f (List.mem_filter.mp hf).1) _
  rw [sum_ne_zero_iff]
  · refine ⟨row, hrow, (sum_ne_zero_iff _ _ (hnn row hrow)).mpr ⟨e, List.mem_filter.mpr ⟨he, by simp⟩, ?_⟩⟩
    exact (rpow_ne_zero_iff (hX row hrow e he) ha).mpr h
  · intro r hr
    apply List.sum_nonneg
    intro x hx
    obtain ⟨f, hf, rfl⟩ := List.mem_map.mp hx
    exact hnn r hr f hf

theorem rowTotal_kept (v : SpVec ℝ) : rowTotal (kept v) = rowTotal v :=
  kept_sum (fun e : Nat × ℝ => e.2) (fun _ => rfl) v

/-- the left factor of both walks, with the popularity weighting `g` of the item -/
theorem walkTarget_withoutZeros (alpha : ℝ) (ha : 0 < alpha) (g : SpVec ℝ → ℝ) (hg : ∀ v, g (kept v) = g v) (X : CSR ℝ)
    (hX : NonNegative X) (hg0 : ∀ row ∈ X.rows, 0 ≤ g row) (hg1 : ∀ row ∈ X.rows, ∀ e ∈ row, e.2 ≠ 0 → g row ≠ 0) :
    (⟨X.cols, (withoutZeros X).rows.map (fun row =>
      row.map (fun e => (e.1, e.2 ^ alpha / (userNorm alpha (withoutZeros X) e.1 * g row))))⟩ : CSR ℝ) =
      withoutZeros ⟨X.cols, X.rows.map (fun row =>
        row.map (fun e => (e.1, e.2 ^ alpha / (userNorm alpha X e.1 * g row))))⟩ ∧
    NonNegative ⟨X.cols, X.rows.map (fun row =>
        row.map (fun e => (e.1, e.2 ^ alpha / (userNorm alpha X e.1 * g row))))⟩ := by
  constructor
  · simp only [userNorm_withoutZeros alpha ha]
    unfold withoutZeros
    simp only [List.map_map, CSR.mk.injEq, true_and]
    apply List.map_congr_left
    intro row hrow
    simp only [Function.comp, hg]
    refine kept_map_of row (fun e => e.2 ^ alpha / (userNorm alpha X e.1 * g row)) (fun e he => ?_)
    constructor
    · intro h h0
      apply h
      simp only [h0, Real.zero_rpow ha.ne', zero_div]
    · intro h
      exact div_ne_zero ((rpow_ne_zero_iff (hX row hrow e he) ha).mpr h)
        (mul_ne_zero (userNorm_ne_zero ha hX hrow he h) (hg1 row hrow e he h))
  · intro row hrow e he
    obtain ⟨r, hr, rfl⟩ := List.mem_map.mp hrow
    obtain ⟨f, hf, rfl⟩ := List.mem_map.mp he
    exact div_nonneg (Real.rpow_nonneg (hX r hr f hf) _) (mul_nonneg (userNorm_nonneg' alpha X hX _) (hg0 r hr))

theorem p3W_withoutZeros {nth : Nat → SpVec ℝ → List Nat} (hnth : NthOk nth) (alpha : ℝ) (ha : 0 < alpha) (X : CSR ℝ)
    (hX : NonNegative X) (T chunk k : Nat) :
    p3W nth alpha (withoutZeros X) T chunk k = (p3W nth alpha X T chunk k).map withoutZerosCSC := by
  obtain ⟨h1, h2⟩ := itemToUser_withoutZeros alpha ha X hX
  obtain ⟨h3, h4⟩ := walkTarget_withoutZeros alpha ha (fun _ => 1) (fun _ => rfl) X hX (fun _ _ => zero_le_one)
    (fun _ _ _ _ _ => one_ne_zero)
  simp only [mul_one] at h3 h4
  unfold p3W
  rw [if_neg ha.le.not_gt, if_neg ha.le.not_gt]
  simp only
  have hc : (withoutZeros X).cols = X.cols := rfl
  rw [h1, hc, h3, computeSimilarity_withoutZeros hnth .raw trivial 0 _ _ h2 h4]
  cases computeSimilarity nth .raw 0 (itemToUser alpha X) _ T chunk k with
  | error _ => rfl
  | ok R => rfl

theorem rp3W_withoutZeros {nth : Nat → SpVec ℝ → List Nat} (hnth : NthOk nth) (alpha beta : ℝ) (ha : 0 < alpha) (X : CSR ℝ)
    (hX : NonNegative X) (T chunk k : Nat) :
    rp3W nth alpha beta (withoutZeros X) T chunk k = (rp3W nth alpha beta X T chunk k).map withoutZerosCSC := by
  have hrt : ∀ row ∈ X.rows, 0 ≤ rowTotal row := fun row hrow => List.sum_nonneg (by
    intro x hx
    obtain ⟨e, he, rfl⟩ := List.mem_map.mp hx
    exact hX row hrow e he)
  obtain ⟨h1, h2⟩ := itemToUser_withoutZeros alpha ha X hX
  obtain ⟨h3, h4⟩ := walkTarget_withoutZeros alpha ha (fun v => rowTotal v ^ beta) (fun v => by rw [rowTotal_kept]) X hX
    (fun row hrow => Real.rpow_nonneg (hrt row hrow) _)
    (fun row hrow e he h => by
      have : rowTotal row ≠ 0 := (sum_ne_zero_iff row Prod.snd (hX row hrow)).mpr ⟨e, he, h⟩
      exact (Real.rpow_pos_of_pos (lt_of_le_of_ne (hrt row hrow) (Ne.symm this)) _).ne')
  unfold rp3W
  by_cases hb : alpha < 0 ∨ beta < 0
  · rw [if_pos hb, if_pos hb]
    rfl
  · rw [if_neg hb, if_neg hb]
    simp only at h3 h4 ⊢
    have hc : (withoutZeros X).cols = X.cols := rfl
    rw [h1, hc, h3, computeSimilarity_withoutZeros hnth .raw trivial 0 _ _ h2 h4]
    cases computeSimilarity nth .raw 0 (itemToUser alpha X) _ T chunk k with
    | error _ => rfl
    | ok R => rfl

end Irspack.Sim

/-! ### SLIM -/

namespace Irspack.Slim
open Spec.Zeros Sim WorkQueue

variable {K : Type} [Field K] [LinearOrder K]

theorem lastStored_kept (v : SpVec K) (hv : (v.map Prod.fst).Nodup) (u : Nat) : lastStored (kept v) u = lastStored v u := by
  have key : ∀ (v : SpVec K) (a : K), (v.map Prod.fst).Nodup → (a = 0 ∨ u ∉ v.map Prod.fst) →
      (kept v).foldl (fun acc e => if e.1 = u then e.2 else acc) a = v.foldl (fun acc e => if e.1 = u then e.2 else acc) a := by
    intro v
    induction v with
    | nil => intro a _ _; rfl
    | cons e v ih =>
      intro a hn ha
      rw [List.map_cons, List.nodup_cons] at hn
      have ih' := fun b hb => ih b hn.2 hb
      unfold kept at ih' ⊢
      rw [List.filter_cons, List.foldl_cons]
      by_cases h0 : e.2 = 0
      · rw [if_neg (by simpa using h0)]
        by_cases hu : e.1 = u
        · rw [if_pos hu, h0]
          rcases ha with rfl | ha
          · exact ih' 0 (.inl rfl)
          · exact absurd (by simp [hu]) ha
        · rw [if_neg hu]
          exact ih' a (ha.imp_right (fun h hm => h (by simp [hm])))
      · rw [if_pos (by simpa using h0), List.foldl_cons]
        by_cases hu : e.1 = u
        · rw [if_pos hu]
          exact ih' _ (.inr (by rw [← hu]; exact hn.1))
        · rw [if_neg hu]
          exact ih' a (ha.imp_right (fun h hm => h (by simp [hm])))
  exact key v 0 hv (.inl rfl)

theorem column_withoutZeros (X : CSC K) (f : Nat) : column (withoutZerosCSC X) f = kept (column X f) := by
  unfold column withoutZerosCSC
  simp only [List.getD_eq_getElem?_getD, List.getElem?_map]
  cases X.cols[f]? with
  | none => rfl
  | some r => rfl

theorem x2Sum_kept (v : SpVec K) : x2Sum (kept v) = x2Sum v :=
  kept_sum (fun e : Nat × K => e.2 * e.2) (fun _ => by simp) v

theorem slim_withoutZeros {T : Nat} (cfg : Config K) (X : CSC K) (hX : ∀ col ∈ X.cols, (col.map Prod.fst).Nodup)
    (shuffles : Nat → List Nat) (srt : List (K × Nat) → List (K × Nat)) (sched : List (Fin T)) :
    slim cfg (withoutZerosCSC X) shuffles srt sched = slim cfg X shuffles srt sched := by
  have hlen : (withoutZerosCSC X).cols.length = X.cols.length := by simp [withoutZerosCSC]
  have hcol : ∀ f, ((column X f).map Prod.fst).Nodup := by
    intro f
    unfold column
    rw [List.getD_eq_getElem?_getD]
    cases h : X.cols[f]? with
    | none => exact List.nodup_nil
    | some c => exact hX c (List.mem_of_getElem? h)
  have h1 : ∀ b s f k, newCoef cfg (withoutZerosCSC X) b s f k = newCoef cfg X b s f k := by
    intro b s f k
    unfold newCoef linear
    rw [column_withoutZeros, x2Sum_kept, kept_sum (fun e : Nat × K => e.2 * s.rem k e.1) (fun _ => by simp)]
  have h2 : ∀ b s f k, change cfg (withoutZerosCSC X) b s f k = change cfg X b s f k := by
    intro b s f k
    unfold change
    rw [h1]
  have h3 : ∀ b s f, isZero cfg (withoutZerosCSC X) b s f = isZero cfg X b s f := by
    intro b s f
    unfold isZero
    simp only [h2]
  have h4 : ∀ b s f, featureStep cfg (withoutZerosCSC X) b s f = featureStep cfg X b s f := by
    intro b s f
    unfold featureStep
    simp only [h1, h2, h3, column_withoutZeros, Block.mk.injEq, and_true]
    funext k u
    rw [kept_sum (fun e : Nat × K => if e.1 = u then e.2 * change cfg X b s f k else 0) (fun _ => by simp)]
  have h5 : ∀ b s f d, deltaStep cfg (withoutZerosCSC X) b s f d = deltaStep cfg X b s f d := by
    intro b s f d
    unfold deltaStep
    simp only [h2, h3]
  have h6 : ∀ b o s, sweep cfg (withoutZerosCSC X) b o s = sweep cfg X b o s := by
    intro b o s
    unfold sweep
    simp only [h4, h5]
  have h7 : ∀ b m c s, iterations cfg (withoutZerosCSC X) b shuffles m c s = iterations cfg X b shuffles m c s := by
    intro b m
    induction m with
    | zero => intro c s; rfl
    | succ m ih =>
      intro c s
      unfold iterations
      simp only [h6, ih]
  have h8 : ∀ b, initBlock (withoutZerosCSC X) cfg.blockSize b = initBlock X cfg.blockSize b := by
    intro b
    unfold initBlock
    simp only [hlen, column_withoutZeros, lastStored_kept _ (hcol _)]
  have h9 : ∀ i w, processBlock cfg (withoutZerosCSC X) shuffles srt i w = processBlock cfg X shuffles srt i w := by
    intro i w
    unfold processBlock
    simp only [h7, h8, hlen]
  have h10 : freshWorker cfg (withoutZerosCSC X) = freshWorker cfg X := by
    unfold freshWorker
    rw [hlen]
  have h11 : blockCount cfg (withoutZerosCSC X) = blockCount cfg X := by
    unfold blockCount
    rw [hlen]
  unfold slim
  rw [h10, h11]
  simp only [h9]

end Irspack.Slim

/-! ### scores -/

namespace Irspack.Score
open Spec.Zeros Sim

variable {R : Type} [Semiring R] [DecidableEq R]

theorem dotSparse_withoutZeros (X : CSR R) (W : Dense R) : dotSparse (withoutZeros X) W = dotSparse X W := by
  unfold dotSparse
  have hc : (withoutZeros X).cols = X.cols := rfl
  rw [hc]
  by_cases h : X.cols = W.rows.length
  · rw [if_pos h, if_pos h]
    simp only [withoutZeros, List.map_map, Except.ok.injEq, Dense.mk.injEq, true_and]
    apply List.map_congr_left
    intro row _
    funext j
    exact kept_sum (fun e : Nat × R => e.2 * W.get e.1 j) (fun _ => by simp) row
  · rw [if_neg h, if_neg h]

theorem pickRows_withoutZeros (X : CSR R) (idx : List Int) : pickRows (withoutZeros X) idx = (pickRows X idx).map withoutZeros := by
  unfold pickRows
  rw [withoutZeros_nrows]
  cases resolveAll X.nrows idx with
  | error _ => rfl
  | ok l =>
    simp only [bind, Except.bind, pure, Except.pure, Except.map, Except.ok.injEq, withoutZeros, CSR.mk.injEq, true_and,
      List.map_map]
    apply List.map_congr_left
    intro u _
    exact withoutZeros_row X u

theorem sliceRows_withoutZeros (X : CSR R) (b e : Int) : sliceRows (withoutZeros X) b e = withoutZeros (sliceRows X b e) := by
  unfold sliceRows
  rw [withoutZeros_nrows]
  simp only [withoutZeros, List.map_take, List.map_drop]

theorem nonzeroAt_withoutZeros (m : CSR R) (u j : Nat) : nonzeroAt (withoutZeros m) u j = nonzeroAt m u j := by
  unfold nonzeroAt
  rw [withoutZeros_row, Bool.eq_iff_iff]
  simp only [List.any_eq_true, Bool.and_eq_true, decide_eq_true_eq, mem_kept]
  constructor
  · rintro ⟨e, ⟨h1, h2⟩, h3⟩; exact ⟨e, h1, h3⟩
  · rintro ⟨e, h1, h2, h3⟩; exact ⟨e, ⟨h1, h3⟩, h2, h3⟩

theorem maskSeen_withoutZeros (m : CSR R) (s : Dense R) : maskSeen (withoutZeros m) s = maskSeen m s := by
  unfold maskSeen
  simp only [nonzeroAt_withoutZeros]
  apply if_congr _ rfl rfl
  rw [withoutZeros_nrows]
  simp only [List.all_eq_true, withoutZeros_row, mem_kept, Bool.or_eq_true, decide_eq_true_eq]
  constructor
  · intro h u hu e he
    by_cases h0 : e.2 = 0
    · exact .inl h0
    · exact h u hu e ⟨he, h0⟩
  · intro h u hu e he
    exact h u hu e he.1

theorem toDense_withoutZeros (X : CSR R) : toDense (withoutZeros X) = toDense X := by
  unfold toDense
  simp only [withoutZeros_nrows, withoutZeros_get]
  rfl

end Irspack.Score
