import Mathlib.Tactic
import Verif.Spec.NanArgs
import Verif.Proofs.Similarity

/-!
# C112: arguments that are infinite or not a number

Full property: an argument outside its documented range is refused, and accepted arguments give numbers.
It holds for infinite arguments at the checks, and for NaN in `SLIM` and the row-wise split.  The checks of the
similarity computers let NaN pass.
-/

namespace Irspack.NanArgs
open Irspack Spec Sim Spec.Sim

/-! ### The checks -/

theorem checkLower_iff (x : Fp) (a : ℝ) : checkLower x (.fin a) = .ok () ↔ x = .nan ∨ AtLeast a x := by
  unfold checkLower AtLeast
  cases x with
  | fin r => by_cases h : r < a
             · simp [Fp.lt, h]
             · simp [Fp.lt, h, not_lt.mp h]
  | _ => simp [Fp.lt]

theorem checkUpper_iff (x : Fp) (b : ℝ) :
    checkUpper x (.fin b) = .ok () ↔ x = .nan ∨ x = .ninf ∨ ∃ r, x = .fin r ∧ r ≤ b := by
  unfold checkUpper
  cases x with
  | fin r => by_cases h : b < r
             · simp [Fp.lt, h]
             · simp [Fp.lt, h, not_lt.mp h]
  | _ => simp [Fp.lt]

theorem seq_ok {a b : Except Err Unit} :
    andThen a b = .ok () ↔ a = .ok () ∧ b = .ok () := by
  cases a with
  | error e => simp [andThen]
  | ok u => simp [andThen]

theorem checkBoth_iff (x : Fp) (a b : ℝ) :
    checkBoth x (.fin a) (.fin b) = .ok () ↔ x = .nan ∨ Between a b x := by
  unfold checkBoth Between
  rw [seq_ok, checkLower_iff, checkUpper_iff]
  unfold AtLeast
  cases x <;> simp

theorem construct_iff (kind : KindFp) (s : Fp) : construct kind s = .ok () ↔
    (s = .nan ∨ AtLeast 0 s) ∧ (match kind with
      | .cosine => True
      | .jaccard => True
      | .asymmetric alpha => alpha = .nan ∨ Between 0 1 alpha
      | .tversky alpha beta => (alpha = .nan ∨ AtLeast 0 alpha) ∧ (beta = .nan ∨ AtLeast 0 beta)) := by
  unfold construct
  rw [seq_ok, checkLower_iff]
  cases kind with
  | cosine => simp
  | jaccard => simp
  | asymmetric alpha => simp only [checkBoth_iff]
  | tversky alpha beta => simp only [seq_ok, checkLower_iff]

/-- C112 (missing: NaN, see `C112_nan_counterexample`): a similarity computer refuses exactly the arguments
outside the documented ranges; `+inf` is inside for those with only a lower bound. -/
theorem C112_refused_partial (kind : KindFp) (s : Fp) (h : NoNan s kind) :
    construct kind s = .ok () ↔ InRange s kind := by
  rw [construct_iff]
  cases kind with
  | cosine => simp only [NoNan] at h; simp [InRange, h]
  | jaccard => simp only [NoNan] at h; simp [InRange, h]
  | asymmetric alpha => simp only [NoNan] at h; simp [InRange, h]
  | tversky alpha beta => simp only [NoNan] at h; simp [InRange, h]

example : construct (.asymmetric .pinf) (.fin 0) ≠ .ok () := by
  rw [Ne, C112_refused_partial _ _ (by simp [NoNan])]
  simp [InRange, Between]

example : construct (.tversky .pinf (.fin 2)) .pinf = .ok () := by
  rw [C112_refused_partial _ _ (by simp [NoNan])]
  simp [InRange, AtLeast]

/-- C112 (missing: NaN): P3alpha and RP3beta refuse exactly the exponents below 0. -/
theorem C112_walks_refused_partial (alpha beta : Fp) (ha : alpha ≠ .nan) (hb : beta ≠ .nan) :
    (constructP3 alpha = .ok () ↔ AtLeast 0 alpha) ∧
      (constructRP3 alpha beta = .ok () ↔ AtLeast 0 alpha ∧ AtLeast 0 beta) := by
  unfold constructP3 constructRP3
  rw [seq_ok]
  simp [checkLower_iff, ha, hb]

example : constructRP3 (.fin 1) .ninf ≠ .ok () := by
  rw [Ne, (C112_walks_refused_partial (.fin 1) .ninf (by simp) (by simp)).2]
  simp [AtLeast]

/-- C112 for `SLIM`: every penalty that is not a number of at least 0 is refused, NaN included. -/
theorem C112_slim_refused (l2 l1 : Fp) : checkSlim l2 l1 = .ok () ↔ AtLeast 0 l2 ∧ AtLeast 0 l1 := by
  unfold checkSlim
  rw [seq_ok]
  unfold checkArg AtLeast
  cases l2 <;> cases l1 <;> simp [Fp.ge, Fp.lt]

example : checkSlim .nan (.fin 1) ≠ .ok () := by
  rw [Ne, C112_slim_refused]; simp [AtLeast]

/-- C112 for the row-wise split: every ratio that is not a number in [0, 1] is refused, NaN included. -/
theorem C112_ratio_refused (ratio : Fp) : checkRatio ratio = .ok () ↔ Between 0 1 ratio := by
  unfold checkRatio checkArg Between
  cases ratio <;> simp [Fp.ge, Fp.lt]
  rename_i x
  constructor
  · rintro ⟨h1, h2⟩; exact ⟨h2, h1⟩
  · rintro ⟨h1, h2⟩; exact ⟨h2, h1⟩

example : checkRatio .nan ≠ .ok () ∧ checkRatio (.fin (1 / 2)) = .ok () := by
  rw [Ne, C112_ratio_refused, C112_ratio_refused]
  refine ⟨by simp [Between], ⟨1 / 2, rfl, by norm_num, by norm_num⟩⟩

/-! ### NaN passes the checks -/

theorem add_nan_right (x : Fp) : x.add .nan = .nan := by cases x <;> rfl
theorem add_nan_left (x : Fp) : Fp.add .nan x = .nan := by cases x <;> rfl

theorem add_pinf_of_ne {x : Fp} (h1 : x ≠ .nan) (h2 : x ≠ .ninf) : x.add .pinf = .pinf := by
  cases x with
  | nan => exact absurd rfl h1
  | ninf => exact absurd rfl h2
  | _ => rfl

theorem mem_simRow {kind : KindFp} {s : Fp} {X : CSR ℝ} {t : SpVec ℝ} {e : Nat × Fp}
    (h : e ∈ simRowFp kind s X t) :
    ∃ v, e.2 = Fp.divFin v (denominator kind s (X.row e.1) t v) := by
  unfold simRowFp at h
  obtain ⟨f, _, rfl⟩ := List.mem_map.mp h
  exact ⟨f.2, rfl⟩

/-- C112 fails for NaN: a NaN `shrinkage` is accepted with any other accepted argument, and then every
similarity of every row is NaN.  So it is with NaN for `alpha` or `beta` of the Tversky index. -/
theorem C112_nan_counterexample :
    (∀ kind, construct kind (.fin 0) = .ok () → construct kind .nan = .ok ()) ∧
    (∀ kind X t, ∀ e ∈ simRowFp kind .nan X t, e.2 = .nan) ∧
    (∀ s beta, AtLeast 0 s → AtLeast 0 beta → construct (.tversky .nan beta) s = .ok () ∧
      construct (.tversky beta .nan) s = .ok ()) ∧
    (∀ s other X t, (∀ e ∈ simRowFp (.tversky .nan other) s X t, e.2 = .nan) ∧
      ∀ e ∈ simRowFp (.tversky other .nan) s X t, e.2 = .nan) := by
  refine ⟨?_, ?_, ?_, ?_⟩
  · intro kind h
    rw [construct_iff] at h ⊢
    exact ⟨.inl rfl, h.2⟩
  · intro kind X t e he
    obtain ⟨v, hv⟩ := mem_simRow he
    rw [hv]
    unfold denominator base
    simp only [add_nan_right, add_nan_left, Fp.divFin]
  · intro s beta hs hb
    rw [construct_iff, construct_iff]
    exact ⟨⟨.inr hs, .inl rfl, .inr hb⟩, ⟨.inr hs, .inr hb, .inl rfl⟩⟩
  · intro s other X t
    refine ⟨?_, ?_⟩
    · intro e he
      obtain ⟨v, hv⟩ := mem_simRow he
      rw [hv]
      unfold denominator base
      have : ∀ x : ℝ, Fp.mul .nan (.fin x) = .nan := fun _ => rfl
      simp only [this, add_nan_right, add_nan_left, Fp.divFin]
    · intro e he
      obtain ⟨v, hv⟩ := mem_simRow he
      rw [hv]
      unfold denominator base
      have : ∀ x : ℝ, Fp.mul .nan (.fin x) = .nan := fun _ => rfl
      simp only [this, add_nan_right, add_nan_left, Fp.divFin]

/-- The rows are not empty: two rows of one common column have a (NaN) similarity. -/
example : ∃ e, e ∈ simRowFp .cosine .nan ⟨1, [[(0, 1)], [(0, 2)]]⟩ [(0, 1)] ∧ e.1 = 1 := by
  unfold simRowFp
  refine ⟨_, List.mem_map.mpr ⟨(1, 2), ?_, rfl⟩, rfl⟩
  simp [productRow, CSR.nrows, CSR.row, List.range_succ, SpVec.get]

/-- C112 fails for a NaN `alpha` of the asymmetric cosine: it is accepted, and a similarity is NaN unless both
rows have norm 1, for then the powers are 1 whatever the exponent. -/
theorem C112_nan_alpha_counterexample :
    (∀ s, AtLeast 0 s → construct (.asymmetric .nan) s = .ok ()) ∧
    ∀ (s : ℝ), 0 ≤ s → ∀ (X : CSR ℝ) (t : SpVec ℝ), ∀ e ∈ simRowFp (.asymmetric .nan) (.fin s) X t,
      (e.2 = .nan ↔ ¬ (sqNorm (X.row e.1) = 1 ∧ sqNorm t = 1)) := by
  refine ⟨fun s hs => by rw [construct_iff]; exact ⟨.inr hs, .inl rfl⟩, ?_⟩
  intro s hs X t e he
  obtain ⟨v, hv⟩ := mem_simRow he
  rw [hv]
  unfold denominator base
  simp only [Fp.neg, add_nan_right, Fp.powFin]
  by_cases h1 : sqNorm (X.row e.1) = 1
  · by_cases h2 : sqNorm t = 1
    · have hne : (1 : ℝ) * 1 + s + 1e-6 ≠ 0 := by norm_num; positivity
      simp only [h1, h2, if_true, Fp.mul, Fp.add, Fp.divFin, if_neg hne]
      simp
    · simp [h1, h2, Fp.mul, Fp.add, Fp.divFin]
  · by_cases h2 : sqNorm t = 1
    · simp [h1, h2, Fp.mul, Fp.add, Fp.divFin]
    · simp [h1, h2, Fp.mul, Fp.add, Fp.divFin]

/-- C112 fails for an infinite `alpha` of the Tversky index: it is accepted, and a row whose stored columns are
all shared with the other one gets NaN (`inf * 0`); any other similarity is 0. -/
theorem C112_infinite_alpha_counterexample (s beta : ℝ) (hs : 0 ≤ s) (hb : 0 ≤ beta) :
    construct (.tversky .pinf (.fin beta)) (.fin s) = .ok () ∧
    ∀ (x t : SpVec ℝ) (v : ℝ), v ≤ rowTotal (binarize t) →
      Fp.divFin v (denominator (.tversky .pinf (.fin beta)) (.fin s) x t v) =
        if rowTotal (binarize t) = v then .nan else .fin 0 := by
  refine ⟨?_, ?_⟩
  · rw [construct_iff]
    exact ⟨.inr (.inr ⟨s, rfl, hs⟩), .inr (.inl rfl), .inr (.inr ⟨beta, rfl, hb⟩)⟩
  · intro x t v hv
    unfold denominator base
    by_cases h : rowTotal (binarize t) = v
    · simp [h, Fp.mul, Fp.add, Fp.divFin]
    · have h1 : rowTotal (binarize t) - v ≠ 0 := sub_ne_zero.mpr h
      have h2 : 0 < rowTotal (binarize t) - v := lt_of_le_of_ne (sub_nonneg.mpr hv) (Ne.symm h1)
      simp only [h, if_false, Fp.mul, Fp.add, Fp.divFin, if_neg h1, if_pos h2]

/-! ### Infinite shrinkage -/

theorem base_fin (kind : KindFp) (x t : SpVec ℝ) (v s : ℝ)
    (h : ∃ d, denominator kind (.fin s) x t v = .fin d) : denominator kind .pinf x t v = .pinf := by
  obtain ⟨d, hd⟩ := h
  unfold denominator at hd ⊢
  generalize base kind x t v = b at hd ⊢
  cases b with
  | fin r => rfl
  | nan => simp [Fp.add] at hd
  | ninf => simp [Fp.add] at hd
  | pinf => rfl

theorem powFin_ok {a b : ℝ} (hb : 0 ≤ b) : Fp.powFin a (.fin b) = .fin (a ^ b) := by
  show (if a = 0 ∧ b < 0 then Fp.pinf else .fin (a ^ b)) = _
  exact if_neg (fun h => absurd h.2 (not_lt.mpr hb))

/-- The finite value of the denominator. -/
theorem denominator_fin {kind : KindFp} {k : Kind} (hk : IsReal kind k) (s : ℝ) (x t : SpVec ℝ) (v : ℝ) :
    denominator kind (.fin s) x t v = .fin (match k with
      | .cosine _ => Real.sqrt (sqNorm x) * Real.sqrt (sqNorm t) + s + 1e-6
      | .asymmetric a => (sqNorm x) ^ (1 - a) * (sqNorm t) ^ a + s + 1e-6
      | .jaccard => rowTotal (binarize x) + rowTotal (binarize t) - v + s + 1e-6
      | .tversky a b => v + b * (rowTotal (binarize x) - v) + a * (rowTotal (binarize t) - v) + s + 1e-6
      | .raw => 0) := by
  cases hk with
  | cosine => rfl
  | jaccard => rfl
  | asymmetric h0 h1 =>
    unfold denominator base
    simp only [Fp.neg, Fp.add]
    rw [powFin_ok h0, powFin_ok (by linarith)]
    simp only [Fp.mul, Fp.add, sub_eq_add_neg]
  | tversky ha hb => rfl

/-- C112 for infinite `shrinkage`: it is accepted, and every similarity is 0. -/
theorem C112_infinite_shrinkage {kind : KindFp} {k : Kind} (hk : IsReal kind k) :
    construct kind .pinf = .ok () ∧ ∀ X t, ∀ e ∈ simRowFp kind .pinf X t, e.2 = .fin 0 := by
  refine ⟨?_, ?_⟩
  · rw [construct_iff]
    refine ⟨.inr (.inl rfl), ?_⟩
    cases hk with
    | cosine => trivial
    | jaccard => trivial
    | asymmetric h0 h1 => exact .inr ⟨_, rfl, h0, h1⟩
    | tversky ha hb => exact ⟨.inr (.inr ⟨_, rfl, ha⟩), .inr (.inr ⟨_, rfl, hb⟩)⟩
  · intro X t e he
    obtain ⟨v, hv⟩ := mem_simRow he
    rw [hv, base_fin kind _ t v 0 ⟨_, denominator_fin hk 0 _ t v⟩]
    rfl

example : IsReal (.tversky (.fin 1) (.fin 2)) (.tversky 1 2) := .tversky (by norm_num) (by norm_num)

/-! ### Finite arguments -/

theorem divFin_pos {a d : ℝ} (h : 0 < d) : Fp.divFin a (.fin d) = .fin (a / d) := by
  show (if d = 0 then _ else Fp.fin (a / d)) = _
  exact if_neg h.ne'

theorem product_mem {t : SpVec ℝ} {X : CSR ℝ} {e : Nat × ℝ} (h : e ∈ productRow t X) :
    e.1 < X.nrows ∧ e.2 = (t.map (fun f => f.2 * (X.row e.1).get f.1)).sum := by
  rw [productRow_eq] at h
  obtain ⟨j, hj, rfl⟩ := List.mem_map.mp h
  exact ⟨List.mem_range.mp (List.mem_filter.mp hj).1, rfl⟩

theorem common_le {X : CSR ℝ} (hX : Proper X) (hzX : NoStoredZero X) {t : SpVec ℝ}
    (ht : ∀ e ∈ t, e.1 < X.cols) (htn : (t.map Prod.fst).Nodup) (hz : ∀ e ∈ t, e.2 ≠ 0) {e : Nat × ℝ}
    (he : e ∈ productRow (binarize t) ⟨X.cols, X.rows.map binarize⟩) :
    0 ≤ e.2 ∧ e.2 ≤ rowTotal (binarize t) ∧ e.2 ≤ rowTotal (binarize (X.row e.1)) := by
  have h := (product_mem he).2
  rw [row_map X binarize rfl, product_binarize t _ htn hz (row_nodup hX _) (row_nonzero hzX _) X.cols ht] at h
  rw [h, rowTotal_binarize t htn hz X.cols ht,
    rowTotal_binarize _ (row_nodup hX _) (row_nonzero hzX _) X.cols (row_bound hX _)]
  refine ⟨by positivity, ?_, ?_⟩
  · exact_mod_cast Finset.card_le_card Finset.inter_subset_left
  · exact_mod_cast Finset.card_le_card Finset.inter_subset_right

/-- C112 for finite arguments in range: every similarity is a number, the one the real-valued model computes. -/
theorem C112_finite {kind : KindFp} {k : Kind} (hk : IsReal kind k) (s : ℝ) (hs : 0 ≤ s) (X : CSR ℝ)
    (hX : Proper X) (t : SpVec ℝ) (ht : ∀ e ∈ t, e.1 < X.cols) (htn : (t.map Prod.fst).Nodup)
    (hzX : NoStoredZero X) (hz : ∀ e ∈ t, e.2 ≠ 0) :
    simRowFp kind (.fin s) X t = (simRow k s X t).map (fun e => (e.1, .fin e.2)) := by
  have heps : (0 : ℝ) < 1e-6 := by norm_num
  cases hk with
  | cosine =>
    unfold simRowFp simRow
    simp only [List.map_map]
    apply List.map_congr_left
    intro e _
    simp only [Function.comp]
    rw [denominator_fin .cosine, divFin_pos]
    have := mul_nonneg (Real.sqrt_nonneg (sqNorm (X.row e.1))) (Real.sqrt_nonneg (sqNorm t))
    simp only
    linarith
  | asymmetric h0 h1 =>
    rename_i a
    unfold simRowFp simRow
    simp only [List.map_map]
    apply List.map_congr_left
    intro e _
    simp only [Function.comp]
    rw [denominator_fin (.asymmetric h0 h1), divFin_pos]
    have := mul_nonneg (Real.rpow_nonneg (sqNorm_nonneg (X.row e.1)) (1 - a))
      (Real.rpow_nonneg (sqNorm_nonneg t) a)
    simp only
    linarith
  | jaccard =>
    unfold simRowFp simRow
    simp only [List.map_map]
    apply List.map_congr_left
    intro e he
    obtain ⟨p0, p1, p2⟩ := common_le hX hzX ht htn hz he
    simp only [Function.comp]
    rw [row_map X binarize rfl, denominator_fin .jaccard, divFin_pos]
    simp only
    linarith
  | tversky ha hb =>
    rename_i a b
    unfold simRowFp simRow
    simp only [List.map_map]
    apply List.map_congr_left
    intro e he
    obtain ⟨p0, p1, p2⟩ := common_le hX hzX ht htn hz he
    simp only [Function.comp]
    rw [row_map X binarize rfl, denominator_fin (.tversky ha hb), divFin_pos]
    have q1 := mul_nonneg hb (sub_nonneg.mpr p2)
    have q2 := mul_nonneg ha (sub_nonneg.mpr p1)
    simp only
    linarith

example : Proper ⟨2, [[(0, 1), (1, 3)], [(1, 2)]]⟩ ∧ NoStoredZero ⟨2, [[(0, 1), (1, 3)], [(1, 2)]]⟩ := by
  simp only [Proper, NoStoredZero, List.forall_mem_cons]
  simp

/-! ### Walks -/

theorem foldl_nan (l : List Fp) : l.foldl Fp.add .nan = .nan := by
  induction l with
  | nil => rfl
  | cons a l ih => rw [List.foldl_cons, add_nan_left, ih]

theorem foldl_mem_nan (l : List Fp) (h : Fp.nan ∈ l) : ∀ a, l.foldl Fp.add a = .nan := by
  induction l with
  | nil => cases h
  | cons b l ih =>
    intro a
    rw [List.foldl_cons]
    rcases List.mem_cons.mp h with h | h
    · rw [← h, add_nan_right, foldl_nan]
    · exact ih h _

/-- C112 fails for a NaN exponent of P3alpha and RP3beta: it is accepted; a row of ones is unaffected, since
`pow(1, NaN)` is 1, and in every other row all transition weights are NaN. -/
theorem C112_nan_walk_counterexample :
    constructP3 .nan = .ok () ∧ (∀ beta, AtLeast 0 beta → constructRP3 .nan beta = .ok ()) ∧
    (∀ row : SpVec ℝ, (∀ e ∈ row, e.2 = 1) → ∀ a, 0 ≤ a → walkRowFp .nan row = walkRowFp (.fin a) row) ∧
    (∀ row : SpVec ℝ, (∃ e ∈ row, e.2 ≠ 1) → ∀ e ∈ walkRowFp .nan row, e.2 = .nan) := by
  refine ⟨by simp [constructP3, checkLower_iff], ?_, ?_, ?_⟩
  · intro beta hb
    unfold constructRP3
    rw [seq_ok, checkLower_iff, checkLower_iff]
    exact ⟨.inl rfl, .inr hb⟩
  · intro row h a ha
    have hp : ∀ e ∈ row, Fp.powFin e.2 .nan = Fp.powFin e.2 (.fin a) := by
      intro e he
      rw [powFin_ok ha, h e he, Real.one_rpow]
      simp [Fp.powFin]
    unfold walkRowFp
    rw [List.map_congr_left hp]
    apply List.map_congr_left
    intro e he
    simp only [hp e he]
  · intro row ⟨f, hf, hf1⟩ e he
    unfold walkRowFp at he
    have hs : (row.map (fun e => Fp.powFin e.2 .nan)).foldl Fp.add (.fin 0) = .nan := by
      apply foldl_mem_nan
      refine List.mem_map.mpr ⟨f, hf, ?_⟩
      simp [Fp.powFin, hf1]
    rw [hs] at he
    obtain ⟨g, _, rfl⟩ := List.mem_map.mp he
    by_cases h1 : g.2 = 1 <;> simp [Fp.powFin, h1, Fp.divFin]

example : ∃ row : SpVec ℝ, (∃ e ∈ row, e.2 ≠ 1) ∧ walkRowFp .nan row ≠ [] :=
  ⟨[(0, 2), (1, 1)], ⟨(0, 2), by simp, by norm_num⟩, by simp [walkRowFp]⟩

theorem foldl_fin (l : List ℝ) : ∀ a, (l.map Fp.fin).foldl Fp.add (.fin a) = .fin (a + l.sum) := by
  induction l with
  | nil => intro a; simp
  | cons b l ih => intro a; simp [Fp.add, ih, add_assoc]

/-- C112 for finite exponents of at least 0 and positive interactions: the transition weights of a row are
numbers, the powers divided by their sum. -/
theorem C112_walk_finite (a : ℝ) (ha : 0 ≤ a) (row : SpVec ℝ) (h : ∀ e ∈ row, 0 < e.2) :
    walkRowFp (.fin a) row =
      row.map (fun e => (e.1, .fin (e.2 ^ a / (row.map (fun f => f.2 ^ a)).sum))) := by
  unfold walkRowFp
  have hs : (row.map (fun e => Fp.powFin e.2 (.fin a))).foldl Fp.add (.fin 0) =
      .fin ((row.map (fun f => f.2 ^ a)).sum) := by
    have := foldl_fin (row.map (fun f => f.2 ^ a)) 0
    rw [List.map_map, zero_add] at this
    rw [← this]
    congr 1
    apply List.map_congr_left
    intro e _
    exact powFin_ok ha
  rw [hs]
  apply List.map_congr_left
  intro e he
  simp only [powFin_ok ha]
  rw [divFin_pos]
  have h1 : ∀ x ∈ row.map (fun f => f.2 ^ a), 0 ≤ x := by
    intro x hx
    obtain ⟨f, hf, rfl⟩ := List.mem_map.mp hx
    exact Real.rpow_nonneg (h f hf).le a
  exact lt_of_lt_of_le (Real.rpow_pos_of_pos (h e he) a)
    (List.single_le_sum h1 _ (List.mem_map.mpr ⟨e, he, rfl⟩))

example : ∀ e ∈ ([(0, 2), (3, 1)] : SpVec ℝ), 0 < e.2 := by simp

end Irspack.NanArgs
