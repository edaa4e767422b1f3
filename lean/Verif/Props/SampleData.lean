import Mathlib.Analysis.SpecialFunctions.Sigmoid
import Mathlib.Analysis.Calculus.MeanValue
import Mathlib.Algebra.Order.BigOperators.Group.List
import Mathlib.Algebra.BigOperators.Intervals
import Mathlib.Tactic.Linarith
import Mathlib.Tactic.NormNum
import Mathlib.Tactic.Positivity
import Mathlib.Tactic.FieldSimp
import Mathlib.Analysis.Complex.ExponentialBounds
import Verif.Model.SampleData

/-!
# C71: the density of synthetic data
-/

namespace Irspack.SampleData

theorem expit_eq (x : ℝ) : expit x = Real.sigmoid x := by
  rw [expit, Real.sigmoid_def, one_div]

theorem expit_mono {a b : ℝ} (h : a ≤ b) : expit a ≤ expit b := by
  rw [expit_eq, expit_eq]
  exact Real.sigmoid_le h

theorem expit_step {a b : ℝ} (h : a ≤ b) : expit b - expit a ≤ (b - a) / 4 := by
  rw [expit_eq, expit_eq]
  have := Convex.image_sub_le_mul_sub_of_deriv_le (D := Set.univ) convex_univ (f := Real.sigmoid)
    (Continuous.continuousOn continuous_sigmoid)
    (Differentiable.differentiableOn differentiable_sigmoid)
    (C := 1 / 4) (by
      intro x _
      rw [Real.deriv_sigmoid]
      nlinarith [sq_nonneg (Real.sigmoid x - 1 / 2)])
    a trivial b trivial h
  linarith

theorem density_mono (scores : List ℝ) {a b : ℝ} (h : a ≤ b) :
    expectedDensity scores a ≤ expectedDensity scores b := by
  unfold expectedDensity
  apply div_le_div_of_nonneg_right _ (Nat.cast_nonneg _)
  apply List.sum_le_sum
  intro s _
  exact expit_mono (by linarith)

theorem density_step (scores : List ℝ) {a b : ℝ} (h : a ≤ b) :
    expectedDensity scores b - expectedDensity scores a ≤ (b - a) / 4 := by
  unfold expectedDensity
  rw [← sub_div]
  have hs : ∀ l : List ℝ, (l.map (fun s => expit (s + b))).sum - (l.map (fun s => expit (s + a))).sum
      ≤ l.length * ((b - a) / 4) := by
    intro l
    induction l with
    | nil => simp
    | cons x l ih =>
      simp only [List.map_cons, List.sum_cons, List.length_cons, Nat.cast_add, Nat.cast_one]
      have := expit_step (a := x + a) (b := x + b) (by linarith)
      have e : (x + b - (x + a)) / 4 = (b - a) / 4 := by ring
      rw [e] at this
      nlinarith
  by_cases h0 : scores.length = 0
  · rw [h0]
    simp only [Nat.cast_zero, div_zero]
    linarith
  · have hp : (0 : ℝ) < scores.length := by exact_mod_cast Nat.pos_of_ne_zero h0
    rw [div_le_iff₀ hp]
    linarith [hs scores]

/-- The target, or the nearest density that a bias between -100 and 100 gives. -/
noncomputable def attainable (density : ℝ → ℝ) (target : ℝ) : ℝ :=
  max (density (-100)) (min (density 100) target)

/-- The bisection, for any monotone `density` that grows at most by a quarter of the step. -/
theorem search_spec {density : ℝ → ℝ} (hm : ∀ a b, a ≤ b → density a ≤ density b)
    (hl : ∀ a b, a ≤ b → density b - density a ≤ (b - a) / 4) (target : ℝ) (n : Nat) :
    ∀ lo hi b, -100 ≤ lo → hi ≤ 100 → lo ≤ hi → b = (hi + lo) / 2 → hi - lo < 1e-5 * 2 ^ n →
      1e-5 ≤ hi - lo →
      density lo ≤ attainable density target → attainable density target ≤ density hi →
      |density (search density target n lo hi b) - attainable density target| ≤ 2.5e-6 ∧
      -100 ≤ search density target n lo hi b ∧ search density target n lo hi b ≤ 100 ∧
      ∀ k, search density target (n + k) lo hi b = search density target n lo hi b := by
  induction n with
  | zero =>
    intro lo hi b _ _ _ _ hw hw' _ _
    exfalso
    linarith
  | succ n ih =>
    intro lo hi b h1 h2 h3 hb hw hw' hlo hhi
    have hbl : lo ≤ b := by rw [hb]; linarith
    have hbh : b ≤ hi := by rw [hb]; linarith
    rw [pow_succ] at hw
    have unf : ∀ k, search density target (n + 1 + k) lo hi b =
        if (if density b > target then b else hi) - (if density b > target then lo else b) < 1e-5
        then b else search density target (n + k) (if density b > target then lo else b)
          (if density b > target then b else hi)
          (((if density b > target then b else hi) + (if density b > target then lo else b)) / 2) := by
      intro k
      rw [show n + 1 + k = (n + k) + 1 by omega]
      rfl
    have unf0 := unf 0
    rw [Nat.add_zero, Nat.add_zero] at unf0
    by_cases hd : density b > target
    · simp only [hd, if_true] at unf unf0
      have hA : attainable density target ≤ density b := by
        unfold attainable
        exact max_le (hm _ _ (by linarith)) (le_trans (min_le_right _ _) hd.le)
      by_cases hs : b - lo < 1e-5
      · rw [if_pos hs] at unf0
        rw [unf0]
        refine ⟨?_, by linarith, by linarith, fun k => by rw [unf k, if_pos hs]⟩
        have := hl lo b hbl
        rw [abs_le]
        constructor <;> linarith
      · rw [if_neg hs] at unf0
        rw [unf0]
        obtain ⟨g1, g2, g3, g4⟩ := ih lo b ((b + lo) / 2) h1 (by linarith) hbl rfl
          (by rw [hb]; linarith) (by linarith) hlo hA
        exact ⟨g1, g2, g3, fun k => by rw [unf k, if_neg hs, g4 k]; rfl⟩
    · simp only [hd, if_false] at unf unf0
      have hA : density b ≤ attainable density target := by
        unfold attainable
        exact le_max_of_le_right (le_min (hm _ _ (by linarith)) (not_lt.mp hd))
      by_cases hs : hi - b < 1e-5
      · rw [if_pos hs] at unf0
        rw [unf0]
        refine ⟨?_, by linarith, by linarith, fun k => by rw [unf k, if_pos hs]⟩
        have := hl b hi hbh
        rw [abs_le]
        constructor <;> linarith
      · rw [if_neg hs] at unf0
        rw [unf0]
        obtain ⟨g1, g2, g3, g4⟩ := ih b hi ((hi + b) / 2) (by linarith) h2 hbh rfl
          (by rw [hb]; linarith) (by linarith) hA hhi
        exact ⟨g1, g2, g3, fun k => by rw [unf k, if_neg hs, g4 k]; rfl⟩

theorem search_start (scores : List ℝ) (target : ℝ) (n : Nat) (hn : 25 ≤ n) :
    |expectedDensity scores (search (expectedDensity scores) target n (-100) 100 0)
        - attainable (expectedDensity scores) target| ≤ 2.5e-6 ∧
      -100 ≤ search (expectedDensity scores) target n (-100) 100 0 ∧
      search (expectedDensity scores) target n (-100) 100 0 ≤ 100 ∧
      search (expectedDensity scores) target n (-100) 100 0 =
        search (expectedDensity scores) target 25 (-100) 100 0 := by
  obtain ⟨k, rfl⟩ := Nat.exists_eq_add_of_le hn
  obtain ⟨h1, h2, h3, h4⟩ := search_spec (fun a b h => density_mono scores h)
    (fun a b h => density_step scores h) target 25 (-100) 100 0 le_rfl le_rfl (by norm_num)
    (by norm_num) (by norm_num) (by norm_num) (le_max_left _ _)
    (max_le (density_mono scores (by norm_num)) (min_le_left _ _))
  rw [h4 k]
  exact ⟨h1, h2, h3, rfl⟩

theorem ravel_length (nUsers nItems : Nat) (a : Nat → Nat → ℝ) :
    (ravel nUsers nItems a).length = nUsers * nItems := by
  unfold ravel
  rw [List.length_flatMap]
  simp

theorem list_sum_range (n : Nat) (f : Nat → ℝ) :
    ((List.range n).map f).sum = ∑ i ∈ Finset.range n, f i := by
  induction n with
  | zero => simp
  | succ n ih => rw [List.range_succ, Finset.sum_range_succ]; simp [ih]

theorem ravel_sum (nUsers nItems : Nat) (a : Nat → Nat → ℝ) (f : ℝ → ℝ) :
    ((ravel nUsers nItems a).map f).sum =
      ∑ u ∈ Finset.range nUsers, ∑ i ∈ Finset.range nItems, f (a u i) := by
  unfold ravel
  rw [← list_sum_range]
  induction List.range nUsers with
  | nil => rfl
  | cons u l ih =>
    rw [List.flatMap_cons, List.map_append, List.sum_append, ih, List.map_cons, List.sum_cons,
      List.map_map, ← list_sum_range]
    rfl

/-- The density a matrix with these probabilities has on average. -/
noncomputable def meanDensity (nUsers nItems : Nat) (p : Nat → Nat → ℝ) : ℝ :=
  (∑ u ∈ Finset.range nUsers, ∑ i ∈ Finset.range nItems, p u i) / (nUsers * nItems)

theorem density_eq (nUsers nItems : Nat) (a : Nat → Nat → ℝ) (b : ℝ) :
    expectedDensity (ravel nUsers nItems a) b =
      meanDensity nUsers nItems (fun u i => 1 / (1 + Real.exp (-(a u i + b)))) := by
  unfold expectedDensity meanDensity
  rw [ravel_length, ravel_sum nUsers nItems a (fun s => expit (s + b)), Nat.cast_mul]
  rfl

theorem affinity_eq (nComp : Nat) (gu gi : Nat → Nat → ℝ) (u i : Nat) :
    affinity nComp gu gi u i = (∑ c ∈ Finset.range nComp, gu u c * gi i c) / nComp := by
  unfold affinity
  rw [list_sum_range, Finset.sum_div]
  apply Finset.sum_congr rfl
  intro c _
  rw [div_mul_div_comm, Real.mul_self_sqrt (Nat.cast_nonneg _)]

/-- The expected density is the target up to 2.5e-6, or up to that the nearest one that a bias between
-100 and 100 gives. -/
theorem density_bound (nUsers nItems nComp : Nat) (gu gi : Nat → Nat → ℝ) (target : ℝ) :
    let possible := fun b : ℝ => meanDensity nUsers nItems (fun u i => 1 / (1 + Real.exp
      (-(affinity nComp gu gi u i + b))))
    |meanDensity nUsers nItems (probability nUsers nItems nComp gu gi target)
      - max (possible (-100)) (min (possible 100) target)| ≤ 2.5e-6 := by
  intro possible
  have h := (search_start (ravel nUsers nItems (affinity nComp gu gi)) target 100 (by norm_num)).1
  unfold attainable at h
  rw [density_eq, density_eq, density_eq] at h
  exact h

theorem exp_twenty : (1e6 : ℝ) ≤ Real.exp 20 := by
  have h1 : (2 : ℝ) ≤ Real.exp 1 := by linarith [Real.exp_one_gt_d9]
  have h2 : Real.exp 20 = Real.exp 1 ^ 20 := by rw [← Real.exp_nat_mul]; norm_num
  rw [h2]
  calc (1e6 : ℝ) ≤ 2 ^ 20 := by norm_num
    _ ≤ Real.exp 1 ^ 20 := pow_le_pow_left₀ (by norm_num) h1 20

/-- When no product of factors exceeds 80 in absolute value, every target from 1e-6 to 1 - 1e-6 is met up
to 2.5e-6. -/
theorem density_met (nUsers nItems nComp : Nat) (gu gi : Nat → Nat → ℝ) (target : ℝ)
    (hu : 0 < nUsers) (hi : 0 < nItems)
    (ha : ∀ u < nUsers, ∀ i < nItems, |(∑ c ∈ Finset.range nComp, gu u c * gi i c) / nComp| ≤ 80)
    (ht : 1e-6 ≤ target ∧ target ≤ 1 - 1e-6) :
    |meanDensity nUsers nItems (probability nUsers nItems nComp gu gi target) - target| ≤ 2.5e-6 := by
  have ha' : ∀ u < nUsers, ∀ i < nItems, |affinity nComp gu gi u i| ≤ 80 := by
    intro u hu i hi
    rw [affinity_eq]
    exact ha u hu i hi
  have hpos : (0 : ℝ) < nUsers * nItems := by
    have h1 : (0 : ℝ) < nUsers := by exact_mod_cast hu
    have h2 : (0 : ℝ) < nItems := by exact_mod_cast hi
    positivity
  have hcard : ∀ q : ℝ, (∑ _u ∈ Finset.range nUsers, ∑ _i ∈ Finset.range nItems, q)
      = q * (nUsers * nItems) := by
    intro q; simp; ring
  have hlow : meanDensity nUsers nItems (fun u i => 1 / (1 + Real.exp
      (-(affinity nComp gu gi u i + -100)))) ≤ target := by
    unfold meanDensity
    rw [div_le_iff₀ hpos]
    refine le_trans ?_ (mul_le_mul_of_nonneg_right ht.1 hpos.le)
    rw [← hcard]
    apply Finset.sum_le_sum
    intro u hu
    apply Finset.sum_le_sum
    intro i hi
    have h80 := abs_le.mp (ha' u (Finset.mem_range.mp hu) i (Finset.mem_range.mp hi))
    have he : (1e6 : ℝ) ≤ Real.exp (-(affinity nComp gu gi u i + -100)) :=
      le_trans exp_twenty (Real.exp_le_exp.mpr (by linarith))
    rw [div_le_iff₀ (by positivity)]
    linarith
  have hhigh : target ≤ meanDensity nUsers nItems (fun u i => 1 / (1 + Real.exp
      (-(affinity nComp gu gi u i + 100)))) := by
    unfold meanDensity
    rw [le_div_iff₀ hpos]
    refine le_trans (mul_le_mul_of_nonneg_right ht.2 hpos.le) ?_
    rw [← hcard]
    apply Finset.sum_le_sum
    intro u hu
    apply Finset.sum_le_sum
    intro i hi
    have h80 := abs_le.mp (ha' u (Finset.mem_range.mp hu) i (Finset.mem_range.mp hi))
    have he : Real.exp (-(affinity nComp gu gi u i + 100)) ≤ 1e-6 := by
      refine le_trans (Real.exp_le_exp.mpr (show _ ≤ (-20 : ℝ) by linarith)) ?_
      rw [Real.exp_neg, inv_le_comm₀ (Real.exp_pos _) (by norm_num)]
      exact le_trans (by norm_num) exp_twenty
    have hp := Real.exp_pos (-(affinity nComp gu gi u i + 100))
    rw [le_div_iff₀ (by positivity)]
    nlinarith
  have h := density_bound nUsers nItems nComp gu gi target
  simp only at h
  rw [min_eq_right hhigh, max_eq_right hlow] at h
  exact h

/-- The data set has the requested shape, and entry `(u, i)` is drawn with a probability strictly between
0 and 1 that is the logistic function of the factors' product plus one number common to all entries.  The
expected density is the target up to 2.5e-6, or up to that the nearest one that a common number between
-100 and 100 gives. -/
theorem C71_data (nUsers nItems nComp : Nat) (gu gi : Nat → Nat → ℝ) (target : ℝ)
    (draw : Nat → Nat → ℝ → Bool) :
    let logistic := fun (b : ℝ) (u i : Nat) =>
      1 / (1 + Real.exp (-((∑ c ∈ Finset.range nComp, gu u c * gi i c) / nComp + b)))
    let possible := fun b : ℝ => meanDensity nUsers nItems (logistic b)
    (mfExampleData nUsers nItems nComp gu gi target draw).length = nUsers ∧
      ∃ (p : Nat → Nat → ℝ) (b : ℝ), -100 ≤ b ∧ b ≤ 100 ∧
        (∀ u i, 0 < p u i ∧ p u i < 1 ∧ p u i = logistic b u i) ∧
        (∀ u < nUsers, ∃ row, (mfExampleData nUsers nItems nComp gu gi target draw)[u]? = some row ∧
          row.length = nItems ∧ ∀ i < nItems, row[i]? = some (draw u i (p u i))) ∧
        |meanDensity nUsers nItems p - max (possible (-100)) (min (possible 100) target)| ≤ 2.5e-6 := by
  intro logistic possible
  refine ⟨by simp [mfExampleData], probability nUsers nItems nComp gu gi target,
    bias (ravel nUsers nItems (affinity nComp gu gi)) target, ?_, ?_, ?_, ?_, ?_⟩
  · exact (search_start _ target 100 (by norm_num)).2.1
  · exact (search_start _ target 100 (by norm_num)).2.2.1
  · intro u i
    refine ⟨?_, ?_, ?_⟩
    · unfold probability; rw [expit_eq]; exact Real.sigmoid_pos _
    · unfold probability; rw [expit_eq]; exact Real.sigmoid_lt_one _
    · show _ = 1 / (1 + Real.exp (-((∑ c ∈ Finset.range nComp, gu u c * gi i c) / nComp + _)))
      rw [← affinity_eq]; rfl
  · intro u hu
    refine ⟨(List.range nItems).map (fun i =>
      draw u i (probability nUsers nItems nComp gu gi target u i)), ?_, by simp, ?_⟩
    · unfold mfExampleData
      rw [List.getElem?_map, List.getElem?_range hu]
      rfl
    · intro i hi
      rw [List.getElem?_map, List.getElem?_range hi]
      rfl
  · have h := density_bound nUsers nItems nComp gu gi target
    simp only [affinity_eq] at h
    exact h

/-- When no product of factors exceeds 80 in absolute value, every target from 1e-6 to 1 - 1e-6 is the
expected density up to 2.5e-6. -/
theorem C71_density_met (nUsers nItems nComp : Nat) (gu gi : Nat → Nat → ℝ) (target : ℝ)
    (draw : Nat → Nat → ℝ → Bool) (hu : 0 < nUsers) (hi : 0 < nItems)
    (ha : ∀ u < nUsers, ∀ i < nItems, |(∑ c ∈ Finset.range nComp, gu u c * gi i c) / nComp| ≤ 80)
    (ht : 1e-6 ≤ target ∧ target ≤ 1 - 1e-6) :
    ∃ p : Nat → Nat → ℝ,
      mfExampleData nUsers nItems nComp gu gi target draw =
        (List.range nUsers).map (fun u => (List.range nItems).map (fun i => draw u i (p u i))) ∧
      |meanDensity nUsers nItems p - target| ≤ 2.5e-6 :=
  ⟨_, rfl, density_met nUsers nItems nComp gu gi target hu hi ha ht⟩

/-- The search stops by itself after at most 25 rounds, so its limit of 100 rounds is never the reason. -/
theorem C71_search_ends (scores : List ℝ) (target : ℝ) :
    bias scores target = search (expectedDensity scores) target 25 (-100) 100 0 ∧
      ∀ n, 25 ≤ n → search (expectedDensity scores) target n (-100) 100 0 = bias scores target := by
  have h := (search_start scores target 100 (by norm_num)).2.2.2
  exact ⟨h, fun n hn => (search_start scores target n hn).2.2.2.trans h.symm⟩

/-- The hypotheses of `C71_density_met` hold, for instance, for factors 1 and -2. -/
example : (∀ u < 3, ∀ i < 4, |(∑ _c ∈ Finset.range 5, (1 : ℝ) * (-2)) / (5 : Nat)| ≤ 80) ∧
    (1e-6 : ℝ) ≤ 0.3 ∧ (0.3 : ℝ) ≤ 1 - 1e-6 := by
  refine ⟨fun _ _ _ _ => ?_, by norm_num, by norm_num⟩
  norm_num

end Irspack.SampleData
