import Verif.Proofs.SlimConverge
import Mathlib.Analysis.SpecificLimits.Basic
import Mathlib.Topology.Order.Compact
import Mathlib.Analysis.Real.Sqrt
import Mathlib.Topology.Algebra.Monoid

/-!
# C86: SLIM's sweeps lead to the solution of the documented problem

`SLIMRecommender.learn` runs at most `n_iter` sweeps of coordinate descent in a shuffled order and leaves early
once a sweep moves nothing by `tol` or more.  With `alpha > 0` and `l1_ratio < 1` the documented problem has
exactly one solution (`C86_optimum`), and the theorems say how far the learnt weights are from it: by a factor
that shrinks with the number of sweeps, or by an amount that shrinks with `tol`.

`rate F M l2 = F³ M² / (F³ M² + l2²)` is smaller than 1 (`rate_lt_one`).  Theorems with the suffix `_partial`
are about updates whose zero test is exact (`prec = 0`); with the tolerance `1e-5` of Eigen's `isZero` updates
get lost, and the loss need not even decrease (`C37_lost_updates_counterexample`).  `C86_stopped_gap` holds for
every tolerance.
-/

namespace Irspack.Props
open WorkQueue Slim Spec.Slim
open Filter Topology

section generic
variable {K : Type} [Field K] [LinearOrder K] [IsStrictOrderedRing K]

/-- C86 (what the stopping rule guarantees). If a sweep ends the iterations because the changes it reports are
below `tol`, the column it leaves has a loss within `F ε² / (2 l2)` of that of every admissible column, where
`ε = M (F max(tol, prec) + prec · dropped visits)`: for every data, visiting order, tolerance `prec` of the zero
test, and however far away the admissible column is. -/
theorem C86_stopped_gap (cfg : Config K) (hp : 0 ≤ cfg.prec) (X : CSC K) (hX : Proper X)
    (h2 : 0 < cfg.l2) (h1 : 0 ≤ cfg.l1) (M : K)
    (hM : ∀ f, f < X.cols.length → ∑ u ∈ Finset.range X.rows, X.get u f ^ 2 ≤ M)
    (b : Nat) (visited order : List Nat) (hv : ∀ f ∈ visited, f < X.cols.length)
    (ho : order.Perm (List.range X.cols.length))
    (hstop : (sweep cfg X b order (visit cfg X b visited)).2 < cfg.tol)
    (k : Nat) (hk : k < cfg.blockSize) (hj : b + k < X.cols.length)
    (c : Nat → K) (hc : Feasible cfg.positiveOnly X.cols.length (b + k) c) :
    columnLoss X.get X.rows X.cols.length cfg.l2 cfg.l1 (b + k)
        ((sweep cfg X b order (visit cfg X b visited)).1.coef k) ≤
      columnLoss X.get X.rows X.cols.length cfg.l2 cfg.l1 (b + k) c +
        X.cols.length *
          (M * (X.cols.length * max cfg.tol cfg.prec + cfg.prec * dropped cfg X b (visited ++ order))) ^ 2 /
          (2 * cfg.l2) := by
  have e : (sweep cfg X b order (visit cfg X b visited)).1 = visit cfg X b (visited ++ order) := by
    rw [sweep_fst]; simp [visit]
  rw [e]
  have h := (near_optimal_strong cfg hp X hX h2.le h1 M hM b visited order hv ho k hk hj
    (max cfg.tol cfg.prec) (le_trans hp (le_max_right _ _)) (by
      intro pre g post he
      have := sweep_changes cfg X b order (visit cfg X b visited) 0 pre g post he k hk
      rw [visit_more] at this
      rw [visit_append]
      have hle : |change cfg X b (visit cfg X b (visited ++ pre)) g k| ≤ max cfg.tol cfg.prec :=
        le_trans this (max_le_max (le_of_lt hstop) (le_refl _))
      simpa [featureStep, change] using hle)).2 c hc
  have ha := absorb X.cols.length
    (M * (X.cols.length * max cfg.tol cfg.prec + cfg.prec * dropped cfg X b (visited ++ order))) cfg.l2 h2
    (fun f => c f - (visit cfg X b (visited ++ order)).coef k f)
  linarith

/-- C86 (every sweep closes a fixed part of the gap). A sweep over all the features, in any order, leaves at most
the share `rate F M l2 < 1` of the amount by which the loss of a column exceeds that of any admissible column.
Missing: visits whose change the tolerance of `isZero` drops. -/
theorem C86_sweep_partial (cfg : Config K) (hp : 0 ≤ cfg.prec) (X : CSC K) (hX : Proper X)
    (h2 : 0 < cfg.l2) (h1 : 0 ≤ cfg.l1) (M : K)
    (hM : ∀ f, f < X.cols.length → ∑ u ∈ Finset.range X.rows, X.get u f ^ 2 ≤ M)
    (b : Nat) (visited order : List Nat) (hv : ∀ f ∈ visited, f < X.cols.length)
    (ho : order.Perm (List.range X.cols.length)) (hl : Lossless cfg X b (visited ++ order))
    (k : Nat) (hk : k < cfg.blockSize) (hj : b + k < X.cols.length)
    (c : Nat → K) (hc : Feasible cfg.positiveOnly X.cols.length (b + k) c) :
    0 ≤ rate X.cols.length M cfg.l2 ∧ rate X.cols.length M cfg.l2 < 1 ∧
    columnLoss X.get X.rows X.cols.length cfg.l2 cfg.l1 (b + k)
        ((sweep cfg X b order (visit cfg X b visited)).1.coef k) -
      columnLoss X.get X.rows X.cols.length cfg.l2 cfg.l1 (b + k) c ≤
    rate X.cols.length M cfg.l2 *
      (columnLoss X.get X.rows X.cols.length cfg.l2 cfg.l1 (b + k) ((visit cfg X b visited).coef k) -
        columnLoss X.get X.rows X.cols.length cfg.l2 cfg.l1 (b + k) c) := by
  refine ⟨rate_nonneg _ _ _, rate_lt_one _ _ h2, ?_⟩
  have e : (sweep cfg X b order (visit cfg X b visited)).1 = visit cfg X b (visited ++ order) := by
    rw [sweep_fst]; simp [visit]
  rw [e]
  have h := sweep_gap cfg hp X hX h2 h1 M hM b visited order hv ho hl k hk hj c hc
  have hpos : (0 : K) < (X.cols.length : K) ^ 3 * M ^ 2 + cfg.l2 ^ 2 := by positivity
  rw [← le_div_iff₀ hpos, mul_div_assoc] at h
  refine le_trans h (le_of_eq ?_)
  unfold rate
  rw [mul_comm]

/-- C86 (the sweeps end). With a positive `tol`, a block whose columns have squared lengths summing up to `S`
makes at most `S / (l2 tol²)` sweeps that go on.  So every `n_iter` beyond that gives the same weights: the
parameter then only bounds the work that is done anyway.
Missing: as above (an exact zero test). -/
theorem C86_enough_sweeps_partial (cfg : Config K) (hp : cfg.prec = 0) (ht : 0 < cfg.tol) (X : CSC K)
    (hX : Proper X) (h2 : 0 ≤ cfg.l2) (h1 : 0 ≤ cfg.l1) (b : Nat) (shuffles : Nat → List Nat)
    (hs : ∀ c, (shuffles c).Perm (List.range X.cols.length)) (c N : Nat)
    (hN : ∑ k ∈ Finset.range cfg.blockSize,
        (if b + k < X.cols.length then ∑ u ∈ Finset.range X.rows, X.get u (b + k) ^ 2 else 0) <
      N * (cfg.l2 * cfg.tol ^ 2)) :
    (∃ visited order : List Nat, (∀ f ∈ visited, f < X.cols.length) ∧ order.Perm (List.range X.cols.length) ∧
      (iterations cfg X b shuffles N c (initBlock X cfg.blockSize b)).1 =
        (sweep cfg X b order (visit cfg X b visited)).1 ∧
      (sweep cfg X b order (visit cfg X b visited)).2 < cfg.tol) ∧
    ∀ n, N ≤ n → iterations cfg X b shuffles n c (initBlock X cfg.blockSize b) =
      iterations cfg X b shuffles N c (initBlock X cfg.blockSize b) := by
  classical
  have hex : ∃ m, Stops cfg X b shuffles c [] m ∧ m < N := by
    by_contra hno
    have hu := unstopped_bound cfg hp ht X hX h2 h1 b shuffles hs c N (fun i hi hst => hno ⟨i, hst, hi⟩)
    have hnn : 0 ≤ ∑ k ∈ laneSet cfg X b, laneLoss cfg X b k ((visit cfg X b (sweeps shuffles c N)).coef k) :=
      Finset.sum_nonneg (fun k _ => columnLoss_nonneg _ _ _ _ _ h2 h1 _ _)
    have hz : ∑ k ∈ laneSet cfg X b, laneLoss cfg X b k (fun _ => 0) =
        (∑ k ∈ Finset.range cfg.blockSize,
          (if b + k < X.cols.length then ∑ u ∈ Finset.range X.rows, X.get u (b + k) ^ 2 else 0)) / 2 := by
      unfold laneSet
      rw [Finset.sum_filter, Finset.sum_div]
      apply Finset.sum_congr rfl
      intro k _
      unfold laneLoss
      rw [columnLoss_zero]
      split <;> simp
    rw [hz] at hu
    have : (N : K) * (cfg.l2 / 2 * cfg.tol ^ 2) = N * (cfg.l2 * cfg.tol ^ 2) / 2 := by ring
    rw [this] at hu
    linarith
  have hm := Nat.find_spec hex
  have hst := iterations_stopped cfg X b shuffles (Nat.find hex) c []
    (fun i hi hs => Nat.find_min hex hi ⟨hs, lt_trans hi hm.2⟩) hm.1
  have e0 : visit cfg X b [] = initBlock X cfg.blockSize b := rfl
  rw [e0] at hst
  constructor
  · refine ⟨sweeps shuffles c (Nat.find hex), shuffles (c + Nat.find hex), sweeps_inside hs _ _, hs _, ?_, ?_⟩
    · rw [hst N hm.2, sweep_fst, visit_more, sweeps_succ]; rfl
    · exact hm.1
  · intro n hn
    rw [hst n (lt_of_lt_of_le hm.2 hn), hst N hm.2]

/-- the gap a column of the result leaves -/
theorem column_gap (cfg : Config K) (hp : cfg.prec = 0) (X : CSC K) (hX : Proper X)
    (h2 : 0 < cfg.l2) (h1 : 0 ≤ cfg.l1) (M : K)
    (hM : ∀ f, f < X.cols.length → ∑ u ∈ Finset.range X.rows, X.get u f ^ 2 ≤ M)
    (b : Nat) (shuffles : Nat → List Nat) (hs : ∀ c, (shuffles c).Perm (List.range X.cols.length))
    (k : Nat) (hk : k < cfg.blockSize) (hj : b + k < X.cols.length)
    (c : Nat → K) (hc : Feasible cfg.positiveOnly X.cols.length (b + k) c) (i n : Nat) :
    Feasible cfg.positiveOnly X.cols.length (b + k)
      ((iterations cfg X b shuffles n i (initBlock X cfg.blockSize b)).1.coef k) ∧
    laneLoss cfg X b k ((iterations cfg X b shuffles n i (initBlock X cfg.blockSize b)).1.coef k) ≤
      laneLoss cfg X b k c + (rate X.cols.length M cfg.l2 ^ n * laneLoss cfg X b k (fun _ => 0) +
        X.cols.length * (M * (X.cols.length * cfg.tol)) ^ 2 / (2 * cfg.l2)) := by
  have e0 : visit cfg X b [] = initBlock X cfg.blockSize b := rfl
  rw [← e0]
  have hfeas : ∀ v, Feasible cfg.positiveOnly X.cols.length (b + k) ((visit cfg X b v).coef k) := fun v =>
    ⟨visit_diag cfg X b v k, fun hpos f _ => visit_nonneg cfg hpos X b v k f⟩
  have hq : 0 ≤ (X.cols.length : K) * (M * (X.cols.length * cfg.tol)) ^ 2 / (2 * cfg.l2) := by positivity
  have hr : 0 ≤ rate X.cols.length M cfg.l2 ^ n := pow_nonneg (rate_nonneg _ _ _) n
  have hl0 : 0 ≤ laneLoss cfg X b k (fun _ => 0) := columnLoss_nonneg _ _ _ _ _ h2.le h1 _ _
  have hlc : 0 ≤ laneLoss cfg X b k c := columnLoss_nonneg _ _ _ _ _ h2.le h1 _ _
  rcases iterations_end cfg X b shuffles n i [] with h | ⟨m, hm, hst, h⟩
  · rw [h]
    refine ⟨hfeas _, ?_⟩
    have := sweeps_gap cfg hp X hX h2 h1 M hM b shuffles hs k hk hj c hc i n
    simp only [List.nil_append]
    have := mul_nonneg hr hlc
    rw [mul_sub] at *
    linarith
  · rw [h]
    refine ⟨hfeas _, ?_⟩
    have hst' : (sweep cfg X b (shuffles (i + m)) (visit cfg X b (sweeps shuffles i m))).2 < cfg.tol := hst
    have ht : 0 < cfg.tol := lt_of_le_of_lt (delta_mono cfg X b (shuffles (i + m)) _ 0) hst'
    have := C86_stopped_gap cfg hp.ge X hX h2 h1 M hM b (sweeps shuffles i m) (shuffles (i + m))
      (sweeps_inside hs _ _) (hs _) hst' k hk hj c hc
    rw [hp, max_eq_left ht.le, zero_mul, add_zero, sweep_fst, visit_more, ← sweeps_succ] at this
    simp only [List.nil_append]
    have := mul_nonneg hr hl0
    unfold laneLoss at *
    linarith

/-- C86 (the recommender). The documented loss of the weights `SLIMRecommender` learns (without `top_k`) exceeds
that of any admissible weights by at most `rate^n_iter` times the loss of the zero matrix, plus an amount
proportional to `tol²`: for any data whose columns have squared length at most `M`, `alpha > 0`,
`0 ≤ l1_ratio < 1`, any shuffles, number of threads and interleaving.
Missing: as above (an exact zero test). -/
theorem C86_recommender_partial {T : Nat} (X : CSC K) (hX : Proper X) (hU : 0 < X.rows) (α l1Ratio tol : K)
    (hα : 0 < α) (hl0 : 0 ≤ l1Ratio) (hl1 : l1Ratio < 1) (M : K)
    (hM : ∀ f, f < X.cols.length → ∑ u ∈ Finset.range X.rows, X.get u f ^ 2 ≤ M)
    (positiveOnly : Bool) (nIter blockSize : Nat) (hB : 0 < blockSize) (shuffles : Nat → List Nat)
    (hsh : ∀ c, (shuffles c).Perm (List.range X.cols.length))
    (srt : List (K × Nat) → List (K × Nat)) (sched : List (Fin T)) (s : State T (Worker K) Unit)
    (hs : slim (recommenderConfig X.rows α l1Ratio positiveOnly nIter tol none blockSize 0) X shuffles
      srt sched = .ok s) (hfin : Finished s) :
    (∀ j, j < X.cols.length → Feasible positiveOnly X.cols.length j (fun f => weights s f j)) ∧
    ∀ B : Nat → Nat → K, (∀ j, j < X.cols.length → Feasible positiveOnly X.cols.length j (fun f => B f j)) →
      documentedLoss X.get X.rows X.cols.length α l1Ratio (weights s) ≤
        documentedLoss X.get X.rows X.cols.length α l1Ratio B
        + rate X.cols.length M (X.rows * α * (1 - l1Ratio)) ^ nIter *
            documentedLoss X.get X.rows X.cols.length α l1Ratio (fun _ _ => 0)
        + X.cols.length ^ 4 * M ^ 2 * tol ^ 2 / (2 * (X.rows * α * (1 - l1Ratio))) := by
  set cfg := recommenderConfig X.rows α l1Ratio positiveOnly nIter tol none blockSize 0 with hcfg
  have hU' : (0 : K) < X.rows := Nat.cast_pos.mpr hU
  have h2 : 0 < cfg.l2 := mul_pos (mul_pos hU' hα) (by linarith)
  have h1 : 0 ≤ cfg.l1 := mul_nonneg (mul_nonneg hU'.le hα.le) hl0
  have hdm : ∀ j, j / blockSize * blockSize + j % blockSize = j := fun j => by
    rw [Nat.mul_comm]; exact Nat.div_add_mod j blockSize
  have key : ∀ j, j < X.cols.length → ∀ c, Feasible positiveOnly X.cols.length j c →
      Feasible positiveOnly X.cols.length j (fun f => weights s f j) ∧
      columnLoss X.get X.rows X.cols.length cfg.l2 cfg.l1 j (fun f => weights s f j) ≤
        columnLoss X.get X.rows X.cols.length cfg.l2 cfg.l1 j c +
        (rate X.cols.length M cfg.l2 ^ nIter * columnLoss X.get X.rows X.cols.length cfg.l2 cfg.l1 j (fun _ => 0) +
          X.cols.length * (M * (X.cols.length * tol)) ^ 2 / (2 * cfg.l2)) := by
    intro j hj c hc
    obtain ⟨i, hw⟩ := weights_full cfg X shuffles srt hB sched s hs hfin j hj
    have hw := hw (Or.inl (by simp [hcfg, recommenderConfig]))
    have hg := column_gap cfg rfl X hX h2 h1 M hM (j / blockSize * blockSize) shuffles hsh (j % blockSize)
      (Nat.mod_lt _ hB) (by rw [hdm]; exact hj) c (by rw [hdm]; exact hc) i nIter
    unfold laneLoss at hg
    rw [hdm] at hg
    refine ⟨⟨?_, fun hpos f hf => ?_⟩, ?_⟩
    · show weights s j j = 0
      rw [hw j hj]; exact hg.1.1
    · show 0 ≤ weights s f j
      rw [hw f hf]; exact hg.1.2 hpos f hf
    · rw [columnLoss_congr _ _ _ _ _ j _ _ hw]; exact hg.2
  constructor
  · intro j hj
    exact (key j hj (fun _ => 0) ⟨rfl, fun _ _ _ => le_refl _⟩).1
  · intro B hBf
    rw [documentedLoss_eq, documentedLoss_eq, documentedLoss_eq]
    have := Finset.sum_le_sum (fun j hj => (key j (Finset.mem_range.mp hj) _ (hBf j (Finset.mem_range.mp hj))).2)
    rw [Finset.sum_add_distrib, Finset.sum_add_distrib, ← Finset.mul_sum, Finset.sum_const, Finset.card_range,
      nsmul_eq_mul] at this
    have e : (X.cols.length : K) * (X.cols.length * (M * (X.cols.length * tol)) ^ 2 / (2 * cfg.l2)) =
        X.cols.length ^ 4 * M ^ 2 * tol ^ 2 / (2 * (X.rows * α * (1 - l1Ratio))) := by
      rw [← mul_div_assoc]
      congr 1
      ring
    rw [e, ← add_assoc] at this
    exact this

/-- each column of optimal weights is optimal -/
theorem optimal_column {positiveOnly : Bool} {X : CSC K} {α l₁ : K} {B : Nat → Nat → K}
    (h : Optimal positiveOnly X.get X.rows X.cols.length α l₁ B) (j : Nat) (hj : j < X.cols.length)
    (c : Nat → K) (hc : Feasible positiveOnly X.cols.length j c) :
    columnLoss X.get X.rows X.cols.length (X.rows * α * (1 - l₁)) (X.rows * α * l₁) j (fun f => B f j) ≤
      columnLoss X.get X.rows X.cols.length (X.rows * α * (1 - l₁)) (X.rows * α * l₁) j c := by
  have := h.2 (fun f j' => if j' = j then c f else B f j') (fun j' hj' => by
    by_cases e : j' = j
    · subst e; simpa using hc
    · simpa [e] using h.1 j' hj')
  rw [documentedLoss_eq, documentedLoss_eq] at this
  rw [← Finset.add_sum_erase _ _ (Finset.mem_range.mpr hj), ← Finset.add_sum_erase _ _ (Finset.mem_range.mpr hj)]
    at this
  have e : ∑ x ∈ (Finset.range X.cols.length).erase j, columnLoss X.get X.rows X.cols.length
        (X.rows * α * (1 - l₁)) (X.rows * α * l₁) x (fun f => if x = j then c f else B f x) =
      ∑ x ∈ (Finset.range X.cols.length).erase j, columnLoss X.get X.rows X.cols.length
        (X.rows * α * (1 - l₁)) (X.rows * α * l₁) x (fun f => B f x) := by
    apply Finset.sum_congr rfl
    intro x hx
    simp [(Finset.mem_erase.mp hx).1]
  rw [e] at this
  simpa using this

/-- C86 (near-optimal weights are near the optimum). Admissible weights whose documented loss is within `δ` of the
optimal one differ from the optimal weights by at most `4 δ / l2` in the sum of squares. -/
theorem C86_distance (X : CSC K) (hU : 0 < X.rows) (α l1Ratio : K) (hα : 0 < α) (hl0 : 0 ≤ l1Ratio)
    (hl1 : l1Ratio < 1) (positiveOnly : Bool) (B W : Nat → Nat → K)
    (hB : Optimal positiveOnly X.get X.rows X.cols.length α l1Ratio B)
    (hW : ∀ j, j < X.cols.length → Feasible positiveOnly X.cols.length j (fun f => W f j)) :
    X.rows * α * (1 - l1Ratio) / 4 *
        ∑ j ∈ Finset.range X.cols.length, ∑ f ∈ Finset.range X.cols.length, (W f j - B f j) ^ 2 ≤
      documentedLoss X.get X.rows X.cols.length α l1Ratio W -
        documentedLoss X.get X.rows X.cols.length α l1Ratio B := by
  have hU' : (0 : K) < X.rows := Nat.cast_pos.mpr hU
  rw [documentedLoss_eq, documentedLoss_eq, Finset.mul_sum, ← Finset.sum_sub_distrib]
  apply Finset.sum_le_sum
  intro j hj
  have hj := Finset.mem_range.mp hj
  exact near_minimiser X _ _ (mul_pos (mul_pos hU' hα) (by linarith)) positiveOnly j _ _ (hW j hj) (hB.1 j hj)
    (optimal_column hB j hj) (mul_nonneg (mul_nonneg hU'.le hα.le) hl0)

end generic

/-! ### The solution and the limit -/

theorem columnLoss_continuous (X : CSC ℝ) (l2 l1 : ℝ) (j F : Nat) :
    Continuous (fun x : Fin F → ℝ => columnLoss X.get X.rows F l2 l1 j
      (fun f => if h : f < F then x ⟨f, h⟩ else 0)) := by
  have hc : ∀ f, Continuous (fun x : Fin F → ℝ => if h : f < F then x ⟨f, h⟩ else 0) := by
    intro f
    by_cases h : f < F
    · simp only [h, dif_pos]; exact continuous_apply _
    · simp only [h, dif_neg, not_false_iff]; exact continuous_const
  unfold columnLoss
  refine ((Continuous.div_const (continuous_finsetSum _ (fun u _ => (continuous_const.sub
    (continuous_finsetSum _ (fun f _ => continuous_const.mul (hc f)))).pow 2)) 2).add
    (continuous_const.mul (continuous_finsetSum _ (fun f _ => (hc f).pow 2)))).add
    (continuous_const.mul (continuous_finsetSum _ (fun f _ => (hc f).abs)))

/-- a column problem has a solution -/
theorem column_minimiser (X : CSC ℝ) (l2 l1 : ℝ) (h2 : 0 < l2) (h1 : 0 ≤ l1) (pos : Bool) (j : Nat) :
    ∃ c : Nat → ℝ, Feasible pos X.cols.length j c ∧ ∀ c' : Nat → ℝ, Feasible pos X.cols.length j c' →
      columnLoss X.get X.rows X.cols.length l2 l1 j c ≤ columnLoss X.get X.rows X.cols.length l2 l1 j c' := by
  set F := X.cols.length with hF
  set L := columnLoss X.get X.rows F l2 l1 j with hL
  set ext : (Fin F → ℝ) → Nat → ℝ := fun x f => if h : f < F then x ⟨f, h⟩ else 0 with hext
  set R : ℝ := 2 * L (fun _ => 0) / l2 + 1 with hR
  have hL0 : 0 ≤ L (fun _ => 0) := columnLoss_nonneg _ _ _ _ _ h2.le h1 _ _
  have hR1 : 1 ≤ R := by
    have : 0 ≤ 2 * L (fun _ => 0) / l2 := by positivity
    linarith
  set S : Set (Fin F → ℝ) := Set.Icc (fun _ => -R) (fun _ => R) ∩
    {x | ext x j = 0 ∧ (pos = true → ∀ f : Fin F, 0 ≤ x f)} with hS
  have hcont : Continuous (fun x : Fin F → ℝ => ext x j) := by
    by_cases h : j < F
    · simp only [hext, h, dif_pos]; exact continuous_apply _
    · simp only [hext, h, dif_neg, not_false_iff]; exact continuous_const
  have hclosed : IsClosed {x : Fin F → ℝ | ext x j = 0 ∧ (pos = true → ∀ f : Fin F, 0 ≤ x f)} := by
    refine IsClosed.inter (isClosed_eq hcont continuous_const) ?_
    by_cases hp : pos = true
    · have : {x : Fin F → ℝ | pos = true → ∀ f : Fin F, 0 ≤ x f} = ⋂ f : Fin F, {x : Fin F → ℝ | 0 ≤ x f} := by
        ext x; simp [hp]
      change IsClosed {x : Fin F → ℝ | pos = true → ∀ f : Fin F, 0 ≤ x f}
      rw [this]
      exact isClosed_iInter (fun f => isClosed_le continuous_const (continuous_apply f))
    · have : {x : Fin F → ℝ | pos = true → ∀ f : Fin F, 0 ≤ x f} = Set.univ := by
        ext x; simp [hp]
      change IsClosed {x : Fin F → ℝ | pos = true → ∀ f : Fin F, 0 ≤ x f}
      rw [this]
      exact isClosed_univ
  have hcompact : IsCompact S := isCompact_Icc.inter_right hclosed
  have hzero : (fun _ : Fin F => (0 : ℝ)) ∈ S :=
    ⟨⟨fun _ => by show -R ≤ 0; linarith, fun _ => by show (0:ℝ) ≤ R; linarith⟩,
      by simp [hext], fun _ _ => le_refl _⟩
  obtain ⟨x, hx, hmin⟩ := hcompact.exists_isMinOn ⟨_, hzero⟩ (columnLoss_continuous X l2 l1 j F).continuousOn
  have hmin' : ∀ y ∈ S, L (ext x) ≤ L (ext y) := fun y hy => isMinOn_iff.mp hmin y hy
  refine ⟨ext x, ⟨hx.2.1, fun hp f hf => ?_⟩, fun c' hc' => ?_⟩
  · simp only [hext, hf, dif_pos]; exact hx.2.2 hp _
  have hagree : ∀ c'' : Nat → ℝ, L (ext (fun f => c'' f)) = L c'' := by
    intro c''
    exact columnLoss_congr _ _ _ _ _ _ _ _ (fun f hf => by simp [hext, hf])
  by_cases hin : ∀ f, f < F → |c' f| ≤ R
  · have hmem : (fun f : Fin F => c' f) ∈ S := by
      refine ⟨⟨fun f => (abs_le.mp (hin f f.2)).1, fun f => (abs_le.mp (hin f f.2)).2⟩, ?_, fun hp f => hc'.2 hp f f.2⟩
      by_cases h : j < F
      · simp [hext, h, hc'.1]
      · simp [hext, h]
    have h' := hmin' _ hmem
    rw [hagree] at h'
    exact h'
  · push Not at hin
    obtain ⟨f, hf, hlt⟩ := hin
    have h0 : L (ext x) ≤ L (fun _ => 0) := by
      have h' := hmin' _ hzero
      rw [hagree (fun _ => 0)] at h'
      exact h'
    refine le_trans h0 ?_
    have hsq : R ^ 2 ≤ ∑ f ∈ Finset.range F, c' f ^ 2 := by
      refine le_trans ?_ (Finset.single_le_sum (f := fun f => c' f ^ 2) (fun _ _ => sq_nonneg _)
        (Finset.mem_range.mpr hf))
      show R ^ 2 ≤ c' f ^ 2
      rw [← sq_abs (c' f)]
      exact pow_le_pow_left₀ (by linarith) hlt.le 2
    have hlow : l2 / 2 * ∑ f ∈ Finset.range F, c' f ^ 2 ≤ L c' := by
      simp only [hL, columnLoss]
      have e1 : 0 ≤ ∑ u ∈ Finset.range X.rows, (X.get u j - ∑ f ∈ Finset.range F, X.get u f * c' f) ^ 2 :=
        Finset.sum_nonneg (fun _ _ => sq_nonneg _)
      have e3 : 0 ≤ l1 * ∑ f ∈ Finset.range F, |c' f| := mul_nonneg h1 (Finset.sum_nonneg (fun _ _ => abs_nonneg _))
      linarith
    have hRL : L (fun _ => 0) ≤ l2 / 2 * R := by
      rw [hR, mul_add, mul_one]
      have : l2 / 2 * (2 * L (fun _ => 0) / l2) = L (fun _ => 0) := by field_simp
      rw [this]; linarith
    have hRR : R ≤ R ^ 2 := by nlinarith
    have := mul_le_mul_of_nonneg_left (le_trans hRR hsq) (show 0 ≤ l2 / 2 by linarith)
    linarith

/-- C86 (the problem has one solution). With `alpha > 0` and `l1_ratio < 1` there are admissible weights whose
documented loss is smallest, and any two such weight matrices agree on all pairs of items. -/
theorem C86_optimum (X : CSC ℝ) (hU : 0 < X.rows) (α l1Ratio : ℝ) (hα : 0 < α) (hl0 : 0 ≤ l1Ratio)
    (hl1 : l1Ratio < 1) (positiveOnly : Bool) :
    (∃ B, Optimal positiveOnly X.get X.rows X.cols.length α l1Ratio B) ∧
    ∀ B B', Optimal positiveOnly X.get X.rows X.cols.length α l1Ratio B →
      Optimal positiveOnly X.get X.rows X.cols.length α l1Ratio B' →
      ∀ f j, f < X.cols.length → j < X.cols.length → B f j = B' f j := by
  have hU' : (0 : ℝ) < X.rows := Nat.cast_pos.mpr hU
  have h2 : 0 < X.rows * α * (1 - l1Ratio) := mul_pos (mul_pos hU' hα) (by linarith)
  have h1 : 0 ≤ X.rows * α * l1Ratio := mul_nonneg (mul_nonneg hU'.le hα.le) hl0
  constructor
  · choose c hc using fun j => column_minimiser X _ _ h2 h1 positiveOnly j
    refine ⟨fun f j => c j f, fun j _ => (hc j).1, fun B' hB' => ?_⟩
    rw [documentedLoss_eq, documentedLoss_eq]
    exact Finset.sum_le_sum (fun j hj => (hc j).2 _ (hB' j (Finset.mem_range.mp hj)))
  · intro B B' hB hB' f j hf hj
    have hd := C86_distance X hU α l1Ratio hα hl0 hl1 positiveOnly B B' hB hB'.1
    have hle := hB'.2 B hB.1
    have hnn : ∀ j, 0 ≤ ∑ f ∈ Finset.range X.cols.length, (B' f j - B f j) ^ 2 :=
      fun j => Finset.sum_nonneg (fun _ _ => sq_nonneg _)
    have hz : ∑ j ∈ Finset.range X.cols.length, ∑ f ∈ Finset.range X.cols.length, (B' f j - B f j) ^ 2 ≤ 0 := by
      by_contra hpos
      push Not at hpos
      have := mul_pos (show 0 < X.rows * α * (1 - l1Ratio) / 4 by linarith) hpos
      linarith
    have h3 := le_trans (Finset.single_le_sum (f := fun f => (B' f j - B f j) ^ 2) (fun _ _ => sq_nonneg _)
      (Finset.mem_range.mpr hf)) (Finset.single_le_sum (fun j _ => hnn j) (Finset.mem_range.mpr hj))
    have h4 : (B' f j - B f j) ^ 2 ≤ 0 := le_trans h3 hz
    have := pow_eq_zero_iff (two_ne_zero) |>.mp (le_antisymm h4 (sq_nonneg _))
    linarith

/-- C86 (the limit). Let `n_iter` grow beyond all bounds and `tol` shrink to zero, in any way, and let every
training use its own shuffles, number of threads and interleaving.  Then every weight tends to that of the
solution of the documented problem, which depends on the data and the penalties alone.
Missing: as above (an exact zero test). -/
theorem C86_converges_partial (X : CSC ℝ) (hX : Proper X) (hU : 0 < X.rows) (α l1Ratio : ℝ)
    (hα : 0 < α) (hl0 : 0 ≤ l1Ratio) (hl1 : l1Ratio < 1) (positiveOnly : Bool) (blockSize : Nat) (hB : 0 < blockSize)
    (nIter : ℕ → ℕ) (tol : ℕ → ℝ) (hn : Tendsto nIter atTop atTop) (ht : Tendsto tol atTop (𝓝 0))
    (shuffles : ℕ → Nat → List Nat) (hsh : ∀ n c, (shuffles n c).Perm (List.range X.cols.length))
    (srt : List (ℝ × Nat) → List (ℝ × Nat)) (T : ℕ → ℕ) (sched : ∀ n, List (Fin (T n)))
    (s : ∀ n, State (T n) (Worker ℝ) Unit)
    (hs : ∀ n, slim (recommenderConfig X.rows α l1Ratio positiveOnly (nIter n) (tol n) none blockSize 0) X
      (shuffles n) srt (sched n) = .ok (s n)) (hfin : ∀ n, Finished (s n))
    (B : Nat → Nat → ℝ) (hopt : Optimal positiveOnly X.get X.rows X.cols.length α l1Ratio B)
    (f j : Nat) (hf : f < X.cols.length) (hj : j < X.cols.length) :
    Tendsto (fun n => weights (s n) f j) atTop (𝓝 (B f j)) := by
  have hU' : (0 : ℝ) < X.rows := Nat.cast_pos.mpr hU
  set l2 : ℝ := X.rows * α * (1 - l1Ratio) with hl2
  have h2 : 0 < l2 := mul_pos (mul_pos hU' hα) (by linarith)
  set M : ℝ := ∑ f ∈ Finset.range X.cols.length, ∑ u ∈ Finset.range X.rows, X.get u f ^ 2 with hMdef
  have hM : ∀ f, f < X.cols.length → ∑ u ∈ Finset.range X.rows, X.get u f ^ 2 ≤ M := fun f hf =>
    Finset.single_le_sum (f := fun f => ∑ u ∈ Finset.range X.rows, X.get u f ^ 2)
      (fun _ _ => Finset.sum_nonneg (fun _ _ => sq_nonneg _)) (Finset.mem_range.mpr hf)
  set D := documentedLoss X.get X.rows X.cols.length α l1Ratio (fun _ _ => 0) with hD
  set bound : ℕ → ℝ := fun n => rate X.cols.length M l2 ^ nIter n * D +
    X.cols.length ^ 4 * M ^ 2 * tol n ^ 2 / (2 * l2) with hbound
  have hsq : ∀ n, (weights (s n) f j - B f j) ^ 2 ≤ bound n * (4 / l2) := by
    intro n
    obtain ⟨hfe, hle⟩ := C86_recommender_partial X hX hU α l1Ratio (tol n) hα hl0 hl1 M hM positiveOnly (nIter n)
      blockSize hB (shuffles n) (hsh n) srt (sched n) (s n) (hs n) (hfin n)
    have hd := C86_distance X hU α l1Ratio hα hl0 hl1 positiveOnly B (weights (s n)) hopt hfe
    have hle := hle B hopt.1
    have h3 := le_trans (Finset.single_le_sum (f := fun f => (weights (s n) f j - B f j) ^ 2)
      (fun _ _ => sq_nonneg _) (Finset.mem_range.mpr hf))
      (Finset.single_le_sum (f := fun j => ∑ f ∈ Finset.range X.cols.length, (weights (s n) f j - B f j) ^ 2)
        (fun j _ => Finset.sum_nonneg (fun _ _ => sq_nonneg _)) (Finset.mem_range.mpr hj))
    have h4 := le_trans (mul_le_mul_of_nonneg_left h3 (show 0 ≤ l2 / 4 by linarith)) hd
    have h5 : l2 / 4 * (weights (s n) f j - B f j) ^ 2 ≤ bound n := by
      simp only [hbound]
      linarith
    rw [mul_div_assoc', le_div_iff₀ h2]
    linarith
  have hb : Tendsto (fun n => bound n * (4 / l2)) atTop (𝓝 0) := by
    have e1 : Tendsto (fun n => rate X.cols.length M l2 ^ nIter n) atTop (𝓝 0) :=
      (tendsto_pow_atTop_nhds_zero_of_lt_one (rate_nonneg _ _ _) (rate_lt_one _ _ h2)).comp hn
    have e2 : Tendsto (fun n => bound n) atTop (𝓝 (0 * D + X.cols.length ^ 4 * M ^ 2 * 0 ^ 2 / (2 * l2))) :=
      (e1.mul_const D).add (((ht.pow 2).const_mul _).div_const _)
    have e3 := e2.mul_const (4 / l2)
    simpa using e3
  have h0 : Tendsto (fun n => (weights (s n) f j - B f j) ^ 2) atTop (𝓝 0) :=
    squeeze_zero (fun n => sq_nonneg _) hsq hb
  have h1 : Tendsto (fun n => |weights (s n) f j - B f j|) atTop (𝓝 0) := by
    have := (Real.continuous_sqrt.tendsto 0).comp h0
    simpa [Function.comp_def, Real.sqrt_sq_eq_abs] using this
  have := (tendsto_zero_iff_abs_tendsto_zero _).mpr h1
  have h2 := this.add_const (B f j)
  simpa using h2

/-! ### The hypotheses are met -/

/-- 3 users, 4 items, a quadratic and a linear penalty, an exact zero test, `tol = 1/100` -/
def convergeCfg : Config ℚ := { leakyCfg with topK := -1, prec := 0, l2 := 1, l1 := 1 / 2, tol := 1 / 100 }

/-- The data of the counterexample above: the first sweep goes on, and the eleventh ends the iterations with columns
that have moved; their squared lengths are at most 27.  A bound of 3126·10² sweeps is enough for this block. -/
example :
    Proper leaky ∧ 0 < convergeCfg.l2 ∧ 0 ≤ convergeCfg.l1 ∧ 0 < convergeCfg.tol ∧
    (∀ f, f < leaky.cols.length → ∑ u ∈ Finset.range leaky.rows, leaky.get u f ^ 2 ≤ 27) ∧
    [0, 1, 2, 3].Perm (List.range leaky.cols.length) ∧
    ¬ (sweep convergeCfg leaky 0 [0, 1, 2, 3] (visit convergeCfg leaky 0 [])).2 < convergeCfg.tol ∧
    (sweep convergeCfg leaky 0 [0, 1, 2, 3]
      (visit convergeCfg leaky 0 ([0, 1, 2, 3] ++ [3, 2, 1, 0] ++ [0, 1, 2, 3] ++ [3, 2, 1, 0] ++ [0, 1, 2, 3] ++ [3, 2, 1, 0] ++ [0, 1, 2, 3] ++ [3, 2, 1, 0] ++ [0, 1, 2, 3] ++ [3, 2, 1, 0]))).2 < convergeCfg.tol ∧
    0 < (visit convergeCfg leaky 0 ([0, 1, 2, 3] ++ [3, 2, 1, 0])).coef 0 1 ∧
    ∑ k ∈ Finset.range convergeCfg.blockSize,
        (if 0 + k < leaky.cols.length then ∑ u ∈ Finset.range leaky.rows, leaky.get u (0 + k) ^ 2 else 0) <
      (312600 : ℕ) * (convergeCfg.l2 * convergeCfg.tol ^ 2) ∧
    ∃ s : State 1 (Worker ℚ) Unit,
      slim (recommenderConfig 3 (1 / 3 : ℚ) (1 / 3) true 4 (1 / 100) none 4 0) leaky (fun _ => [0, 1, 2, 3]) sortDesc
        (List.replicate 4 (0 : Fin 1)) = .ok s ∧ Finished s ∧ 0 < weights s 1 0 := by
  refine ⟨⟨?_, ?_⟩, ?_, ?_, ?_, ?_, ?_, ?_, ?_, ?_, ?_, ?_⟩
  case refine_12 =>
    let cfg := recommenderConfig 3 (1 / 3 : ℚ) (1 / 3) true 4 (1 / 100) none 4 0
    have h : slim cfg leaky (fun _ => [0, 1, 2, 3]) sortDesc (List.replicate 4 (0 : Fin 1)) =
        .ok (run (blockCount cfg leaky) 1
          (fun i w m => (processBlock cfg leaky (fun _ => [0, 1, 2, 3]) sortDesc i w, m))
          (init (freshWorker cfg leaky) ()) (List.replicate 4 (0 : Fin 1))) := by
      unfold slim
      rw [if_neg (by decide), if_neg (by decide), if_neg (by decide +kernel),
        if_neg (by decide +kernel)]
    refine ⟨_, h, fun t => ?_, ?_⟩
    · revert t; decide +kernel
    · decide +kernel
  all_goals decide +kernel

/-- Two items of one user, `alpha = 1`, `l1_ratio = 0`: every number of sweeps gives weights, over the reals. -/
example :
    let X : CSC ℝ := ⟨1, [[(0, 1)], [(0, 1)]]⟩
    Proper X ∧ ∀ n : ℕ, ∃ s : State 1 (Worker ℝ) Unit,
      slim (recommenderConfig X.rows (1 : ℝ) 0 true (n + 1) (1 / (n + 1)) none 4 0) X (fun _ => [1, 0]) id
        (List.replicate 4 (0 : Fin 1)) = .ok s ∧ Finished s := by
  intro X
  refine ⟨⟨?_, ?_⟩, fun n => ?_⟩
  · simp [X]
  · simp [X]
  · refine ⟨run (blockCount (recommenderConfig X.rows (1 : ℝ) 0 true (n + 1) (1 / (n + 1)) none 4 0) X) 1
        (fun i w m => (processBlock (recommenderConfig X.rows (1 : ℝ) 0 true (n + 1) (1 / (n + 1)) none 4 0) X
          (fun _ => [1, 0]) id i w, m))
        (init (freshWorker (recommenderConfig X.rows (1 : ℝ) 0 true (n + 1) (1 / (n + 1)) none 4 0) X) ())
        (List.replicate 4 (0 : Fin 1)), ?_, ?_⟩
    · unfold slim
      rw [if_neg (by decide), if_neg (by simp [recommenderConfig]), if_neg (by simp [recommenderConfig, X]),
        if_neg (by simp [recommenderConfig])]
    · intro t
      have ht : t = 0 := Subsingleton.elim _ _
      subst ht
      have hb : blockCount (recommenderConfig X.rows (1 : ℝ) 0 true (n + 1) (1 / (n + 1)) none 4 0) X = 1 := by
        simp [blockCount, recommenderConfig, X]
      rw [hb]
      simp [run, step, init, List.replicate]

end Irspack.Props
