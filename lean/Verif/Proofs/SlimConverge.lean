import Verif.Props.SlimDrift

/-! Helper lemmas for C86: every sweep of SLIM closes a fixed part of the distance to the optimum. -/

namespace Irspack.Slim
open Spec.Slim Props

variable {K : Type} [Field K] [LinearOrder K] [IsStrictOrderedRing K]

/-- the loss of the column of lane `k` -/
abbrev laneLoss (cfg : Config K) (X : CSC K) (b k : Nat) (c : Nat → K) : K :=
  columnLoss X.get X.rows X.cols.length cfg.l2 cfg.l1 (b + k) c

/-- A gradient error of `ε` in every coordinate costs at most `F ε² / (2 l2)`. -/
theorem absorb (F : Nat) (ε l2 : K) (h2 : 0 < l2) (d : Nat → K) :
    ε * ∑ f ∈ Finset.range F, |d f| - l2 / 2 * ∑ f ∈ Finset.range F, d f ^ 2 ≤ F * ε ^ 2 / (2 * l2) := by
  have h : ∀ f ∈ Finset.range F, ε * |d f| - l2 / 2 * d f ^ 2 ≤ ε ^ 2 / (2 * l2) := by
    intro f _
    rw [le_div_iff₀ (by linarith), ← sq_abs (d f)]
    nlinarith [sq_nonneg (ε - l2 * |d f|)]
  have := Finset.sum_le_sum h
  rw [Finset.sum_sub_distrib, ← Finset.mul_sum, ← Finset.mul_sum, Finset.sum_const, Finset.card_range,
    nsmul_eq_mul] at this
  rw [mul_div_assoc]
  exact this

/-- an update pays for its movement -/
theorem update_pays (cfg : Config K) (X : CSC K) (hX : Proper X) (h2 : 0 ≤ cfg.l2) (h1 : 0 ≤ cfg.l1)
    (b : Nat) (visited : List Nat) (hv : ∀ f ∈ visited, f < X.cols.length) (hl : Lossless cfg X b visited)
    (f k : Nat) (hf : f < X.cols.length) (hk : k < cfg.blockSize) (hj : b + k < X.cols.length) :
    laneLoss cfg X b k ((visit cfg X b (visited ++ [f])).coef k)
      + cfg.l2 / 2 * change cfg X b (visit cfg X b visited) f k ^ 2 ≤
    laneLoss cfg X b k ((visit cfg X b visited).coef k) := by
  have hrem := visit_consistent cfg X hX b visited hv hl k hk hj
  have hd := visit_diag cfg X b visited k
  have hnn : cfg.positiveOnly = true → 0 ≤ (visit cfg X b visited).coef k f :=
    fun hp => visit_nonneg cfg hp X b visited k f
  rw [visit_append]
  set s := visit cfg X b visited
  by_cases hne : b + k = f
  · have e0 : newCoef cfg X b s f k = 0 := by simp [newCoef, hne]
    have e1 : s.coef k f = 0 := by rw [← hne]; exact hd
    have e2 : (featureStep cfg X b s f).coef k = s.coef k := by
      funext g
      simp only [featureStep]
      split
      · rename_i hg; rw [hg, e0, e1]
      · rfl
    rw [e2]
    simp [change, e0, e1]
  · have e1 := loss_update X cfg.l2 cfg.l1 (b + k) f hf (s.coef k) (s.rem k) hrem (newCoef cfg X b s f k)
    have hvi := newCoef_vi cfg X hX h2 h1 b s f k hne (s.coef k f) hnn
    show columnLoss _ _ _ _ _ _ (fun g => if g = f then newCoef cfg X b s f k else s.coef k g) + _ ≤ _
    rw [e1]
    unfold change
    have hq := colSq_nonneg X f
    have : 0 ≤ colSq X f * (newCoef cfg X b s f k - s.coef k f) ^ 2 := mul_nonneg hq (sq_nonneg _)
    show _ ≤ columnLoss _ _ _ _ _ _ _
    nlinarith

theorem lossless_prefix {cfg : Config K} {X : CSC K} {b : Nat} {v w : List Nat}
    (h : Lossless cfg X b (v ++ w)) : Lossless cfg X b v :=
  fun pre g hp => h pre g (hp.trans (List.prefix_append _ _))

/-- the largest movement of a lane in a list of visits is paid for -/
theorem visits_pay (cfg : Config K) (X : CSC K) (hX : Proper X) (h2 : 0 ≤ cfg.l2) (h1 : 0 ≤ cfg.l1)
    (b : Nat) (visited : List Nat) (k : Nat) (hk : k < cfg.blockSize) (hj : b + k < X.cols.length)
    (order : List Nat) (hv : ∀ f ∈ visited ++ order, f < X.cols.length)
    (hl : Lossless cfg X b (visited ++ order)) :
    ∃ θ : K, 0 ≤ θ ∧ (∀ pre g post, order = pre ++ g :: post →
        |change cfg X b (visit cfg X b (visited ++ pre)) g k| ≤ θ) ∧
      laneLoss cfg X b k ((visit cfg X b (visited ++ order)).coef k) + cfg.l2 / 2 * θ ^ 2 ≤
        laneLoss cfg X b k ((visit cfg X b visited).coef k) := by
  induction order using List.reverseRecOn with
  | nil =>
    refine ⟨0, le_refl _, ?_, by simp⟩
    intro pre g post he
    simp at he
  | append_singleton order f ih =>
    rw [← List.append_assoc] at hv hl
    obtain ⟨θ, h0, hm, hle⟩ := ih (fun g hg => hv g (List.mem_append_left _ hg)) (lossless_prefix hl)
    have hp := update_pays cfg X hX h2 h1 b (visited ++ order) (fun g hg => hv g (List.mem_append_left _ hg))
      (lossless_prefix hl) f k (hv f (by simp)) hk hj
    set ch := change cfg X b (visit cfg X b (visited ++ order)) f k with hch
    rw [← List.append_assoc]
    refine ⟨max θ |ch|, le_trans h0 (le_max_left _ _), ?_, ?_⟩
    · intro pre g post he
      rcases List.eq_nil_or_concat post with rfl | ⟨post', x, rfl⟩
      · obtain ⟨rfl, e⟩ := List.append_inj' he rfl
        rw [List.cons.injEq] at e
        rw [← e.1]
        exact le_max_right _ _
      · rw [List.concat_eq_append, ← List.cons_append, ← List.append_assoc] at he
        obtain ⟨he, -⟩ := List.append_inj' he rfl
        exact le_trans (hm pre g post' he) (le_max_left _ _)
    · have hθ : 0 ≤ cfg.l2 / 2 * θ ^ 2 := mul_nonneg (by linarith) (sq_nonneg _)
      have hc : 0 ≤ cfg.l2 / 2 * ch ^ 2 := mul_nonneg (by linarith) (sq_nonneg _)
      rcases max_cases θ |ch| with ⟨e, -⟩ | ⟨e, -⟩
      · rw [e]; linarith
      · rw [e, sq_abs]; linarith

/-- What a sweep leaves is off by at most a multiple of what the sweep gained. -/
theorem sweep_gap (cfg : Config K) (hp : 0 ≤ cfg.prec) (X : CSC K) (hX : Proper X)
    (h2 : 0 < cfg.l2) (h1 : 0 ≤ cfg.l1) (M : K)
    (hM : ∀ f, f < X.cols.length → ∑ u ∈ Finset.range X.rows, X.get u f ^ 2 ≤ M)
    (b : Nat) (visited order : List Nat) (hv : ∀ f ∈ visited, f < X.cols.length)
    (ho : order.Perm (List.range X.cols.length)) (hl : Lossless cfg X b (visited ++ order))
    (k : Nat) (hk : k < cfg.blockSize) (hj : b + k < X.cols.length)
    (c : Nat → K) (hc : Feasible cfg.positiveOnly X.cols.length (b + k) c) :
    (laneLoss cfg X b k ((visit cfg X b (visited ++ order)).coef k) - laneLoss cfg X b k c) *
        ((X.cols.length : K) ^ 3 * M ^ 2 + cfg.l2 ^ 2) ≤
      (laneLoss cfg X b k ((visit cfg X b visited).coef k) - laneLoss cfg X b k c) *
        ((X.cols.length : K) ^ 3 * M ^ 2) := by
  have hv' : ∀ f ∈ visited ++ order, f < X.cols.length := by
    intro g hg
    rcases List.mem_append.mp hg with h | h
    · exact hv g h
    · simpa using ho.mem_iff.mp h
  obtain ⟨θ, h0, hm, hle⟩ := visits_pay cfg X hX h2.le h1 b visited k hk hj order hv' hl
  have hs := (near_optimal_strong cfg hp X hX h2.le h1 M hM b visited order hv ho k hk hj θ h0 (by
    intro pre g post he
    have := hm pre g post he
    rw [visit_append]
    simpa [featureStep, change] using this)).2 c hc
  rw [(lossless_iff_dropped cfg X b _).mp hl] at hs
  have ha := absorb X.cols.length (M * (X.cols.length * θ + cfg.prec * ((0 : Nat) : K))) cfg.l2 h2
    (fun f => c f - (visit cfg X b (visited ++ order)).coef k f)
  simp only [Nat.cast_zero, mul_zero, add_zero] at hs ha
  set L := laneLoss cfg X b k ((visit cfg X b (visited ++ order)).coef k)
  set L0 := laneLoss cfg X b k ((visit cfg X b visited).coef k)
  set C := laneLoss cfg X b k c
  set F := (X.cols.length : K)
  have hg : L - C ≤ F * (M * (F * θ)) ^ 2 / (2 * cfg.l2) := by linarith
  rw [le_div_iff₀ (by linarith)] at hg
  have hq : 0 ≤ F ^ 3 * M ^ 2 := by positivity
  have hd : cfg.l2 / 2 * θ ^ 2 ≤ L0 - L := by linarith
  have h3 := mul_le_mul_of_nonneg_left hd hq
  have h4 : (L - C) * cfg.l2 ^ 2 ≤ F ^ 3 * M ^ 2 * (cfg.l2 / 2 * θ ^ 2) := by
    have := mul_le_mul_of_nonneg_right hg (show (0 : K) ≤ cfg.l2 / 2 by linarith)
    calc (L - C) * cfg.l2 ^ 2 = (L - C) * (2 * cfg.l2) * (cfg.l2 / 2) := by ring
      _ ≤ F * (M * (F * θ)) ^ 2 * (cfg.l2 / 2) := this
      _ = _ := by ring
  nlinarith

/-- the visits of the first `n` of a sequence of sweeps -/
def sweeps (shuffles : Nat → List Nat) (c n : Nat) : List Nat := (List.range n).flatMap (fun i => shuffles (c + i))

omit [Field K] [LinearOrder K] [IsStrictOrderedRing K] in
theorem sweeps_succ (shuffles : Nat → List Nat) (c n : Nat) :
    sweeps shuffles c (n + 1) = sweeps shuffles c n ++ shuffles (c + n) := by
  simp [sweeps, List.range_succ, List.flatMap_append]

theorem sweeps_inside {shuffles : Nat → List Nat} {F : Nat} (hs : ∀ c, (shuffles c).Perm (List.range F)) (c n : Nat) :
    ∀ f ∈ sweeps shuffles c n, f < F := by
  intro f hf
  obtain ⟨i, -, h⟩ := List.mem_flatMap.mp hf
  simpa using (hs _).mem_iff.mp h

theorem rate_nonneg (F : Nat) (M l2 : K) : 0 ≤ rate F M l2 := by
  unfold rate
  positivity

theorem rate_lt_one (F : Nat) (M : K) {l2 : K} (h : 0 < l2) : rate F M l2 < 1 := by
  unfold rate
  rw [div_lt_one (by positivity)]
  have : 0 < l2 ^ 2 := by positivity
  linarith

theorem sweeps_gap (cfg : Config K) (hp : cfg.prec = 0) (X : CSC K) (hX : Proper X)
    (h2 : 0 < cfg.l2) (h1 : 0 ≤ cfg.l1) (M : K)
    (hM : ∀ f, f < X.cols.length → ∑ u ∈ Finset.range X.rows, X.get u f ^ 2 ≤ M)
    (b : Nat) (shuffles : Nat → List Nat) (hs : ∀ c, (shuffles c).Perm (List.range X.cols.length))
    (k : Nat) (hk : k < cfg.blockSize) (hj : b + k < X.cols.length)
    (c : Nat → K) (hc : Feasible cfg.positiveOnly X.cols.length (b + k) c) (i n : Nat) :
    laneLoss cfg X b k ((visit cfg X b (sweeps shuffles i n)).coef k) - laneLoss cfg X b k c ≤
      rate X.cols.length M cfg.l2 ^ n * (laneLoss cfg X b k (fun _ => 0) - laneLoss cfg X b k c) := by
  induction n with
  | zero => simp [sweeps, visit, initBlock]
  | succ n ih =>
    rw [sweeps_succ]
    have h := sweep_gap cfg hp.ge X hX h2 h1 M hM b (sweeps shuffles i n) (shuffles (i + n))
      (sweeps_inside hs i n) (hs _) (lossless_exact cfg hp X b _) k hk hj c hc
    have hpos : (0 : K) < (X.cols.length : K) ^ 3 * M ^ 2 + cfg.l2 ^ 2 := by positivity
    rw [← le_div_iff₀ hpos, mul_div_assoc] at h
    refine le_trans h ?_
    refine le_trans (le_of_eq (mul_comm _ _)) ?_
    rw [pow_succ' (rate _ _ _), mul_assoc (rate _ _ _)]
    exact mul_le_mul_of_nonneg_left ih (rate_nonneg X.cols.length M cfg.l2)

/-- strong convexity at a minimiser: the distance in loss bounds the distance of the weights -/
theorem near_minimiser (X : CSC K) (l2 l1 : K) (h2 : 0 < l2) (pos : Bool) (j : Nat) (a c : Nat → K)
    (ha : Feasible pos X.cols.length j a) (hc : Feasible pos X.cols.length j c)
    (hmin : ∀ c' : Nat → K, Feasible pos X.cols.length j c' →
      columnLoss X.get X.rows X.cols.length l2 l1 j c ≤ columnLoss X.get X.rows X.cols.length l2 l1 j c')
    (h1 : 0 ≤ l1) :
    l2 / 4 * ∑ f ∈ Finset.range X.cols.length, (a f - c f) ^ 2 ≤
      columnLoss X.get X.rows X.cols.length l2 l1 j a - columnLoss X.get X.rows X.cols.length l2 l1 j c := by
  -- the middle of two columns
  let m : Nat → K := fun f => (a f + c f) / 2
  have hm : Feasible pos X.cols.length j m :=
    ⟨by simp only [m]; rw [ha.1, hc.1]; simp, fun hp f hf => by
      have := ha.2 hp f hf; have := hc.2 hp f hf; simp only [m]; linarith⟩
  have h := hmin m hm
  have hsq : ∀ u, (X.get u j - ∑ f ∈ Finset.range X.cols.length, X.get u f * m f) ^ 2 ≤
      ((X.get u j - ∑ f ∈ Finset.range X.cols.length, X.get u f * a f) ^ 2 +
        (X.get u j - ∑ f ∈ Finset.range X.cols.length, X.get u f * c f) ^ 2) / 2 := by
    intro u
    have e : ∑ f ∈ Finset.range X.cols.length, X.get u f * m f =
        (∑ f ∈ Finset.range X.cols.length, X.get u f * a f + ∑ f ∈ Finset.range X.cols.length, X.get u f * c f) / 2 := by
      rw [← Finset.sum_add_distrib, Finset.sum_div]
      exact Finset.sum_congr rfl (fun f _ => by simp only [m]; ring)
    rw [e]
    nlinarith [sq_nonneg (∑ f ∈ Finset.range X.cols.length, X.get u f * a f -
      ∑ f ∈ Finset.range X.cols.length, X.get u f * c f)]
  have h3 := Finset.sum_le_sum (fun u (_ : u ∈ Finset.range X.rows) => hsq u)
  rw [← Finset.sum_div, Finset.sum_add_distrib] at h3
  have h4 : ∑ f ∈ Finset.range X.cols.length, m f ^ 2 =
      (∑ f ∈ Finset.range X.cols.length, a f ^ 2 + ∑ f ∈ Finset.range X.cols.length, c f ^ 2) / 2
        - (∑ f ∈ Finset.range X.cols.length, (a f - c f) ^ 2) / 4 := by
    rw [← Finset.sum_add_distrib, Finset.sum_div, Finset.sum_div, ← Finset.sum_sub_distrib]
    exact Finset.sum_congr rfl (fun f _ => by simp only [m]; ring)
  have h5 : ∑ f ∈ Finset.range X.cols.length, |m f| ≤
      (∑ f ∈ Finset.range X.cols.length, |a f| + ∑ f ∈ Finset.range X.cols.length, |c f|) / 2 := by
    rw [← Finset.sum_add_distrib, Finset.sum_div]
    refine Finset.sum_le_sum (fun f _ => ?_)
    simp only [m]
    rw [abs_div, abs_of_pos (show (0 : K) < 2 by norm_num)]
    exact div_le_div_of_nonneg_right (abs_add_le _ _) (by norm_num)
  have h6 := mul_le_mul_of_nonneg_left h5 h1
  unfold columnLoss at h ⊢
  rw [h4] at h
  set S := ∑ f ∈ Finset.range X.cols.length, (a f - c f) ^ 2
  set A1 := ∑ u ∈ Finset.range X.rows, (X.get u j - ∑ f ∈ Finset.range X.cols.length, X.get u f * a f) ^ 2
  set C1 := ∑ u ∈ Finset.range X.rows, (X.get u j - ∑ f ∈ Finset.range X.cols.length, X.get u f * c f) ^ 2
  set M1 := ∑ u ∈ Finset.range X.rows, (X.get u j - ∑ f ∈ Finset.range X.cols.length, X.get u f * m f) ^ 2
  nlinarith

/-! ### When the sweeps stop -/

theorem sweeps_cons (shuffles : Nat → List Nat) (c n : Nat) :
    sweeps shuffles c (n + 1) = shuffles c ++ sweeps shuffles (c + 1) n := by
  unfold sweeps
  rw [List.range_succ_eq_map, List.flatMap_cons, List.flatMap_map]
  simp only [Nat.add_zero]
  congr 2
  funext i
  congr 1
  omega

/-- sweep number `i` of a block ends the iterations -/
def Stops (cfg : Config K) (X : CSC K) (b : Nat) (shuffles : Nat → List Nat) (c : Nat) (v : List Nat) (i : Nat) : Prop :=
  (sweep cfg X b (shuffles (c + i)) (visit cfg X b (v ++ sweeps shuffles c i))).2 < cfg.tol

omit [IsStrictOrderedRing K] in
theorem stops_shift (cfg : Config K) (X : CSC K) (b : Nat) (shuffles : Nat → List Nat) (c : Nat) (v : List Nat) (i : Nat) :
    Stops cfg X b shuffles c v (i + 1) ↔ Stops cfg X b shuffles (c + 1) (v ++ shuffles c) i := by
  unfold Stops
  rw [sweeps_cons, ← List.append_assoc, show c + (i + 1) = c + 1 + i by omega]

omit [IsStrictOrderedRing K] in
theorem visit_more (cfg : Config K) (X : CSC K) (b : Nat) (v w : List Nat) :
    w.foldl (featureStep cfg X b) (visit cfg X b v) = visit cfg X b (v ++ w) := by
  simp [visit]

omit [IsStrictOrderedRing K] in
theorem iterations_unstopped (cfg : Config K) (X : CSC K) (b : Nat) (shuffles : Nat → List Nat) (n : Nat) :
    ∀ (c : Nat) (v : List Nat), (∀ i < n, ¬ Stops cfg X b shuffles c v i) →
      iterations cfg X b shuffles n c (visit cfg X b v) = (visit cfg X b (v ++ sweeps shuffles c n), c + n) := by
  induction n with
  | zero => intro c v _; simp [iterations, sweeps]
  | succ n ih =>
    intro c v h
    have h0 : ¬ (sweep cfg X b (shuffles c) (visit cfg X b v)).2 < cfg.tol := by
      have := h 0 (by omega)
      simpa [Stops, sweeps] using this
    unfold iterations
    simp only
    rw [if_neg h0, sweep_fst, visit_more, ih (c + 1) (v ++ shuffles c)
      (fun i hi => (not_congr (stops_shift cfg X b shuffles c v i)).mp (h (i + 1) (by omega))), sweeps_cons,
      List.append_assoc, show c + 1 + n = c + (n + 1) by omega]

omit [IsStrictOrderedRing K] in
theorem iterations_stopped (cfg : Config K) (X : CSC K) (b : Nat) (shuffles : Nat → List Nat) (m : Nat) :
    ∀ (c : Nat) (v : List Nat), (∀ i < m, ¬ Stops cfg X b shuffles c v i) → Stops cfg X b shuffles c v m →
      ∀ n, m < n → iterations cfg X b shuffles n c (visit cfg X b v) =
        (visit cfg X b (v ++ sweeps shuffles c (m + 1)), c + (m + 1)) := by
  induction m with
  | zero =>
    intro c v _ hst n hn
    have h0 : (sweep cfg X b (shuffles c) (visit cfg X b v)).2 < cfg.tol := by
      simpa [Stops, sweeps] using hst
    obtain ⟨n, rfl⟩ := Nat.exists_eq_succ_of_ne_zero (show n ≠ 0 by omega)
    unfold iterations
    simp only
    rw [if_pos h0, sweep_fst, visit_more]
    simp [sweeps]
  | succ m ih =>
    intro c v h hst n hn
    obtain ⟨n, rfl⟩ := Nat.exists_eq_succ_of_ne_zero (show n ≠ 0 by omega)
    have h0 : ¬ (sweep cfg X b (shuffles c) (visit cfg X b v)).2 < cfg.tol := by
      have := h 0 (by omega)
      simpa [Stops, sweeps] using this
    unfold iterations
    simp only
    rw [if_neg h0, sweep_fst, visit_more, ih (c + 1) (v ++ shuffles c)
      (fun i hi => (not_congr (stops_shift cfg X b shuffles c v i)).mp (h (i + 1) (by omega)))
      ((stops_shift cfg X b shuffles c v m).mp hst) n (by omega), sweeps_cons shuffles c (m + 1),
      List.append_assoc, show c + 1 + (m + 1) = c + (m + 1 + 1) by omega]

omit [IsStrictOrderedRing K] in
/-- either all the sweeps are made, or the last one made reports small changes -/
theorem iterations_end (cfg : Config K) (X : CSC K) (b : Nat) (shuffles : Nat → List Nat) (n c : Nat) (v : List Nat) :
    iterations cfg X b shuffles n c (visit cfg X b v) = (visit cfg X b (v ++ sweeps shuffles c n), c + n) ∨
    ∃ m < n, Stops cfg X b shuffles c v m ∧ iterations cfg X b shuffles n c (visit cfg X b v) =
      (visit cfg X b (v ++ sweeps shuffles c (m + 1)), c + (m + 1)) := by
  classical
  by_cases h : ∃ m, Stops cfg X b shuffles c v m ∧ m < n
  · right
    have hm := Nat.find_spec h
    refine ⟨Nat.find h, hm.2, hm.1, iterations_stopped cfg X b shuffles _ c v (fun i hi hs => ?_) hm.1 n hm.2⟩
    exact Nat.find_min h hi ⟨hs, by omega⟩
  · left
    exact iterations_unstopped cfg X b shuffles n c v (fun i hi hs => h ⟨i, hs, hi⟩)

omit [IsStrictOrderedRing K] in
theorem foldl_max_lt (l : List K) (d x : K) (hd : d < x) (h : ∀ y ∈ l, y < x) : l.foldl max d < x := by
  induction l generalizing d with
  | nil => exact hd
  | cons a l ih =>
    rw [List.foldl_cons]
    exact ih _ (max_lt hd (h a (by simp))) (fun y hy => h y (by simp [hy]))

omit [IsStrictOrderedRing K] in
/-- a sweep without large changes reports no large change -/
theorem delta_small (cfg : Config K) (X : CSC K) (b : Nat) (x : K) (l : List Nat) (s : Block K) (d : K) (hd : d < x)
    (hc : ∀ pre g post, l = pre ++ g :: post → ∀ k < cfg.blockSize,
      |change cfg X b (pre.foldl (featureStep cfg X b) s) g k| < x) :
    (l.foldl (fun p f => (featureStep cfg X b p.1 f, deltaStep cfg X b p.1 f p.2)) (s, d)).2 < x := by
  induction l generalizing s d with
  | nil => exact hd
  | cons f l ih =>
    rw [List.foldl_cons]
    apply ih
    · simp only [deltaStep]
      split
      · exact hd
      · apply foldl_max_lt _ _ _ hd
        intro y hy
        obtain ⟨k, hk, rfl⟩ := List.mem_map.mp hy
        exact hc [] f l rfl k (List.mem_range.mp hk)
    · intro pre g post he k hk
      simpa using hc (f :: pre) g post (by rw [he]; rfl) k hk

/-- the lanes beyond the last column never move -/
theorem lane_outside (cfg : Config K) (X : CSC K) (h2 : 0 ≤ cfg.l2) (h1 : 0 ≤ cfg.l1) (b k : Nat)
    (hj : X.cols.length ≤ b + k) (v : List Nat) :
    (∀ u, (visit cfg X b v).rem k u = 0) ∧ (∀ f, (visit cfg X b v).coef k f = 0) ∧
      ∀ f, change cfg X b (visit cfg X b v) f k = 0 := by
  have step : ∀ s : Block K, (∀ u, s.rem k u = 0) → (∀ f, s.coef k f = 0) → ∀ f, newCoef cfg X b s f k = 0 := by
    intro s hr hc f
    unfold newCoef
    simp only
    split
    · rfl
    · have hlin : linear (column X f) (s.rem k) (s.coef k f) = 0 := by
        unfold linear
        rw [hc]
        simp [hr]
      have hq : 0 ≤ x2Sum (column X f) + cfg.l2 := by
        refine add_nonneg (List.sum_nonneg ?_) h2
        intro x hx
        obtain ⟨e, -, rfl⟩ := List.mem_map.mp hx
        exact mul_self_nonneg _
      rw [hlin]
      have e1 : ¬ (-0 - cfg.l1) / (x2Sum (column X f) + cfg.l2) > 0 := by
        rw [not_lt]
        exact div_nonpos_of_nonpos_of_nonneg (by linarith) hq
      have e2 : ¬ (-0 + cfg.l1) / (x2Sum (column X f) + cfg.l2) < 0 := by
        rw [not_lt]
        exact div_nonneg (by linarith) hq
      unfold choose
      rw [if_neg e1, if_neg e2]
      split <;> simp
  have key : (∀ u, (visit cfg X b v).rem k u = 0) ∧ (∀ f, (visit cfg X b v).coef k f = 0) := by
    induction v using List.reverseRecOn with
    | nil =>
      refine ⟨fun u => ?_, fun f => rfl⟩
      show (if k < cfg.blockSize ∧ b + k < X.cols.length then _ else (0 : K)) = 0
      rw [if_neg (by omega)]
    | append_singleton v f ih =>
      rw [visit_append]
      have hn := step _ ih.1 ih.2
      refine ⟨fun u => ?_, fun g => ?_⟩
      · simp only [featureStep]
        have hch : change cfg X b (visit cfg X b v) f k = 0 := by simp [change, hn, ih.2]
        rw [hch, ih.1]
        simp
      · simp only [featureStep]
        rw [hn, ih.2]
        simp
  refine ⟨key.1, key.2, fun f => ?_⟩
  simp [change, step _ key.1 key.2, key.2]

/-- A sweep that goes on has moved some column by at least `tol`. -/
theorem unstopped_moves (cfg : Config K) (ht : 0 < cfg.tol) (X : CSC K) (h2 : 0 ≤ cfg.l2) (h1 : 0 ≤ cfg.l1)
    (b : Nat) (v order : List Nat) (h : ¬ (sweep cfg X b order (visit cfg X b v)).2 < cfg.tol) :
    ∃ pre g post, order = pre ++ g :: post ∧ ∃ k < cfg.blockSize, b + k < X.cols.length ∧
      cfg.tol ≤ |change cfg X b (visit cfg X b (v ++ pre)) g k| := by
  by_contra hno
  push Not at hno
  apply h
  refine delta_small cfg X b cfg.tol order _ 0 ht (fun pre g post he k hk => ?_)
  rw [visit_more]
  by_cases hj : b + k < X.cols.length
  · exact hno pre g post he k hk hj
  · rw [(lane_outside cfg X h2 h1 b k (by omega) _).2.2]
    simpa using ht

theorem columnLoss_nonneg (A : Nat → Nat → K) (U F : Nat) (l2 l1 : K) (h2 : 0 ≤ l2) (h1 : 0 ≤ l1) (j : Nat)
    (c : Nat → K) : 0 ≤ columnLoss A U F l2 l1 j c := by
  unfold columnLoss
  have e1 : 0 ≤ ∑ u ∈ Finset.range U, (A u j - ∑ f ∈ Finset.range F, A u f * c f) ^ 2 :=
    Finset.sum_nonneg (fun _ _ => sq_nonneg _)
  have e2 : 0 ≤ ∑ f ∈ Finset.range F, c f ^ 2 := Finset.sum_nonneg (fun _ _ => sq_nonneg _)
  have e3 : 0 ≤ ∑ f ∈ Finset.range F, |c f| := Finset.sum_nonneg (fun _ _ => abs_nonneg _)
  have := mul_nonneg h2 e2
  have := mul_nonneg h1 e3
  linarith

theorem columnLoss_zero (A : Nat → Nat → K) (U F : Nat) (l2 l1 : K) (j : Nat) :
    columnLoss A U F l2 l1 j (fun _ => 0) = (∑ u ∈ Finset.range U, A u j ^ 2) / 2 := by
  simp [columnLoss]

/-- the columns of a block -/
def laneSet (cfg : Config K) (X : CSC K) (b : Nat) : Finset Nat :=
  (Finset.range cfg.blockSize).filter (fun k => b + k < X.cols.length)

/-- sweeps that go on are paid for by the loss of the block -/
theorem unstopped_bound (cfg : Config K) (hp : cfg.prec = 0) (ht : 0 < cfg.tol) (X : CSC K) (hX : Proper X)
    (h2 : 0 ≤ cfg.l2) (h1 : 0 ≤ cfg.l1) (b : Nat) (shuffles : Nat → List Nat)
    (hs : ∀ c, (shuffles c).Perm (List.range X.cols.length)) (c n : Nat)
    (h : ∀ i < n, ¬ Stops cfg X b shuffles c [] i) :
    ∑ k ∈ laneSet cfg X b, laneLoss cfg X b k ((visit cfg X b (sweeps shuffles c n)).coef k)
      + n * (cfg.l2 / 2 * cfg.tol ^ 2) ≤ ∑ k ∈ laneSet cfg X b, laneLoss cfg X b k (fun _ => 0) := by
  induction n with
  | zero => simp [sweeps, visit, initBlock]
  | succ n ih =>
    have hi := ih (fun i hi => h i (by omega))
    obtain ⟨pre, g, post, he, k, hk, hj, hch⟩ := unstopped_moves cfg ht X h2 h1 b (sweeps shuffles c n)
      (shuffles (c + n)) (by simpa [Stops] using h n (by omega))
    have hin : ∀ f ∈ sweeps shuffles c n ++ shuffles (c + n), f < X.cols.length := by
      rw [← sweeps_succ]
      exact sweeps_inside hs c (n + 1)
    have hl := lossless_exact cfg hp X b (sweeps shuffles c n ++ shuffles (c + n))
    have hpay : ∀ k' ∈ laneSet cfg X b,
        laneLoss cfg X b k' ((visit cfg X b (sweeps shuffles c (n + 1))).coef k') +
          (if k' = k then cfg.l2 / 2 * cfg.tol ^ 2 else 0) ≤
        laneLoss cfg X b k' ((visit cfg X b (sweeps shuffles c n)).coef k') := by
      intro k' hk'
      obtain ⟨hk'1, hk'2⟩ := Finset.mem_filter.mp hk'
      obtain ⟨θ, h0, hm, hle⟩ := visits_pay cfg X hX h2 h1 b (sweeps shuffles c n) k'
        (Finset.mem_range.mp hk'1) hk'2 (shuffles (c + n)) hin hl
      rw [sweeps_succ]
      have : (if k' = k then cfg.l2 / 2 * cfg.tol ^ 2 else 0) ≤ cfg.l2 / 2 * θ ^ 2 := by
        split
        · rename_i e
          subst e
          have := le_trans hch (hm pre g post he)
          exact mul_le_mul_of_nonneg_left (pow_le_pow_left₀ ht.le this 2) (by linarith)
        · exact mul_nonneg (by linarith) (sq_nonneg _)
      linarith
    have hmem : k ∈ laneSet cfg X b := Finset.mem_filter.mpr ⟨Finset.mem_range.mpr hk, hj⟩
    have hsum := Finset.sum_le_sum hpay
    rw [Finset.sum_add_distrib, Finset.sum_ite_eq' (laneSet cfg X b) k (fun _ => cfg.l2 / 2 * cfg.tol ^ 2),
      if_pos hmem] at hsum
    push_cast
    linarith

end Irspack.Slim
