import Verif.Proofs.SlimOutput
import Mathlib.Data.List.Sort
import Mathlib.Algebra.Order.Ring.Rat
import Mathlib.Tactic.NormNum

/-!
# C37, C38, C39: SLIM

`visit cfg X b visited` is the state of the block of columns `b, b+1, …` after the coordinates
(features) of `visited` have been updated one after the other.  `Lossless` says that on the way no
non-zero change fell under the tolerance of Eigen's `isZero()`, i.e. none was left out of the
residuals; it always holds if that tolerance is 0 (`C37_exact_test_is_lossless`).

The theorems that need it carry the suffix `_partial`: with the tolerance `1e-5` the library is built
with, the property fails, see `C37_lost_updates_counterexample`.
-/

namespace Irspack.Props
open Slim Spec.Slim WorkQueue

variable {K : Type} [Field K] [LinearOrder K] [IsStrictOrderedRing K]

/-- C37 (exact coordinate minimisation). Whatever has been visited before, the update of coordinate
`f` puts the coefficient of every other item `j` of the block at a minimiser of the documented
objective in that coordinate, among the values the constraints allow.
Missing: updates after a change smaller than the tolerance of `isZero` was dropped. -/
theorem C37_coordinate_minimiser_partial (cfg : Config K) (X : CSC K) (hX : Proper X)
    (h2 : 0 ≤ cfg.l2) (h1 : 0 ≤ cfg.l1) (b : Nat) (visited : List Nat)
    (hv : ∀ f ∈ visited, f < X.cols.length) (hl : Lossless cfg X b visited)
    (f k : Nat) (hf : f < X.cols.length) (hk : k < cfg.blockSize) (hj : b + k < X.cols.length)
    (hne : b + k ≠ f) (t : K) (ht : cfg.positiveOnly = true → 0 ≤ t) :
    columnLoss X.get X.rows X.cols.length cfg.l2 cfg.l1 (b + k)
        ((visit cfg X b (visited ++ [f])).coef k) ≤
      columnLoss X.get X.rows X.cols.length cfg.l2 cfg.l1 (b + k)
        (Function.update ((visit cfg X b visited).coef k) f t) := by
  have hrem := visit_consistent cfg X hX b visited hv hl k hk hj
  rw [visit_append]
  set s := visit cfg X b visited
  have e1 := loss_update X cfg.l2 cfg.l1 (b + k) f hf (s.coef k) (s.rem k) hrem
    (newCoef cfg X b s f k)
  have e2 := loss_update X cfg.l2 cfg.l1 (b + k) f hf (s.coef k) (s.rem k) hrem t
  have hu : Function.update (s.coef k) f t = fun g => if g = f then t else s.coef k g := by
    funext g; simp [Function.update_apply]
  rw [hu, e2]
  show columnLoss _ _ _ _ _ _ (fun g => if g = f then newCoef cfg X b s f k else s.coef k g) ≤ _
  rw [e1]
  have hvi := newCoef_vi cfg X hX h2 h1 b s f k hne t ht
  have hq := add_nonneg (colSq_nonneg X f) h2
  nlinarith [mul_nonneg hq (sq_nonneg (t - newCoef cfg X b s f k))]

/-- C37 (descent). No coordinate update increases the documented objective of any column, whatever
has been visited before and whichever coordinate comes next. Missing: as above. -/
theorem C37_never_increases_partial (cfg : Config K) (X : CSC K) (hX : Proper X)
    (h2 : 0 ≤ cfg.l2) (h1 : 0 ≤ cfg.l1) (b : Nat) (visited : List Nat)
    (hv : ∀ f ∈ visited, f < X.cols.length) (hl : Lossless cfg X b visited)
    (f k : Nat) (hf : f < X.cols.length) (hk : k < cfg.blockSize) (hj : b + k < X.cols.length) :
    columnLoss X.get X.rows X.cols.length cfg.l2 cfg.l1 (b + k)
        ((visit cfg X b (visited ++ [f])).coef k) ≤
      columnLoss X.get X.rows X.cols.length cfg.l2 cfg.l1 (b + k) ((visit cfg X b visited).coef k) := by
  by_cases hne : b + k = f
  · apply le_of_eq
    congr 1
    rw [visit_append]
    funext g
    simp only [featureStep]
    split
    · rename_i hg
      rw [hg, ← hne, visit_diag]; simp [newCoef]
    · rfl
  · have := C37_coordinate_minimiser_partial cfg X hX h2 h1 b visited hv hl f k hf hk hj hne
      ((visit cfg X b visited).coef k f) (fun hp => visit_nonneg cfg hp X b visited k f)
    rwa [Function.update_eq_self] at this

/-- C37 (a whole visiting sequence). Visiting more coordinates, in any order and any number of
times, never makes the objective larger. Missing: as above. -/
theorem C37_longer_is_not_worse_partial (cfg : Config K) (X : CSC K) (hX : Proper X)
    (h2 : 0 ≤ cfg.l2) (h1 : 0 ≤ cfg.l1) (b : Nat) (visited more : List Nat)
    (hv : ∀ f ∈ visited ++ more, f < X.cols.length) (hl : Lossless cfg X b (visited ++ more))
    (k : Nat) (hk : k < cfg.blockSize) (hj : b + k < X.cols.length) :
    columnLoss X.get X.rows X.cols.length cfg.l2 cfg.l1 (b + k)
        ((visit cfg X b (visited ++ more)).coef k) ≤
      columnLoss X.get X.rows X.cols.length cfg.l2 cfg.l1 (b + k) ((visit cfg X b visited).coef k) := by
  induction more using List.reverseRecOn with
  | nil => simp
  | append_singleton more f ih =>
    rw [← List.append_assoc] at hv hl ⊢
    have hl' : Lossless cfg X b (visited ++ more) :=
      fun pre g hp => hl pre g (hp.trans (List.prefix_append _ _))
    have hv' : ∀ g ∈ visited ++ more, g < X.cols.length := fun g hg => hv g (by
      rw [List.mem_append]; exact Or.inl hg)
    exact le_trans (C37_never_increases_partial cfg X hX h2 h1 b (visited ++ more) hv' hl' f k
      (hv f (by simp)) hk hj) (ih hv' hl')

/-- C37: `Lossless` always holds when `isZero` tests for exact zero. -/
theorem C37_exact_test_is_lossless (cfg : Config K) (hp : cfg.prec = 0) (X : CSC K) (b : Nat)
    (visited : List Nat) : Lossless cfg X b visited := lossless_exact cfg hp X b visited

/-- C37 (iterations). Allowing one more iteration never makes the objective of a column larger, for
any shuffles, including when the tolerance stops the loop early. Missing: as above (stated for an
exact zero test). -/
theorem C37_iterations_partial (cfg : Config K) (hp : cfg.prec = 0) (X : CSC K) (hX : Proper X)
    (h2 : 0 ≤ cfg.l2) (h1 : 0 ≤ cfg.l1) (b : Nat) (shuffles : Nat → List Nat)
    (hs : ∀ c, (shuffles c).Perm (List.range X.cols.length)) (n c k : Nat)
    (hk : k < cfg.blockSize) (hj : b + k < X.cols.length) :
    columnLoss X.get X.rows X.cols.length cfg.l2 cfg.l1 (b + k)
        ((iterations cfg X b shuffles (n + 1) c (initBlock X cfg.blockSize b)).1.coef k) ≤
      columnLoss X.get X.rows X.cols.length cfg.l2 cfg.l1 (b + k)
        ((iterations cfg X b shuffles n c (initBlock X cfg.blockSize b)).1.coef k) := by
  have key : ∀ (n c : Nat) (visited : List Nat), (∀ f ∈ visited, f < X.cols.length) →
      ∃ v m, (∀ f ∈ v ++ m, f < X.cols.length) ∧
        (iterations cfg X b shuffles n c (visit cfg X b visited)).1 = visit cfg X b v ∧
        (iterations cfg X b shuffles (n + 1) c (visit cfg X b visited)).1 = visit cfg X b (v ++ m) := by
    intro n
    induction n with
    | zero =>
      intro c visited hv
      refine ⟨visited, shuffles c, ?_, rfl, ?_⟩
      · intro f hf
        rcases List.mem_append.mp hf with h | h
        · exact hv f h
        · have := (hs c).mem_iff.mp h
          simpa using this
      · simp only [iterations]
        split <;> simp [sweep_fst, visit]
    | succ n ih =>
      intro c visited hv
      have hsw : (sweep cfg X b (shuffles c) (visit cfg X b visited)).1 = visit cfg X b (visited ++ shuffles c) := by
        simp [sweep_fst, visit]
      have hv' : ∀ f ∈ visited ++ shuffles c, f < X.cols.length := by
        intro f hf
        rcases List.mem_append.mp hf with h | h
        · exact hv f h
        · have := (hs c).mem_iff.mp h
          simpa using this
      by_cases hd : (sweep cfg X b (shuffles c) (visit cfg X b visited)).2 < cfg.tol
      · refine ⟨visited ++ shuffles c, [], by simpa using hv', ?_, ?_⟩
        · rw [iterations]; simp only [hd, if_true]; exact hsw
        · rw [iterations]; simp only [hd, if_true, List.append_nil]; exact hsw
      · obtain ⟨v, m, h1, h2, h3⟩ := ih (c + 1) _ hv'
        refine ⟨v, m, h1, ?_, ?_⟩
        · rw [iterations]; simp only [hd, if_false]; rw [hsw]; exact h2
        · rw [iterations]; simp only [hd, if_false]; rw [hsw]; exact h3
  obtain ⟨v, m, hvm, e1, e2⟩ := key n c [] (by simp)
  have e0 : visit cfg X b [] = initBlock X cfg.blockSize b := rfl
  rw [e0] at e1 e2
  rw [e1, e2]
  exact C37_longer_is_not_worse_partial cfg X hX h2 h1 b v m hvm (lossless_exact cfg hp X b _) k hk hj

/-- C37 (what the weights are). When the workers have returned, every column of the weight matrix
is the result of visiting some sequence of features (`nIter` or fewer complete shuffles) for the
block that contains the column, for every number of threads and every interleaving. -/
theorem C37_weights_are_visits {T : Nat} (cfg : Config K) (X : CSC K) (shuffles : Nat → List Nat)
    (hsh : ∀ c, (shuffles c).Perm (List.range X.cols.length))
    (srt : List (K × Nat) → List (K × Nat)) (hB : 0 < cfg.blockSize) (hk : cfg.topK < 0)
    (sched : List (Fin T)) (s : State T (Worker K) Unit)
    (hs : slim cfg X shuffles srt sched = .ok s) (hfin : Finished s)
    (j : Nat) (hj : j < X.cols.length) :
    ∃ m, 0 < m ∧ m ≤ cfg.nIter ∧ ∃ c,
      let visited := (List.range m).flatMap (fun i => shuffles (c + i))
      (∀ f ∈ visited, f < X.cols.length) ∧
      ∀ f, f < X.cols.length → weights s f j =
        (visit cfg X (j / cfg.blockSize * cfg.blockSize) visited).coef (j % cfg.blockSize) f := by
  have hn : 0 < cfg.nIter := by
    unfold slim at hs
    split at hs
    · simp at hs
    split at hs
    · simp at hs
    omega
  obtain ⟨c, h⟩ := weights_full cfg X shuffles srt hB sched s hs hfin j hj
  obtain ⟨m, hm, hm0, he⟩ := iterations_visits cfg X (j / cfg.blockSize * cfg.blockSize) shuffles cfg.nIter c
    (initBlock X cfg.blockSize (j / cfg.blockSize * cfg.blockSize))
  refine ⟨m, hm0 hn, hm, c, ?_, ?_⟩
  · intro f hf
    rw [List.mem_flatMap] at hf
    obtain ⟨i, _, hi⟩ := hf
    simpa using (hsh (c + i)).mem_iff.mp hi
  · intro f hf
    rw [h (Or.inl hk) f hf]
    unfold blockResult
    rw [he]; rfl

theorem columnLoss_congr (A : Nat → Nat → K) (U F : Nat) (l2 l1 : K) (j : Nat) (a b : Nat → K)
    (h : ∀ f, f < F → a f = b f) : columnLoss A U F l2 l1 j a = columnLoss A U F l2 l1 j b := by
  unfold columnLoss
  have h' : ∀ f ∈ Finset.range F, a f = b f := fun f hf => h f (Finset.mem_range.mp hf)
  have e1 : ∀ u, ∑ f ∈ Finset.range F, A u f * a f = ∑ f ∈ Finset.range F, A u f * b f :=
    fun u => Finset.sum_congr rfl (fun f hf => by rw [h' f hf])
  have e2 : ∑ f ∈ Finset.range F, a f ^ 2 = ∑ f ∈ Finset.range F, b f ^ 2 :=
    Finset.sum_congr rfl (fun f hf => by rw [h' f hf])
  have e3 : ∑ f ∈ Finset.range F, |a f| = ∑ f ∈ Finset.range F, |b f| :=
    Finset.sum_congr rfl (fun f hf => by rw [h' f hf])
  simp only [e1, e2, e3]

/-- the documented loss is the sum of the column losses, with the coefficients that
`SLIMRecommender` passes on -/
theorem documentedLoss_eq (A : Nat → Nat → K) (U F : Nat) (α l₁ : K) (B : Nat → Nat → K) :
    documentedLoss A U F α l₁ B =
      ∑ j ∈ Finset.range F, columnLoss A U F (U * α * (1 - l₁)) (U * α * l₁) j (fun f => B f j) := by
  unfold documentedLoss columnLoss
  simp only [div_eq_mul_inv]
  rw [Finset.sum_add_distrib, Finset.sum_add_distrib, ← Finset.mul_sum, ← Finset.mul_sum,
    ← Finset.sum_mul, Finset.sum_comm (s := Finset.range F) (t := Finset.range U),
    Finset.sum_comm (s := Finset.range F) (t := Finset.range F) (f := fun f j => B f j ^ 2),
    Finset.sum_comm (s := Finset.range F) (t := Finset.range F) (f := fun f j => |B f j|)]
  ring

/-- C37 (the recommender). The weights learned by `SLIMRecommender` (without `top_k`) never have a
larger documented loss than the zero matrix the descent starts from, for any data, `alpha ≥ 0`,
`l1_ratio ∈ [0,1]`, `tol`, number of iterations, threads and interleaving.
Missing: as above (stated for an exact zero test). -/
theorem C37_learned_loss_partial {T : Nat} (X : CSC K) (hX : Proper X) (α l1Ratio tol : K)
    (hα : 0 ≤ α) (hl0 : 0 ≤ l1Ratio) (hl1 : l1Ratio ≤ 1) (positiveOnly : Bool) (nIter blockSize : Nat)
    (hB : 0 < blockSize) (shuffles : Nat → List Nat)
    (hsh : ∀ c, (shuffles c).Perm (List.range X.cols.length))
    (srt : List (K × Nat) → List (K × Nat)) (sched : List (Fin T)) (s : State T (Worker K) Unit)
    (hs : slim (recommenderConfig X.rows α l1Ratio positiveOnly nIter tol none blockSize 0) X shuffles
      srt sched = .ok s) (hfin : Finished s) :
    documentedLoss X.get X.rows X.cols.length α l1Ratio (weights s) ≤
      documentedLoss X.get X.rows X.cols.length α l1Ratio (fun _ _ => 0) := by
  rw [documentedLoss_eq, documentedLoss_eq]
  apply Finset.sum_le_sum
  intro j hj
  have hj := Finset.mem_range.mp hj
  set cfg := recommenderConfig X.rows α l1Ratio positiveOnly nIter tol none blockSize 0 with hcfg
  have hU : (0 : K) ≤ X.rows := Nat.cast_nonneg _
  have h2 : 0 ≤ cfg.l2 := mul_nonneg (mul_nonneg hU hα) (by linarith)
  have h1 : 0 ≤ cfg.l1 := mul_nonneg (mul_nonneg hU hα) hl0
  obtain ⟨m, _, _, c, hv, hw⟩ := C37_weights_are_visits cfg X shuffles hsh srt hB
    (by simp [hcfg, recommenderConfig]) sched s hs hfin j hj
  rw [columnLoss_congr _ _ _ _ _ j _ _ hw]
  have hdm : j / blockSize * blockSize + j % blockSize = j := by
    rw [Nat.mul_comm]; exact Nat.div_add_mod j blockSize
  have := C37_longer_is_not_worse_partial cfg X hX h2 h1 (j / blockSize * blockSize) []
    ((List.range m).flatMap (fun i => shuffles (c + i))) (by rw [List.nil_append]; exact hv) (lossless_exact cfg rfl X _ _) (j % blockSize) (Nat.mod_lt _ hB)
    (by rw [hdm]; exact hj)
  rw [hdm] at this
  exact this

/-- C38 (fixed points are optimal). If, after some visits, a sweep over all features changes no
coefficient of the block, then each column of the block minimises the documented objective over
all columns that satisfy the constraints.
Missing: states in which a change smaller than the tolerance of `isZero` was dropped before. -/
theorem C38_fixed_point_optimal_partial (cfg : Config K) (X : CSC K) (hX : Proper X)
    (h2 : 0 ≤ cfg.l2) (h1 : 0 ≤ cfg.l1) (b : Nat) (visited order : List Nat)
    (hv : ∀ f ∈ visited, f < X.cols.length) (hl : Lossless cfg X b visited)
    (hp0 : 0 ≤ cfg.prec)
    (ho : order.Perm (List.range X.cols.length))
    (hfix : ∀ k f, k < cfg.blockSize → f < X.cols.length →
      (sweep cfg X b order (visit cfg X b visited)).1.coef k f = (visit cfg X b visited).coef k f)
    (k : Nat) (hk : k < cfg.blockSize) (hj : b + k < X.cols.length) :
    Feasible cfg.positiveOnly X.cols.length (b + k) ((visit cfg X b visited).coef k) ∧
    ∀ c : Nat → K, Feasible cfg.positiveOnly X.cols.length (b + k) c →
      columnLoss X.get X.rows X.cols.length cfg.l2 cfg.l1 (b + k) ((visit cfg X b visited).coef k) ≤
        columnLoss X.get X.rows X.cols.length cfg.l2 cfg.l1 (b + k) c := by
  refine ⟨⟨visit_diag cfg X b visited k, fun hp f _ => visit_nonneg cfg hp X b visited k f⟩, ?_⟩
  set s := visit cfg X b visited with hs
  have hcons : Consistent X cfg.blockSize b s := visit_consistent cfg X hX b visited hv hl
  -- along the sweep, coefficients and remnants of the valid lanes never move
  have hstep : ∀ (order : List Nat), order.Nodup → (∀ f ∈ order, f < X.cols.length) →
      ∀ s' : Block K, (∀ k f, k < cfg.blockSize → s'.coef k f = s.coef k f) →
      (∀ k u, k < cfg.blockSize → s'.rem k u = s.rem k u) →
      (∀ k f, k < cfg.blockSize → f < X.cols.length →
        (order.foldl (featureStep cfg X b) s').coef k f = s.coef k f) →
      ∀ f ∈ order, ∀ k, k < cfg.blockSize → newCoef cfg X b s f k = s.coef k f := by
    intro order
    induction order with
    | nil => intro _ _ _ _ _ _ f hf; simp at hf
    | cons g gs ih =>
      intro hn hlt s' hc hr hend
      rw [List.nodup_cons] at hn
      have hnc : ∀ k, k < cfg.blockSize → newCoef cfg X b s' g k = newCoef cfg X b s g k := by
        intro k hk
        unfold newCoef linear
        simp only
        rw [hc k g hk]
        have : ((column X g).map (fun e => e.2 * s'.rem k e.1)) = (column X g).map (fun e => e.2 * s.rem k e.1) :=
          List.map_congr_left (fun e _ => by rw [hr k e.1 hk])
        rw [this]
      have hkeep : ∀ (l : List Nat) (s'' : Block K) (k : Nat), g ∉ l →
          (l.foldl (featureStep cfg X b) s'').coef k g = s''.coef k g := by
        intro l
        induction l with
        | nil => intro s'' k _; rfl
        | cons a l ihl =>
          intro s'' k ha
          simp only [List.mem_cons, not_or] at ha
          rw [List.foldl_cons, ihl _ k ha.2]
          simp [featureStep, ha.1]
      have hg : ∀ k, k < cfg.blockSize → newCoef cfg X b s g k = s.coef k g := by
        intro k hk
        have h := hend k g hk (hlt g (by simp))
        rw [List.foldl_cons, hkeep gs _ k hn.1] at h
        simp only [featureStep, if_true] at h
        rw [hnc k hk] at h
        exact h
      have hch : ∀ k, k < cfg.blockSize → change cfg X b s' g k = 0 := by
        intro k hk
        unfold change
        rw [hnc k hk, hg k hk, hc k g hk, sub_self]
      intro f hf
      rcases List.mem_cons.mp hf with rfl | hf
      · exact hg
      · refine ih hn.2 (fun f hf => hlt f (by simp [hf])) (featureStep cfg X b s' g) ?_ ?_ ?_ f hf
        · intro k f hk
          simp only [featureStep]
          split
          · rename_i e; rw [e, hnc k hk, hg k hk]
          · exact hc k f hk
        · intro k u hk
          simp only [featureStep]
          rw [if_pos ((isZero_iff ..).mpr (fun k hk => by rw [hch k hk, abs_zero]; exact hp0))]
          exact hr k u hk
        · intro k f hk hf
          have := hend k f hk hf
          rwa [List.foldl_cons] at this
  have hn := (ho.nodup_iff).mpr List.nodup_range
  have hlt : ∀ f ∈ order, f < X.cols.length := fun f hf => by simpa using ho.mem_iff.mp hf
  have hnew := hstep order hn hlt s (fun _ _ _ => rfl) (fun _ _ _ => rfl)
    (fun k f hk hf => by have := hfix k f hk hf; rwa [sweep_fst] at this)
  intro c hc
  have hconv := loss_convex X cfg.l2 cfg.l1 h2 (b + k) (s.coef k) c (s.rem k) (hcons k hk hj)
  refine le_trans ?_ hconv
  rw [le_add_iff_nonneg_right]
  apply Finset.sum_nonneg
  intro f hf
  have hf' := Finset.mem_range.mp hf
  by_cases hne : b + k = f
  · have e1 : s.coef k f = 0 := by rw [← hne]; exact visit_diag cfg X b visited k
    have e2 : c f = 0 := by rw [← hne]; exact hc.1
    rw [e1, e2]; simp
  · have hvi := newCoef_vi cfg X hX h2 h1 b s f k hne (c f) (fun hp => hc.2 hp f hf')
    rw [hnew f (ho.mem_iff.mpr (by simpa using hf')) k hk] at hvi
    have : (colSq X f + cfg.l2) * s.coef k f + (grad X (s.rem k) f - colSq X f * s.coef k f)
        = grad X (s.rem k) f + cfg.l2 * s.coef k f := by ring
    rwa [this] at hvi

/-- C38 (the whole matrix). If every column of the weights comes from a state that a further sweep
does not change, the weights minimise the documented loss over all matrices with zero diagonal
(and no negative entry with `positive_only`). Missing: as above. -/
theorem C38_documented_problem_solved_partial (cfg : Config K) (X : CSC K) (hX : Proper X)
    (α l₁ : K) (hα : 0 ≤ α) (hl0 : 0 ≤ l₁) (hl1 : l₁ ≤ 1)
    (hc2 : cfg.l2 = X.rows * α * (1 - l₁)) (hc1 : cfg.l1 = X.rows * α * l₁) (hp0 : 0 ≤ cfg.prec)
    (W : Nat → Nat → K)
    (hW : ∀ j, j < X.cols.length → ∃ b k visited order,
      b + k = j ∧ k < cfg.blockSize ∧ (∀ f ∈ visited, f < X.cols.length) ∧ Lossless cfg X b visited ∧
      order.Perm (List.range X.cols.length) ∧
      (∀ k f, k < cfg.blockSize → f < X.cols.length →
        (sweep cfg X b order (visit cfg X b visited)).1.coef k f = (visit cfg X b visited).coef k f) ∧
      ∀ f, f < X.cols.length → W f j = (visit cfg X b visited).coef k f)
    (B : Nat → Nat → K)
    (hB : ∀ j, j < X.cols.length → Feasible cfg.positiveOnly X.cols.length j (fun f => B f j)) :
    documentedLoss X.get X.rows X.cols.length α l₁ W ≤ documentedLoss X.get X.rows X.cols.length α l₁ B := by
  rw [documentedLoss_eq, documentedLoss_eq, ← hc2, ← hc1]
  have hU : (0 : K) ≤ X.rows := Nat.cast_nonneg _
  apply Finset.sum_le_sum
  intro j hj
  obtain ⟨b, k, visited, order, rfl, hk, hv, hl, ho, hfix, hw⟩ := hW j (Finset.mem_range.mp hj)
  rw [columnLoss_congr _ _ _ _ _ (b + k) _ _ hw]
  exact (C38_fixed_point_optimal_partial cfg X hX
    (by rw [hc2]; exact mul_nonneg (mul_nonneg hU hα) (by linarith))
    (by rw [hc1]; exact mul_nonneg (mul_nonneg hU hα) hl0) b visited order hv hl hp0 ho hfix k hk
    (Finset.mem_range.mp hj)).2 _ (hB _ (Finset.mem_range.mp hj))

/-- C39 (zero diagonal). Without `top_k` no item gets a self-weight, for every number of threads and
interleaving.
Missing: `top_k` set. Columns with at most `top_k` coefficients are covered by
`C39_short_columns_complete_partial`; for the others it is false, see `C39_top_k_counterexample`. -/
theorem C39_zero_diagonal_partial {T : Nat} (cfg : Config K) (X : CSC K) (shuffles : Nat → List Nat)
    (srt : List (K × Nat) → List (K × Nat)) (hB : 0 < cfg.blockSize) (hk : cfg.topK < 0)
    (sched : List (Fin T)) (s : State T (Worker K) Unit)
    (hs : slim cfg X shuffles srt sched = .ok s) (hfin : Finished s)
    (j : Nat) (hj : j < X.cols.length) : weights s j j = 0 := by
  obtain ⟨c, h⟩ := weights_full cfg X shuffles srt hB sched s hs hfin j hj
  rw [h (Or.inl hk) j hj]
  obtain ⟨m, _, _, he⟩ := iterations_visits cfg X (j / cfg.blockSize * cfg.blockSize) shuffles cfg.nIter c
    (initBlock X cfg.blockSize (j / cfg.blockSize * cfg.blockSize))
  unfold blockResult
  rw [he]
  have := visit_diag cfg X (j / cfg.blockSize * cfg.blockSize)
    ((List.range m).flatMap (fun i => shuffles (c + i))) (j % cfg.blockSize)
  rw [Nat.mul_comm, Nat.div_add_mod, Nat.mul_comm] at this
  exact this

/-- C39 (non-negativity). With `positive_only` no weight is negative, with or without `top_k`, for
every number of threads and interleaving. -/
theorem C39_nonnegative {T : Nat} (cfg : Config K) (hp : cfg.positiveOnly = true) (X : CSC K)
    (shuffles : Nat → List Nat)
    (srt : List (K × Nat) → List (K × Nat)) (hsrt : ∀ l, (srt l).Perm l)
    (sched : List (Fin T)) (s : State T (Worker K) Unit)
    (hs : slim cfg X shuffles srt sched = .ok s) (f j : Nat) : 0 ≤ weights s f j := by
  have hall : ∀ t, AllNonneg (s.loc t) := by
    unfold slim at hs
    split at hs
    · simp at hs
    split at hs
    · simp at hs
    split at hs
    · simp at hs
    split at hs
    · simp at hs
    rw [Except.ok.injEq] at hs
    rw [← hs]
    apply run_loc_invariant AllNonneg (fun i w => processBlock cfg X shuffles srt i w)
      (fun i w hw => processBlock_nonneg cfg hp X shuffles srt hsrt i w hw)
    intro t
    refine ⟨?_, ?_⟩
    · intro e he
      simp only [init, freshWorker] at he
      split at he
      · simp at he
      · rw [List.eq_of_mem_replicate he]
    · intro e he
      simp [init, freshWorker] at he
  unfold weights
  apply List.sum_nonneg
  intro v hv
  obtain ⟨e, he, rfl⟩ := List.mem_map.mp hv
  split
  · rw [List.mem_flatten] at he
    obtain ⟨l, hl, hel⟩ := he
    rw [List.mem_ofFn] at hl
    obtain ⟨t, rfl⟩ := hl
    exact (hall t).2 e hel
  · exact le_refl _

/-- C39 (at most `top_k`). With `top_k` set, no column has more than `top_k` non-zero weights, for
every number of threads and interleaving. -/
theorem C39_at_most_top_k {T : Nat} (cfg : Config K) (hk : 0 ≤ cfg.topK) (X : CSC K)
    (shuffles : Nat → List Nat)
    (srt : List (K × Nat) → List (K × Nat)) (hB : 0 < cfg.blockSize)
    (sched : List (Fin T)) (s : State T (Worker K) Unit)
    (hs : slim cfg X shuffles srt sched = .ok s) (hfin : Finished s) (j : Nat) (hj : j < X.cols.length) :
    (((Finset.range X.cols.length).filter (fun f => weights s f j ≠ 0)).card : Int) ≤ cfg.topK := by
  obtain ⟨c, buf, h⟩ := column_triplets cfg X shuffles srt hB sched s hs hfin j hj
  set em := emission cfg X.cols.length srt j
        ((blockResult cfg X shuffles (j / cfg.blockSize) c).coef (j % cfg.blockSize)) buf
  have hlen : em.length ≤ cfg.topK.toNat := emission_length cfg hk _ _ _ _ _
  have hsub : ((Finset.range X.cols.length).filter (fun f => weights s f j ≠ 0)) ⊆
      (em.map (fun e => e.1)).toFinset := by
    intro f hf
    rw [Finset.mem_filter] at hf
    rw [List.mem_toFinset]
    by_contra hne
    apply hf.2
    unfold weights
    rw [sum_ofCol, h]
    apply List.sum_eq_zero
    intro v hv
    obtain ⟨e, he, rfl⟩ := List.mem_map.mp hv
    rw [if_neg]
    intro hef
    exact hne (List.mem_map.mpr ⟨e, he, hef⟩)
  have := le_trans (Finset.card_le_card hsub) (List.toFinset_card_le _)
  rw [List.length_map] at this
  omega

/-- C39 (columns that need no truncation). A column with at most `top_k` non-zero coefficients is
written out unchanged, whatever the worker's buffer holds: its weights are the coefficients of some
sequence of visits.
Missing: for columns with more coefficients, that the largest ones are kept; the implementation
violates that, see `C39_top_k_counterexample`. -/
theorem C39_short_columns_complete_partial {T : Nat} (cfg : Config K) (X : CSC K)
    (shuffles : Nat → List Nat)
    (srt : List (K × Nat) → List (K × Nat)) (hB : 0 < cfg.blockSize)
    (sched : List (Fin T)) (s : State T (Worker K) Unit)
    (hs : slim cfg X shuffles srt sched = .ok s) (hfin : Finished s) (j : Nat) (hj : j < X.cols.length) :
    ∃ visited : List Nat,
      let coef := (visit cfg X (j / cfg.blockSize * cfg.blockSize) visited).coef (j % cfg.blockSize)
      (((Finset.range X.cols.length).filter (fun f => coef f ≠ 0)).card : Int) ≤ cfg.topK →
        ∀ f, f < X.cols.length → weights s f j = coef f := by
  obtain ⟨c, h⟩ := weights_full cfg X shuffles srt hB sched s hs hfin j hj
  obtain ⟨m, _, _, he⟩ := iterations_visits cfg X (j / cfg.blockSize * cfg.blockSize) shuffles cfg.nIter c
    (initBlock X cfg.blockSize (j / cfg.blockSize * cfg.blockSize))
  refine ⟨(List.range m).flatMap (fun i => shuffles (c + i)), ?_⟩
  intro coef hcard
  have hb : (blockResult cfg X shuffles (j / cfg.blockSize) c).coef (j % cfg.blockSize) = coef := by
    unfold blockResult; rw [he]; rfl
  rw [hb] at h
  apply h
  right
  have : (nonzeros X.cols.length coef).length =
      ((Finset.range X.cols.length).filter (fun f => coef f ≠ 0)).card := by
    unfold nonzeros
    rw [List.length_map]
    rfl
  rw [this]
  omega

/-! ### The tolerance of `isZero` -/

/-- One user; item 0 has value 1, items `1 … B-1` are empty, items `B, B+1, B+2` have value `1/p`. -/
def lossy (B : Nat) (p : K) : CSC K where
  rows := 1
  cols := [[(0, 1)]] ++ List.replicate (B - 1) [] ++ List.replicate 3 [(0, 1 / p)]

theorem lossy_column (B : Nat) (hB : 0 < B) (p : K) (f : Nat) :
    column (lossy B p) f = if f = 0 then [(0, 1)] else if f < B then []
      else if f < B + 3 then [(0, 1 / p)] else [] := by
  unfold column lossy
  simp only [List.getD_eq_getElem?_getD]
  rcases Nat.eq_zero_or_pos f with rfl | hf
  · simp
  · rw [if_neg (by omega)]
    by_cases h1 : f < B
    · rw [if_pos h1, List.getElem?_append_left (by simp; omega), List.getElem?_append_right (by simp; omega)]
      simp only [List.length_singleton]
      rw [List.getElem?_replicate, if_pos (by omega)]; rfl
    · rw [if_neg h1]
      rw [List.getElem?_append_right (by simp; omega), List.getElem?_replicate]
      have hl : ([[(0, (1 : K))]] ++ List.replicate (B - 1) [] : List (SpVec K)).length = B := by
        simp; omega
      rw [hl]
      by_cases h2 : f < B + 3
      · rw [if_pos h2, if_pos (by omega)]; rfl
      · rw [if_neg h2, if_neg (by omega)]; rfl

theorem lossy_length (B : Nat) (hB : 0 < B) (p : K) : (lossy B p).cols.length = B + 3 := by
  simp [lossy]; omega

theorem lossy_proper (B : Nat) (p : K) : Proper (lossy B p) := by
  constructor
  · intro col hc e he
    simp only [lossy, List.mem_append, List.mem_singleton, List.mem_replicate] at hc
    rcases hc with (rfl | ⟨_, rfl⟩) | ⟨_, rfl⟩
    · simp only [List.mem_singleton] at he; rw [he]; exact Nat.one_pos
    · simp at he
    · simp only [List.mem_singleton] at he; rw [he]; exact Nat.one_pos
  · intro col hc
    simp only [lossy, List.mem_append, List.mem_singleton, List.mem_replicate] at hc
    rcases hc with (rfl | ⟨_, rfl⟩) | ⟨_, rfl⟩ <;> simp

/-- the state of the first block of `lossy` while its coordinates are visited for the first time -/
structure LossyInv (B : Nat) (p : K) (visited : List Nat) (s : Block K) : Prop where
  rem0 : s.rem 0 0 = -1
  rem : ∀ k, 0 < k → k < B → s.rem k 0 = 0
  coef0 : ∀ f, s.coef 0 f = if B ≤ f ∧ f < B + 3 ∧ f ∈ visited then p else 0
  coef : ∀ k, 0 < k → k < B → ∀ f, s.coef k f = 0

theorem lossy_init (B : Nat) (hB : 0 < B) (p : K) :
    LossyInv B p [] (initBlock (lossy B p) B 0) := by
  constructor
  · simp only [initBlock]
    rw [if_pos ⟨hB, by rw [lossy_length B hB]; omega⟩, lossy_column B hB]
    simp [lastStored]
  · intro k hk hkB
    simp only [initBlock]
    rw [if_pos ⟨hkB, by rw [lossy_length B hB]; omega⟩, lossy_column B hB, if_neg (by omega),
      if_pos (by omega)]
    simp [lastStored]
  · intro f; simp [initBlock]
  · intro k _ _ f; rfl

theorem lossy_new (cfg : Config K) (hB : 0 < cfg.blockSize) (hp : 0 < cfg.prec) (h2 : cfg.l2 = 0)
    (h1 : cfg.l1 = 0) (visited : List Nat) (s : Block K)
    (h : LossyInv cfg.blockSize cfg.prec visited s) (f : Nat) (hf : f ∉ visited) (k : Nat)
    (hk : k < cfg.blockSize) :
    newCoef cfg (lossy cfg.blockSize cfg.prec) 0 s f k =
        (if k = 0 ∧ cfg.blockSize ≤ f ∧ f < cfg.blockSize + 3 then cfg.prec else 0) ∧
      s.coef k f = 0 := by
  have hp' : cfg.prec ≠ 0 := ne_of_gt hp
  have hz : s.coef k f = 0 := by
    rcases Nat.eq_zero_or_pos k with rfl | hk0
    · rw [h.coef0, if_neg (fun x => hf x.2.2)]
    · exact h.coef k hk0 hk f
  refine ⟨?_, hz⟩
  unfold newCoef linear x2Sum
  simp only
  rw [hz, lossy_column _ hB, h2, h1]
  by_cases hf0 : f = 0
  · subst hf0
    rcases Nat.eq_zero_or_pos k with rfl | hk0
    · simp; omega
    · have e : ¬ 0 + k = 0 := by omega
      have e' : ¬ k = 0 := by omega
      simp [e', h.rem k hk0 hk, choose]
  · rw [if_neg hf0]
    by_cases hfB : f < cfg.blockSize
    · rw [if_pos hfB]
      have : ¬ (k = 0 ∧ cfg.blockSize ≤ f ∧ f < cfg.blockSize + 3) := by omega
      rw [if_neg this]
      split
      · rfl
      · simp [choose]
    · rw [if_neg hfB]
      by_cases hf3 : f < cfg.blockSize + 3
      · rw [if_pos hf3]
        have e : ¬ 0 + k = f := by omega
        rw [if_neg e]
        rcases Nat.eq_zero_or_pos k with rfl | hk0
        · rw [if_pos ⟨rfl, by omega, hf3⟩]
          simp only [List.map_cons, List.map_nil, List.sum_cons, List.sum_nil, h.rem0]
          have : (-(1 / cfg.prec * -1 + 0 - (1 / cfg.prec * (1 / cfg.prec) + 0) * 0) - 0) /
              (1 / cfg.prec * (1 / cfg.prec) + 0 + 0) = cfg.prec := by
            field_simp; ring
          rw [this]
          unfold choose
          cases cfg.positiveOnly <;> simp [hp]
        · rw [if_neg (by omega)]
          simp [h.rem k hk0 hk, choose]
      · have e : ¬ (k = 0 ∧ cfg.blockSize ≤ f ∧ f < cfg.blockSize + 3) := by omega
        rw [if_neg hf3, if_neg e]
        split
        · rfl
        · simp [choose]

theorem lossy_step (cfg : Config K) (hB : 0 < cfg.blockSize) (hp : 0 < cfg.prec) (h2 : cfg.l2 = 0)
    (h1 : cfg.l1 = 0) (visited : List Nat) (s : Block K)
    (h : LossyInv cfg.blockSize cfg.prec visited s) (f : Nat) (hf : f ∉ visited) (d : K) :
    LossyInv cfg.blockSize cfg.prec (visited ++ [f])
        (featureStep cfg (lossy cfg.blockSize cfg.prec) 0 s f) ∧
      deltaStep cfg (lossy cfg.blockSize cfg.prec) 0 s f d = d := by
  have hnew := lossy_new cfg hB hp h2 h1 visited s h f hf
  have hz : isZero cfg (lossy cfg.blockSize cfg.prec) 0 s f = true := by
    rw [isZero_iff]
    intro k hk
    unfold change
    rw [(hnew k hk).1, (hnew k hk).2, sub_zero]
    split
    · rw [abs_of_pos hp]
    · rw [abs_zero]; exact le_of_lt hp
  refine ⟨⟨?_, ?_, ?_, ?_⟩, by simp [deltaStep, hz]⟩
  · simp [featureStep, hz, h.rem0]
  · intro k hk hkB; simp [featureStep, hz, h.rem k hk hkB]
  · intro g
    simp only [featureStep]
    split
    · rename_i hg
      rw [(hnew 0 hB).1, hg]
      simp
    · rename_i hg
      rw [h.coef0]
      simp [hg]
  · intro k hk hkB g
    simp only [featureStep]
    split
    · rw [(hnew k hkB).1, if_neg (by omega)]
    · exact h.coef k hk hkB g

theorem lossy_sweep (cfg : Config K) (hB : 0 < cfg.blockSize) (hp : 0 < cfg.prec) (h2 : cfg.l2 = 0)
    (h1 : cfg.l1 = 0) (order : List Nat) (hn : order.Nodup) :
    LossyInv cfg.blockSize cfg.prec order
        (sweep cfg (lossy cfg.blockSize cfg.prec) 0 order
          (initBlock (lossy cfg.blockSize cfg.prec) cfg.blockSize 0)).1 ∧
      (sweep cfg (lossy cfg.blockSize cfg.prec) 0 order
          (initBlock (lossy cfg.blockSize cfg.prec) cfg.blockSize 0)).2 = 0 := by
  induction order using List.reverseRecOn with
  | nil => exact ⟨lossy_init _ hB _, rfl⟩
  | append_singleton order f ih =>
    rw [List.nodup_append] at hn
    obtain ⟨i1, i2⟩ := ih hn.1
    have hf : f ∉ order := fun hf => hn.2.2 f hf f (by simp) rfl
    have hs := lossy_step cfg hB hp h2 h1 order _ i1 f hf
      (sweep cfg (lossy cfg.blockSize cfg.prec) 0 order
          (initBlock (lossy cfg.blockSize cfg.prec) cfg.blockSize 0)).2
    have he : sweep cfg (lossy cfg.blockSize cfg.prec) 0 (order ++ [f])
          (initBlock (lossy cfg.blockSize cfg.prec) cfg.blockSize 0) =
        (featureStep cfg (lossy cfg.blockSize cfg.prec) 0 (sweep cfg (lossy cfg.blockSize cfg.prec) 0 order
          (initBlock (lossy cfg.blockSize cfg.prec) cfg.blockSize 0)).1 f,
         deltaStep cfg (lossy cfg.blockSize cfg.prec) 0 (sweep cfg (lossy cfg.blockSize cfg.prec) 0 order
          (initBlock (lossy cfg.blockSize cfg.prec) cfg.blockSize 0)).1 f
          (sweep cfg (lossy cfg.blockSize cfg.prec) 0 order
          (initBlock (lossy cfg.blockSize cfg.prec) cfg.blockSize 0)).2) := by
      simp [sweep, List.foldl_append]
    rw [he]
    exact ⟨hs.1, hs.2.trans i2⟩

/-- C37 is violated by the implementation. `isZero()` accepts changes up to `prec` (`1e-5` in the
library), and accepted changes are not propagated to the residuals. For every positive tolerance and
every block size there is a data matrix such that, with `alpha = 0`, the column learned for item 0
has a *larger* documented loss than the zero column the descent starts from: for every visiting
order, iteration count, `tol > 0`, number of threads and interleaving. -/
theorem C37_lost_updates_counterexample (cfg : Config K) (hB : 0 < cfg.blockSize)
    (hp : 0 < cfg.prec) (h2 : cfg.l2 = 0) (h1 : cfg.l1 = 0) (htol : 0 < cfg.tol) (hk : cfg.topK < 0) :
    ∃ X : CSC K, Proper X ∧ ∀ (T : Nat) (shuffles : Nat → List Nat),
      (∀ c, (shuffles c).Perm (List.range X.cols.length)) →
      ∀ (srt : List (K × Nat) → List (K × Nat)) (sched : List (Fin T)) (s : State T (Worker K) Unit),
      slim cfg X shuffles srt sched = .ok s → Finished s →
      columnLoss X.get X.rows X.cols.length cfg.l2 cfg.l1 0 (fun _ => 0) <
        columnLoss X.get X.rows X.cols.length cfg.l2 cfg.l1 0 (fun f => weights s f 0) := by
  refine ⟨lossy cfg.blockSize cfg.prec, lossy_proper _ _, ?_⟩
  intro T shuffles hsh srt sched s hs hfin
  have hlen := lossy_length cfg.blockSize hB cfg.prec
  have hn : 0 < cfg.nIter := by
    unfold slim at hs
    split at hs
    · simp at hs
    split at hs
    · simp at hs
    omega
  obtain ⟨c, hw⟩ := weights_full cfg _ shuffles srt hB sched s hs hfin 0 (by omega)
  have hw := hw (Or.inl hk)
  have hsw := lossy_sweep cfg hB hp h2 h1 (shuffles c) ((hsh c).nodup_iff.mpr List.nodup_range)
  have hbr : (blockResult cfg (lossy cfg.blockSize cfg.prec) shuffles (0 / cfg.blockSize) c) =
      (sweep cfg (lossy cfg.blockSize cfg.prec) 0 (shuffles c)
          (initBlock (lossy cfg.blockSize cfg.prec) cfg.blockSize 0)).1 := by
    unfold blockResult
    rw [Nat.zero_div, Nat.zero_mul]
    obtain ⟨n, hn'⟩ : ∃ n, cfg.nIter = n + 1 := ⟨cfg.nIter - 1, by omega⟩
    rw [hn', iterations]
    simp only [hsw.2, htol, if_true]
  rw [hbr, Nat.zero_mod] at hw
  rw [columnLoss_congr _ _ _ _ _ _ (fun f => weights s f 0) _ hw]
  have hget : ∀ f, (lossy cfg.blockSize cfg.prec).get 0 f =
      if f = 0 then 1 else if f < cfg.blockSize then 0
        else if f < cfg.blockSize + 3 then 1 / cfg.prec else 0 := by
    intro f
    have : (lossy cfg.blockSize cfg.prec).get 0 f = SpVec.get (column (lossy cfg.blockSize cfg.prec) f) 0 := rfl
    rw [this, lossy_column _ hB]
    split
    · simp [SpVec.get]
    · split
      · simp [SpVec.get]
      · split <;> simp [SpVec.get]
  have hp' : cfg.prec ≠ 0 := ne_of_gt hp
  have hprod : ∀ f ∈ Finset.range (cfg.blockSize + 3), (lossy cfg.blockSize cfg.prec).get 0 f *
      (sweep cfg (lossy cfg.blockSize cfg.prec) 0 (shuffles c)
          (initBlock (lossy cfg.blockSize cfg.prec) cfg.blockSize 0)).1.coef 0 f =
      if cfg.blockSize ≤ f then 1 else 0 := by
    intro f hf
    have hf' := Finset.mem_range.mp hf
    have hmem : f ∈ shuffles c := (hsh c).mem_iff.mpr (by rw [hlen]; simpa using hf')
    rw [hget, hsw.1.coef0]
    by_cases h : cfg.blockSize ≤ f
    · have e1 : ¬ f = 0 := by omega
      have e2 : ¬ f < cfg.blockSize := by omega
      simp only [e1, e2, if_false, h, hf', hmem, and_self, if_true]
      field_simp
    · simp only [h, false_and, if_false, mul_zero]
  have hsum : ∑ f ∈ Finset.range (cfg.blockSize + 3), (if cfg.blockSize ≤ f then (1 : K) else 0) = 3 := by
    rw [Finset.sum_range_succ, Finset.sum_range_succ, Finset.sum_range_succ, Finset.sum_eq_zero]
    · simp; norm_num
    · intro f hf
      rw [if_neg (by simpa using hf)]
  have hrows : (lossy cfg.blockSize cfg.prec).rows = 1 := rfl
  unfold columnLoss
  rw [hlen, hrows, h2, h1]
  simp only [Finset.sum_range_one]
  rw [Finset.sum_congr rfl hprod, hsum, hget]
  simp
  norm_num

/-! ### The shared sort buffer -/

/-- 3 users, 4 items -/
def leaky : CSC Rat where
  rows := 3
  cols := [[(0, 3), (1, 3), (2, 3)], [(0, 1), (1, 1)], [(1, 1), (2, 1)], [(2, 1 / 2)]]

/-- one thread, SIMD width 4, one iteration, `positive_only`, no regularisation, `top_k = 1` -/
def leakyCfg : Config Rat where
  positiveOnly := true
  blockSize := 4
  nIter := 1
  l2 := 0
  l1 := 0
  tol := 1 / 10000
  prec := 1 / 100000
  topK := 1

/-- a sort as `std::sort` with the comparison `val1.first > val2.first` may behave -/
def sortDesc (l : List (Rat × Nat)) : List (Rat × Nat) :=
  l.insertionSort (fun a b => b.1 ≤ a.1)

/-- C39 is violated by the implementation when `top_k` is set. On this data the worker's sort buffer
still holds coefficients of item 0 when item 2 is written out, and the largest of them, 3/2, is
emitted for item 2: it ends up *on the diagonal* of the learned matrix, although the coefficients
of item 2 are 2/9 (item 0) and 2/3 (item 3), of which `top_k = 1` should keep 2/3. -/
theorem C39_top_k_counterexample :
    Proper leaky ∧ (∀ l, (sortDesc l).Perm l ∧ (sortDesc l).Pairwise (fun a b => b.1 ≤ a.1)) ∧
    ∃ s : State 1 (Worker Rat) Unit,
      slim leakyCfg leaky (fun _ => [0, 1, 2, 3]) sortDesc (List.replicate 4 (0 : Fin 1)) = .ok s ∧
      Finished s ∧
      (visit leakyCfg leaky 0 [0, 1, 2, 3]).coef 2 0 = 2 / 9 ∧
      (visit leakyCfg leaky 0 [0, 1, 2, 3]).coef 2 1 = 0 ∧
      (visit leakyCfg leaky 0 [0, 1, 2, 3]).coef 2 2 = 0 ∧
      (visit leakyCfg leaky 0 [0, 1, 2, 3]).coef 2 3 = 2 / 3 ∧
      weights s 2 2 = 3 / 2 ∧ weights s 3 2 = 0 := by
  refine ⟨⟨?_, ?_⟩, ?_, ?_⟩
  · decide +kernel
  · decide +kernel
  · intro l
    have htot : Std.Total (fun a b : Rat × Nat => b.1 ≤ a.1) := ⟨fun a b => le_total b.1 a.1⟩
    have htr : IsTrans (Rat × Nat) (fun a b => b.1 ≤ a.1) := ⟨fun a b c h1 h2 => le_trans h2 h1⟩
    exact ⟨List.perm_insertionSort _ _, List.pairwise_insertionSort _ _⟩
  · refine ⟨_, rfl, fun t => ?_, ?_, ?_, ?_, ?_, ?_, ?_⟩
    · revert t; decide +kernel
    all_goals decide +kernel

/-- Non-vacuity of C37-C39: on the data above without `top_k`, with the exact test and with some
regularisation, the region is accepted and finishes, and the learned weights are not trivial. -/
example :
    let cfg : Config Rat := { leakyCfg with topK := -1, prec := 0, l2 := 1, l1 := 1 / 2 }
    Proper leaky ∧ 0 ≤ cfg.l2 ∧ 0 ≤ cfg.l1 ∧ 0 < cfg.blockSize ∧
    ([0, 1, 2, 3].Perm (List.range leaky.cols.length)) ∧
    ∃ s : State 1 (Worker Rat) Unit,
      slim cfg leaky (fun _ => [0, 1, 2, 3]) sortDesc (List.replicate 4 (0 : Fin 1)) = .ok s ∧
      Finished s ∧ 0 < weights s 1 0 := by
  intro cfg
  refine ⟨⟨?_, ?_⟩, ?_, ?_, ?_, ?_, ?_⟩
  case refine_7 =>
    have h : slim cfg leaky (fun _ => [0, 1, 2, 3]) sortDesc (List.replicate 4 (0 : Fin 1)) =
        .ok (run (blockCount cfg leaky) 1
          (fun i w m => (processBlock cfg leaky (fun _ => [0, 1, 2, 3]) sortDesc i w, m))
          (init (freshWorker cfg leaky) ()) (List.replicate 4 (0 : Fin 1))) := by
      unfold slim
      rw [if_neg (by decide), if_neg (by decide), if_neg (by decide +kernel),
        if_neg (by decide +kernel)]
    refine ⟨_, h, fun t => ?_, ?_⟩
    · revert t; decide +kernel
    · decide +kernel
  all_goals decide +kernel

/-- Non-vacuity of C38: two identical items of one user, no regularisation. After visiting both
features the weights are 1 and a further sweep changes nothing. -/
example :
    let cfg : Config Rat := { leakyCfg with topK := -1, blockSize := 2 }
    let X : CSC Rat := ⟨1, [[(0, 2)], [(0, 2)]]⟩
    (∀ k f, k < 2 → f < 2 → (sweep cfg X 0 [1, 0] (visit cfg X 0 [0, 1])).1.coef k f =
      (visit cfg X 0 [0, 1]).coef k f) ∧ (visit cfg X 0 [0, 1]).coef 0 1 = 1 ∧
    NotLost cfg X 0 (visit cfg X 0 []) 0 ∧ NotLost cfg X 0 (visit cfg X 0 [0]) 1 := by
  intro cfg X
  refine ⟨?_, ?_, Or.inr ⟨1, ?_⟩, Or.inr ⟨0, ?_⟩⟩
  · intro k f hk hf
    have hk : k = 0 ∨ k = 1 := by omega
    have hf : f = 0 ∨ f = 1 := by omega
    rcases hk with rfl | rfl <;> rcases hf with rfl | rfl <;> decide +kernel
  all_goals decide +kernel

end Irspack.Props
