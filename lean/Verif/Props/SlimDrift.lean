import Verif.Proofs.SlimDrift
import Verif.Props.Slim
import Mathlib.Tactic.FieldSimp

/-!
# C37, C38 for the tolerance the library is built with

`C37_never_increases_partial` and `C38_fixed_point_optimal_partial` speak about runs in which no
change was dropped by `isZero()`.  Here nothing is assumed about the run: the tolerance may be any
`prec ≥ 0` (Eigen: `1e-5`), and the theorems say how much can go wrong.  `dropped … visited` is the
number of visits whose changes were left out of the residuals, `M` bounds the squared length of the
columns of the interaction matrix.
-/

namespace Irspack.Props
open Slim Spec.Slim WorkQueue

variable {K : Type} [Field K] [LinearOrder K] [IsStrictOrderedRing K]

theorem colSq_bound {X : CSC K} {M : K}
    (hM : ∀ f, f < X.cols.length → ∑ u ∈ Finset.range X.rows, X.get u f ^ 2 ≤ M) :
    ∀ f, f < X.cols.length → colSq X f ≤ M := by
  intro f hf
  have := hM f hf
  unfold colSq
  simpa [sq] using this

/-- C37: the runs the `_partial` theorems are about are those without a dropped visit. -/
theorem C37_lossless_means_nothing_dropped (cfg : Config K) (X : CSC K) (b : Nat) (visited : List Nat) :
    Lossless cfg X b visited ↔ dropped cfg X b visited = 0 :=
  lossless_iff_dropped cfg X b visited

/-- C37 (near minimisation, any tolerance). After the update of coordinate `f`, whatever happened
before, no admissible value of that coordinate would make the objective smaller by more than
`(prec * dropped visits)² * M / 2`. -/
theorem C37_near_minimiser (cfg : Config K) (X : CSC K) (hX : Proper X)
    (h2 : 0 ≤ cfg.l2) (h1 : 0 ≤ cfg.l1) (M : K)
    (hM : ∀ f, f < X.cols.length → ∑ u ∈ Finset.range X.rows, X.get u f ^ 2 ≤ M)
    (b : Nat) (visited : List Nat)
    (hv : ∀ f ∈ visited, f < X.cols.length)
    (f k : Nat) (hf : f < X.cols.length) (hk : k < cfg.blockSize) (hj : b + k < X.cols.length)
    (hne : b + k ≠ f) (t : K) (ht : cfg.positiveOnly = true → 0 ≤ t) :
    columnLoss X.get X.rows X.cols.length cfg.l2 cfg.l1 (b + k)
        ((visit cfg X b (visited ++ [f])).coef k) ≤
      columnLoss X.get X.rows X.cols.length cfg.l2 cfg.l1 (b + k)
        (Function.update ((visit cfg X b visited).coef k) f t)
        + (cfg.prec * dropped cfg X b visited) ^ 2 * M / 2 := by
  obtain ⟨D, hD, hS⟩ := drift_exists cfg X hX b visited hv k hk hj
  rw [visit_append]
  set s := visit cfg X b visited
  set S := cfg.prec * (dropped cfg X b visited : K)
  set tr : Nat → K := fun u => ∑ g ∈ Finset.range X.cols.length, X.get u g * s.coef k g - X.get u (b + k)
  have hg := grad_drift X (b + k) f (s.coef k) D (s.rem k) hD
  have hE := drift_grad_sq X M (colSq_bound hM) D f S hS
  set E := ∑ g ∈ Finset.range X.cols.length, gram X f g * D g
  have e1 := loss_update X cfg.l2 cfg.l1 (b + k) f hf (s.coef k) tr (fun _ _ => rfl)
    (newCoef cfg X b s f k)
  have e2 := loss_update X cfg.l2 cfg.l1 (b + k) f hf (s.coef k) tr (fun _ _ => rfl) t
  have hu : Function.update (s.coef k) f t = fun g => if g = f then t else s.coef k g := by
    funext g; simp [Function.update_apply]
  rw [hu, e2]
  show columnLoss _ _ _ _ _ _ (fun g => if g = f then newCoef cfg X b s f k else s.coef k g) ≤ _
  rw [e1, hg]
  have hvi := newCoef_vi cfg X hX h2 h1 b s f k hne t ht
  have hc0 := colSq_nonneg X f
  have hM0 : 0 ≤ M := le_trans hc0 (colSq_bound hM f hf)
  set n := newCoef cfg X b s f k
  have hq : 0 ≤ colSq X f + cfg.l2 := add_nonneg hc0 h2
  have hEq : E ^ 2 ≤ S ^ 2 * M * (colSq X f + cfg.l2) := by
    have : 0 ≤ S ^ 2 * M * cfg.l2 := mul_nonneg (mul_nonneg (sq_nonneg _) hM0) h2
    linarith
  -- the quadratic in the step that the error can win
  have hquad : 0 ≤ E * (t - n) + (colSq X f + cfg.l2) * (t - n) ^ 2 / 2 + S ^ 2 * M / 2 := by
    rcases hq.eq_or_lt with h0 | hpos
    · have hE0 : E = 0 := by
        rw [← h0, mul_zero] at hEq
        exact pow_eq_zero_iff (two_ne_zero) |>.mp (le_antisymm hEq (sq_nonneg _))
      rw [hE0, ← h0]
      have : 0 ≤ S ^ 2 * M := mul_nonneg (sq_nonneg _) hM0
      linarith
    · have hsq := sq_nonneg ((colSq X f + cfg.l2) * (t - n) + E)
      have : 0 ≤ (colSq X f + cfg.l2) *
          (2 * (E * (t - n) + (colSq X f + cfg.l2) * (t - n) ^ 2 / 2 + S ^ 2 * M / 2)) := by
        nlinarith
      have := nonneg_of_mul_nonneg_right this hpos
      linarith
  nlinarith

/-- C37 (descent, any tolerance). No coordinate update increases the documented objective of a
column by more than `(prec * dropped visits)² * M / 2`, whatever has been visited before. -/
theorem C37_bounded_increase (cfg : Config K) (X : CSC K) (hX : Proper X)
    (h2 : 0 ≤ cfg.l2) (h1 : 0 ≤ cfg.l1) (M : K)
    (hM : ∀ f, f < X.cols.length → ∑ u ∈ Finset.range X.rows, X.get u f ^ 2 ≤ M)
    (b : Nat) (visited : List Nat)
    (hv : ∀ f ∈ visited, f < X.cols.length)
    (f k : Nat) (hf : f < X.cols.length) (hk : k < cfg.blockSize) (hj : b + k < X.cols.length) :
    columnLoss X.get X.rows X.cols.length cfg.l2 cfg.l1 (b + k)
        ((visit cfg X b (visited ++ [f])).coef k) ≤
      columnLoss X.get X.rows X.cols.length cfg.l2 cfg.l1 (b + k) ((visit cfg X b visited).coef k)
        + (cfg.prec * dropped cfg X b visited) ^ 2 * M / 2 := by
  by_cases hne : b + k = f
  · have hM0 : 0 ≤ M := le_trans (colSq_nonneg X f) (colSq_bound hM f hf)
    have h0 : 0 ≤ (cfg.prec * dropped cfg X b visited) ^ 2 * M := mul_nonneg (sq_nonneg _) hM0
    have : (visit cfg X b (visited ++ [f])).coef k = (visit cfg X b visited).coef k := by
      rw [visit_append]
      funext g
      simp only [featureStep]
      split
      · rename_i hg
        rw [hg, ← hne, visit_diag]; simp [newCoef]
      · rfl
    rw [this]
    linarith
  · have := C37_near_minimiser cfg X hX h2 h1 M hM b visited hv f k hf hk hj hne
      ((visit cfg X b visited).coef k f) (fun hp => visit_nonneg cfg hp X b visited k f)
    rwa [Function.update_eq_self] at this

/-- C37 (a whole run, any tolerance). After `n` coordinate updates in any order the objective of a
column exceeds the one of the zero column, from which the descent starts, by at most
`prec² * M * n³ / 6`. -/
theorem C37_bounded_total (cfg : Config K) (X : CSC K) (hX : Proper X)
    (h2 : 0 ≤ cfg.l2) (h1 : 0 ≤ cfg.l1) (M : K)
    (hM : ∀ f, f < X.cols.length → ∑ u ∈ Finset.range X.rows, X.get u f ^ 2 ≤ M)
    (b : Nat) (visited : List Nat)
    (hv : ∀ f ∈ visited, f < X.cols.length)
    (k : Nat) (hk : k < cfg.blockSize) (hj : b + k < X.cols.length) :
    columnLoss X.get X.rows X.cols.length cfg.l2 cfg.l1 (b + k) ((visit cfg X b visited).coef k) ≤
      columnLoss X.get X.rows X.cols.length cfg.l2 cfg.l1 (b + k) (fun _ => 0)
        + cfg.prec ^ 2 * M * (visited.length : K) ^ 3 / 6 := by
  have hM0 : 0 ≤ M := le_trans (colSq_nonneg X (b + k)) (colSq_bound hM _ hj)
  induction visited using List.reverseRecOn with
  | nil => simp [visit, initBlock]
  | append_singleton v f ih =>
    have hv' : ∀ g ∈ v, g < X.cols.length := fun g hg => hv g (by simp [hg])
    have hi := ih hv'
    have hs := C37_bounded_increase cfg X hX h2 h1 M hM b v hv' f k (hv f (by simp)) hk hj
    have hd : (dropped cfg X b v : K) ≤ v.length := by exact_mod_cast dropped_le_length cfg X b v
    have hd0 : (0 : K) ≤ dropped cfg X b v := Nat.cast_nonneg _
    have hsq : (cfg.prec * dropped cfg X b v) ^ 2 * M ≤ cfg.prec ^ 2 * M * (v.length : K) ^ 2 := by
      have h3 : (dropped cfg X b v : K) ^ 2 ≤ (v.length : K) ^ 2 := pow_le_pow_left₀ hd0 hd 2
      have h4 : 0 ≤ cfg.prec ^ 2 * M := mul_nonneg (sq_nonneg _) hM0
      calc _ = cfg.prec ^ 2 * M * (dropped cfg X b v : K) ^ 2 := by ring
        _ ≤ _ := mul_le_mul_of_nonneg_left h3 h4
    have hl : cfg.prec ^ 2 * M * (v.length : K) ^ 3 / 6 + cfg.prec ^ 2 * M * (v.length : K) ^ 2 / 2 ≤
        cfg.prec ^ 2 * M * ((v ++ [f]).length : K) ^ 3 / 6 := by
      have h4 : 0 ≤ cfg.prec ^ 2 * M := mul_nonneg (sq_nonneg _) hM0
      have h5 : (0 : K) ≤ v.length := Nat.cast_nonneg _
      rw [List.length_append, List.length_singleton]
      push_cast
      nlinarith [mul_nonneg h4 h5]
    linarith

/-- C37 (the recommender, any tolerance). The weights learned by `SLIMRecommender` (without `top_k`)
have a documented loss that exceeds the one of the zero matrix by at most
`F * prec² * M * (n_iter * F)³ / 6`, with `F` items: the tolerance of `isZero()` cannot do more harm
than that, for any data, regularisation, `tol`, number of iterations, threads and interleaving. -/
theorem C37_learned_loss_bound {T : Nat} (X : CSC K) (hX : Proper X) (α l1Ratio tol prec : K)
    (M : K)
    (hM : ∀ f, f < X.cols.length → ∑ u ∈ Finset.range X.rows, X.get u f ^ 2 ≤ M)
    (hα : 0 ≤ α) (hl0 : 0 ≤ l1Ratio) (hl1 : l1Ratio ≤ 1) (positiveOnly : Bool) (nIter blockSize : Nat)
    (hB : 0 < blockSize) (shuffles : Nat → List Nat)
    (hsh : ∀ c, (shuffles c).Perm (List.range X.cols.length))
    (srt : List (K × Nat) → List (K × Nat)) (sched : List (Fin T)) (s : State T (Worker K) Unit)
    (hs : slim (recommenderConfig X.rows α l1Ratio positiveOnly nIter tol none blockSize prec) X shuffles
      srt sched = .ok s) (hfin : Finished s) :
    documentedLoss X.get X.rows X.cols.length α l1Ratio (weights s) ≤
      documentedLoss X.get X.rows X.cols.length α l1Ratio (fun _ _ => 0)
        + X.cols.length * (prec ^ 2 * M * ((nIter : K) * X.cols.length) ^ 3 / 6) := by
  rw [documentedLoss_eq, documentedLoss_eq]
  have hconst : (X.cols.length : K) * (prec ^ 2 * M * ((nIter : K) * X.cols.length) ^ 3 / 6) =
      ∑ _j ∈ Finset.range X.cols.length, prec ^ 2 * M * ((nIter : K) * X.cols.length) ^ 3 / 6 := by
    rw [Finset.sum_const, Finset.card_range, nsmul_eq_mul]
  rw [hconst, ← Finset.sum_add_distrib]
  apply Finset.sum_le_sum
  intro j hj
  have hj := Finset.mem_range.mp hj
  set cfg := recommenderConfig X.rows α l1Ratio positiveOnly nIter tol none blockSize prec with hcfg
  have hU : (0 : K) ≤ X.rows := Nat.cast_nonneg _
  have h2 : 0 ≤ cfg.l2 := mul_nonneg (mul_nonneg hU hα) (by linarith)
  have h1 : 0 ≤ cfg.l1 := mul_nonneg (mul_nonneg hU hα) hl0
  have hM0 : 0 ≤ M := le_trans (colSq_nonneg X j) (colSq_bound hM _ hj)
  obtain ⟨m, _, hm, c, hv, hw⟩ := C37_weights_are_visits cfg X shuffles hsh srt hB
    (by simp [hcfg, recommenderConfig]) sched s hs hfin j hj
  rw [columnLoss_congr _ _ _ _ _ j _ _ hw]
  have hdm : j / blockSize * blockSize + j % blockSize = j := by
    rw [Nat.mul_comm]; exact Nat.div_add_mod j blockSize
  have hb := C37_bounded_total cfg X hX h2 h1 M hM (j / blockSize * blockSize)
    ((List.range m).flatMap (fun i => shuffles (c + i))) hv (j % blockSize) (Nat.mod_lt _ hB)
    (by rw [hdm]; exact hj)
  rw [hdm] at hb
  refine le_trans hb ?_
  have hlen : (((List.range m).flatMap (fun i => shuffles (c + i))).length : K) ≤
      (nIter : K) * X.cols.length := by
    have e : ((List.range m).flatMap (fun i => shuffles (c + i))).length = m * X.cols.length := by
      rw [List.length_flatMap]
      have : (List.range m).map (fun i => (shuffles (c + i)).length) =
          (List.range m).map (fun _ => X.cols.length) :=
        List.map_congr_left (fun i _ => by rw [(hsh (c + i)).length_eq, List.length_range])
      rw [this, List.map_const', List.sum_replicate, List.length_range, smul_eq_mul]
    rw [e]
    exact_mod_cast Nat.mul_le_mul_right _ hm
  have h3 := pow_le_pow_left₀ (Nat.cast_nonneg _) hlen 3
  have h4 : 0 ≤ prec ^ 2 * M := mul_nonneg (sq_nonneg _) hM0
  have h5 := mul_le_mul_of_nonneg_left h3 h4
  have : cfg.prec = prec := rfl
  rw [this]
  exact add_le_add (le_refl _) (by linarith)

theorem le_foldl_max (l : List K) (d : K) : d ≤ l.foldl max d ∧ ∀ x ∈ l, x ≤ l.foldl max d := by
  induction l generalizing d with
  | nil => simp
  | cons a l ih =>
    rw [List.foldl_cons]
    refine ⟨le_trans (le_max_left _ _) (ih _).1, fun x hx => ?_⟩
    rcases List.mem_cons.mp hx with rfl | hx
    · exact le_trans (le_max_right _ _) (ih _).1
    · exact (ih _).2 x hx

theorem delta_mono (cfg : Config K) (X : CSC K) (b : Nat) (l : List Nat) (s : Block K) (d : K) :
    d ≤ (l.foldl (fun p f => (featureStep cfg X b p.1 f, deltaStep cfg X b p.1 f p.2)) (s, d)).2 := by
  induction l generalizing s d with
  | nil => exact le_refl _
  | cons f l ih =>
    rw [List.foldl_cons]
    refine le_trans ?_ (ih _ _)
    simp only [deltaStep]
    split
    · exact le_refl _
    · exact (le_foldl_max _ d).1

/-- what the value returned by a sweep says about the changes made in it -/
theorem sweep_changes (cfg : Config K) (X : CSC K) (b : Nat) (order : List Nat) (s : Block K) (d : K)
    (pre : List Nat) (g : Nat) (post : List Nat) (he : order = pre ++ g :: post) (k : Nat)
    (hk : k < cfg.blockSize) :
    |change cfg X b (pre.foldl (featureStep cfg X b) s) g k| ≤
      max (order.foldl (fun p f => (featureStep cfg X b p.1 f, deltaStep cfg X b p.1 f p.2)) (s, d)).2
        cfg.prec := by
  subst he
  induction pre generalizing s d with
  | nil =>
    simp only [List.nil_append, List.foldl_cons, List.foldl_nil]
    by_cases hz : isZero cfg X b s g = true
    · exact le_trans ((isZero_iff ..).mp hz k hk) (le_max_right _ _)
    · refine le_trans ?_ (le_max_left _ _)
      refine le_trans ?_ (delta_mono cfg X b post _ _)
      simp only [deltaStep]
      rw [if_neg hz]
      exact (le_foldl_max _ d).2 _ (List.mem_map.mpr ⟨k, List.mem_range.mpr hk, rfl⟩)
  | cons f pre ih =>
    simp only [List.cons_append, List.foldl_cons]
    exact ih _ _

/-- in a pass that visits no feature twice, no coefficient moves by more than the largest change -/
theorem coef_moves (cfg : Config K) (X : CSC K) (b k : Nat) (θ : K) (hθ : 0 ≤ θ) (l : List Nat)
    (hn : l.Nodup) (s : Block K)
    (hc : ∀ pre g post, l = pre ++ g :: post →
      |change cfg X b (pre.foldl (featureStep cfg X b) s) g k| ≤ θ) (g : Nat) :
    |(l.foldl (featureStep cfg X b) s).coef k g - s.coef k g| ≤ θ ∧
      (g ∉ l → (l.foldl (featureStep cfg X b) s).coef k g = s.coef k g) := by
  induction l generalizing s with
  | nil => simp [hθ]
  | cons f l ih =>
    rw [List.nodup_cons] at hn
    have hi := ih hn.2 (featureStep cfg X b s f)
      (fun pre g post he => by simpa using hc (f :: pre) g post (by rw [he]; rfl))
    rw [List.foldl_cons]
    by_cases hg : g = f
    · subst hg
      have h1 := hi.2 hn.1
      refine ⟨?_, fun h => absurd (List.mem_cons_self) h⟩
      rw [h1]
      have := hc [] g l rfl
      simpa [featureStep, change] using this
    · have e : (featureStep cfg X b s f).coef k g = s.coef k g := by simp [featureStep, hg]
      rw [e] at hi
      exact ⟨hi.1, fun h => hi.2 (fun hm => h (List.mem_cons_of_mem _ hm))⟩

/-- what the last sweep says, with the curvature of the penalty -/
theorem near_optimal_strong (cfg : Config K) (hp : 0 ≤ cfg.prec) (X : CSC K) (hX : Proper X)
    (h2 : 0 ≤ cfg.l2) (h1 : 0 ≤ cfg.l1) (M : K)
    (hM : ∀ f, f < X.cols.length → ∑ u ∈ Finset.range X.rows, X.get u f ^ 2 ≤ M)
    (b : Nat) (visited order : List Nat) (hv : ∀ f ∈ visited, f < X.cols.length)
    (ho : order.Perm (List.range X.cols.length))
    (k : Nat) (hk : k < cfg.blockSize) (hj : b + k < X.cols.length) (θ : K) (hθ : 0 ≤ θ)
    (hmove : ∀ pre g post, order = pre ++ g :: post →
      |(visit cfg X b (visited ++ pre ++ [g])).coef k g - (visit cfg X b (visited ++ pre)).coef k g| ≤ θ) :
    Feasible cfg.positiveOnly X.cols.length (b + k) ((visit cfg X b (visited ++ order)).coef k) ∧
    ∀ c : Nat → K, Feasible cfg.positiveOnly X.cols.length (b + k) c →
      columnLoss X.get X.rows X.cols.length cfg.l2 cfg.l1 (b + k)
          ((visit cfg X b (visited ++ order)).coef k)
          + cfg.l2 / 2 * ∑ f ∈ Finset.range X.cols.length,
            (c f - (visit cfg X b (visited ++ order)).coef k f) ^ 2 ≤
        columnLoss X.get X.rows X.cols.length cfg.l2 cfg.l1 (b + k) c
          + M * (X.cols.length * θ + cfg.prec * dropped cfg X b (visited ++ order)) *
            ∑ f ∈ Finset.range X.cols.length, |c f - (visit cfg X b (visited ++ order)).coef k f| := by
  refine ⟨⟨visit_diag cfg X b _ k, fun hp f _ => visit_nonneg cfg hp X b _ k f⟩, ?_⟩
  intro c hc
  set sF := visit cfg X b (visited ++ order) with hsF
  set ε := M * (X.cols.length * θ + cfg.prec * (dropped cfg X b (visited ++ order) : K)) with hε
  have hM0 : 0 ≤ M := le_trans (colSq_nonneg X (b + k)) (colSq_bound hM _ hj)
  have hn : order.Nodup := (ho.nodup_iff).mpr List.nodup_range
  have hconv := loss_strongly_convex X cfg.l2 cfg.l1 (b + k) (sF.coef k) c
    (fun u => ∑ g ∈ Finset.range X.cols.length, X.get u g * sF.coef k g - X.get u (b + k)) (fun _ _ => rfl)
  have hall : ∀ f ∈ Finset.range X.cols.length,
      -(ε * |c f - sF.coef k f|) ≤
        (grad X (fun u => ∑ g ∈ Finset.range X.cols.length, X.get u g * sF.coef k g - X.get u (b + k)) f
          + cfg.l2 * sF.coef k f) * (c f - sF.coef k f) + cfg.l1 * (|c f| - |sF.coef k f|) := by
    intro f hf
    have hf' := Finset.mem_range.mp hf
    by_cases hne : b + k = f
    · have e1 : sF.coef k f = 0 := by rw [← hne]; exact visit_diag cfg X b _ k
      have e2 : c f = 0 := by rw [← hne]; exact hc.1
      rw [e1, e2]; simp
    · obtain ⟨pre, post, he⟩ := List.append_of_mem (ho.mem_iff.mpr (by simpa using hf'))
      have hvpre : ∀ g ∈ visited ++ pre, g < X.cols.length := by
        intro g hg
        rcases List.mem_append.mp hg with h | h
        · exact hv g h
        · have : g ∈ order := by rw [he]; simp [h]
          simpa using ho.mem_iff.mp this
      obtain ⟨D, hD, hS⟩ := drift_exists cfg X hX b (visited ++ pre) hvpre k hk hj
      set si := visit cfg X b (visited ++ pre) with hsi
      have hend : sF = (f :: post).foldl (featureStep cfg X b) si := by
        rw [hsF, he, hsi]; simp [visit]
      have hnp : (f :: post).Nodup := by
        rw [he] at hn; exact (List.nodup_append.mp hn).2.1
      have hmv : ∀ pre' g post', f :: post = pre' ++ g :: post' →
          |change cfg X b (pre'.foldl (featureStep cfg X b) si) g k| ≤ θ := by
        intro pre' g post' he'
        have := hmove (pre ++ pre') g post' (by rw [he, he', List.append_assoc])
        have e : visit cfg X b (visited ++ (pre ++ pre')) = pre'.foldl (featureStep cfg X b) si := by
          rw [hsi]; simp [visit]
        rw [visit_append, e] at this
        simpa [featureStep, change] using this
      have hmoves := coef_moves cfg X b k θ hθ (f :: post) hnp si hmv
      rw [← hend] at hmoves
      have hfin : sF.coef k f = newCoef cfg X b si f k := by
        have h := (coef_moves cfg X b k θ hθ post (List.nodup_cons.mp hnp).2 (featureStep cfg X b si f)
          (fun pre' g post' he' => by
            simpa using hmv (f :: pre') g post' (by rw [he']; rfl)) f).2 (List.nodup_cons.mp hnp).1
        rw [hend, List.foldl_cons, h]
        simp [featureStep]
      have hg := grad_drift X (b + k) f (sF.coef k) (fun g => sF.coef k g - si.coef k g + D g) (si.rem k)
        (fun u hu => by
          rw [hD u hu]
          congr 1
          exact Finset.sum_congr rfl (fun g _ => by ring))
      have hvi := newCoef_vi cfg X hX h2 h1 b si f k hne (c f) (fun hp => hc.2 hp f hf')
      rw [← hfin] at hvi
      -- what separates the two gradients
      have hsplit : ∑ g ∈ Finset.range X.cols.length, gram X f g * (sF.coef k g - si.coef k g + D g) =
          colSq X f * (sF.coef k f - si.coef k f) +
            ∑ g ∈ Finset.range X.cols.length,
              gram X f g * ((if g = f then 0 else sF.coef k g - si.coef k g) + D g) := by
        have hx : ∀ g ∈ Finset.range X.cols.length, gram X f g * (sF.coef k g - si.coef k g + D g) =
            (if g = f then colSq X f * (sF.coef k f - si.coef k f) else 0) +
              gram X f g * ((if g = f then 0 else sF.coef k g - si.coef k g) + D g) := by
          intro g _
          by_cases hgf : g = f
          · subst hgf
            have : gram X g g = colSq X g := rfl
            simp only [if_true, this]; ring
          · simp only [if_neg hgf]; ring
        rw [Finset.sum_congr rfl hx, Finset.sum_add_distrib,
          Finset.sum_ite_eq' (Finset.range X.cols.length) f
            (fun _ => colSq X f * (sF.coef k f - si.coef k f)), if_pos hf]
      set R := ∑ g ∈ Finset.range X.cols.length,
              gram X f g * ((if g = f then 0 else sF.coef k g - si.coef k g) + D g) with hR
      have hRle : |R| ≤ ε := by
        have hstep : ∀ g ∈ Finset.range X.cols.length,
            |gram X f g * ((if g = f then 0 else sF.coef k g - si.coef k g) + D g)| ≤ M * (θ + |D g|) := by
          intro g hg
          rw [abs_mul]
          apply mul_le_mul (gram_abs_le X M (colSq_bound hM) f g hf' (Finset.mem_range.mp hg)) _
            (abs_nonneg _) hM0
          refine le_trans (abs_add_le _ _) (add_le_add ?_ (le_refl _))
          split
          · simpa using hθ
          · exact (hmoves g).1
        refine le_trans (Finset.abs_sum_le_sum_abs _ _) (le_trans (Finset.sum_le_sum hstep) ?_)
        rw [← Finset.mul_sum, Finset.sum_add_distrib, Finset.sum_const, Finset.card_range, nsmul_eq_mul]
        apply mul_le_mul_of_nonneg_left _ hM0
        have hmono : (dropped cfg X b (visited ++ pre) : K) ≤ dropped cfg X b (visited ++ order) := by
          rw [he, ← List.append_assoc]
          exact_mod_cast dropped_mono cfg X b (visited ++ pre) (f :: post)
        have := mul_le_mul_of_nonneg_left hmono hp
        linarith
      rw [hg, hsplit]
      have hRc : -(ε * |c f - sF.coef k f|) ≤ R * (c f - sF.coef k f) := by
        have h3 : |R * (c f - sF.coef k f)| ≤ ε * |c f - sF.coef k f| := by
          rw [abs_mul]; exact mul_le_mul_of_nonneg_right hRle (abs_nonneg _)
        exact (abs_le.mp h3).1
      nlinarith
  have hsum := Finset.sum_le_sum hall
  rw [Finset.sum_neg_distrib, ← Finset.mul_sum] at hsum
  linarith

/-- C38 (near-optimality, any tolerance). If in the last sweep, in any order, no coefficient of
the lane moved by more than `θ`, then the column it leaves satisfies the constraints, and no column that
satisfies them has an objective smaller by more than
`M * (F * θ + prec * dropped visits)` per unit of distance. With nothing dropped and `θ = 0` this is
exact optimality. -/
theorem C38_near_optimal (cfg : Config K) (hp : 0 ≤ cfg.prec) (X : CSC K) (hX : Proper X)
    (h2 : 0 ≤ cfg.l2) (h1 : 0 ≤ cfg.l1) (M : K)
    (hM : ∀ f, f < X.cols.length → ∑ u ∈ Finset.range X.rows, X.get u f ^ 2 ≤ M)
    (b : Nat) (visited order : List Nat) (hv : ∀ f ∈ visited, f < X.cols.length)
    (ho : order.Perm (List.range X.cols.length))
    (k : Nat) (hk : k < cfg.blockSize) (hj : b + k < X.cols.length) (θ : K) (hθ : 0 ≤ θ)
    (hmove : ∀ pre g post, order = pre ++ g :: post →
      |(visit cfg X b (visited ++ pre ++ [g])).coef k g - (visit cfg X b (visited ++ pre)).coef k g| ≤ θ) :
    Feasible cfg.positiveOnly X.cols.length (b + k) ((visit cfg X b (visited ++ order)).coef k) ∧
    ∀ c : Nat → K, Feasible cfg.positiveOnly X.cols.length (b + k) c →
      columnLoss X.get X.rows X.cols.length cfg.l2 cfg.l1 (b + k)
          ((visit cfg X b (visited ++ order)).coef k) ≤
        columnLoss X.get X.rows X.cols.length cfg.l2 cfg.l1 (b + k) c
          + M * (X.cols.length * θ + cfg.prec * dropped cfg X b (visited ++ order)) *
            ∑ f ∈ Finset.range X.cols.length, |c f - (visit cfg X b (visited ++ order)).coef k f| := by
  obtain ⟨h3, h4⟩ := near_optimal_strong cfg hp X hX h2 h1 M hM b visited order hv ho k hk hj θ hθ hmove
  refine ⟨h3, fun c hc => ?_⟩
  have := h4 c hc
  have h5 : 0 ≤ cfg.l2 / 2 * ∑ f ∈ Finset.range X.cols.length,
      (c f - (visit cfg X b (visited ++ order)).coef k f) ^ 2 :=
    mul_nonneg (by linarith) (Finset.sum_nonneg (fun _ _ => sq_nonneg _))
  linarith

/-- C38 (what the stopping rule guarantees). If a sweep ends the iterations because the changes it
reports are below `tol`, the column it leaves is within
`M * (F * max tol prec + prec * dropped visits)` per unit of distance of every admissible column, for the
tolerance `prec` the library is built with, any data and visiting order. -/
theorem C38_stopped_near_optimal (cfg : Config K) (hp : 0 ≤ cfg.prec) (X : CSC K) (hX : Proper X)
    (h2 : 0 ≤ cfg.l2) (h1 : 0 ≤ cfg.l1) (M : K)
    (hM : ∀ f, f < X.cols.length → ∑ u ∈ Finset.range X.rows, X.get u f ^ 2 ≤ M)
    (b : Nat) (visited order : List Nat) (hv : ∀ f ∈ visited, f < X.cols.length)
    (ho : order.Perm (List.range X.cols.length))
    (hstop : (sweep cfg X b order (visit cfg X b visited)).2 < cfg.tol)
    (k : Nat) (hk : k < cfg.blockSize) (hj : b + k < X.cols.length)
    (c : Nat → K) (hc : Feasible cfg.positiveOnly X.cols.length (b + k) c) :
    columnLoss X.get X.rows X.cols.length cfg.l2 cfg.l1 (b + k)
        ((sweep cfg X b order (visit cfg X b visited)).1.coef k) ≤
      columnLoss X.get X.rows X.cols.length cfg.l2 cfg.l1 (b + k) c
        + M * (X.cols.length * max cfg.tol cfg.prec + cfg.prec * dropped cfg X b (visited ++ order)) *
          ∑ f ∈ Finset.range X.cols.length,
            |c f - (sweep cfg X b order (visit cfg X b visited)).1.coef k f| := by
  have e : (sweep cfg X b order (visit cfg X b visited)).1 = visit cfg X b (visited ++ order) := by
    rw [sweep_fst]; simp [visit]
  rw [e]
  refine (C38_near_optimal cfg hp X hX h2 h1 M hM b visited order hv ho k hk hj
    (max cfg.tol cfg.prec) (le_trans hp (le_max_right _ _)) ?_).2 c hc
  intro pre g post he
  have := sweep_changes cfg X b order (visit cfg X b visited) 0 pre g post he k hk
  have hx : pre.foldl (featureStep cfg X b) (visit cfg X b visited) = visit cfg X b (visited ++ pre) := by
    simp [visit]
  rw [hx] at this
  rw [visit_append]
  have hle : |change cfg X b (visit cfg X b (visited ++ pre)) g k| ≤ max cfg.tol cfg.prec :=
    le_trans this (max_le_max (le_of_lt hstop) (le_refl _))
  simpa [featureStep, change] using hle

/-! ### The hypotheses are met, and the bound is attained -/

/-- the tolerance of the library, one lane, no regularisation -/
def driftCfg : Config ℚ where
  positiveOnly := true
  blockSize := 1
  nIter := 1
  l2 := 0
  l1 := 0
  tol := 1 / 10000
  prec := 1 / 100000
  topK := -1

/-- One user, item 0 with value 1 and two items with value 100000.  The first update explains item 0
exactly and is dropped; the second explains it again, and the loss grows from 0 to 1/2, which is
exactly what `C37_bounded_increase` allows. -/
example :
    Proper (lossy 1 (1 / 100000 : ℚ)) ∧
    (∀ f, f < (lossy 1 (1 / 100000 : ℚ)).cols.length →
      ∑ u ∈ Finset.range (lossy 1 (1 / 100000 : ℚ)).rows, (lossy 1 (1 / 100000 : ℚ)).get u f ^ 2
        ≤ 100000 ^ 2) ∧
    dropped driftCfg (lossy 1 (1 / 100000 : ℚ)) 0 [1] = 1 ∧
    columnLoss (lossy 1 (1 / 100000 : ℚ)).get 1 4 0 0 0
      ((visit driftCfg (lossy 1 (1 / 100000 : ℚ)) 0 [1]).coef 0) = 0 ∧
    columnLoss (lossy 1 (1 / 100000 : ℚ)).get 1 4 0 0 0
      ((visit driftCfg (lossy 1 (1 / 100000 : ℚ)) 0 [1, 2]).coef 0) = 1 / 2 ∧
    (driftCfg.prec * (1 : ℕ)) ^ 2 * 100000 ^ 2 / 2 = 1 / 2 := by
  refine ⟨⟨?_, ?_⟩, ?_, ?_, ?_, ?_, ?_⟩
  · decide +kernel
  · decide +kernel
  · decide +kernel
  · have hd : Drops driftCfg (lossy 1 (1 / 100000 : ℚ)) 0 (visit driftCfg (lossy 1 (1 / 100000 : ℚ)) 0 []) 1 := by
      unfold Drops; decide +kernel
    have := dropped_append driftCfg (lossy 1 (1 / 100000 : ℚ)) 0 [] 1
    rw [if_pos hd] at this
    simpa [dropped] using this
  · decide +kernel
  · decide +kernel
  · simp only [driftCfg]; norm_num

/-- a run the stopping rule ends: the first sweep explains item 0 by item 1, the second changes
nothing -/
example : (visit driftCfg (lossy 1 (1 : ℚ)) 0 [0, 1, 2, 3]).coef 0 1 = 1 ∧
    ¬ (sweep driftCfg (lossy 1 (1 : ℚ)) 0 [0, 1, 2, 3] (visit driftCfg (lossy 1 (1 : ℚ)) 0 [])).2
      < driftCfg.tol ∧
    (sweep driftCfg (lossy 1 (1 : ℚ)) 0 [3, 2, 1, 0]
      (visit driftCfg (lossy 1 (1 : ℚ)) 0 [0, 1, 2, 3])).2 < driftCfg.tol := by
  decide +kernel

end Irspack.Props
