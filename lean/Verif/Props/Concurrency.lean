import Verif.Proofs.WorkQueue
import Verif.Model.Sparse
import Mathlib.Data.Matrix.Mul

/-!
# C01, C02: parallel regions

`WorkQueue.run n c body (init l₀ m₀) sched` is the state reached by a parallel loop over `n` rows
with block size `c` after the interleaving `sched`.
-/

namespace Irspack.Props
open WorkQueue

variable {T : Nat} {L M : Type}

/-- C01 (exactly once). When all workers have returned, the processed rows are a permutation of
`0, …, n-1`, for every interleaving, thread count and block size. -/
theorem C01_each_row_exactly_once (n c : Nat) (hT : 0 < T) (body : Nat → L → M → L × M)
    (l₀ : L) (m₀ : M) (sched : List (Fin T))
    (hfin : Finished (run n c body (init l₀ m₀) sched)) :
    ((run n c body (init l₀ m₀ : State T L M) sched).hist.map Prod.snd).Perm (List.range n) :=
  rows_perm (inv_run body sched (inv_init n c l₀ m₀)) (fun t => Or.inl (hfin t))
    ⟨⟨0, hT⟩, hfin _⟩

/-- C01 (safety at every moment). Whatever prefix of whatever interleaving has run, no row has been
processed twice and no row outside the matrix has been touched. -/
theorem C01_never_twice_never_outside (n c : Nat) (body : Nat → L → M → L × M)
    (l₀ : L) (m₀ : M) (sched : List (Fin T)) :
    ((run n c body (init l₀ m₀ : State T L M) sched).hist.map Prod.snd).Nodup ∧
    ∀ r ∈ (run n c body (init l₀ m₀ : State T L M) sched).hist.map Prod.snd, r < n :=
  rows_nodup (inv_run body sched (inv_init n c l₀ m₀))

/-- C01 (bounded work). In every interleaving, at most `3 n + T` steps are taken by workers that
have not returned. -/
theorem C01_bounded_steps (n c : Nat) (hc : 0 < c) (body : Nat → L → M → L × M)
    (l₀ : L) (m₀ : M) (sched : List (Fin T)) :
    effective n c body (init l₀ m₀ : State T L M) sched ≤ 3 * n + T := by
  have := effective_le hc body sched (init l₀ m₀ : State T L M) (n := n)
  rwa [measure_init] at this

/-- C01 (termination). If every worker keeps being scheduled, all workers return. -/
theorem C01_terminates (n c : Nat) (hc : 0 < c) (body : Nat → L → M → L × M)
    (l₀ : L) (m₀ : M) (σ : Nat → Fin T) (hfair : ∀ t k, ∃ j, k ≤ j ∧ σ j = t) :
    ∃ k, Finished (run n c body (init l₀ m₀ : State T L M) ((List.range k).map σ)) := by
  have h : ∀ t, ∃ k, (runStream n c body (init l₀ m₀ : State T L M) σ k).pc t = .stopped :=
    fun t => worker_stops hc body _ σ t (hfair t)
  choose k hk using h
  refine ⟨∑ t, k t, fun t => ?_⟩
  rw [← runStream_eq]
  have hle : k t ≤ ∑ t, k t := Finset.single_le_sum (fun _ _ => Nat.zero_le _) (Finset.mem_univ t)
  have := stopped_stream body (init l₀ m₀ : State T L M) σ t (k t) (∑ t, k t - k t) (hk t)
    (n := n) (c := c)
  rwa [show k t + (∑ t, k t - k t) = ∑ t, k t by omega] at this

/-- C01 (schedule independence, shared result). If writing different rows commutes, the shared
result after all workers returned is that of the plain sequential loop `for r in 0..n`. -/
theorem C01_shared_result_is_sequential (n c : Nat) (hT : 0 < T) (wr : Nat → M → M)
    (hcomm : ∀ r r' m, r ≠ r' → wr r (wr r' m) = wr r' (wr r m))
    (l₀ : L) (m₀ : M) (sched : List (Fin T))
    (hfin : Finished (run n c (fun r l m => (l, wr r m)) (init l₀ m₀) sched)) :
    (run n c (fun r l m => (l, wr r m)) (init l₀ m₀ : State T L M) sched).mem =
      (List.range n).foldl (fun m r => wr r m) m₀ := by
  have hp := C01_each_row_exactly_once n c hT _ l₀ m₀ sched hfin
  have hm := mem_run (T := T) (L := L) (n := n) (c := c) wr sched (init l₀ m₀) m₀ rfl
  rw [hm]
  refine hp.foldl_eq' ?_ m₀
  intro x _ y _ z
  by_cases hxy : x = y
  · subst hxy; rfl
  · exact hcomm y x z (fun e => hxy e.symm)

/-- C01 (schedule independence, local accumulators). If each row adds a contribution `g r` to the
local accumulator of the worker that processes it, the merged accumulators hold the sum over all
rows. -/
theorem C01_merged_accumulators_are_the_sum {A : Type} [AddCommMonoid A] (n c : Nat) (hT : 0 < T)
    (g : Nat → A) (m₀ : M) (sched : List (Fin T))
    (hfin : Finished (run n c (fun r l m => (l + g r, m)) (init (0 : A) m₀) sched)) :
    ∑ t, (run n c (fun r l m => (l + g r, m)) (init (0 : A) m₀ : State T A M) sched).loc t =
      ∑ r ∈ Finset.range n, g r := by
  have hp := C01_each_row_exactly_once n c hT _ (0 : A) m₀ sched hfin
  have hl := loc_run (T := T) (M := M) (n := n) (c := c) (fun r (l : A) => l + g r) sched
    (init 0 m₀) 0 (by intro t; rfl)
  have hf : ∀ (l : List Nat), l.foldl (fun (a : A) r => a + g r) 0 = ((l : Multiset Nat).map g).sum := by
    intro l
    have : ∀ (l : List Nat) (a : A), l.foldl (fun (a : A) r => a + g r) a = a + (l.map g).sum := by
      intro l
      induction l with
      | nil => simp
      | cons x xs ih => intro a; simp [ih, add_assoc]
    simp [this]
  simp only [hl, hf]
  rw [← Multiset.sum_sum]
  have hmap := map_sum (Multiset.mapAddMonoidHom g)
    (fun t => ((rowsOf (run n c (fun r l m => (l + g r, m)) (init (0 : A) m₀ : State T A M) sched) t
      : List Nat) : Multiset Nat)) Finset.univ
  simp only [Multiset.coe_mapAddMonoidHom] at hmap
  rw [← hmap, rowsOf_flatten, Multiset.coe_eq_coe.mpr hp]
  rfl

/-- C01 for regions started with `std::async` without a launch policy (`cache_X_map`
evaluator.cpp:219, `retrieve_recommend_from_score` util.hpp:444), where the runtime may decide never
to run some workers: as long as one worker runs to the end and no started worker is abandoned,
every row is processed exactly once. -/
theorem C01_each_row_once_if_one_worker_runs (n c : Nat) (body : Nat → L → M → L × M)
    (l₀ : L) (m₀ : M) (sched : List (Fin T))
    (hq : ∀ t, (run n c body (init l₀ m₀ : State T L M) sched).pc t = .stopped ∨ t ∉ sched)
    (h1 : ∃ t, (run n c body (init l₀ m₀ : State T L M) sched).pc t = .stopped) :
    ((run n c body (init l₀ m₀ : State T L M) sched).hist.map Prod.snd).Perm (List.range n) := by
  refine rows_perm (inv_run body sched (inv_init n c l₀ m₀)) (fun t => ?_) h1
  rcases hq t with h | h
  · exact Or.inl h
  · right
    have : ∀ (sched : List (Fin T)) (s : State T L M), t ∉ sched →
        (run n c body s sched).pc t = s.pc t := by
      intro sched
      induction sched with
      | nil => intro s _; rfl
      | cons x xs ih =>
        intro s hx
        have hx1 : t ≠ x := fun e => hx (by simp [e])
        have hx2 : t ∉ xs := fun e => hx (by simp [e])
        show (run n c body (step n c body s x) xs).pc t = _
        rw [ih _ hx2]
        unfold step
        split
        · simp [hx1]
        · split <;> simp [hx1]
        · rfl
    rw [this sched _ h]; rfl

/-- Non-vacuity: 2 workers, 5 rows, block size 2, a schedule that finishes. -/
example : ∃ sched : List (Fin 2),
    Finished (run 5 2 (fun r l (m : List Nat) => (l, m ++ [r])) (init () []) sched) ∧
    (run 5 2 (fun r l (m : List Nat) => (l, m ++ [r])) (init () [] : State 2 Unit _) sched).mem
      = [0, 2, 1, 3, 4] := by
  refine ⟨[0, 1, 0, 1, 0, 1, 0, 1, 0, 0, 0, 0, 1], ?_, ?_⟩
  · intro t; revert t; decide
  · decide

/-- Non-vacuity of `C01_terminates`: round robin is fair. -/
example : ∀ (t : Fin 3) k, ∃ j, k ≤ j ∧ (⟨j % 3, Nat.mod_lt _ (by decide)⟩ : Fin 3) = t := by
  intro t k
  refine ⟨3 * k + t, by omega, ?_⟩
  ext; simp

/-! ### C02 -/

section product
variable {R : Type} [CommSemiring R]

private theorem spvec_sum (v : SpVec R) (N : Nat) (hv : ∀ e ∈ v, e.1 < N) (f : Nat → R) :
    (v.map (fun e => e.2 * f e.1)).sum = ∑ k ∈ Finset.range N, SpVec.get v k * f k := by
  induction v with
  | nil => simp [SpVec.get]
  | cons e es ih =>
    have hget : ∀ k, SpVec.get (e :: es) k = (if k = e.1 then e.2 else 0) + SpVec.get es k := by
      intro k
      unfold SpVec.get
      by_cases h : e.1 = k
      · subst h; simp
      · have h' : ¬ k = e.1 := fun x => h x.symm
        simp [h, h']
    simp only [hget, add_mul, Finset.sum_add_distrib, List.map_cons, List.sum_cons,
      ih (fun e' he' => hv e' (List.mem_cons_of_mem _ he')), ite_mul, zero_mul]
    rw [Finset.sum_ite_eq' (Finset.range N) e.1 (fun k => e.2 * f k)]
    simp [hv e (List.mem_cons_self)]

/-- C02. `sparse_mm_threaded(A, B, n_threads)` with `n_threads ≥ 1`: whenever all workers have
returned, whatever the interleaving, the returned dense array is the matrix product `A * B`. -/
theorem C02_threaded_product_is_matrix_product (A : CSR R) (B : CSC R) (hA : A.WF)
    (nThreads : Nat) (sched : List (Fin nThreads)) (s : State nThreads Unit (Nat → Nat → R))
    (hs : parallelSparseProduct A B nThreads sched = .ok s) (hfin : Finished s) :
    (Matrix.of fun (i : Fin A.nrows) (j : Fin B.cols.length) => s.mem i j) =
      (Matrix.of fun (i : Fin A.nrows) (k : Fin A.cols) => A.get i k) *
      (Matrix.of fun (k : Fin A.cols) (j : Fin B.cols.length) => B.get k j) := by
  unfold parallelSparseProduct at hs
  split at hs
  · cases hs
  · rename_i hT
    injection hs with hs
    subst hs
    have hmem := C01_shared_result_is_sequential (L := Unit) A.nrows 16 (Nat.pos_of_ne_zero hT)
      (productWrite A B) (by
        intro r r' m hne
        funext i j
        unfold productWrite
        by_cases h1 : i = r
        · subst h1; simp [hne]
        · simp [h1]) () (fun _ _ => 0) sched hfin
    ext i j
    simp only [Matrix.of_apply, Matrix.mul_apply]
    rw [hmem]
    have key : ∀ n i j, (List.range n).foldl (fun m r => productWrite A B r m) (fun _ _ => (0 : R)) i j
        = if i < n then mulRow (A.row i) B j else 0 := by
      intro n
      induction n with
      | zero => intro i j; simp
      | succ n ih =>
        intro i j
        rw [List.range_succ, List.foldl_append]
        simp only [List.foldl_cons, List.foldl_nil]
        unfold productWrite
        by_cases h : i = n
        · subst h
          have := ih i j
          unfold productWrite at this
          simp [this]
        · have h2 : (i < n + 1) ↔ i < n := by omega
          have := ih i j
          unfold productWrite at this
          simp only [h, if_false, h2, this]
    rw [key]
    simp only [i.isLt, if_true]
    unfold mulRow
    have hrow : ∀ e ∈ A.row i, e.1 < A.cols := by
      intro e he
      unfold CSR.row at he
      have hi : (i : Nat) < A.rows.length := i.isLt
      rw [List.getD_eq_getElem?_getD, List.getElem?_eq_getElem hi, Option.getD_some] at he
      exact hA _ (List.getElem_mem hi) e he
    rw [spvec_sum (A.row i) A.cols hrow (fun k => B.get k j), ← Fin.sum_univ_eq_sum_range
      (fun k => SpVec.get (A.row i) k * B.get k j)]
    rfl

/-- C02: `n_threads = 0` is rejected. -/
theorem C02_zero_threads_rejected (A : CSR R) (B : CSC R) (sched : List (Fin 0)) :
    parallelSparseProduct A B 0 sched = .error .invalidArgument := rfl

/-- C02: with `n_threads ≥ 1` the product is accepted, and if every worker keeps being scheduled all of
them return. -/
theorem C02_threaded_product_returns (A : CSR R) (B : CSC R) (nThreads : Nat) (hT : 0 < nThreads)
    (σ : Nat → Fin nThreads) (hfair : ∀ t k, ∃ j, k ≤ j ∧ σ j = t) :
    ∃ k s, parallelSparseProduct A B nThreads ((List.range k).map σ) = .ok s ∧ Finished s := by
  obtain ⟨k, hk⟩ := C01_terminates A.nrows 16 (by norm_num)
    (fun r (l : Unit) m => (l, productWrite A B r m)) () (fun _ _ => 0) σ hfair
  refine ⟨k, _, ?_, hk⟩
  unfold parallelSparseProduct
  rw [if_neg hT.ne']

end product

/-- Non-vacuity of C02: a 3×2 by 2×2 product with 2 workers, finished. -/
example : ∃ (sched : List (Fin 2)) (s : State 2 Unit (Nat → Nat → Int)),
    parallelSparseProduct (R := Int) ⟨2, [[(0, 1)], [(1, 2)], [(0, 3), (1, 4)]]⟩
      ⟨2, [[(0, 5), (1, 6)], [(1, 7)]]⟩ 2 sched = .ok s ∧ Finished s ∧ s.mem 2 0 = 39 := by
  refine ⟨[1, 1, 0, 1, 1, 1, 1], _, rfl, ?_, ?_⟩
  · intro t; revert t; decide
  · decide

end Irspack.Props
