import Verif.Proofs.IalsTrainer
import Verif.Props.Concurrency

/-!
# C41 (the reported iALS loss) and C44 (batched Gram updates)
-/

namespace Irspack.Ials

open Spec.Ials Matrix

variable {K T : Nat}

/-- With at least one thread there are complete interleavings of all regions: round robin. -/
theorem exists_complete_oracle (T : Nat) (hT : 0 < T) : ∃ ω : Oracle T, ω.Complete := by
  have h : ∀ n c, 0 < c → ∃ k, WorkQueue.Finished (WorkQueue.run n c (fun _ l m => (l, m))
      (WorkQueue.init () () : WorkQueue.State T Unit Unit)
      ((List.range k).map (fun j => (⟨j % T, Nat.mod_lt j hT⟩ : Fin T)))) := by
    intro n c hc
    apply Props.C01_terminates n c hc
    intro t k
    refine ⟨t.val + T * k, ?_, ?_⟩
    · have := Nat.le_mul_of_pos_left k hT
      omega
    · apply Fin.ext
      simp [Nat.add_mul_mod_self_left, Nat.mod_eq_of_lt t.isLt]
  classical
  refine ⟨fun _ n c => if hc : 0 < c then
    (List.range (h n c hc).choose).map (fun j => (⟨j % T, Nat.mod_lt j hT⟩ : Fin T)) else [], ?_⟩
  intro lab n c hc
  simp only [dif_pos hc]
  exact (h n c hc).choose_spec

/-- a small interaction matrix: user 0 has items 0 and 1 with confidences 2 and 1, user 1 has nothing -/
def exampleX : CSR ℝ := ⟨2, [[(0, 2), (1, 1)], []]⟩

/-- hyper-parameters used in the examples -/
noncomputable def exampleCfg : Config where
  K := 1
  alpha0 := 1 / 2
  reg := 1
  nu := 1
  initStdev := 1 / 10
  randomSeed := 42
  lossType := .ialspp
  lambdaUser := 1
  lambdaItem := 1
  warmup := 0

theorem exampleValid : Valid exampleCfg exampleX := by
  refine ⟨⟨?_, ?_⟩, ?_, ?_, ?_⟩
  · simp only [exampleX, List.mem_cons, List.not_mem_nil, or_false]
    rintro row (rfl | rfl) e he
    · simp only [List.mem_cons, List.not_mem_nil, or_false] at he
      rcases he with rfl | rfl <;> norm_num
    · simp at he
  · simp [exampleX]
  · simp only [exampleX, List.mem_cons, List.not_mem_nil, or_false]
    rintro row (rfl | rfl) e he
    · simp only [List.mem_cons, List.not_mem_nil, or_false] at he
      rcases he with rfl | rfl <;> norm_num
    · simp at he
  · norm_num [exampleCfg]
  · norm_num [exampleCfg]

/-! ## C41 -/

/-- C41.  For every interaction matrix, all embeddings, all hyper-parameters, both loss types, every
number of threads and every interleaving, `compute_loss` returns the documented loss. -/
theorem C41_loss_is_documented {ω : Oracle T} (hω : ω.Complete) (hT : 0 < T) (cfg : Config)
    (X : CSR ℝ) (hX : Spec.Sim.Proper X) (A B : Nat → Fin K → ℝ) :
    (Trainer.create cfg X A B).computeLoss ω = .ok (loss (paramsOf cfg) (Data.ofCSR X) A B) := by
  rw [computeLoss_eq hω hT _ (create_good cfg X A B) hX]
  unfold Trainer.specLoss featureLoss Trainer.create
  simp only [Weight.none, Features.none]
  rw [loss_eq_priorLoss]
  have hz : ∀ (F : Nat → Nat → ℝ) (W : Nat → Vec K), predicted 0 F W = fun _ => 0 :=
    fun F W => funext (predicted_zero 0 F W (Or.inl rfl))
  rw [hz]
  simp [weightNormSq]

/-- C41 (at any time, with or without features).  Whatever has been done to a trainer, `compute_loss`
returns the documented loss of its current embeddings and feature weights. -/
theorem C41_loss_of_reached {ω : Oracle T} (hω : ω.Complete) (hT : 0 < T) (cfg : Config)
    (X : CSR ℝ) (hv : Valid cfg X) (tr : Trainer K) (hr : tr.Reached cfg X) :
    tr.computeLoss ω = .ok (featureLoss (paramsOf cfg) (Data.ofCSR X) cfg.lambdaUser cfg.lambdaItem
      tr.userF.cols tr.userF.val tr.userW.val tr.itemF.cols tr.itemF.val tr.itemW.val
      tr.user.row tr.item.row) := by
  obtain ⟨hg, hc, hx⟩ := reached_good hv hr
  rw [computeLoss_eq hω hT tr hg (hx ▸ hv.proper), Trainer.specLoss, hc, hx]

/-- C41 (what "observed" means).  If the matrix stores no zeros, the observed pairs of the loss are the
non-zero entries, as documented. -/
theorem C41_observed_iff_nonzero (X : CSR ℝ) (hX : Spec.Sim.Proper X) (hz : Spec.Sim.NoStoredZero X)
    (u i : Nat) : (Data.ofCSR X).S u i ↔ X.get u i ≠ 0 := by
  constructor
  · intro h
    obtain ⟨e, he, rfl⟩ := List.mem_map.mp h
    have hu : u < X.nrows := by
      by_contra hu
      rw [Sim.row_nil X hu] at he
      simp at he
    have hval : SpVec.get (X.row u) e.1 = e.2 := by
      have hnd := Sim.row_nodup hX u
      clear h
      generalize X.row u = row at he hnd
      induction row with
      | nil => simp at he
      | cons f row ih =>
        rw [List.map_cons, List.nodup_cons] at hnd
        rw [get_cons_real]
        rcases List.mem_cons.mp he with rfl | he
        · rw [if_pos rfl, Sim.get_eq_zero _ _ hnd.1, add_zero]
        · rw [if_neg, zero_add, ih he hnd.2]
          intro hfe
          exact hnd.1 (hfe ▸ List.mem_map_of_mem he)
    have : X.get u e.1 = e.2 := hval
    rw [this]
    exact hz _ (Sim.row_mem X hu) e he
  · intro h
    by_contra hn
    exact h (Sim.get_eq_zero _ _ hn)

/-- C41 (the answer does not depend on threads).  Two calls with any numbers of threads and any
interleavings report the same loss. -/
theorem C41_loss_deterministic {T' : Nat} {ω : Oracle T} {ω' : Oracle T'} (hω : ω.Complete)
    (hω' : ω'.Complete) (hT : 0 < T) (hT' : 0 < T') (cfg : Config) (X : CSR ℝ) (hv : Valid cfg X)
    (tr : Trainer K) (hr : tr.Reached cfg X) : tr.computeLoss ω = tr.computeLoss ω' := by
  rw [C41_loss_of_reached hω hT cfg X hv tr hr, C41_loss_of_reached hω' hT' cfg X hv tr hr]

/-- C41 (error branch).  With `n_threads = 0` the call is rejected. -/
theorem C41_zero_threads (ω : Oracle 0) (tr : Trainer K) :
    tr.computeLoss ω = .error .invalidArgument := rfl

/-- Non-vacuity: the matrix of the example is proper and there are interleavings; its loss at
`u = (1), (1)`, `v = (1), (2)` is 10. -/
example : Spec.Sim.Proper exampleX ∧ (∃ ω : Oracle 3, ω.Complete) ∧
    loss (K := 1) (paramsOf exampleCfg) (Data.ofCSR exampleX) (fun _ _ => 1) (fun i _ => i + 1) = 10 := by
  refine ⟨exampleValid.proper, exists_complete_oracle 3 (by norm_num), ?_⟩
  classical
  have h1 : ∀ u, userWeight (paramsOf exampleCfg) (Data.ofCSR exampleX) u =
      computeReg exampleCfg (exampleX.row u).length 2 := fun u => weight_ofCSR _ _ exampleValid.proper u
  have h2 : ∀ u, itemWeight (paramsOf exampleCfg) (Data.ofCSR exampleX) u =
      computeReg exampleCfg ((transpose exampleX).row u).length 2 :=
    fun u => itemWeight_ofCSR _ _ exampleValid.proper u
  unfold loss
  rw [dataTerm_eq]
  have h3 : (Data.ofCSR exampleX).U = 2 := rfl
  have h4 : (Data.ofCSR exampleX).I = 2 := rfl
  simp only [h1, h2, h3, h4]
  have h5 : ∀ u (s : Nat → ℝ), ∑ i ∈ Finset.range 2, pairTerm (paramsOf exampleCfg) (Data.ofCSR exampleX) u i (s i) =
      _ := fun u s => entry_sum exampleCfg exampleX exampleValid.proper u s
  simp only [h5, Finset.sum_range_succ, Finset.sum_range_zero, zero_add]
  have r0 : exampleX.row 0 = [(0, 2), (1, 1)] := rfl
  have r1 : exampleX.row 1 = [] := rfl
  have t0 : ((transpose exampleX).row 0).length = 1 := by
    simp [transpose, Sim.transpose, exampleX, CSR.row, CSR.nrows, List.range_succ]
  have t1 : ((transpose exampleX).row 1).length = 1 := by
    simp [transpose, Sim.transpose, exampleX, CSR.row, CSR.nrows, List.range_succ]
  rw [r0, r1, t0, t1]
  simp [computeReg, exampleCfg, normSq, score, bias, exampleX]
  norm_num

/-! ## C44 -/

/-- C44.  Buffered rank updates: for every buffer size, every list of interactions (vector, confidence)
and every start matrix, the upper triangle receives exactly `Σ c v vᵀ`, the rest is untouched, and
nothing is left in the buffer. -/
theorem C44_batched_gram {ι : Type} [LinearOrder ι] (nMax : Nat) (l : List ((ι → ℝ) × ℝ))
    (hc : ∀ e ∈ l, 0 ≤ e.2) (P : Matrix ι ι ℝ) :
    let b := (l.foldl (fun b e => b.addRow nMax e.1 e.2) (⟨[], P⟩ : Batch ι)).consume
    b.buf = [] ∧ ∀ i j, b.target i j =
      if i ≤ j then P i j + (l.map (fun e => e.2 * (e.1 i * e.1 j))).sum else P i j :=
  ⟨consume_buf _, fun i j => batch_result nMax l hc P i j⟩

theorem addRow_length {ι : Type} [LinearOrder ι] (nMax : Nat) (h : 0 < nMax) (b : Batch ι)
    (hb : b.buf.length < nMax) (v : ι → ℝ) (c : ℝ) :
    (b.addRow nMax v c).buf.length < nMax ∧ b.buf.length + 1 ≤ nMax := by
  refine ⟨?_, hb⟩
  unfold Batch.addRow
  simp only
  split
  · rw [consume_buf]; exact h
  · rename_i hn; exact not_le.mp hn

/-- C44 (the buffer never overflows).  After any number of interactions the buffer of `nMax` rows has a
free slot, so the next write stays inside it. -/
theorem C44_buffer_in_bounds {ι : Type} [LinearOrder ι] (nMax : Nat) (h : 0 < nMax)
    (l : List ((ι → ℝ) × ℝ)) (P : Matrix ι ι ℝ) :
    (l.foldl (fun b e => b.addRow nMax e.1 e.2) (⟨[], P⟩ : Batch ι)).buf.length < nMax := by
  have : ∀ (l : List ((ι → ℝ) × ℝ)) (b : Batch ι), b.buf.length < nMax →
      (l.foldl (fun b e => b.addRow nMax e.1 e.2) b).buf.length < nMax := by
    intro l
    induction l with
    | nil => intro b hb; exact hb
    | cons e l ih => intro b hb; exact ih _ (addRow_length nMax h b hb e.1 e.2).1
  exact this l _ h

/-- C44 (the system of a user).  What the Cholesky solver factorises for a user with the stored entries
`row`, when the shared matrix is `alpha0 VᵀV`: `alpha0 VᵀV + Σ c v vᵀ + λ I`, for every number of
entries. -/
theorem C44_user_system (cfg : Config) (V : Factor K) (row : SpVec ℝ) (h : ∀ e ∈ row, 0 ≤ e.2)
    (i j : Fin K) :
    upperSymm (addDiagonal ((row.map (fun e : Nat × ℝ => (V.row e.1, e.2))).foldl
      (fun (b : Batch (Fin K)) e => b.addRow batchMax e.1 e.2) ⟨[], gramP cfg V⟩).consume.target
      (computeReg cfg row.length V.n)) i j =
      cfg.alpha0 * ∑ r ∈ Finset.range V.n, V.row r i * V.row r j
      + (row.map (fun e => e.2 * (V.row e.1 i * V.row e.1 j))).sum
      + if i = j then cfg.reg * (cfg.alpha0 * V.n + row.length) ^ cfg.nu else 0 := by
  have := upperSymm_addDiagonal batchMax (ents V row) (ents_nonneg h) (gramP cfg V) (gramP_symm cfg V)
    (computeReg cfg row.length V.n)
  rw [show row.map (fun e : Nat × ℝ => (V.row e.1, e.2)) = ents V row from rfl, this]
  unfold sysMat ents
  rw [List.map_map]
  rfl

/-- C44 (the shared matrix).  For every number of threads and every interleaving the shared matrix is
`alpha0 · VᵀV`, each row counted once. -/
theorem C44_shared_gram {ω : Oracle T} (hω : ω.Complete) (hT : 0 < T) (cfg : Config) (V : Factor K) :
    ∃ P, prepareP ω cfg V = .ok P ∧
      ∀ i j, P i j = cfg.alpha0 * ∑ r ∈ Finset.range V.n, V.row r i * V.row r j :=
  ⟨gramP cfg V, prepareP_eq hω hT cfg V, fun _ _ => rfl⟩

/-- Non-vacuity: 130 interactions with confidence 4 and the vector `(1)`: the sum is `520`, after two
flushes and a remainder of two rows. -/
example :
    let l : List ((Fin 1 → ℝ) × ℝ) := List.replicate 130 (fun _ => 1, 4)
    (∀ e ∈ l, 0 ≤ e.2) ∧
    (l.foldl (fun b e => b.addRow batchMax e.1 e.2) (⟨[], 0⟩ : Batch (Fin 1))).consume.target 0 0 = 520 := by
  intro l
  have h : ∀ e ∈ l, 0 ≤ e.2 := by
    intro e he
    have := List.eq_of_mem_replicate he
    rw [this]; norm_num
  refine ⟨h, ?_⟩
  have := (C44_batched_gram batchMax l h (0 : Matrix (Fin 1) (Fin 1) ℝ)).2 0 0
  rw [this]
  simp [l]
  norm_num

end Irspack.Ials
