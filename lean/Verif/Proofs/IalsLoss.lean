import Verif.Proofs.IalsGram
import Verif.Proofs.Region
import Verif.Proofs.Walk
import Verif.Spec.IalsModel

/-! # The iALS loss, row by row -/

namespace Irspack.Ials

open Matrix Spec.Ials

variable {K : Nat}

theorem get_cons_real (e : Nat × ℝ) (v : SpVec ℝ) (j : Nat) :
    SpVec.get (e :: v) j = (if e.1 = j then e.2 else 0) + SpVec.get v j := by
  unfold SpVec.get
  by_cases h : e.1 = j <;> simp [h]

open Classical in
/-- a sum over the stored entries of a row is a sum over the columns -/
theorem sum_entries {M : Type} [AddCommMonoid M] (row : SpVec ℝ) (N : Nat)
    (hn : (row.map Prod.fst).Nodup) (hb : ∀ e ∈ row, e.1 < N) (g : Nat → ℝ → M) :
    (row.map (fun e => g e.1 e.2)).sum =
      ∑ i ∈ Finset.range N, if i ∈ row.map Prod.fst then g i (SpVec.get row i) else 0 := by
  induction row with
  | nil => simp
  | cons e row ih =>
    simp only [List.map_cons, List.nodup_cons] at hn
    have ih := ih hn.2 (fun e' he' => hb e' (List.mem_cons_of_mem _ he'))
    rw [List.map_cons, List.sum_cons, ih]
    have h1 : g e.1 e.2 = ∑ i ∈ Finset.range N, if i = e.1 then g e.1 e.2 else 0 := by
      rw [Finset.sum_ite_eq' (Finset.range N) e.1 (fun _ => g e.1 e.2), if_pos]
      exact Finset.mem_range.mpr (hb e List.mem_cons_self)
    rw [h1, ← Finset.sum_add_distrib]
    refine Finset.sum_congr rfl (fun i _ => ?_)
    by_cases hi : i = e.1
    · subst hi
      have h0 : SpVec.get row e.1 = 0 := Sim.get_eq_zero _ _ hn.1
      rw [if_pos rfl, if_neg hn.1, add_zero, if_pos (by simp), get_cons_real, if_pos rfl, h0, add_zero]
    · have hne : ¬ e.1 = i := fun h => hi h.symm
      rw [get_cons_real, if_neg hi, zero_add]
      simp only [hne, if_false, zero_add]
      by_cases hm : i ∈ row.map Prod.fst
      · rw [if_pos hm, if_pos (by rw [List.map_cons]; exact List.mem_cons_of_mem _ hm)]
      · rw [if_neg hm, if_neg (by rw [List.map_cons, List.mem_cons]; tauto)]

open Classical in
theorem length_entries (row : SpVec ℝ) (N : Nat) (hn : (row.map Prod.fst).Nodup)
    (hb : ∀ e ∈ row, e.1 < N) :
    row.length = ((Finset.range N).filter (fun i => i ∈ row.map Prod.fst)).card := by
  have := sum_entries row N hn hb (fun _ _ => (1 : Nat))
  rw [Finset.card_filter, ← this]
  simp

theorem score_eq (u v : Vec K) : score u v = u ⬝ᵥ v := rfl

theorem normSq_eq (v : Vec K) : normSq v = v ⬝ᵥ v := by
  unfold normSq dotProduct
  exact Finset.sum_congr rfl (fun k _ => sq (v k))

open Classical in
/-- the terms of the loss that belong to one pair -/
noncomputable def pairTerm (p : Params) (D : Data) (u i : Nat) (s : ℝ) : ℝ :=
  (if D.S u i then D.X u i * s ^ 2 - 2 * (D.X u i + (if p.original = true then p.alpha0 else 0)) * s
      + D.X u i + (if p.original = true then p.alpha0 else 0) else 0) + p.alpha0 * s ^ 2

theorem dataTerm_eq (p : Params) (D : Data) (A B : Nat → Vec K) :
    dataTerm p D A B =
      ∑ u ∈ Finset.range D.U, ∑ i ∈ Finset.range D.I, pairTerm p D u i (score (A u) (B i)) := by
  classical
  unfold dataTerm
  by_cases h : p.original = true
  · rw [if_pos h, originalTerm]
    refine Finset.sum_congr rfl (fun u _ => Finset.sum_congr rfl (fun i _ => ?_))
    unfold pairTerm
    by_cases hs : D.S u i
    · simp only [hs, if_true, h]; ring
    · simp only [hs, if_false]; ring
  · rw [if_neg h, ialsppTerm, Finset.mul_sum, ← Finset.sum_add_distrib]
    refine Finset.sum_congr rfl (fun u _ => ?_)
    rw [Finset.sum_filter, Finset.mul_sum, ← Finset.sum_add_distrib]
    refine Finset.sum_congr rfl (fun i _ => ?_)
    unfold pairTerm
    by_cases hs : D.S u i
    · simp only [hs, if_true, h]; simp; ring
    · simp only [hs, if_false]

/-- the terms of the loss that involve the embedding of user `u` -/
noncomputable def rowObj (p : Params) (D : Data) (q : Vec K) (B : Nat → Vec K) (u : Nat) (x : Vec K) :
    ℝ :=
  ∑ i ∈ Finset.range D.I, pairTerm p D u i (score x (B i)) + userWeight p D u * normSq (x - q)

theorem priorLoss_eq (p : Params) (D : Data) (qA qB A B : Nat → Vec K) :
    priorLoss p D qA qB A B =
      1 / 2 * (∑ u ∈ Finset.range D.U, rowObj p D (qA u) B u (A u)) +
      1 / 2 * ∑ i ∈ Finset.range D.I, itemWeight p D i * normSq (B i - qB i) := by
  unfold priorLoss rowObj
  rw [dataTerm_eq, Finset.sum_add_distrib]
  ring

theorem loss_eq_priorLoss (p : Params) (D : Data) (A B : Nat → Vec K) :
    loss p D A B = priorLoss p D (fun _ => 0) (fun _ => 0) A B := by
  unfold loss priorLoss
  simp only [sub_zero]

theorem pairTerm_swap (p : Params) (D : Data) (u i : Nat) (s : ℝ) :
    pairTerm p D.swap i u s = pairTerm p D u i s := rfl

theorem score_comm (u v : Vec K) : score u v = score v u := by
  rw [score_eq, score_eq, dotProduct_comm]

/-- Exchanging users and items does not change the loss. -/
theorem priorLoss_swap (p : Params) (D : Data) (qA qB A B : Nat → Vec K) :
    priorLoss p D.swap qB qA B A = priorLoss p D qA qB A B := by
  unfold priorLoss
  rw [dataTerm_eq, dataTerm_eq]
  have h1 : ∑ u ∈ Finset.range D.swap.U, ∑ i ∈ Finset.range D.swap.I,
      pairTerm p D.swap u i (score (B u) (A i)) =
      ∑ u ∈ Finset.range D.U, ∑ i ∈ Finset.range D.I, pairTerm p D u i (score (A u) (B i)) := by
    rw [Finset.sum_comm]
    refine Finset.sum_congr rfl (fun u _ => Finset.sum_congr rfl (fun i _ => ?_))
    rw [pairTerm_swap, score_comm]
  rw [h1]
  have h2 : ∀ u, userWeight p D.swap u = itemWeight p D u := fun u => rfl
  have h3 : ∀ u, itemWeight p D.swap u = userWeight p D u := fun u => rfl
  simp only [h2, h3]
  have h4 : D.swap.U = D.I := rfl
  have h5 : D.swap.I = D.U := rfl
  rw [h4, h5]
  ring

/-! ### Rows of a sparse matrix -/

open Spec.Sim in
theorem weight_ofCSR (cfg : Config) (X : CSR ℝ) (hX : Proper X) (u : Nat) :
    userWeight (paramsOf cfg) (Data.ofCSR X) u = computeReg cfg (X.row u).length X.cols := by
  classical
  unfold userWeight computeReg Data.userCount
  rw [length_entries (X.row u) X.cols (Sim.row_nodup hX u) (Sim.row_bound hX u)]
  have h : (Finset.range (Data.ofCSR X).I).filter (fun i => (Data.ofCSR X).S u i) =
      (Finset.range X.cols).filter (fun i => i ∈ (X.row u).map Prod.fst) := by
    ext i; simp [Data.ofCSR]
  rw [h]
  rfl

theorem bias_eq (cfg : Config) :
    (if (paramsOf cfg).original = true then (paramsOf cfg).alpha0 else 0) = bias cfg := by
  unfold paramsOf bias
  cases cfg.lossType <;> simp

theorem quad_sysMat (P : Matrix (Fin K) (Fin K) ℝ) (V : Factor K) (cfg : Config) (row : SpVec ℝ)
    (d : ℝ) (b₀ x : Vec K) :
    quad (sysMat P (ents V row) d) (sysRhs cfg V row b₀) x =
      x ⬝ᵥ P.mulVec x + (row.map (fun e => e.2 * (V.row e.1 ⬝ᵥ x) ^ 2
        - 2 * (e.2 + bias cfg) * (V.row e.1 ⬝ᵥ x))).sum + d * (x ⬝ᵥ x) - 2 * (b₀ ⬝ᵥ x) := by
  unfold quad
  rw [sysMat_quad, sysRhs, add_dotProduct, ents, List.map_map]
  have h1 : (row.map (fun e => (bias cfg + e.2) • V.row e.1)).sum ⬝ᵥ x =
      (row.map (fun e => (bias cfg + e.2) * (V.row e.1 ⬝ᵥ x))).sum := by
    induction row with
    | nil => simp
    | cons e row ih =>
      simp only [List.map_cons, List.sum_cons, add_dotProduct, ih, smul_dotProduct, smul_eq_mul]
  rw [h1]
  have h2 : (row.map (fun e => e.2 * (V.row e.1 ⬝ᵥ x) ^ 2
        - 2 * (e.2 + bias cfg) * (V.row e.1 ⬝ᵥ x))).sum =
      (row.map (fun e => e.2 * (V.row e.1 ⬝ᵥ x) ^ 2)).sum -
      2 * (row.map (fun e => (bias cfg + e.2) * (V.row e.1 ⬝ᵥ x))).sum := by
    induction row with
    | nil => simp
    | cons e row ih =>
      simp only [List.map_cons, List.sum_cons]
      rw [ih (by
        clear ih h1
        induction row with
        | nil => simp
        | cons e row ih =>
          simp only [List.map_cons, List.sum_cons, add_dotProduct, ih, smul_dotProduct, smul_eq_mul])]
      ring
  rw [h2]
  simp only [Function.comp_def]
  ring

open Spec.Sim in
/-- The terms of a user's embedding are the quadratic function of the row solvers plus a constant. -/
theorem rowObj_ofCSR (cfg : Config) (X : CSR ℝ) (hX : Proper X) (V : Factor K) (hV : V.n = X.cols)
    (q : Vec K) (u : Nat) (x : Vec K) :
    rowObj (paramsOf cfg) (Data.ofCSR X) q V.row u x =
      quad (sysMat (gramP cfg V) (ents V (X.row u)) (computeReg cfg (X.row u).length V.n))
        (sysRhs cfg V (X.row u) (computeReg cfg (X.row u).length V.n • q)) x
      + (((X.row u).map (fun e => e.2 + bias cfg)).sum
        + computeReg cfg (X.row u).length V.n * (q ⬝ᵥ q)) := by
  classical
  rw [quad_sysMat, gramP_quad]
  unfold rowObj pairTerm
  rw [weight_ofCSR cfg X hX, hV, Finset.sum_add_distrib, normSq_eq]
  rw [bias_eq]
  have h1 : ∑ i ∈ Finset.range (Data.ofCSR X).I, (if (Data.ofCSR X).S u i then
      (Data.ofCSR X).X u i * score x (V.row i) ^ 2 -
        2 * ((Data.ofCSR X).X u i + bias cfg) * score x (V.row i) + (Data.ofCSR X).X u i + bias cfg else 0) =
      ((X.row u).map (fun e => e.2 * (V.row e.1 ⬝ᵥ x) ^ 2
        - 2 * (e.2 + bias cfg) * (V.row e.1 ⬝ᵥ x))).sum +
      ((X.row u).map (fun e => e.2 + bias cfg)).sum := by
    have := sum_entries (X.row u) X.cols (Sim.row_nodup hX u) (Sim.row_bound hX u)
      (fun i c => c * score x (V.row i) ^ 2 - 2 * (c + bias cfg) * score x (V.row i) + c + bias cfg)
    refine Eq.trans (b := ∑ i ∈ Finset.range X.cols, if i ∈ (X.row u).map Prod.fst then
      ((X.row u).get i * score x (V.row i) ^ 2 - 2 * ((X.row u).get i + bias cfg) * score x (V.row i)
        + (X.row u).get i + bias cfg) else 0) ?_ (Eq.trans this.symm ?_)
    · refine Finset.sum_congr rfl (fun i _ => if_congr Iff.rfl rfl rfl)
    rw [← List.sum_map_add]
    congr 1
    apply List.map_congr_left
    intro e _
    rw [score_comm, score_eq]
    ring
  rw [h1]
  have h2 : ∑ i ∈ Finset.range (Data.ofCSR X).I, (paramsOf cfg).alpha0 * score x (V.row i) ^ 2 =
      cfg.alpha0 * ∑ r ∈ Finset.range X.cols, (V.row r ⬝ᵥ x) ^ 2 := by
    rw [Finset.mul_sum]
    refine Finset.sum_congr rfl (fun i _ => ?_)
    rw [score_comm, score_eq]
    rfl
  rw [h2]
  simp only [sub_dotProduct, dotProduct_sub, smul_dotProduct, smul_eq_mul, dotProduct_comm x q]
  ring

open Spec.Sim in
theorem ofCSR_transpose (X : CSR ℝ) (hX : Proper X) : Data.ofCSR (transpose X) = (Data.ofCSR X).swap := by
  unfold Data.ofCSR Data.swap
  have h1 : (transpose X).nrows = X.cols := Sim.transpose_nrows X
  have h2 : (fun u i => i ∈ ((transpose X).row u).map Prod.fst) =
      fun i u => i ∈ (X.row u).map Prod.fst := by
    funext j u
    apply propext
    by_cases hj : j < X.cols
    · rw [transpose, Sim.transpose_row X hj]
      simp only [List.mem_map, List.mem_flatMap, List.mem_range, List.mem_filterMap]
      constructor
      · rintro ⟨e, ⟨i, hi, f, hf, hfe⟩, rfl⟩
        by_cases hfj : f.1 = j
        · rw [if_pos hfj] at hfe
          injection hfe with hfe
          subst hfe
          exact ⟨f, hf, hfj⟩
        · rw [if_neg hfj] at hfe; cases hfe
      · rintro ⟨e, he, rfl⟩
        have hu : u < X.nrows := by
          by_contra hu
          rw [Sim.row_nil X hu] at he
          simp at he
        exact ⟨(u, e.2), ⟨u, hu, e, he, by simp⟩, rfl⟩
    · rw [Sim.row_nil _ (by rw [h1]; exact hj)]
      simp only [List.map_nil, List.not_mem_nil, false_iff]
      intro hm
      obtain ⟨e, he, rfl⟩ := List.mem_map.mp hm
      exact hj (Sim.row_bound hX u e he)
  have h3 : (transpose X).get = fun i u => X.get u i := by
    funext j u
    exact Sim.transpose_get X hX j u
  rw [h1, h2, h3]
  rfl

end Irspack.Ials
