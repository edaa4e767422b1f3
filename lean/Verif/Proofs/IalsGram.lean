import Mathlib.LinearAlgebra.Matrix.ToLinearEquiv
import Mathlib.Tactic
import Verif.Model.Ials

/-! # Linear systems of the iALS row solvers -/

namespace Irspack.Ials

open Matrix

section lists
variable {α β γ : Type}

theorem foldl_prod (l : List α) (f : β → α → β) (g : γ → α → γ) (b : β) (c : γ) :
    l.foldl (fun (s : β × γ) e => (f s.1 e, g s.2 e)) (b, c) = (l.foldl f b, l.foldl g c) := by
  induction l generalizing b c with
  | nil => rfl
  | cons e l ih => simp only [List.foldl_cons, ih]

theorem foldl_add_sum [AddCommMonoid β] (l : List α) (g : α → β) (b : β) :
    l.foldl (fun s e => s + g e) b = b + (l.map g).sum := by
  induction l generalizing b with
  | nil => simp
  | cons e l ih => simp only [List.foldl_cons, ih, List.map_cons, List.sum_cons, add_assoc]

theorem foldl_sub_sum [AddCommGroup β] (l : List α) (g : α → β) (b : β) :
    l.foldl (fun s e => s - g e) b = b - (l.map g).sum := by
  induction l generalizing b with
  | nil => simp
  | cons e l ih =>
    simp only [List.foldl_cons, ih, List.map_cons, List.sum_cons]
    abel

theorem foldl_count (l : List α) (n : Nat) : l.foldl (fun s _ => s + 1) n = n + l.length := by
  induction l generalizing n with
  | nil => rfl
  | cons e l ih => simp only [List.foldl_cons, ih, List.length_cons]; omega

end lists

section gram
variable {ι : Type} [Fintype ι] [LinearOrder ι]

omit [Fintype ι] in
theorem rankUpdate_nil (A : Matrix ι ι ℝ) : rankUpdate A [] = A := by
  funext i j; simp [rankUpdate]

omit [Fintype ι] in
theorem rankUpdate_append (A : Matrix ι ι ℝ) (l m : List (ι → ℝ)) :
    rankUpdate A (l ++ m) = rankUpdate (rankUpdate A l) m := by
  funext i j
  by_cases h : i ≤ j <;> simp [rankUpdate, h, add_assoc]

/-- what the target will hold once the buffer is flushed -/
def Batch.denote (b : Batch ι) : Matrix ι ι ℝ := rankUpdate b.target b.buf

omit [Fintype ι] in
theorem consume_target (b : Batch ι) : b.consume.target = b.denote := by
  unfold Batch.consume Batch.denote
  split
  · rfl
  · rename_i h
    have : b.buf = [] := by
      cases hb : b.buf with
      | nil => rfl
      | cons x xs => rw [hb] at h; simp at h
    rw [this, rankUpdate_nil]

omit [Fintype ι] in
theorem consume_buf (b : Batch ι) : b.consume.buf = [] := by
  unfold Batch.consume
  split
  · rfl
  · rename_i h
    cases hb : b.buf with
    | nil => rfl
    | cons x xs => rw [hb] at h; simp at h

omit [Fintype ι] in
theorem denote_consume (b : Batch ι) : b.consume.denote = b.denote := by
  rw [Batch.denote, consume_buf, rankUpdate_nil, consume_target]

omit [Fintype ι] in
theorem denote_addRow (nMax : Nat) (b : Batch ι) (v : ι → ℝ) (c : ℝ) :
    (b.addRow nMax v c).denote = rankUpdate b.denote [fun i => Real.sqrt c * v i] := by
  unfold Batch.addRow
  simp only
  split
  · rw [denote_consume, Batch.denote, rankUpdate_append, Batch.denote]
  · rw [Batch.denote, rankUpdate_append, Batch.denote]

omit [Fintype ι] in
theorem denote_fold (nMax : Nat) (l : List ((ι → ℝ) × ℝ)) (b : Batch ι) :
    (l.foldl (fun b e => b.addRow nMax e.1 e.2) b).denote =
      rankUpdate b.denote (l.map (fun e => (fun i => Real.sqrt e.2 * e.1 i : ι → ℝ))) := by
  induction l generalizing b with
  | nil => simp [rankUpdate_nil]
  | cons e l ih =>
    rw [List.foldl_cons, ih, denote_addRow, List.map_cons, ← rankUpdate_append, List.singleton_append]

omit [Fintype ι] in
theorem batch_result (nMax : Nat) (l : List ((ι → ℝ) × ℝ)) (hc : ∀ e ∈ l, 0 ≤ e.2)
    (P : Matrix ι ι ℝ) (i j : ι) :
    (l.foldl (fun b e => b.addRow nMax e.1 e.2) (⟨[], P⟩ : Batch ι)).consume.target i j =
      if i ≤ j then P i j + (l.map (fun e => e.2 * (e.1 i * e.1 j))).sum else P i j := by
  rw [consume_target, denote_fold, Batch.denote, rankUpdate_nil]
  unfold rankUpdate
  by_cases h : i ≤ j
  · simp only [h, if_true, List.map_map]
    congr 2
    apply List.map_congr_left
    intro e he
    simp only [Function.comp]
    rw [show √e.2 * e.1 i * (√e.2 * e.1 j) = (√e.2 * √e.2) * (e.1 i * e.1 j) by ring,
      Real.mul_self_sqrt (hc e he)]
  · simp only [h, if_false]

/-- the matrix of the normal equations: `P + Σ c v vᵀ + d I` -/
def sysMat (P : Matrix ι ι ℝ) (l : List ((ι → ℝ) × ℝ)) (d : ℝ) : Matrix ι ι ℝ :=
  fun i j => P i j + (l.map (fun e => e.2 * (e.1 i * e.1 j))).sum + (if i = j then d else 0)

omit [Fintype ι] in
theorem upperSymm_addDiagonal (nMax : Nat) (l : List ((ι → ℝ) × ℝ)) (hc : ∀ e ∈ l, 0 ≤ e.2)
    (P : Matrix ι ι ℝ) (hP : ∀ i j, P i j = P j i) (d : ℝ) :
    upperSymm (addDiagonal
      (l.foldl (fun b e => b.addRow nMax e.1 e.2) (⟨[], P⟩ : Batch ι)).consume.target d)
      = sysMat P l d := by
  funext i j
  unfold upperSymm addDiagonal sysMat
  rw [batch_result nMax l hc, batch_result nMax l hc]
  by_cases h : i ≤ j
  · simp only [h, if_true]
    by_cases hij : i = j
    · simp [hij]
    · simp [hij]
  · have h' : j ≤ i := le_of_not_ge h
    have hne : ¬ i = j := fun e => h (e ▸ le_refl _)
    have hne' : ¬ j = i := fun e => hne e.symm
    have : (fun e : (ι → ℝ) × ℝ => e.2 * (e.1 j * e.1 i)) = fun e => e.2 * (e.1 i * e.1 j) := by
      funext e; ring
    simp only [h, if_false, h', if_true, hne, hne', hP i j, add_zero, this]

omit [Fintype ι] in
theorem sysMat_symm (P : Matrix ι ι ℝ) (hP : ∀ i j, P i j = P j i) (l : List ((ι → ℝ) × ℝ)) (d : ℝ)
    (i j : ι) : sysMat P l d i j = sysMat P l d j i := by
  unfold sysMat
  have : (fun e : (ι → ℝ) × ℝ => e.2 * (e.1 j * e.1 i)) = fun e => e.2 * (e.1 i * e.1 j) := by
    funext e; ring
  rw [this, hP i j]
  by_cases h : i = j
  · simp [h]
  · rw [if_neg h, if_neg (fun e : j = i => h e.symm)]

theorem sysMat_mulVec (P : Matrix ι ι ℝ) (l : List ((ι → ℝ) × ℝ)) (d : ℝ) (x : ι → ℝ) :
    (sysMat P l d).mulVec x = P.mulVec x + (l.map (fun e => (e.2 * (e.1 ⬝ᵥ x)) • e.1)).sum + d • x := by
  funext i
  simp only [Matrix.mulVec, dotProduct, sysMat, Pi.add_apply, Pi.smul_apply, smul_eq_mul, add_mul,
    Finset.sum_add_distrib]
  congr 1
  · congr 1
    induction l with
    | nil => simp
    | cons e l ih =>
      simp only [List.map_cons, List.sum_cons, Pi.add_apply, add_mul, Finset.sum_add_distrib, ih,
        Pi.smul_apply, smul_eq_mul]
      congr 1
      rw [Finset.mul_sum, Finset.sum_mul]
      exact Finset.sum_congr rfl (fun k _ => by ring)
  · simp

/-- the quadratic form of the normal equations -/
theorem sysMat_quad (P : Matrix ι ι ℝ) (l : List ((ι → ℝ) × ℝ)) (d : ℝ) (x : ι → ℝ) :
    x ⬝ᵥ (sysMat P l d).mulVec x =
      x ⬝ᵥ P.mulVec x + (l.map (fun e => e.2 * (e.1 ⬝ᵥ x) ^ 2)).sum + d * (x ⬝ᵥ x) := by
  rw [sysMat_mulVec, dotProduct_add, dotProduct_add, dotProduct_smul, smul_eq_mul]
  congr 2
  induction l with
  | nil => simp
  | cons e l ih =>
    simp only [List.map_cons, List.sum_cons, dotProduct_add, ih, dotProduct_smul, smul_eq_mul]
    rw [dotProduct_comm x e.1]
    ring

omit [LinearOrder ι] in
theorem dot_self_nonneg (x : ι → ℝ) : 0 ≤ x ⬝ᵥ x :=
  Finset.sum_nonneg (fun i _ => mul_self_nonneg (x i))

omit [LinearOrder ι] in
theorem dot_self_pos (x : ι → ℝ) (hx : x ≠ 0) : 0 < x ⬝ᵥ x := by
  have : ∃ i, x i ≠ 0 := by
    by_contra h
    push Not at h
    exact hx (funext h)
  obtain ⟨i, hi⟩ := this
  exact Finset.sum_pos' (fun i _ => mul_self_nonneg (x i)) ⟨i, Finset.mem_univ i, mul_self_pos.mpr hi⟩

theorem sysMat_nonneg (P : Matrix ι ι ℝ) (hP : ∀ x, 0 ≤ x ⬝ᵥ P.mulVec x)
    (l : List ((ι → ℝ) × ℝ)) (hl : ∀ e ∈ l, 0 ≤ e.2) (d : ℝ) (hd : 0 ≤ d) (x : ι → ℝ) :
    0 ≤ x ⬝ᵥ (sysMat P l d).mulVec x := by
  rw [sysMat_quad]
  have h2 : 0 ≤ (l.map (fun e => e.2 * (e.1 ⬝ᵥ x) ^ 2)).sum := by
    apply List.sum_nonneg
    intro y hy
    obtain ⟨e, he, rfl⟩ := List.mem_map.mp hy
    exact mul_nonneg (hl e he) (sq_nonneg _)
  have h3 := mul_nonneg hd (dot_self_nonneg x)
  have h1 := hP x
  linarith

theorem sysMat_posDef (P : Matrix ι ι ℝ) (hP : ∀ x, 0 ≤ x ⬝ᵥ P.mulVec x)
    (l : List ((ι → ℝ) × ℝ)) (hl : ∀ e ∈ l, 0 ≤ e.2) (d : ℝ) (hd : 0 < d) :
    PosDef (sysMat P l d) := by
  intro x hx
  rw [sysMat_quad]
  have h2 : 0 ≤ (l.map (fun e => e.2 * (e.1 ⬝ᵥ x) ^ 2)).sum := by
    apply List.sum_nonneg
    intro y hy
    obtain ⟨e, he, rfl⟩ := List.mem_map.mp hy
    exact mul_nonneg (hl e he) (sq_nonneg _)
  have h3 := mul_pos hd (dot_self_pos x hx)
  have h1 := hP x
  linarith

theorem PosDef.isUnit {A : Matrix ι ι ℝ} (hA : PosDef A) : IsUnit A.det := by
  rw [isUnit_iff_ne_zero]
  intro h
  obtain ⟨x, hx, hAx⟩ := Matrix.exists_mulVec_eq_zero_iff.mpr h
  have := hA x hx
  rw [hAx, dotProduct_zero] at this
  exact lt_irrefl _ this

theorem PosDef.solve {A : Matrix ι ι ℝ} (hA : PosDef A) (b : ι → ℝ) :
    A.mulVec (A⁻¹.mulVec b) = b := by
  rw [Matrix.mulVec_mulVec, Matrix.mul_nonsing_inv _ hA.isUnit, Matrix.one_mulVec]

theorem PosDef.unique {A : Matrix ι ι ℝ} (hA : PosDef A) {x b : ι → ℝ} (h : A.mulVec x = b) :
    x = A⁻¹.mulVec b := by
  rw [← h, Matrix.mulVec_mulVec, Matrix.nonsing_inv_mul _ hA.isUnit, Matrix.one_mulVec]

omit [LinearOrder ι] in
theorem dot_symm {A : Matrix ι ι ℝ} (hA : ∀ i j, A i j = A j i) (x y : ι → ℝ) :
    x ⬝ᵥ A.mulVec y = y ⬝ᵥ A.mulVec x := by
  rw [dotProduct_mulVec, dotProduct_comm, ← Matrix.mulVec_transpose]
  congr 2
  ext i j
  exact hA j i

/-- the quadratic function minimised by the solution of `A x = b` -/
def quad (A : Matrix ι ι ℝ) (b x : ι → ℝ) : ℝ := x ⬝ᵥ A.mulVec x - 2 * (b ⬝ᵥ x)

omit [LinearOrder ι] in
theorem quad_add {A : Matrix ι ι ℝ} (hA : ∀ i j, A i j = A j i) (b x d : ι → ℝ) :
    quad A b (x + d) = quad A b x + d ⬝ᵥ A.mulVec d - 2 * (d ⬝ᵥ (b - A.mulVec x)) := by
  unfold quad
  rw [Matrix.mulVec_add, dotProduct_add, add_dotProduct, add_dotProduct, dotProduct_add,
    dotProduct_sub, dot_symm hA x d, dotProduct_comm d b]
  ring

omit [LinearOrder ι] in
/-- a solution of the normal equations minimises the quadratic function -/
theorem quad_min {A : Matrix ι ι ℝ} (hA : ∀ i j, A i j = A j i) (hpos : ∀ x, 0 ≤ x ⬝ᵥ A.mulVec x)
    {b x : ι → ℝ} (hx : A.mulVec x = b) (y : ι → ℝ) : quad A b x ≤ quad A b y := by
  have := quad_add hA b x (y - x)
  rw [add_sub_cancel, hx, sub_self, dotProduct_zero] at this
  rw [this]
  have := hpos (y - x)
  linarith

omit [LinearOrder ι] in
/-- conversely, a minimiser solves the normal equations -/
theorem quad_min_iff {A : Matrix ι ι ℝ} (hA : ∀ i j, A i j = A j i)
    (hpos : ∀ x, 0 ≤ x ⬝ᵥ A.mulVec x) {b x : ι → ℝ} :
    A.mulVec x = b ↔ ∀ y, quad A b x ≤ quad A b y := by
  constructor
  · exact fun h => quad_min hA hpos h
  · intro h
    by_contra hne
    set r := b - A.mulVec x with hr
    have hr0 : r ≠ 0 := fun h0 => hne (sub_eq_zero.mp (by rw [hr] at h0; exact h0)).symm
    have hrr := dot_self_pos r hr0
    set q := r ⬝ᵥ A.mulVec r with hq
    have hq0 : 0 ≤ q := hpos r
    set t := (r ⬝ᵥ r) / (q + 1) with ht
    have h1 := h (x + t • r)
    rw [quad_add hA, Matrix.mulVec_smul, smul_dotProduct, dotProduct_smul, smul_dotProduct, ← hr,
      ← hq] at h1
    simp only [smul_eq_mul] at h1
    have htp : 0 < t := div_pos hrr (by linarith)
    have h2 : t * q ≤ r ⬝ᵥ r := by
      rw [ht, div_mul_eq_mul_div, div_le_iff₀ (by linarith)]
      nlinarith
    nlinarith

end gram

variable {K : Nat}

/-- the stored entries of a row as vectors with their weights -/
def ents (V : Factor K) (row : SpVec ℝ) : List (Vec K × ℝ) := row.map (fun e => (V.row e.1, e.2))

/-- right-hand side of the normal equations: `b₀ + Σ (bias + c) v` -/
def sysRhs (cfg : Config) (V : Factor K) (row : SpVec ℝ) (b₀ : Vec K) : Vec K :=
  b₀ + (row.map (fun e => (bias cfg + e.2) • V.row e.1)).sum

/-- non-negative stored values -/
def NonNegRow (row : SpVec ℝ) : Prop := ∀ e ∈ row, 0 ≤ e.2

theorem foldl_ents (V : Factor K) (row : SpVec ℝ) (b : Batch (Fin K)) :
    row.foldl (fun b e => b.addRow batchMax (V.row e.1) e.2) b =
      (ents V row).foldl (fun b e => b.addRow batchMax e.1 e.2) b := by
  rw [ents, List.foldl_map]

theorem ents_nonneg {V : Factor K} {row : SpVec ℝ} (h : NonNegRow row) : ∀ e ∈ ents V row, 0 ≤ e.2 := by
  intro e he
  obtain ⟨e', he', rfl⟩ := List.mem_map.mp he
  exact h e' he'

open Classical in
theorem choleskyRow_eq (cfg : Config) (P : Matrix (Fin K) (Fin K) ℝ) (hP : ∀ i j, P i j = P j i)
    (V : Factor K) (row : SpVec ℝ) (h : NonNegRow row) :
    choleskyRow cfg P V row =
      if PosDef (sysMat P (ents V row) (computeReg cfg row.length V.n)) then
        .ok ((sysMat P (ents V row) (computeReg cfg row.length V.n))⁻¹.mulVec (sysRhs cfg V row 0))
      else .error .runtimeError := by
  unfold choleskyRow
  simp only
  rw [foldl_prod row (fun (b : Batch (Fin K)) e => b.addRow batchMax (V.row e.1) e.2)
    (fun (s : Vec K × Nat) e => (s.1 + (bias cfg + e.2) • V.row e.1, s.2 + 1)),
    foldl_prod row (fun (s : Vec K) e => s + (bias cfg + e.2) • V.row e.1) (fun (s : Nat) _ => s + 1),
    foldl_count, foldl_add_sum, foldl_ents, Nat.zero_add]
  unfold llt
  rw [upperSymm_addDiagonal batchMax (ents V row) (ents_nonneg h) P hP]
  by_cases hp : PosDef (sysMat P (ents V row) (computeReg cfg row.length V.n))
  · simp [hp, sysRhs]
  · simp [hp]

open Classical in
theorem choleskyPriorRow_eq (cfg : Config) (P : Matrix (Fin K) (Fin K) ℝ) (hP : ∀ i j, P i j = P j i)
    (V : Factor K) (q : Vec K) (row : SpVec ℝ) (h : NonNegRow row) :
    choleskyPriorRow cfg P V q row =
      if PosDef (sysMat P (ents V row) (computeReg cfg row.length V.n)) then
        .ok ((sysMat P (ents V row) (computeReg cfg row.length V.n))⁻¹.mulVec
          (sysRhs cfg V row (computeReg cfg row.length V.n • q)))
      else .error .runtimeError := by
  unfold choleskyPriorRow
  simp only
  rw [foldl_prod row (fun (b : Batch (Fin K)) e => b.addRow batchMax (V.row e.1) e.2)
    (fun (s : Vec K) e => s + (bias cfg + e.2) • V.row e.1), foldl_add_sum, foldl_ents]
  unfold llt
  rw [upperSymm_addDiagonal batchMax (ents V row) (ents_nonneg h) P hP]
  by_cases hp : PosDef (sysMat P (ents V row) (computeReg cfg row.length V.n))
  · simp [hp, sysRhs]
  · simp [hp]

theorem applyA_eq (P : Matrix (Fin K) (Fin K) ℝ) (V : Factor K) (reg : ℝ) (row : SpVec ℝ)
    (p : Vec K) : applyA P V reg row p = (sysMat P (ents V row) reg).mulVec p := by
  unfold applyA
  rw [foldl_add_sum, sysMat_mulVec, ents, List.map_map]
  simp only [Function.comp_def]
  abel

/-- the part of the right-hand side that comes from a prior -/
def priorRhs (reg : ℝ) : Option (Vec K) → Vec K
  | some q => reg • q
  | none => 0

/-- the residual that starts the conjugate-gradient loop -/
theorem cgRow_eq (cfg : Config) (sc : SolverConfig) (P : Matrix (Fin K) (Fin K) ℝ)
    (V : Factor K) (prior : Option (Vec K)) (row : SpVec ℝ) (x : Vec K)
    (hne : ¬ (prior.isNone = true ∧ row.length = 0)) :
    cgRow cfg sc P V prior row x =
      let reg := computeReg cfg row.length V.n
      let A := sysMat P (ents V row) reg
      let b := sysRhs cfg V row (priorRhs reg prior)
      cgLoop A.mulVec cgEps (cgMaxIter K sc) x (b - A.mulVec x) (b - A.mulVec x) := by
  unfold cgRow
  simp only
  rw [if_neg hne, foldl_add_sum, foldl_sub_sum]
  have hA : applyA P V (computeReg cfg row.length V.n) row =
      (sysMat P (ents V row) (computeReg cfg row.length V.n)).mulVec := by
    funext p; exact applyA_eq _ _ _ _ _
  rw [hA, sysMat_mulVec, ents, List.map_map]
  simp only [Function.comp_def, sysRhs]
  have : ∀ (b p s d : Vec K), b - p - d - s = b - (p + s + d) := by intro b p s d; abel
  rw [this]
  cases prior <;> rfl

/-- the Gram matrix prepared before a half-step -/
def gramP (cfg : Config) (V : Factor K) : Matrix (Fin K) (Fin K) ℝ :=
  fun i j => cfg.alpha0 * ∑ r ∈ Finset.range V.n, V.row r i * V.row r j

theorem gramP_symm (cfg : Config) (V : Factor K) (i j : Fin K) : gramP cfg V i j = gramP cfg V j i := by
  unfold gramP
  congr 1
  exact Finset.sum_congr rfl (fun r _ => mul_comm _ _)

theorem gramP_mulVec (cfg : Config) (V : Factor K) (x : Vec K) :
    (gramP cfg V).mulVec x = cfg.alpha0 • ∑ r ∈ Finset.range V.n, (V.row r ⬝ᵥ x) • V.row r := by
  funext i
  simp only [Matrix.mulVec, dotProduct, gramP, Pi.smul_apply, smul_eq_mul, Finset.sum_apply]
  rw [Finset.mul_sum]
  simp only [Finset.mul_sum, Finset.sum_mul]
  rw [Finset.sum_comm]
  refine Finset.sum_congr rfl (fun r _ => Finset.sum_congr rfl (fun k _ => by ring))

theorem gramP_quad (cfg : Config) (V : Factor K) (x : Vec K) :
    x ⬝ᵥ (gramP cfg V).mulVec x = cfg.alpha0 * ∑ r ∈ Finset.range V.n, (V.row r ⬝ᵥ x) ^ 2 := by
  rw [gramP_mulVec, dotProduct_smul, smul_eq_mul]
  congr 1
  simp only [dotProduct, Finset.sum_apply, Pi.smul_apply, smul_eq_mul]
  simp only [Finset.mul_sum]
  rw [Finset.sum_comm]
  refine Finset.sum_congr rfl (fun r _ => ?_)
  rw [sq, Finset.mul_sum]
  exact Finset.sum_congr rfl (fun k _ => by ring)

theorem gramP_nonneg (cfg : Config) (h : 0 ≤ cfg.alpha0) (V : Factor K) (x : Vec K) :
    0 ≤ x ⬝ᵥ (gramP cfg V).mulVec x := by
  rw [gramP_quad]
  exact mul_nonneg h (Finset.sum_nonneg (fun r _ => sq_nonneg _))

end Irspack.Ials
