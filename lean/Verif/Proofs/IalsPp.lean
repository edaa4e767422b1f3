import Verif.Proofs.IalsGram
import Verif.Proofs.Region

/-! # Block coordinate descent (iALS++ and ICD) -/

namespace Irspack.Ials

open Matrix

variable {K : Nat}

/-- What a sub-step does to the quadratic function of a row: it does not increase, and if it stays the
same the row is unchanged and already stationary in the dimensions `Dset`. -/
def RowProgress (A : Matrix (Fin K) (Fin K) ℝ) (b : Vec K) (Dset : Fin K → Prop) (x x' : Vec K) : Prop :=
  quad A b x' ≤ quad A b x ∧
    (quad A b x' = quad A b x → x' = x ∧ ∀ k, Dset k → A.mulVec x k = b k)

section block
variable {lo hi : Nat}

/-- extend a vector on the block by zero -/
def extBlock (δ : Dims K lo hi → ℝ) : Vec K :=
  fun k => if h : lo ≤ k.val ∧ k.val < hi then δ ⟨k, h⟩ else 0

theorem extBlock_apply (δ : Dims K lo hi → ℝ) (i : Dims K lo hi) : extBlock δ i.1 = δ i := by
  unfold extBlock
  rw [dif_pos i.2]

theorem extBlock_dot (δ : Dims K lo hi → ℝ) (y : Vec K) :
    extBlock δ ⬝ᵥ y = ∑ i : Dims K lo hi, δ i * y i.1 := by
  unfold dotProduct
  have h1 : ∑ k : Fin K, extBlock δ k * y k =
      ∑ k ∈ Finset.univ.filter (fun k : Fin K => lo ≤ k.val ∧ k.val < hi), extBlock δ k * y k := by
    rw [Finset.sum_filter]
    refine Finset.sum_congr rfl (fun k _ => ?_)
    by_cases h : lo ≤ k.val ∧ k.val < hi
    · rw [if_pos h]
    · rw [if_neg h, extBlock, dif_neg h, zero_mul]
  rw [h1, Finset.sum_subtype (p := fun k : Fin K => lo ≤ k.val ∧ k.val < hi) _
    (fun k => by simp) (fun k => extBlock δ k * y k)]
  exact Finset.sum_congr rfl (fun i _ => by rw [extBlock_apply])

/-- the stored entries restricted to the block -/
def blockEnts (V : Factor K) (row : SpVec ℝ) : List ((Dims K lo hi → ℝ) × ℝ) :=
  row.map (fun e => (fun i => V.row e.1 i.1, e.2))

theorem sysMat_block (P : Matrix (Fin K) (Fin K) ℝ) (V : Factor K) (row : SpVec ℝ) (d : ℝ)
    (i j : Dims K lo hi) :
    sysMat (fun i j : Dims K lo hi => P i.1 j.1) (blockEnts V row) d i j =
      sysMat P (ents V row) d i.1 j.1 := by
  unfold sysMat blockEnts ents
  rw [List.map_map, List.map_map]
  congr 1
  by_cases h : i = j
  · simp [h]
  · rw [if_neg h, if_neg (fun e => h (Subtype.ext e))]

theorem block_mulVec (A : Matrix (Fin K) (Fin K) ℝ) (δ : Dims K lo hi → ℝ) (i : Dims K lo hi) :
    A.mulVec (extBlock δ) i.1 = ∑ j : Dims K lo hi, A i.1 j.1 * δ j := by
  have : A.mulVec (extBlock δ) i.1 = extBlock δ ⬝ᵥ (fun k => A i.1 k) := by
    rw [dotProduct_comm]; rfl
  rw [this, extBlock_dot]
  exact Finset.sum_congr rfl (fun j _ => mul_comm _ _)

/-- the gradient computed from the predictions -/
theorem grad_sum (cfg : Config) (P : Matrix (Fin K) (Fin K) ℝ) (V : Factor K) (row : SpVec ℝ) (d : ℝ)
    (x : Vec K) (k : Fin K) :
    P.mulVec x k + d * x k + (row.map (fun e =>
      (e.2 * ((x ⬝ᵥ V.row e.1) - 1) - bias cfg) * V.row e.1 k)).sum =
      (sysMat P (ents V row) d).mulVec x k - sysRhs cfg V row 0 k := by
  rw [sysMat_mulVec, sysRhs, ents, List.map_map]
  simp only [Pi.add_apply, Pi.smul_apply, smul_eq_mul, Pi.zero_apply, zero_add, Function.comp_def]
  have : ∀ row : SpVec ℝ, (row.map (fun e => (e.2 * ((x ⬝ᵥ V.row e.1) - 1) - bias cfg) * V.row e.1 k)).sum =
      (row.map (fun e => (e.2 * (V.row e.1 ⬝ᵥ x)) • V.row e.1)).sum k -
      (row.map (fun e => (bias cfg + e.2) • V.row e.1)).sum k := by
    intro row
    induction row with
    | nil => simp
    | cons e row ih =>
      simp only [List.map_cons, List.sum_cons, Pi.add_apply, ih, Pi.smul_apply, smul_eq_mul]
      rw [dotProduct_comm x]
      ring
  rw [this]
  ring

theorem zip_map_self {α β : Type} (l : List α) (f : α → β) : l.zip (l.map f) = l.map (fun e => (e, f e)) := by
  induction l with
  | nil => rfl
  | cons e l ih => simp [ih]

theorem zipWith_map_self {α β γ : Type} (l : List α) (f : α → β) (g : α → β → γ) :
    List.zipWith g l (l.map f) = l.map (fun e => g e (f e)) := by
  induction l with
  | nil => rfl
  | cons e l ih => simp [ih]

theorem listSum_apply {α ι : Type} (l : List α) (f : α → ι → ℝ) (i : ι) :
    (l.map f).sum i = (l.map (fun e => f e i)).sum := by
  induction l with
  | nil => rfl
  | cons e l ih => simp only [List.map_cons, List.sum_cons, Pi.add_apply, ih]

open Classical in
theorem dimrangeRow_eq (cfg : Config) (P : Matrix (Fin K) (Fin K) ℝ) (hP : ∀ i j, P i j = P j i)
    (V : Factor K) (lo hi : Nat) (row : SpVec ℝ) (hrow : NonNegRow row) (x : Vec K) :
    dimrangeRow cfg P V lo hi row x (fun i => x i.1, row.map (fun e => x ⬝ᵥ V.row e.1)) =
      let d := computeReg cfg row.length V.n
      let A := sysMat (fun i j : Dims K lo hi => P i.1 j.1) (blockEnts V row) d
      let g : Dims K lo hi → ℝ := fun i =>
        (sysMat P (ents V row) d).mulVec x i.1 - sysRhs cfg V row 0 i.1
      if PosDef A then
        .ok (fun i => x i.1 - A⁻¹.mulVec g i,
          row.map (fun e => x ⬝ᵥ V.row e.1 - ∑ i, A⁻¹.mulVec g i * V.row e.1 i.1))
      else .error .nonFinite := by
  unfold dimrangeRow
  simp only
  rw [zip_map_self, List.foldl_map]
  rw [foldl_prod row (fun (b : Batch (Dims K lo hi)) e => b.addRow batchMax (fun i => V.row e.1 i.1) e.2)
    (fun (s : Dims K lo hi → ℝ) e => s + (e.2 * ((x ⬝ᵥ V.row e.1) - 1) - bias cfg) •
      (fun i : Dims K lo hi => V.row e.1 i.1)), foldl_add_sum]
  have hb : row.foldl (fun (b : Batch (Dims K lo hi)) e => b.addRow batchMax (fun i => V.row e.1 i.1) e.2)
      ⟨[], fun i j => P i.1 j.1⟩ =
      (blockEnts V row).foldl (fun b e => b.addRow batchMax e.1 e.2) ⟨[], fun i j => P i.1 j.1⟩ := by
    rw [blockEnts, List.foldl_map]
  have hnn : ∀ e ∈ (blockEnts V row : List ((Dims K lo hi → ℝ) × ℝ)), 0 ≤ e.2 := by
    intro e he
    obtain ⟨e', he', rfl⟩ := List.mem_map.mp he
    exact hrow e' he'
  have hg : ((fun i : Dims K lo hi => P.mulVec x i.1 + computeReg cfg row.length V.n * x i.1) +
      (row.map (fun e => (e.2 * ((x ⬝ᵥ V.row e.1) - 1) - bias cfg) •
        (fun i : Dims K lo hi => V.row e.1 i.1))).sum) =
      fun i : Dims K lo hi => (sysMat P (ents V row) (computeReg cfg row.length V.n)).mulVec x i.1 -
        sysRhs cfg V row 0 i.1 := by
    funext i
    rw [← grad_sum, Pi.add_apply]
    congr 1
    exact listSum_apply row _ i
  rw [hb, hg]
  unfold llt
  rw [upperSymm_addDiagonal batchMax (blockEnts V row) hnn _ (fun i j => hP i.1 j.1)]
  split
  · rename_i h
    split at h
    · cases h
    · rename_i hp; rw [if_neg hp]
  · rename_i δ h
    split at h
    · rename_i hp
      cases h
      rw [if_pos hp, zipWith_map_self]
      rfl
    · cases h

theorem dimrangeRow_progress (cfg : Config) (P : Matrix (Fin K) (Fin K) ℝ)
    (hP : ∀ i j, P i j = P j i) (V : Factor K) (lo hi : Nat) (row : SpVec ℝ) (hrow : NonNegRow row)
    (x : Vec K) (s' : (Dims K lo hi → ℝ) × List ℝ)
    (h : dimrangeRow cfg P V lo hi row x (fun i => x i.1, row.map (fun e => x ⬝ᵥ V.row e.1)) = .ok s')
    (x' : Vec K) (hx' : x' = fun k => if h : lo ≤ k.val ∧ k.val < hi then s'.1 ⟨k, h⟩ else x k) :
    RowProgress (sysMat P (ents V row) (computeReg cfg row.length V.n)) (sysRhs cfg V row 0)
      (fun k => lo ≤ k.val ∧ k.val < hi) x x' ∧ s'.2 = row.map (fun e => x' ⬝ᵥ V.row e.1) := by
  classical
  rw [dimrangeRow_eq cfg P hP V lo hi row hrow x] at h
  simp only at h
  set d := computeReg cfg row.length V.n with hd
  set A := sysMat P (ents V row) d with hA
  set b := sysRhs cfg V row 0 with hb
  set AS := sysMat (fun i j : Dims K lo hi => P i.1 j.1) (blockEnts V row) d with hAS
  set g : Dims K lo hi → ℝ := fun i => A.mulVec x i.1 - b i.1 with hg
  by_cases hp : PosDef AS
  · rw [if_pos hp] at h
    cases h
    set δ := AS⁻¹.mulVec g with hδ
    have hsolve : AS.mulVec δ = g := hp.solve g
    have hxe : x' = x + extBlock (-δ) := by
      rw [hx']
      funext k
      by_cases hk : lo ≤ k.val ∧ k.val < hi
      · rw [dif_pos hk, Pi.add_apply, extBlock, dif_pos hk]
        simp [sub_eq_add_neg]
      · rw [dif_neg hk, Pi.add_apply, extBlock, dif_neg hk, add_zero]
    have hsymm : ∀ i j, A i j = A j i := fun i j => sysMat_symm P hP _ _ i j
    have hquad : quad A b x' = quad A b x - δ ⬝ᵥ AS.mulVec δ := by
      rw [hxe, quad_add hsymm]
      have h1 : extBlock (-δ) ⬝ᵥ A.mulVec (extBlock (-δ)) = δ ⬝ᵥ AS.mulVec δ := by
        rw [extBlock_dot]
        have : ∀ i : Dims K lo hi, A.mulVec (extBlock (-δ)) i.1 = - (AS.mulVec δ i) := by
          intro i
          rw [block_mulVec]
          unfold Matrix.mulVec dotProduct
          rw [← Finset.sum_neg_distrib]
          refine Finset.sum_congr rfl (fun j _ => ?_)
          have hij : AS i j = A i.1 j.1 := sysMat_block P V row d i j
          rw [← hij, Pi.neg_apply]
          ring
        unfold dotProduct
        refine Finset.sum_congr rfl (fun i _ => ?_)
        rw [this, Pi.neg_apply]
        ring
      have h2 : extBlock (-δ) ⬝ᵥ (b - A.mulVec x) = δ ⬝ᵥ g := by
        rw [extBlock_dot]
        unfold dotProduct
        refine Finset.sum_congr rfl (fun i _ => ?_)
        rw [Pi.neg_apply, Pi.sub_apply, hg]
        ring
      rw [h1, h2, hsolve]
      ring
    refine ⟨⟨?_, ?_⟩, ?_⟩
    · rw [hquad]
      by_cases h0 : δ = 0
      · rw [h0]; simp
      · have := hp δ h0
        linarith
    · intro heq
      have h0 : δ = 0 := by
        by_contra h0
        have := hp δ h0
        linarith
      constructor
      · rw [hxe, h0]
        funext k
        simp [extBlock]
      · intro k hk
        have : g ⟨k, hk⟩ = 0 := by
          rw [← hsolve, h0, Matrix.mulVec_zero]; rfl
        have h3 : A.mulVec x k - b k = 0 := this
        linarith
    · apply List.map_congr_left
      intro e _
      rw [hxe, add_dotProduct, extBlock_dot]
      rw [sub_eq_add_neg, ← Finset.sum_neg_distrib]
      congr 1
      exact Finset.sum_congr rfl (fun i _ => by rw [Pi.neg_apply]; ring)
  · rw [if_neg hp] at h
    cases h

end block

theorem icdRow_eq (cfg : Config) (P : Matrix (Fin K) (Fin K) ℝ)
    (V : Factor K) (dim : Fin K) (row : SpVec ℝ) (x : Vec K) :
    icdRow cfg P V dim row x (x dim, row.map (fun e => x ⬝ᵥ V.row e.1)) =
      let d := computeReg cfg row.length V.n
      let A := sysMat P (ents V row) d
      let g := A.mulVec x dim - sysRhs cfg V row 0 dim
      if A dim dim = 0 then .error .nonFinite
      else .ok (x dim - g / A dim dim,
        row.map (fun e => x ⬝ᵥ V.row e.1 - g / A dim dim * V.row e.1 dim)) := by
  unfold icdRow
  simp only
  rw [zip_map_self, List.foldl_map,
    foldl_prod row (fun (s : ℝ) e => s + e.2 * V.row e.1 dim * V.row e.1 dim)
    (fun (s : ℝ) e => s + (e.2 * ((x ⬝ᵥ V.row e.1) - 1) - bias cfg) * V.row e.1 dim),
    foldl_add_sum, foldl_add_sum]
  have h1 : P dim dim + (row.map (fun e => e.2 * V.row e.1 dim * V.row e.1 dim)).sum +
      computeReg cfg row.length V.n = sysMat P (ents V row) (computeReg cfg row.length V.n) dim dim := by
    unfold sysMat ents
    rw [if_pos rfl, List.map_map]
    congr 2
    congr 1
    apply List.map_congr_left
    intro e _
    simp only [Function.comp]
    ring
  have h2 : (P dim ⬝ᵥ x + computeReg cfg row.length V.n * x dim +
      (row.map (fun e => (e.2 * ((x ⬝ᵥ V.row e.1) - 1) - bias cfg) * V.row e.1 dim)).sum) =
      (sysMat P (ents V row) (computeReg cfg row.length V.n)).mulVec x dim - sysRhs cfg V row 0 dim := by
    rw [← grad_sum]
    rfl
  rw [h1, h2, zipWith_map_self]

theorem icdRow_progress (cfg : Config) (P : Matrix (Fin K) (Fin K) ℝ) (hP : ∀ i j, P i j = P j i)
    (hpos : ∀ x, 0 ≤ x ⬝ᵥ P.mulVec x) (V : Factor K) (dim : Fin K) (row : SpVec ℝ)
    (hrow : NonNegRow row) (hreg : 0 ≤ computeReg cfg row.length V.n)
    (x : Vec K) (s' : ℝ × List ℝ)
    (h : icdRow cfg P V dim row x (x dim, row.map (fun e => x ⬝ᵥ V.row e.1)) = .ok s') :
    RowProgress (sysMat P (ents V row) (computeReg cfg row.length V.n)) (sysRhs cfg V row 0)
      (fun k => k = dim) x (Function.update x dim s'.1) ∧
      s'.2 = row.map (fun e => Function.update x dim s'.1 ⬝ᵥ V.row e.1) := by
  rw [icdRow_eq cfg P V dim row x] at h
  simp only at h
  set A := sysMat P (ents V row) (computeReg cfg row.length V.n) with hA
  set b := sysRhs cfg V row 0 with hb
  have hsymm : ∀ i j, A i j = A j i := fun i j => sysMat_symm P hP _ _ i j
  have hAdd : 0 ≤ A dim dim := by
    have := sysMat_nonneg P hpos (ents V row) (ents_nonneg hrow) _ hreg (Pi.single dim 1)
    simpa using this
  by_cases h0 : A dim dim = 0
  · rw [if_pos h0] at h; cases h
  · rw [if_neg h0] at h
    cases h
    set g := A.mulVec x dim - b dim with hg
    set δ := g / A dim dim with hδ
    have hxe : Function.update x dim (x dim - δ) = x + (-δ) • (Pi.single dim 1 : Vec K) := by
      funext k
      by_cases hk : k = dim
      · subst hk; simp [sub_eq_add_neg]
      · simp [hk]
    have hquad : quad A b (Function.update x dim (x dim - δ)) = quad A b x - g ^ 2 / A dim dim := by
      rw [hxe, quad_add hsymm, Matrix.mulVec_smul, smul_dotProduct, dotProduct_smul, smul_dotProduct]
      have h1 : (Pi.single dim 1 : Vec K) ⬝ᵥ A.mulVec (Pi.single dim 1) = A dim dim := by simp
      have h2 : (Pi.single dim 1 : Vec K) ⬝ᵥ (b - A.mulVec x) = -g := by simp [hg]
      rw [h1, h2, hδ]
      simp only [smul_eq_mul]
      field_simp
      ring
    have hpos' : 0 < A dim dim := lt_of_le_of_ne hAdd (Ne.symm h0)
    refine ⟨⟨?_, ?_⟩, ?_⟩
    · rw [hquad]
      have : 0 ≤ g ^ 2 / A dim dim := div_nonneg (sq_nonneg _) hAdd
      linarith
    · intro heq
      have hg0 : g = 0 := by
        have h1 : g ^ 2 / A dim dim = 0 := by linarith
        rcases div_eq_zero_iff.mp h1 with h2 | h2
        · exact pow_eq_zero_iff (two_ne_zero) |>.mp h2
        · exact absurd h2 h0
      have hδ0 : δ = 0 := by rw [hδ, hg0, zero_div]
      constructor
      · simp only [hδ0, sub_zero, Function.update_eq_self]
      · rintro k rfl
        rw [hg] at hg0
        linarith
    · apply List.map_congr_left
      intro e _
      simp only
      rw [hxe, add_dotProduct, smul_dotProduct, single_dotProduct]
      simp [sub_eq_add_neg]

/-! ## Sub-steps over all rows -/

/-- the predictions belong to the current factor -/
def PredsOk (X : CSR ℝ) (V : Factor K) (s : Factor K × (Nat → List ℝ)) : Prop :=
  ∀ r, r < s.1.n → s.2 r = (X.row r).map (fun e => s.1.row r ⬝ᵥ V.row e.1)

/-- matrix of the system of row `r` -/
noncomputable abbrev rowMat (cfg : Config) (P : Matrix (Fin K) (Fin K) ℝ) (X : CSR ℝ) (V : Factor K)
    (r : Nat) : Matrix (Fin K) (Fin K) ℝ :=
  sysMat P (ents V (X.row r)) (computeReg cfg (X.row r).length V.n)

/-- every row made progress in the dimensions `Dset` -/
def AllProgress (cfg : Config) (P : Matrix (Fin K) (Fin K) ℝ) (X : CSR ℝ) (V : Factor K)
    (Dset : Fin K → Prop) (F F' : Factor K) : Prop :=
  F'.n = F.n ∧ ∀ r, r < F.n →
    RowProgress (rowMat cfg P X V r) (sysRhs cfg V (X.row r) 0) Dset (F.row r) (F'.row r)

theorem AllProgress.trans {cfg : Config} {P : Matrix (Fin K) (Fin K) ℝ} {X : CSR ℝ} {V : Factor K}
    {D₁ D₂ : Fin K → Prop} {F F' F'' : Factor K} (h : AllProgress cfg P X V D₁ F F')
    (h' : AllProgress cfg P X V D₂ F' F'') : AllProgress cfg P X V (fun k => D₁ k ∨ D₂ k) F F'' := by
  refine ⟨h'.1.trans h.1, fun r hr => ?_⟩
  have h1 := h.2 r hr
  have h2 := h'.2 r (by rw [h.1]; exact hr)
  refine ⟨h2.1.trans h1.1, fun heq => ?_⟩
  have e1 : quad (rowMat cfg P X V r) (sysRhs cfg V (X.row r) 0) (F'.row r) =
      quad (rowMat cfg P X V r) (sysRhs cfg V (X.row r) 0) (F.row r) :=
    le_antisymm h1.1 (by rw [← heq]; exact h2.1)
  have e2 := heq.trans e1.symm
  obtain ⟨hx1, hs1⟩ := h1.2 e1
  obtain ⟨hx2, hs2⟩ := h2.2 e2
  refine ⟨hx2.trans hx1, fun k hk => ?_⟩
  rcases hk with hk | hk
  · exact hs1 k hk
  · rw [← hx1]; exact hs2 k hk

theorem AllProgress.refl (cfg : Config) (P : Matrix (Fin K) (Fin K) ℝ) (X : CSR ℝ) (V : Factor K)
    (F : Factor K) : AllProgress cfg P X V (fun _ => False) F F :=
  ⟨rfl, fun _ _ => ⟨le_rfl, fun _ => ⟨rfl, fun _ h => h.elim⟩⟩⟩

theorem AllProgress.congr {cfg : Config} {P : Matrix (Fin K) (Fin K) ℝ} {X : CSR ℝ} {V : Factor K}
    {D₁ D₂ : Fin K → Prop} {F F' : Factor K} (h : AllProgress cfg P X V D₁ F F')
    (hd : ∀ k, D₂ k → D₁ k) : AllProgress cfg P X V D₂ F F' :=
  ⟨h.1, fun r hr => ⟨(h.2 r hr).1, fun heq => ⟨((h.2 r hr).2 heq).1,
    fun k hk => ((h.2 r hr).2 heq).2 k (hd k hk)⟩⟩⟩

variable {T : Nat}

theorem map_ok {ε α β : Type} {f : α → β} {x : Except ε α} {y : β} (h : x.map f = .ok y) :
    ∃ a, x = .ok a ∧ y = f a := by
  cases x with
  | error e => simp [Except.map] at h
  | ok a => simp only [Except.map] at h; cases h; exact ⟨a, rfl, rfl⟩

theorem bind_ok {ε α β : Type} {f : α → Except ε β} {x : Except ε α} {y : β}
    (h : (x >>= f) = .ok y) : ∃ a, x = .ok a ∧ f a = .ok y := by
  cases x with
  | error e => simp [Bind.bind, Except.bind] at h
  | ok a => exact ⟨a, rfl, h⟩

theorem stepDimrange_progress {ω : Oracle T} (hω : ω.Complete) (hT : 0 < T) (cfg : Config)
    (P : Matrix (Fin K) (Fin K) ℝ) (hP : ∀ i j, P i j = P j i) (X : CSR ℝ)
    (V : Factor K) (lo hi : Nat) (s s' : Factor K × (Nat → List ℝ))
    (hX : ∀ r, r < s.1.n → NonNegRow (X.row r)) (hs : PredsOk X V s)
    (h : stepDimrange ω cfg P X V lo hi s = .ok s') :
    AllProgress cfg P X V (fun k => lo ≤ k.val ∧ k.val < hi) s.1 s'.1 ∧ PredsOk X V s' := by
  obtain ⟨m, hm, rfl⟩ := map_ok h
  have hres := parRows_ok hω hT Nat.one_pos hm
  have key := fun r (hr : r < s.1.n) => by
    have h1 := hres.1 r hr
    simp only [hs r hr] at h1
    exact dimrangeRow_progress cfg P hP V lo hi (X.row r) (hX r hr) (s.1.row r) (m r) h1 _ rfl
  exact ⟨⟨rfl, fun r hr => (key r hr).1⟩, fun r hr => (key r hr).2⟩

theorem stepIcdDim_progress {ω : Oracle T} (hω : ω.Complete) (hT : 0 < T) (cfg : Config)
    (P : Matrix (Fin K) (Fin K) ℝ) (hP : ∀ i j, P i j = P j i) (hpos : ∀ x, 0 ≤ x ⬝ᵥ P.mulVec x)
    (X : CSR ℝ) (V : Factor K) (d : Fin K) (s s' : Factor K × (Nat → List ℝ))
    (hX : ∀ r, r < s.1.n → NonNegRow (X.row r))
    (hreg : ∀ r, r < s.1.n → 0 ≤ computeReg cfg (X.row r).length V.n) (hs : PredsOk X V s)
    (h : stepIcdDim ω cfg P X V d s = .ok s') :
    AllProgress cfg P X V (fun k => k = d) s.1 s'.1 ∧ PredsOk X V s' := by
  obtain ⟨m, hm, rfl⟩ := map_ok h
  have hres := parRows_ok hω hT Nat.one_pos hm
  have key := fun r (hr : r < s.1.n) => by
    have h1 := hres.1 r hr
    simp only [hs r hr] at h1
    exact icdRow_progress cfg P hP hpos V d (X.row r) (hX r hr) (hreg r hr) (s.1.row r) (m r) h1
  exact ⟨⟨rfl, fun r hr => (key r hr).1⟩, fun r hr => (key r hr).2⟩

theorem prediction_ok {ω : Oracle T} (hω : ω.Complete) (hT : 0 < T) (X : CSR ℝ) (F V : Factor K)
    (preds : Nat → List ℝ) (h : prediction ω X F V = .ok preds) : PredsOk X V (F, preds) := by
  have hres := parRows_ok hω hT Nat.one_pos h
  intro r hr
  have := hres.1 r hr
  simp only [Except.ok.injEq] at this
  exact this.symm

/-- progress along a sequence of sub-steps -/
theorem foldlM_progress {β : Type} (cfg : Config) (P : Matrix (Fin K) (Fin K) ℝ) (X : CSR ℝ)
    (V : Factor K) (N : Nat) (Dset : β → Fin K → Prop)
    (f : Factor K × (Nat → List ℝ) → β → Except Err (Factor K × (Nat → List ℝ)))
    (hf : ∀ b s s', s.1.n = N → PredsOk X V s → f s b = .ok s' →
      AllProgress cfg P X V (Dset b) s.1 s'.1 ∧ PredsOk X V s') :
    ∀ (l : List β) (s s' : Factor K × (Nat → List ℝ)), s.1.n = N → PredsOk X V s →
      l.foldlM f s = .ok s' →
      AllProgress cfg P X V (fun k => ∃ b ∈ l, Dset b k) s.1 s'.1 := by
  intro l
  induction l with
  | nil =>
    intro s s' _ _ h
    simp only [List.foldlM_nil] at h
    cases h
    exact (AllProgress.refl cfg P X V _).congr (fun k ⟨b, hb, _⟩ => by simp at hb)
  | cons b l ih =>
    intro s s' hN hs h
    rw [List.foldlM_cons] at h
    obtain ⟨s₁, h1, h2⟩ := bind_ok h
    obtain ⟨hp, hs₁⟩ := hf b s s₁ hN hs h1
    have h3 := ih s₁ s' (hp.1.trans hN) hs₁ h2
    refine (hp.trans h3).congr ?_
    rintro k ⟨b', hb', hk⟩
    rcases List.mem_cons.mp hb' with rfl | hb'
    · exact Or.inl hk
    · exact Or.inr ⟨b', hb', hk⟩

theorem dimBlocks_cover (sub : Nat) (hsub : 0 < sub) (k : Fin K) :
    ∃ b ∈ dimBlocks K sub, b.1 ≤ k.val ∧ k.val < b.2 := by
  have hk := k.isLt
  refine ⟨_, List.mem_map.mpr ⟨k.val / sub, ?_, rfl⟩, ?_, ?_⟩
  · rw [List.mem_range, Nat.lt_iff_add_one_le, Nat.le_div_iff_mul_le hsub, Nat.add_mul, Nat.one_mul]
    have := Nat.div_mul_le_self k.val sub
    omega
  · exact Nat.div_mul_le_self k.val sub
  · have := Nat.lt_div_mul_add hsub (a := k.val)
    simp only [lt_min_iff]
    exact ⟨this, hk⟩

theorem ialsppIteration_progress {ω : Oracle T} (hω : ω.Complete) (hT : 0 < T) (cfg : Config)
    (sub : Nat) (hsub : 0 < sub) (P : Matrix (Fin K) (Fin K) ℝ) (hP : ∀ i j, P i j = P j i)
    (X : CSR ℝ) (V F F' : Factor K) (hX : ∀ r, r < F.n → NonNegRow (X.row r))
    (h : ialsppIteration ω cfg sub P X V F = .ok F') :
    AllProgress cfg P X V (fun _ => True) F F' := by
  obtain ⟨preds, h1, h2⟩ := bind_ok h
  obtain ⟨s, h3, h4⟩ := bind_ok h2
  cases h4
  have hp := prediction_ok (hω.at 0) hT X F V preds h1
  have := foldlM_progress cfg P X V F.n (fun (b : Nat × Nat) k => b.1 ≤ k.val ∧ k.val < b.2) _
    (fun b s s' hn hs hstep => stepDimrange_progress ((hω.at 1).at b.1) hT cfg P hP X V b.1 b.2 s s'
      (fun r hr => hX r (hn ▸ hr)) hs hstep) (dimBlocks K sub) (F, preds) s rfl hp h3
  exact this.congr (fun k _ => dimBlocks_cover sub hsub k)

theorem icdIteration_progress {ω : Oracle T} (hω : ω.Complete) (hT : 0 < T) (cfg : Config)
    (P : Matrix (Fin K) (Fin K) ℝ) (hP : ∀ i j, P i j = P j i) (hpos : ∀ x, 0 ≤ x ⬝ᵥ P.mulVec x)
    (X : CSR ℝ) (V F F' : Factor K) (hX : ∀ r, r < F.n → NonNegRow (X.row r))
    (hreg : ∀ r, r < F.n → 0 ≤ computeReg cfg (X.row r).length V.n)
    (h : icdIteration ω cfg P X V F = .ok F') :
    AllProgress cfg P X V (fun _ => True) F F' := by
  obtain ⟨preds, h1, h2⟩ := bind_ok h
  obtain ⟨s, h3, h4⟩ := bind_ok h2
  cases h4
  have hp := prediction_ok (hω.at 0) hT X F V preds h1
  have := foldlM_progress cfg P X V F.n (fun (d : Fin K) k => k = d) _
    (fun d s s' hn hs hstep => stepIcdDim_progress ((hω.at 1).at d.val) hT cfg P hP hpos X V d s s'
      (fun r hr => hX r (hn ▸ hr)) (fun r hr => hreg r (hn ▸ hr)) hs hstep)
    (List.finRange K) (F, preds) s rfl hp h3
  exact this.congr (fun k _ => ⟨k, List.mem_finRange k, rfl⟩)

theorem stepIalspp_progress {ω : Oracle T} (hω : ω.Complete) (hT : 0 < T) (cfg : Config)
    (sc : SolverConfig) (P : Matrix (Fin K) (Fin K) ℝ) (hP : ∀ i j, P i j = P j i)
    (hpos : ∀ x, 0 ≤ x ⬝ᵥ P.mulVec x)
    (X : CSR ℝ) (V F F' : Factor K) (hX : ∀ r, r < F.n → NonNegRow (X.row r))
    (hreg : ∀ r, r < F.n → 0 ≤ computeReg cfg (X.row r).length V.n)
    (h : stepIalspp ω cfg sc P X V F = .ok F') :
    AllProgress cfg P X V (fun _ => 0 < sc.iteration) F F' := by
  unfold stepIalspp at h
  generalize hl : List.range sc.iteration = l at h
  have hlen : sc.iteration = l.length := by rw [← hl, List.length_range]
  rw [hlen]
  clear hl hlen
  induction l generalizing F with
  | nil =>
    simp only [List.foldlM_nil] at h
    cases h
    exact (AllProgress.refl cfg P X V _).congr (fun k hk => by simp at hk)
  | cons it l ih =>
    rw [List.foldlM_cons] at h
    obtain ⟨F₁, h1, h2⟩ := bind_ok h
    have hp : AllProgress cfg P X V (fun _ => True) F F₁ := by
      by_cases hsub : 1 < sc.subspaceDimension
      · rw [if_pos hsub] at h1
        exact ialsppIteration_progress (hω.at it) hT cfg _ (by omega) P hP X V F F₁ hX h1
      · rw [if_neg hsub] at h1
        exact icdIteration_progress (hω.at it) hT cfg P hP hpos X V F F₁ hX hreg h1
    have h3 := ih F₁ (fun r hr => hX r (hp.1 ▸ hr)) (fun r hr => hreg r (hp.1 ▸ hr)) h2
    exact (hp.trans h3).congr (fun k _ => Or.inl trivial)

end Irspack.Ials
