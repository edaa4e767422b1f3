import Verif.Proofs.IalsGain
import Mathlib.Algebra.QuadraticDiscriminant

/-! # What a half-epoch gains when its sub-steps are solved exactly (Cholesky, iALS++, ICD) -/

namespace Irspack.Ials

open Spec.Ials Matrix

variable {K T : Nat}

/-- a sub-step solves its dimensions exactly and leaves the others alone -/
def RowExact (A : Matrix (Fin K) (Fin K) ℝ) (b : Vec K) (Dset : Fin K → Prop) (x x' : Vec K) : Prop :=
  (∀ k, ¬ Dset k → x' k = x k) ∧ ∀ k, Dset k → A.mulVec x' k = b k

/-- what `m` exact sub-steps achieve: the move has at most `m` times the energy gained, and the residual in
the dimensions visited is bounded by the gain -/
structure RowChain (A : Matrix (Fin K) (Fin K) ℝ) (b : Vec K) (L : ℝ) (m : Nat) (Dset : Fin K → Prop)
    (x x' : Vec K) : Prop where
  gain : 0 ≤ quad A b x - quad A b x'
  energy : (x - x') ⬝ᵥ A.mulVec (x - x') ≤ m * (quad A b x - quad A b x')
  resid : ∀ k, Dset k → (b k - A.mulVec x' k) ^ 2 ≤ m * (L * (quad A b x - quad A b x'))

theorem RowChain.refl (A : Matrix (Fin K) (Fin K) ℝ) (b : Vec K) (L : ℝ) (x : Vec K) :
    RowChain A b L 0 (fun _ => False) x x :=
  ⟨by rw [sub_self], by simp, fun _ h => h.elim⟩

theorem RowChain.mono {A : Matrix (Fin K) (Fin K) ℝ} {b : Vec K} {L : ℝ} (hL : 0 ≤ L) {m m' : Nat}
    {D D' : Fin K → Prop} {x x' : Vec K} (h : RowChain A b L m D x x') (hm : m ≤ m')
    (hD : ∀ k, D' k → D k) : RowChain A b L m' D' x x' := by
  have hc : (m : ℝ) ≤ m' := Nat.cast_le.mpr hm
  exact ⟨h.gain, h.energy.trans (mul_le_mul_of_nonneg_right hc h.gain),
    fun k hk => (h.resid k (hD k hk)).trans (mul_le_mul_of_nonneg_right hc (mul_nonneg hL h.gain))⟩

theorem form_cs {A : Matrix (Fin K) (Fin K) ℝ} (hA : ∀ i j, A i j = A j i)
    (hp : ∀ z : Vec K, 0 ≤ z ⬝ᵥ A.mulVec z) (z : Vec K) (k : Fin K) :
    (A.mulVec z k) ^ 2 ≤ A k k * (z ⬝ᵥ A.mulVec z) := by
  have h1 : ∀ t : ℝ, 0 ≤ A k k * (t * t) + 2 * A.mulVec z k * t + z ⬝ᵥ A.mulVec z := by
    intro t
    have h := hp (z + t • (Pi.single k 1 : Vec K))
    rw [Matrix.mulVec_add, Matrix.mulVec_smul, dotProduct_add, add_dotProduct, add_dotProduct,
      dotProduct_smul, dotProduct_smul, smul_dotProduct, smul_dotProduct] at h
    have e1 : (Pi.single k 1 : Vec K) ⬝ᵥ A.mulVec (Pi.single k 1) = A k k := by simp
    have e2 : (Pi.single k 1 : Vec K) ⬝ᵥ A.mulVec z = A.mulVec z k := by simp
    have e3 : z ⬝ᵥ A.mulVec (Pi.single k 1) = A.mulVec z k := by rw [dot_symm hA, e2]
    rw [e1, e2, e3] at h
    simp only [smul_eq_mul] at h
    linarith
  have h2 := discrim_le_zero h1
  unfold discrim at h2
  nlinarith

theorem sq_add_le_steps (a d s t : ℝ) (m : Nat) (ha : a ^ 2 ≤ m * s) (hd : d ^ 2 ≤ t) (hs : 0 ≤ s) :
    (a + d) ^ 2 ≤ (m + 1 : ℝ) * (s + t) := by
  rcases Nat.eq_zero_or_pos m with rfl | hm
  · have : a ^ 2 ≤ 0 := by simpa using ha
    have ha0 : a = 0 := pow_eq_zero_iff two_ne_zero |>.mp (le_antisymm this (sq_nonneg a))
    subst ha0
    simp only [Nat.cast_zero, zero_add, one_mul]
    linarith
  · have hm' : (0 : ℝ) < m := Nat.cast_pos.mpr hm
    have h1 : 0 ≤ (a - m * d) ^ 2 := sq_nonneg _
    have h2 : 0 ≤ (m : ℝ) * ((m + 1) * (s + t) - (a + d) ^ 2) := by
      have : (m : ℝ) * ((m + 1) * (s + t) - (a + d) ^ 2) =
        (m + 1) * (m * s - a ^ 2) + m * (m + 1) * (t - d ^ 2) + (a - m * d) ^ 2 := by ring
      rw [this]
      have h3 : 0 ≤ ((m : ℝ) + 1) * (m * s - a ^ 2) := mul_nonneg (by linarith) (by linarith)
      have h4 : 0 ≤ (m : ℝ) * (m + 1) * (t - d ^ 2) := mul_nonneg (by positivity) (by linarith)
      linarith
    have := nonneg_of_mul_nonneg_right h2 hm'
    linarith

theorem form_add_le_steps {A : Matrix (Fin K) (Fin K) ℝ} (hA : ∀ i j, A i j = A j i)
    (hp : ∀ z : Vec K, 0 ≤ z ⬝ᵥ A.mulVec z) (a d : Vec K) (s : ℝ) (m : Nat)
    (ha : a ⬝ᵥ A.mulVec a ≤ m * s) (hs : 0 ≤ s) :
    (a + d) ⬝ᵥ A.mulVec (a + d) ≤ (m + 1 : ℝ) * (s + d ⬝ᵥ A.mulVec d) := by
  have h := hp (a - (m : ℝ) • d)
  have hcross : d ⬝ᵥ A.mulVec a = a ⬝ᵥ A.mulVec d := dot_symm hA d a
  rw [Matrix.mulVec_sub, Matrix.mulVec_smul, dotProduct_sub, sub_dotProduct, sub_dotProduct,
    dotProduct_smul, dotProduct_smul, smul_dotProduct, smul_dotProduct, hcross] at h
  rw [Matrix.mulVec_add, dotProduct_add, add_dotProduct, add_dotProduct, hcross]
  simp only [smul_eq_mul] at h
  set α := a ⬝ᵥ A.mulVec a
  set β := a ⬝ᵥ A.mulVec d
  set γ := d ⬝ᵥ A.mulVec d with hγ
  have hγ0 : 0 ≤ γ := hp d
  rcases Nat.eq_zero_or_pos m with rfl | hm
  · have hα0 : 0 ≤ α := hp a
    have hα : α = 0 := le_antisymm (by simpa using ha) hα0
    have hβ : β = 0 := by
      by_contra hne
      have hq : ∀ t : ℝ, 0 ≤ α * (t * t) + 2 * β * t + γ := by
        intro t
        have h5 := hp (t • a + d)
        rw [Matrix.mulVec_add, Matrix.mulVec_smul, dotProduct_add, add_dotProduct, add_dotProduct,
          dotProduct_smul, dotProduct_smul, smul_dotProduct, smul_dotProduct, hcross] at h5
        simp only [smul_eq_mul] at h5
        change 0 ≤ t * (t * α) + t * β + (t * β + γ) at h5 <;> linarith
      have h6 := discrim_le_zero hq
      unfold discrim at h6
      rw [hα] at h6
      have : 0 < β ^ 2 := by positivity
      nlinarith
    simp only [Nat.cast_zero, zero_add, one_mul]
    rw [hα, hβ]
    linarith
  · have hm' : (0 : ℝ) < m := Nat.cast_pos.mpr hm
    have h2 : 0 ≤ (m : ℝ) * ((m + 1) * (s + γ) - (α + β + (β + γ))) := by
      have e : (m : ℝ) * ((m + 1) * (s + γ) - (α + β + (β + γ))) =
        (m + 1) * (m * s - α) + (α - m * β - m * (β - m * γ)) := by ring
      rw [e]
      have h3 : 0 ≤ ((m : ℝ) + 1) * (m * s - α) := mul_nonneg (by linarith) (by linarith)
      linarith
    have := nonneg_of_mul_nonneg_right h2 hm'
    linarith

/-- an exact sub-step gains exactly the energy of its move -/
theorem RowExact.gain {A : Matrix (Fin K) (Fin K) ℝ} (hA : ∀ i j, A i j = A j i) {b : Vec K}
    {D : Fin K → Prop} {x x' : Vec K} (h : RowExact A b D x x') :
    quad A b x - quad A b x' = (x - x') ⬝ᵥ A.mulVec (x - x') := by
  have h1 := quad_add hA b x' (x - x')
  have h2 : (x - x') ⬝ᵥ (b - A.mulVec x') = 0 := by
    unfold dotProduct
    refine Finset.sum_eq_zero (fun k _ => ?_)
    by_cases hk : D k
    · rw [Pi.sub_apply b, h.2 k hk, sub_self, mul_zero]
    · rw [Pi.sub_apply x, h.1 k hk, sub_self, zero_mul]
  rw [add_sub_cancel, h2] at h1
  linarith

theorem RowChain.snoc {A : Matrix (Fin K) (Fin K) ℝ} (hA : ∀ i j, A i j = A j i)
    (hp : ∀ z : Vec K, 0 ≤ z ⬝ᵥ A.mulVec z) {b : Vec K} {L : ℝ} (hL0 : 0 ≤ L) (hL : ∀ k, A k k ≤ L) {m : Nat}
    {D D' : Fin K → Prop} {x x' x'' : Vec K} (h : RowChain A b L m D x x') (h' : RowExact A b D' x' x'') :
    RowChain A b L (m + 1) (fun k => D k ∨ D' k) x x'' := by
  have hg := h'.gain hA
  have hd := hp (x' - x'')
  have h0 := h.gain
  have e : quad A b x - quad A b x'' = (quad A b x - quad A b x') + (x' - x'') ⬝ᵥ A.mulVec (x' - x'') := by
    linarith
  refine ⟨by rw [e]; linarith, ?_, ?_⟩
  · have hx : x - x'' = (x - x') + (x' - x'') := by abel
    rw [e, hx, Nat.cast_add, Nat.cast_one]
    exact form_add_le_steps hA hp _ _ _ m h.energy h0
  · intro k hk
    have hd' : (A.mulVec (x' - x'') k) ^ 2 ≤ L * ((x' - x'') ⬝ᵥ A.mulVec (x' - x'')) :=
      (form_cs hA hp _ k).trans (mul_le_mul_of_nonneg_right (hL k) hd)
    by_cases hk' : D' k
    · rw [h'.2 k hk', sub_self, e, Nat.cast_add, Nat.cast_one]
      have : 0 ≤ ((m : ℝ) + 1) * (L * ((quad A b x - quad A b x') + (x' - x'') ⬝ᵥ A.mulVec (x' - x''))) := by
        have : 0 ≤ (quad A b x - quad A b x') + (x' - x'') ⬝ᵥ A.mulVec (x' - x'') := by linarith
        positivity
      simpa using this
    · have hkD := hk.resolve_right hk'
      have hr : b k - A.mulVec x'' k = (b k - A.mulVec x' k) + A.mulVec (x' - x'') k := by
        rw [Matrix.mulVec_sub, Pi.sub_apply]; ring
      rw [e, hr, Nat.cast_add, Nat.cast_one, mul_add L]
      exact sq_add_le_steps _ _ _ _ m (h.resid k hkD) hd' (mul_nonneg hL0 h0)

/-- when all dimensions have been visited, the row is nearly optimal -/
theorem RowChain.near {A : Matrix (Fin K) (Fin K) ℝ} (hA : ∀ i j, A i j = A j i) {b : Vec K} {L d : ℝ}
    (hd : 0 < d) (hlow : ∀ z : Vec K, d * (z ⬝ᵥ z) ≤ z ⬝ᵥ A.mulVec z) {m : Nat} {x x' : Vec K}
    (h : RowChain A b L m (fun _ => True) x x') (y : Vec K) :
    quad A b x' - quad A b y ≤ K * (m * (L * (quad A b x - quad A b x'))) / d := by
  have h1 := quad_add hA b x' (y - x')
  rw [add_sub_cancel] at h1
  set z := y - x'
  set r := b - A.mulVec x' with hr
  have h2 : 2 * (z ⬝ᵥ r) ≤ d * (z ⬝ᵥ z) + (r ⬝ᵥ r) / d := by
    have : ∀ k, 2 * (z k * r k) ≤ d * (z k * z k) + r k * r k / d := by
      intro k
      have h3 : 0 ≤ (d * z k - r k) ^ 2 / d := div_nonneg (sq_nonneg _) hd.le
      have h4 : (d * z k - r k) ^ 2 / d = d * (z k * z k) - 2 * (z k * r k) + r k * r k / d := by
        field_simp
        ring
      linarith
    unfold dotProduct
    rw [Finset.mul_sum, Finset.mul_sum, Finset.sum_div, ← Finset.sum_add_distrib]
    exact Finset.sum_le_sum (fun k _ => this k)
  have h3 : r ⬝ᵥ r ≤ K * (m * (L * (quad A b x - quad A b x'))) := by
    unfold dotProduct
    calc ∑ k, r k * r k ≤ ∑ _k : Fin K, (m * (L * (quad A b x - quad A b x'))) :=
          Finset.sum_le_sum (fun k _ => by
            have := h.resid k trivial
            rw [← sq]; exact this)
      _ = _ := by simp
  have h4 := hlow z
  have h5 : r ⬝ᵥ r / d ≤ K * (m * (L * (quad A b x - quad A b x'))) / d :=
    div_le_div_of_nonneg_right h3 hd.le
  linarith

/-! ## The sub-steps are exact -/

theorem dimrangeRow_exact (cfg : Config) (P : Matrix (Fin K) (Fin K) ℝ)
    (hP : ∀ i j, P i j = P j i) (V : Factor K) (lo hi : Nat) (row : SpVec ℝ) (hrow : NonNegRow row)
    (x : Vec K) (s' : (Dims K lo hi → ℝ) × List ℝ)
    (h : dimrangeRow cfg P V lo hi row x (fun i => x i.1, row.map (fun e => x ⬝ᵥ V.row e.1)) = .ok s')
    (x' : Vec K) (hx' : x' = fun k => if h : lo ≤ k.val ∧ k.val < hi then s'.1 ⟨k, h⟩ else x k) :
    RowExact (sysMat P (ents V row) (computeReg cfg row.length V.n)) (sysRhs cfg V row 0)
      (fun k => lo ≤ k.val ∧ k.val < hi) x x' := by
  classical
  rw [dimrangeRow_eq cfg P hP V lo hi row hrow x] at h
  simp only at h
  set d := computeReg cfg row.length V.n with hd
  set A := sysMat P (ents V row) d with hA
  set b := sysRhs cfg V row 0 with hb
  set AS := sysMat (fun i j : Dims K lo hi => P i.1 j.1) (blockEnts V row) d with hAS
  set g : Dims K lo hi → ℝ := fun i => A.mulVec x i.1 - b i.1 with hg
  by_cases hp : PosDef AS
  · rw [if_pos hp] at h
    cases h
    set δ := AS⁻¹.mulVec g with hδ
    have hsolve : AS.mulVec δ = g := hp.solve g
    refine ⟨fun k hk => by rw [hx']; exact dif_neg hk, fun k hk => ?_⟩
    have hxe : x' = x + extBlock (-δ) := by
      rw [hx']
      funext k
      by_cases hk : lo ≤ k.val ∧ k.val < hi
      · rw [dif_pos hk, Pi.add_apply, extBlock, dif_pos hk]
        simp [sub_eq_add_neg]
      · rw [dif_neg hk, Pi.add_apply, extBlock, dif_neg hk, add_zero]
    have h1 : A.mulVec (extBlock (-δ)) k = - (AS.mulVec δ ⟨k, hk⟩) := by
      have := block_mulVec A (-δ) ⟨k, hk⟩
      rw [this]
      unfold Matrix.mulVec dotProduct
      rw [← Finset.sum_neg_distrib]
      refine Finset.sum_congr rfl (fun j _ => ?_)
      have hij : AS ⟨k, hk⟩ j = A k j.1 := sysMat_block P V row d ⟨k, hk⟩ j
      rw [← hij, Pi.neg_apply]
      ring
    rw [hxe, Matrix.mulVec_add, Pi.add_apply, h1, hsolve, hg]
    ring
  · rw [if_neg hp] at h
    cases h

theorem icdRow_exact (cfg : Config) (P : Matrix (Fin K) (Fin K) ℝ)
    (V : Factor K) (dim : Fin K) (row : SpVec ℝ) (x : Vec K) (s' : ℝ × List ℝ)
    (h : icdRow cfg P V dim row x (x dim, row.map (fun e => x ⬝ᵥ V.row e.1)) = .ok s') :
    RowExact (sysMat P (ents V row) (computeReg cfg row.length V.n)) (sysRhs cfg V row 0)
      (fun k => k = dim) x (Function.update x dim s'.1) := by
  rw [icdRow_eq cfg P V dim row x] at h
  simp only at h
  set A := sysMat P (ents V row) (computeReg cfg row.length V.n) with hA
  set b := sysRhs cfg V row 0 with hb
  by_cases h0 : A dim dim = 0
  · rw [if_pos h0] at h; cases h
  · rw [if_neg h0] at h
    cases h
    refine ⟨fun k hk => by simp [hk], ?_⟩
    rintro k rfl
    set g := A.mulVec x k - b k with hg
    have hxe : Function.update x k (x k - g / A k k) = x + (-(g / A k k)) • (Pi.single k 1 : Vec K) := by
      funext j
      by_cases hj : j = k
      · subst hj; simp [sub_eq_add_neg]
      · simp [hj]
    simp only
    rw [hxe, Matrix.mulVec_add, Matrix.mulVec_smul, Pi.add_apply, Pi.smul_apply]
    have : A.mulVec (Pi.single k 1 : Vec K) k = A k k := by simp
    rw [this, smul_eq_mul, neg_mul, div_mul_cancel₀ _ h0, hg]
    ring

/-! ## All rows -/

/-- every row is solved exactly in `Dset` -/
def AllExact (cfg : Config) (P : Matrix (Fin K) (Fin K) ℝ) (X : CSR ℝ) (V : Factor K)
    (Dset : Fin K → Prop) (F F' : Factor K) : Prop :=
  F'.n = F.n ∧ ∀ r, r < F.n →
    RowExact (rowMat cfg P X V r) (sysRhs cfg V (X.row r) 0) Dset (F.row r) (F'.row r)

/-- every row has made `m` exact sub-steps -/
def AllChain (cfg : Config) (P : Matrix (Fin K) (Fin K) ℝ) (X : CSR ℝ) (V : Factor K) (L : ℝ) (m : Nat)
    (Dset : Fin K → Prop) (F F' : Factor K) : Prop :=
  F'.n = F.n ∧ ∀ r, r < F.n →
    RowChain (rowMat cfg P X V r) (sysRhs cfg V (X.row r) 0) L m Dset (F.row r) (F'.row r)

/-- what the chain lemmas need of the systems of the rows -/
structure RowsOk (cfg : Config) (P : Matrix (Fin K) (Fin K) ℝ) (X : CSR ℝ) (V : Factor K) (L : ℝ) (N : Nat) :
    Prop where
  symm : ∀ i j, P i j = P j i
  rows : ∀ r, r < N → NonNegRow (X.row r)
  psd : ∀ r, r < N → ∀ z : Vec K, 0 ≤ z ⬝ᵥ (rowMat cfg P X V r).mulVec z
  nonneg : 0 ≤ L
  diag : ∀ r, r < N → ∀ k, rowMat cfg P X V r k k ≤ L

theorem AllChain.snoc {cfg : Config} {P : Matrix (Fin K) (Fin K) ℝ} {X : CSR ℝ} {V : Factor K} {L : ℝ}
    {m : Nat} {D D' : Fin K → Prop} {F F' F'' : Factor K} (hok : RowsOk cfg P X V L F.n)
    (h : AllChain cfg P X V L m D F F') (h' : AllExact cfg P X V D' F' F'') :
    AllChain cfg P X V L (m + 1) (fun k => D k ∨ D' k) F F'' :=
  ⟨h'.1.trans h.1, fun r hr => (h.2 r hr).snoc (fun i j => sysMat_symm P hok.symm _ _ i j) (hok.psd r hr)
    hok.nonneg (hok.diag r hr) (h'.2 r (by rw [h.1]; exact hr))⟩

theorem AllChain.mono {cfg : Config} {P : Matrix (Fin K) (Fin K) ℝ} {X : CSR ℝ} {V : Factor K} {L : ℝ}
    (hL : 0 ≤ L) {m m' : Nat} {D D' : Fin K → Prop} {F F' : Factor K} (h : AllChain cfg P X V L m D F F')
    (hm : m ≤ m') (hD : ∀ k, D' k → D k) : AllChain cfg P X V L m' D' F F' :=
  ⟨h.1, fun r hr => (h.2 r hr).mono hL hm hD⟩

theorem foldlM_chain {β : Type} {cfg : Config} {P : Matrix (Fin K) (Fin K) ℝ} {X : CSR ℝ}
    {V : Factor K} {L : ℝ} (F : Factor K) (hok : RowsOk cfg P X V L F.n) (Dset : β → Fin K → Prop)
    (f : Factor K × (Nat → List ℝ) → β → Except Err (Factor K × (Nat → List ℝ)))
    (hf : ∀ b s s', s.1.n = F.n → PredsOk X V s → f s b = .ok s' →
      AllExact cfg P X V (Dset b) s.1 s'.1 ∧ PredsOk X V s') :
    ∀ (l : List β) (m : Nat) (D : Fin K → Prop) (s s' : Factor K × (Nat → List ℝ)), PredsOk X V s →
      AllChain cfg P X V L m D F s.1 → l.foldlM f s = .ok s' →
      AllChain cfg P X V L (m + l.length) (fun k => D k ∨ ∃ b ∈ l, Dset b k) F s'.1 := by
  intro l
  induction l with
  | nil =>
    intro m D s s' _ hc h
    simp only [List.foldlM_nil] at h
    cases h
    exact hc.mono hok.nonneg le_rfl (fun k hk => hk.resolve_right (fun ⟨b, hb, _⟩ => by simp at hb))
  | cons b l ih =>
    intro m D s s' hs hc h
    rw [List.foldlM_cons] at h
    obtain ⟨s₁, h1, h2⟩ := bind_ok h
    obtain ⟨hp, hs₁⟩ := hf b s s₁ hc.1 hs h1
    have h3 := ih (m + 1) (fun k => D k ∨ Dset b k) s₁ s' hs₁ (hc.snoc hok hp) h2
    refine h3.mono hok.nonneg (by rw [List.length_cons]; omega) ?_
    rintro k (hk | ⟨b', hb', hk⟩)
    · exact Or.inl (Or.inl hk)
    · rcases List.mem_cons.mp hb' with rfl | hb'
      · exact Or.inl (Or.inr hk)
      · exact Or.inr ⟨b', hb', hk⟩

theorem stepDimrange_exact {ω : Oracle T} (hω : ω.Complete) (hT : 0 < T) (cfg : Config)
    (P : Matrix (Fin K) (Fin K) ℝ) (hP : ∀ i j, P i j = P j i) (X : CSR ℝ)
    (V : Factor K) (lo hi : Nat) (s s' : Factor K × (Nat → List ℝ))
    (hX : ∀ r, r < s.1.n → NonNegRow (X.row r)) (hs : PredsOk X V s)
    (h : stepDimrange ω cfg P X V lo hi s = .ok s') :
    AllExact cfg P X V (fun k => lo ≤ k.val ∧ k.val < hi) s.1 s'.1 := by
  obtain ⟨m, hm, rfl⟩ := map_ok h
  have hres := parRows_ok hω hT Nat.one_pos hm
  refine ⟨rfl, fun r hr => ?_⟩
  have h1 := hres.1 r hr
  simp only [hs r hr] at h1
  exact dimrangeRow_exact cfg P hP V lo hi (X.row r) (hX r hr) (s.1.row r) (m r) h1 _ rfl

theorem stepIcdDim_exact {ω : Oracle T} (hω : ω.Complete) (hT : 0 < T) (cfg : Config)
    (P : Matrix (Fin K) (Fin K) ℝ)
    (X : CSR ℝ) (V : Factor K) (d : Fin K) (s s' : Factor K × (Nat → List ℝ)) (hs : PredsOk X V s)
    (h : stepIcdDim ω cfg P X V d s = .ok s') :
    AllExact cfg P X V (fun k => k = d) s.1 s'.1 := by
  obtain ⟨m, hm, rfl⟩ := map_ok h
  have hres := parRows_ok hω hT Nat.one_pos hm
  refine ⟨rfl, fun r hr => ?_⟩
  have h1 := hres.1 r hr
  simp only [hs r hr] at h1
  exact icdRow_exact cfg P V d (X.row r) (s.1.row r) (m r) h1

theorem dimBlocks_length (sub : Nat) (hsub : 0 < sub) : (dimBlocks K sub).length ≤ K := by
  unfold dimBlocks
  rw [List.length_map, List.length_range]
  rcases Nat.eq_zero_or_pos K with rfl | hK
  · rw [Nat.zero_add, Nat.div_eq_of_lt (by omega)]
  · rw [Nat.div_le_iff_le_mul_add_pred hsub]
    have : K ≤ sub * K := Nat.le_mul_of_pos_left K hsub
    omega

theorem stepIalspp_chain {ω : Oracle T} (hω : ω.Complete) (hT : 0 < T) {cfg : Config} (ha : 0 ≤ cfg.alpha0)
    (hr : 0 ≤ cfg.reg) (sc : SolverConfig) {X : CSR ℝ} {V F F' : Factor K} {L : ℝ}
    (hok : RowsOk cfg (gramP cfg V) X V L F.n)
    (h : stepIalspp ω cfg sc (gramP cfg V) X V F = .ok F') :
    AllChain cfg (gramP cfg V) X V L (sc.iteration * K) (fun _ => 0 < sc.iteration) F F' := by
  unfold stepIalspp at h
  have main : ∀ (l : List Nat) (m : Nat) (D : Fin K → Prop) (G : Factor K),
      AllChain cfg (gramP cfg V) X V L m D F G →
      l.foldlM (fun F it =>
        if 1 < sc.subspaceDimension then
          ialsppIteration (ω.at it) cfg sc.subspaceDimension (gramP cfg V) X V F
        else icdIteration (ω.at it) cfg (gramP cfg V) X V F) G = .ok F' →
      AllChain cfg (gramP cfg V) X V L (m + l.length * K) (fun k => D k ∨ 0 < l.length) F F' := by
    intro l
    induction l with
    | nil =>
      intro m D G hc h
      simp only [List.foldlM_nil] at h
      cases h
      exact hc.mono hok.nonneg (by simp) (fun k hk => hk.resolve_right (by simp))
    | cons it l ih =>
      intro m D G hc h
      rw [List.foldlM_cons] at h
      obtain ⟨G₁, h1, h2⟩ := bind_ok h
      have hX : ∀ r, r < G.n → NonNegRow (X.row r) := fun r hr => hok.rows r (by rw [← hc.1]; exact hr)
      have hreg : ∀ r, r < G.n → 0 ≤ computeReg cfg (X.row r).length V.n :=
        fun r _ => computeReg_nonneg cfg hr ha _ _
      have h3 : AllChain cfg (gramP cfg V) X V L (m + K) (fun _ => True) F G₁ := by
        by_cases hsub : 1 < sc.subspaceDimension
        · rw [if_pos hsub] at h1
          obtain ⟨preds, p1, p2⟩ := bind_ok h1
          obtain ⟨s, p3, p4⟩ := bind_ok p2
          cases p4
          have hp := prediction_ok ((hω.at it).at 0) hT X G V preds p1
          have := foldlM_chain F hok (fun (b : Nat × Nat) k => b.1 ≤ k.val ∧ k.val < b.2) _
            (fun b s s' hn hs hstep => ⟨stepDimrange_exact (((hω.at it).at 1).at b.1) hT cfg _ hok.symm X V
              b.1 b.2 s s' (fun r hr => hok.rows r (hn ▸ hr)) hs hstep,
              (stepDimrange_progress (((hω.at it).at 1).at b.1) hT cfg _ hok.symm X V b.1 b.2 s s'
              (fun r hr => hok.rows r (hn ▸ hr)) hs hstep).2⟩) (dimBlocks K sc.subspaceDimension) m D
            (G, preds) s hp hc p3
          exact this.mono hok.nonneg (Nat.add_le_add_left (dimBlocks_length _ (by omega)) m)
            (fun k _ => Or.inr (dimBlocks_cover _ (by omega) k))
        · rw [if_neg hsub] at h1
          obtain ⟨preds, p1, p2⟩ := bind_ok h1
          obtain ⟨s, p3, p4⟩ := bind_ok p2
          cases p4
          have hp := prediction_ok ((hω.at it).at 0) hT X G V preds p1
          have := foldlM_chain F hok (fun (d : Fin K) k => k = d) _
            (fun d s s' hn hs hstep => ⟨stepIcdDim_exact (((hω.at it).at 1).at d.val) hT cfg _ X V d s s' hs
              hstep, (stepIcdDim_progress (((hω.at it).at 1).at d.val) hT cfg _ hok.symm
              (gramP_nonneg cfg ha V) X V d s s' (fun r hr => hok.rows r (hn ▸ hr))
              (fun r _ => computeReg_nonneg cfg hr ha _ _) hs hstep).2⟩) (List.finRange K) m D
            (G, preds) s hp hc p3
          exact this.mono hok.nonneg (by rw [List.length_finRange])
            (fun k _ => Or.inr ⟨k, List.mem_finRange k, rfl⟩)
      refine (ih (m + K) (fun _ => True) G₁ h3 h2).mono hok.nonneg ?_ (fun k _ => Or.inl trivial)
      rw [List.length_cons, Nat.add_mul]
      omega
  have h0 : AllChain cfg (gramP cfg V) X V L 0 (fun _ => False) F F :=
    ⟨rfl, fun r _ => RowChain.refl _ _ _ _⟩
  have := main _ 0 _ F h0 h
  rw [List.length_range] at this
  exact this.mono hok.nonneg (by omega) (fun k hk => Or.inr hk)

/-- an upper bound of the diagonals of the systems of the rows -/
theorem exists_rowsOk {cfg : Config} {X : CSR ℝ} (hv : Valid cfg X) (V : Factor K) :
    ∃ L, RowsOk cfg (gramP cfg V) X V L X.nrows := by
  refine ⟨∑ r ∈ Finset.range X.nrows, ∑ k, rowMat cfg (gramP cfg V) X V r k k,
    gramP_symm cfg V, fun r _ => nonNeg_row hv.nonneg r,
    fun r _ z => rowMat_nonneg hv.alpha0 hv.reg (nonNeg_row hv.nonneg r) z, ?_, ?_⟩
  all_goals
    have hdiag : ∀ r (k : Fin K), 0 ≤ rowMat cfg (gramP cfg V) X V r k k := by
      intro r k
      have := rowMat_nonneg (V := V) hv.alpha0 hv.reg (nonNeg_row hv.nonneg r) (Pi.single k 1 : Vec K)
      simpa using this
  · exact Finset.sum_nonneg (fun r _ => Finset.sum_nonneg (fun k _ => hdiag r k))
  · intro r hr k
    refine (Finset.single_le_sum (f := fun k => rowMat cfg (gramP cfg V) X V r k k) (fun k _ => hdiag r k)
      (Finset.mem_univ k)).trans ?_
    exact Finset.single_le_sum (f := fun r => ∑ k, rowMat cfg (gramP cfg V) X V r k k)
      (fun r _ => Finset.sum_nonneg (fun k _ => hdiag r k)) (Finset.mem_range.mpr hr)

/-- the move of a half-epoch with any solver is paid by what it gains, up to the number of sub-steps -/
theorem solverStep_move {ω : Oracle T} (hω : ω.Complete) (hT : 0 < T) {cfg : Config} {X : CSR ℝ}
    (hv : Valid cfg X) {V : Factor K} (sc : SolverConfig) (M : Nat)
    (hM : sc.solverType = .ialspp → sc.iteration ≤ M) (F F' : Factor K) (hF : F.n = X.nrows)
    (h : solverStep ω cfg sc (gramP cfg V) X V F = .ok F') (r : Nat) (hr' : r < F.n) :
    computeReg cfg (X.row r).length V.n * normSq (F.row r - F'.row r) ≤
      (max 1 (M * K) : Nat) * (rowQ cfg X V 0 r (F.row r) - rowQ cfg X V 0 r (F'.row r)) := by
  have h1 : (1 : ℝ) ≤ (max 1 (M * K) : Nat) := by exact_mod_cast le_max_left 1 (M * K)
  by_cases hs : sc.solverType = .ialspp
  · obtain ⟨L, hok⟩ := exists_rowsOk hv V
    rw [← hF] at hok
    unfold solverStep at h
    rw [hs] at h
    have hc := (stepIalspp_chain hω hT hv.alpha0 hv.reg sc hok h).2 r hr'
    have hlow := rowMat_lower (V := V) hv.alpha0 (nonNeg_row hv.nonneg r) (F.row r - F'.row r)
    rw [normSq_eq]
    unfold rowQ
    rw [smul_zero]
    refine hlow.trans (hc.energy.trans (mul_le_mul_of_nonneg_right ?_ hc.gain))
    exact_mod_cast (Nat.mul_le_mul_right K (hM hs)).trans (le_max_right 1 (M * K))
  · have := solverStep_gain hω hT hv.alpha0 hv.reg sc hs F F' (fun r _ => nonNeg_row hv.nonneg r) h r hr'
    have h0 := (mul_nonneg (computeReg_nonneg cfg hv.reg hv.alpha0 (X.row r).length V.n)
      (normSq_nonneg (F.row r - F'.row r))).trans this
    nlinarith

/-- after a half-epoch that visits all dimensions with exact solves, a row is nearly optimal -/
theorem solverStep_near {ω : Oracle T} (hω : ω.Complete) (hT : 0 < T) {cfg : Config} {X : CSR ℝ}
    (hv : Valid cfg X) {V : Factor K} (sc : SolverConfig) (M : Nat) (hs : sc.solverType ≠ .cg)
    (hM : sc.solverType = .ialspp → 1 ≤ sc.iteration ∧ sc.iteration ≤ M) (F F' : Factor K)
    (hF : F.n = X.nrows) (h : solverStep ω cfg sc (gramP cfg V) X V F = .ok F') (L : ℝ)
    (hL0 : 0 ≤ L)
    (hL : ∀ r < X.nrows, ∀ z : Vec K, z ⬝ᵥ (rowMat cfg (gramP cfg V) X V r).mulVec z ≤ L * (z ⬝ᵥ z))
    (r : Nat) (hr' : r < F.n) (hreg : 0 < computeReg cfg (X.row r).length V.n) (y : Vec K) :
    rowQ cfg X V 0 r (F'.row r) - rowQ cfg X V 0 r y ≤
      K * ((max 1 (M * K) : Nat) * (L * (rowQ cfg X V 0 r (F.row r) - rowQ cfg X V 0 r (F'.row r)))) /
        computeReg cfg (X.row r).length V.n := by
  have hok : RowsOk cfg (gramP cfg V) X V L F.n := by
    refine ⟨gramP_symm cfg V, fun r _ => nonNeg_row hv.nonneg r,
      fun r _ z => rowMat_nonneg hv.alpha0 hv.reg (nonNeg_row hv.nonneg r) z, hL0, fun r hr k => ?_⟩
    have := hL r (by rw [← hF]; exact hr) (Pi.single k 1 : Vec K)
    simpa using this
  have hc : AllChain cfg (gramP cfg V) X V L (max 1 (M * K)) (fun _ => True) F F' := by
    unfold solverStep at h
    cases hst : sc.solverType with
    | cg => exact absurd hst hs
    | cholesky =>
      rw [hst] at h
      obtain ⟨hn, hrow⟩ := stepCholesky_row hω hT F F' _ h
      have h0 : AllChain cfg (gramP cfg V) X V L 0 (fun _ => False) F F :=
        ⟨rfl, fun r _ => RowChain.refl _ _ _ _⟩
      have h1 : AllExact cfg (gramP cfg V) X V (fun _ => True) F F' := by
        refine ⟨hn, fun r hr => ⟨fun k hk => absurd trivial hk, fun k _ => ?_⟩⟩
        have hm := choleskyRow_min hv.alpha0 hv.reg (nonNeg_row hv.nonneg r) _ (hrow r hr)
        rw [hm.2]
      exact (h0.snoc hok h1).mono hL0 (by omega) (fun _ _ => Or.inr trivial)
    | ialspp =>
      rw [hst] at h
      obtain ⟨hi1, hi2⟩ := hM hst
      exact (stepIalspp_chain hω hT hv.alpha0 hv.reg sc hok h).mono hL0
        ((Nat.mul_le_mul_right K hi2).trans (le_max_right 1 (M * K))) (fun _ _ => by omega)
  have := (hc.2 r hr').near (rowMat_symm hv.alpha0 hv.reg r) hreg
    (rowMat_lower (V := V) hv.alpha0 (nonNeg_row hv.nonneg r)) y
  unfold rowQ
  rw [smul_zero]
  exact this

/-- an epoch by any solver -/
theorem epoch_move {ω : Oracle T} (hω : ω.Complete) {cfg : Config} {X : CSR ℝ} (hv : Valid cfg X)
    {sc : SolverConfig} (M : Nat) (hM : sc.solverType = .ialspp → sc.iteration ≤ M) {tr tr' : Trainer K}
    (hr : tr.Reached cfg X) (hf : tr.featureAware = false) (h : tr.step ω sc = .ok tr') :
    movement (paramsOf cfg) (Data.ofCSR X) tr.user.row tr.item.row tr'.user.row tr'.item.row ≤
      (max 1 (M * K) : Nat) * (loss (paramsOf cfg) (Data.ofCSR X) tr.user.row tr.item.row -
      loss (paramsOf cfg) (Data.ofCSR X) tr'.user.row tr'.item.row) := by
  obtain ⟨hT, un, vn, un', vn', s1, s2⟩ := epoch_plain hω hv hr hf h
  have hm : (0 : ℝ) < (max 1 (M * K) : Nat) := by
    exact_mod_cast lt_of_lt_of_le Nat.one_pos (le_max_left 1 (M * K))
  set m : ℝ := ((max 1 (M * K) : Nat) : ℝ)
  have ht : (transpose X).nrows = X.cols := Sim.transpose_nrows X
  have g1 := solverStep_move ((hω.at 0).at 1) hT hv sc M hM _ _ un s1
  have g2 := solverStep_move ((hω.at 1).at 1) hT hv.transpose sc M hM _ _ (vn.trans ht.symm) s2
  have l1 := loss_gain hv tr.item vn tr.user.row tr'.user.row
    (fun u => userWeight (paramsOf cfg) (Data.ofCSR X) u * normSq (tr.user.row u - tr'.user.row u) / m)
    (fun r hr => by
      rw [weight_ofCSR cfg X hv.proper, ← vn, div_le_iff₀' hm]
      exact g1 r (by rw [un]; exact hr))
  have l2 := loss_gain hv.transpose tr'.user un' tr.item.row tr'.item.row
    (fun i => itemWeight (paramsOf cfg) (Data.ofCSR X) i * normSq (tr.item.row i - tr'.item.row i) / m)
    (fun r hr => by
      rw [itemWeight_ofCSR cfg X hv.proper, ← un', div_le_iff₀' hm]
      exact g2 r (by rw [vn]; rw [Sim.transpose_nrows] at hr; exact hr))
  rw [ofCSR_transpose X hv.proper, loss_swap, loss_swap, Sim.transpose_nrows] at l2
  unfold movement
  have e1 : (Data.ofCSR X).U = X.nrows := rfl
  have e2 : (Data.ofCSR X).I = X.cols := rfl
  rw [e1, e2]
  rw [← Finset.sum_div, mul_div_assoc', div_le_iff₀' hm] at l1 l2
  linarith

/-- a half-epoch with exact solves is nearly optimal: what is still to be gained is at most a multiple of
what it gained -/
theorem side_near {ω : Oracle T} (hω : ω.Complete) (hT : 0 < T) {cfg : Config} {X : CSR ℝ}
    (hv : Valid cfg X) (hp : RegPositive cfg X) {V : Factor K} (hV : V.n = X.cols) (sc : SolverConfig)
    (M : Nat) (hs : sc.solverType ≠ .cg)
    (hM : sc.solverType = .ialspp → 1 ≤ sc.iteration ∧ sc.iteration ≤ M) (F F' : Factor K)
    (hF : F.n = X.nrows) (h : solverStep ω cfg sc (gramP cfg V) X V F = .ok F') (L : ℝ)
    (hL0 : 0 ≤ L)
    (hL : ∀ r < X.nrows, ∀ z : Vec K, z ⬝ᵥ (rowMat cfg (gramP cfg V) X V r).mulVec z ≤ L * (z ⬝ᵥ z))
    (Y : Nat → Vec K) :
    loss (paramsOf cfg) (Data.ofCSR X) F'.row V.row - loss (paramsOf cfg) (Data.ofCSR X) Y V.row ≤
      (∑ r ∈ Finset.range X.nrows, K * ((max 1 (M * K) : Nat) * L) /
        computeReg cfg (X.row r).length X.cols) *
      (loss (paramsOf cfg) (Data.ofCSR X) F.row V.row - loss (paramsOf cfg) (Data.ofCSR X) F'.row V.row) := by
  set C := ∑ r ∈ Finset.range X.nrows, K * ((max 1 (M * K) : Nat) * L) /
        computeReg cfg (X.row r).length X.cols with hC
  have hregp : ∀ r < X.nrows, 0 < computeReg cfg (X.row r).length X.cols := fun r hr => regPos_row hv hp hr
  have hCr : ∀ r < X.nrows, 0 ≤ K * ((max 1 (M * K) : Nat) * L) / computeReg cfg (X.row r).length X.cols :=
    fun r hr => div_nonneg (by positivity) (hregp r hr).le
  have hgain : ∀ r < X.nrows, 0 ≤ rowQ cfg X V 0 r (F.row r) - rowQ cfg X V 0 r (F'.row r) := by
    intro r hr
    have h1 := solverStep_move hω hT hv sc M (fun e => (hM e).2) F F' hF h r (by rw [hF]; exact hr)
    have h2 := (mul_nonneg (computeReg_nonneg cfg hv.reg hv.alpha0 (X.row r).length V.n)
      (normSq_nonneg (F.row r - F'.row r))).trans h1
    have hm : (0 : ℝ) < (max 1 (M * K) : Nat) := by
      exact_mod_cast lt_of_lt_of_le Nat.one_pos (le_max_left 1 (M * K))
    exact nonneg_of_mul_nonneg_right h2 hm
  have hrow : ∀ r < X.nrows, rowQ cfg X V 0 r (F'.row r) - rowQ cfg X V 0 r (Y r) ≤
      C * (rowQ cfg X V 0 r (F.row r) - rowQ cfg X V 0 r (F'.row r)) := by
    intro r hr
    have h1 := solverStep_near hω hT hv sc M hs hM F F' hF h L hL0 hL r (by rw [hF]; exact hr)
      (by rw [hV]; exact hregp r hr) (Y r)
    refine h1.trans ?_
    have h2 := Finset.single_le_sum (f := fun r => K * ((max 1 (M * K) : Nat) * L) /
        computeReg cfg (X.row r).length X.cols) (fun j hj => hCr j (Finset.mem_range.mp hj))
        (Finset.mem_range.mpr hr)
    rw [hV]
    calc _ = (K * ((max 1 (M * K) : Nat) * L) / computeReg cfg (X.row r).length X.cols) *
          (rowQ cfg X V 0 r (F.row r) - rowQ cfg X V 0 r (F'.row r)) := by ring
      _ ≤ _ := mul_le_mul_of_nonneg_right h2 (hgain r hr)
  have l1 := loss_gain hv V hV Y F'.row
    (fun r => rowQ cfg X V 0 r (Y r) - rowQ cfg X V 0 r (F'.row r)) (fun r _ => le_rfl)
  have l2 := loss_gain hv V hV F.row F'.row
    (fun r => rowQ cfg X V 0 r (F.row r) - rowQ cfg X V 0 r (F'.row r)) (fun r _ => le_rfl)
  have l3 : ∑ r ∈ Finset.range X.nrows, (rowQ cfg X V 0 r (F'.row r) - rowQ cfg X V 0 r (Y r)) ≤
      C * ∑ r ∈ Finset.range X.nrows, (rowQ cfg X V 0 r (F.row r) - rowQ cfg X V 0 r (F'.row r)) := by
    rw [Finset.mul_sum]
    exact Finset.sum_le_sum (fun r hr => hrow r (Finset.mem_range.mp hr))
  have hC0 : 0 ≤ C := Finset.sum_nonneg (fun r hr => hCr r (Finset.mem_range.mp hr))
  have l4 := mul_le_mul_of_nonneg_left l2 hC0
  have l5 : ∑ r ∈ Finset.range X.nrows, (rowQ cfg X V 0 r (F'.row r) - rowQ cfg X V 0 r (Y r)) =
      -∑ r ∈ Finset.range X.nrows, (rowQ cfg X V 0 r (Y r) - rowQ cfg X V 0 r (F'.row r)) := by
    rw [← Finset.sum_neg_distrib]
    exact Finset.sum_congr rfl (fun r _ => by ring)
  linarith

end Irspack.Ials
