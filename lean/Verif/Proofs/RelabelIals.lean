import Verif.Props.IalsStep
import Verif.Proofs.Relabel

/-! Helper lemmas for C87: iALS on renumbered users and items. -/

namespace Irspack.Ials
open Spec.Relabel Spec.Ials Matrix

variable {K T T' : Nat}

/-! ### results that correspond -/

/-- both computations end normally, with results related by `R`, or both throw -/
inductive RelE {A B : Type} (R : A → B → Prop) : Except Err A → Except Err B → Prop
  | ok {a : A} {b : B} : R a b → RelE R (.ok a) (.ok b)
  | error (e e' : Err) : RelE R (.error e) (.error e')

theorem RelE.bind {A B A' B' : Type} {R : A → A' → Prop} {S : B → B' → Prop} {x : Except Err A}
    {x' : Except Err A'} {f : A → Except Err B} {f' : A' → Except Err B'} (hx : RelE R x x')
    (hf : ∀ a a', R a a' → x = .ok a → x' = .ok a' → RelE S (f a) (f' a')) : RelE S (x >>= f) (x' >>= f') := by
  cases hx with
  | ok h => exact hf _ _ h rfl rfl
  | error e e' => exact .error e e'

theorem RelE.map {A B A' B' : Type} {R : A → A' → Prop} {S : B → B' → Prop} {x : Except Err A}
    {x' : Except Err A'} {f : A → B} {f' : A' → B'} (hx : RelE R x x')
    (hf : ∀ a a', R a a' → x = .ok a → x' = .ok a' → S (f a) (f' a')) : RelE S (x.map f) (x'.map f') := by
  cases hx with
  | ok h => exact .ok (hf _ _ h rfl rfl)
  | error e e' => exact .error e e'

theorem RelE.foldlM {A A' B : Type} {R : A → A' → Prop} {f : A → B → Except Err A} {f' : A' → B → Except Err A'}
    (hf : ∀ a a' b, R a a' → RelE R (f a b) (f' a' b)) (l : List B) (a : A) (a' : A') (h : R a a') :
    RelE R (l.foldlM f a) (l.foldlM f' a') := by
  induction l generalizing a a' with
  | nil => exact .ok h
  | cons b l ih =>
    simp only [List.foldlM_cons]
    exact (hf a a' b h).bind (fun c c' hc _ _ => ih c c' hc)

/-- row by row -/
theorem parRows_rel {A A' : Type} {ω : Oracle T} {ω' : Oracle T'} (hω : ω.Complete) (hω' : ω'.Complete) (hT : 0 < T)
    (hT' : 0 < T') {n : Nat} {σ : Nat → Nat} (hσ : Renames n σ) (c c' : Nat) (hc : 0 < c) (hc' : 0 < c')
    (f : Nat → A → Except Err A) (f' : Nat → A' → Except Err A') (m : Nat → A) (m' : Nat → A') (R : Nat → A → A' → Prop)
    (h : ∀ r, r < n → RelE (R r) (f r (m r)) (f' (σ r) (m' (σ r)))) :
    RelE (fun a a' => ∀ r, r < n → R r (a r) (a' (σ r))) (parRows ω n c f m) (parRows ω' n c' f' m') := by
  rcases parRows_cases hω hT n c hc f m with ⟨m₁, h1, h2⟩ | ⟨e, r, h1, h2, h3⟩
  · rcases parRows_cases hω' hT' n c' hc' f' m' with ⟨m₂, h1', h2'⟩ | ⟨e, r, h1', h2', h3'⟩
    · rw [h1, h1']
      refine .ok (fun r hr => ?_)
      have := h r hr
      rw [h2.1 r hr, h2'.1 _ (hσ.bound r hr)] at this
      cases this; assumption
    · obtain ⟨i, hi, rfl⟩ := hσ.surj r h2'
      have := h i hi
      rw [h2.1 i hi, h3'] at this
      cases this
  · rcases parRows_cases hω' hT' n c' hc' f' m' with ⟨m₂, h1', h2'⟩ | ⟨e', r', h1', h2', h3'⟩
    · have := h r h2
      rw [h3, h2'.1 _ (hσ.bound r h2)] at this
      cases this
    · rw [h1, h1']; exact .error _ _

/-! ### corresponding rows -/

/-- factors that correspond -/
structure FacRel (size : Nat) (σ : Nat → Nat) (F F' : Factor K) : Prop where
  n : F.n = size
  n' : F'.n = size
  rows : ∀ r, r < size → F'.row (σ r) = F.row r

theorem mem_row_iff {X : CSR ℝ} (hX : Spec.Sim.Proper X) (hz : Spec.Sim.NoStoredZero X) {u : Nat} (hu : u < X.nrows)
    (e : Nat × ℝ) : e ∈ X.row u ↔ e.1 < X.cols ∧ X.get u e.1 = e.2 ∧ e.2 ≠ 0 := by
  have hm := Sim.row_mem X hu
  constructor
  · intro h
    exact ⟨hX.1 _ hm e h, Sim.get_of_mem _ (Sim.row_nodup hX u) e h, hz _ hm e h⟩
  · rintro ⟨h1, h2, h3⟩
    have hS := (C41_observed_iff_nonzero X hX hz u e.1).mpr (by rw [h2]; exact h3)
    obtain ⟨e', he', heq⟩ := List.mem_map.mp hS
    have := Sim.get_of_mem _ (Sim.row_nodup hX u) e' he'
    have h4 : e' = e := by
      refine Prod.ext heq ?_
      rw [← this, ← h2, heq]; rfl
    rwa [← h4]

theorem row_perm {X X' : CSR ℝ} {σ π : Nat → Nat} (h : Renamed X X' σ π) (hX : Spec.Sim.Proper X)
    (hX' : Spec.Sim.Proper X') (hz : Spec.Sim.NoStoredZero X) (hz' : Spec.Sim.NoStoredZero X') {u : Nat} (hu : u < X.nrows) :
    (X'.row (σ u)).Perm ((X.row u).map (fun e => (π e.1, e.2))) := by
  have hu' : σ u < X'.nrows := by rw [h.users]; exact h.renamesUsers.bound u hu
  rw [List.perm_ext_iff_of_nodup]
  · intro e
    rw [mem_row_iff hX' hz' hu', List.mem_map]
    constructor
    · rintro ⟨h1, h2, h3⟩
      rw [h.items] at h1
      obtain ⟨i, hi, e1⟩ := h.renamesItems.surj e.1 h1
      refine ⟨(i, e.2), (mem_row_iff hX hz hu _).mpr ⟨hi, ?_, h3⟩, Prod.ext e1 rfl⟩
      rw [← h.entries u i hu hi, e1, h2]
    · rintro ⟨e', he', rfl⟩
      obtain ⟨h1, h2, h3⟩ := (mem_row_iff hX hz hu e').mp he'
      exact ⟨by rw [h.items]; exact h.renamesItems.bound _ h1, by rw [h.entries u _ hu h1, h2], h3⟩
  · exact List.Nodup.of_map _ (Sim.row_nodup hX' _)
  · refine List.Nodup.map_on ?_ (List.Nodup.of_map _ (Sim.row_nodup hX u))
    intro a ha b hb hab
    have h1 := ((mem_row_iff hX hz hu a).mp ha).1
    have h2 := ((mem_row_iff hX hz hu b).mp hb).1
    have := Prod.ext_iff.mp hab
    exact Prod.ext (h.renamesItems.inj _ _ h1 h2 this.1) this.2

theorem renamed_transpose {X X' : CSR ℝ} {σ π : Nat → Nat} (h : Renamed X X' σ π) (hX : Spec.Sim.Proper X)
    (hX' : Spec.Sim.Proper X') : Renamed (transpose X) (transpose X') π σ where
  users := by rw [Sim.transpose_nrows, Sim.transpose_nrows, h.items]
  items := by rw [Sim.transpose_cols, Sim.transpose_cols, h.users]
  renamesUsers := by rw [Sim.transpose_nrows]; exact h.renamesItems
  renamesItems := by rw [Sim.transpose_cols]; exact h.renamesUsers
  entries := by
    intro i u hi hu
    rw [Sim.transpose_nrows] at hi
    rw [Sim.transpose_cols] at hu
    rw [Sim.transpose_get X hX, Sim.transpose_get X' hX', h.entries u i hu hi]

/-- what the systems of two corresponding rows have in common -/
structure SameSystem (V V' : Factor K) (row row' : SpVec ℝ) : Prop where
  n : V'.n = V.n
  ents : (ents V' row').Perm (ents V row)

theorem SameSystem.length {V V' : Factor K} {row row' : SpVec ℝ} (h : SameSystem V V' row row') : row'.length = row.length := by
  have := h.ents.length_eq
  simpa [Ials.ents] using this

theorem SameSystem.mat {V V' : Factor K} {row row' : SpVec ℝ} (h : SameSystem V V' row row') (P : Matrix (Fin K) (Fin K) ℝ) (d : ℝ) :
    sysMat P (Ials.ents V' row') d = sysMat P (Ials.ents V row) d := by
  funext i j
  unfold sysMat
  rw [(h.ents.map _).sum_eq]

theorem SameSystem.rhs {V V' : Factor K} {row row' : SpVec ℝ} (h : SameSystem V V' row row') (cfg : Config) (b : Vec K) :
    sysRhs cfg V' row' b = sysRhs cfg V row b := by
  unfold sysRhs
  have : ∀ (V : Factor K) (row : SpVec ℝ), row.map (fun e => (bias cfg + e.2) • V.row e.1) =
      (Ials.ents V row).map (fun e => (bias cfg + e.2) • e.1) := by
    intro V row
    rw [Ials.ents, List.map_map]; rfl
  rw [this, this, (h.ents.map _).sum_eq]

theorem SameSystem.block {V V' : Factor K} {row row' : SpVec ℝ} (h : SameSystem V V' row row') (lo hi : Nat)
    (P : Matrix (Dims K lo hi) (Dims K lo hi) ℝ) (d : ℝ) :
    sysMat P (blockEnts V' row') d = sysMat P (blockEnts V row) d := by
  have : ∀ (V : Factor K) (row : SpVec ℝ), (blockEnts V row : List ((Dims K lo hi → ℝ) × ℝ)) =
      (Ials.ents V row).map (fun e => (fun i => e.1 i.1, e.2)) := by
    intro V row
    rw [Ials.ents, blockEnts, List.map_map]; rfl
  funext i j
  unfold sysMat
  rw [this, this, ((h.ents.map _).map _).sum_eq]

theorem sameSystem {X X' : CSR ℝ} {σ π : Nat → Nat} (h : Renamed X X' σ π) (hX : Spec.Sim.Proper X)
    (hX' : Spec.Sim.Proper X') (hz : Spec.Sim.NoStoredZero X) (hz' : Spec.Sim.NoStoredZero X') {V V' : Factor K}
    (hV : FacRel X.cols π V V') {u : Nat} (hu : u < X.nrows) : SameSystem V V' (X.row u) (X'.row (σ u)) where
  n := by rw [hV.n, hV.n']
  ents := by
    refine ((row_perm h hX hX' hz hz' hu).map _).trans (List.Perm.of_eq ?_)
    rw [List.map_map, ents]
    refine List.map_congr_left (fun e he => ?_)
    simp only [Function.comp]
    rw [hV.rows e.1 ((mem_row_iff hX hz hu e).mp he).1]

theorem gramP_rename {n : Nat} {π : Nat → Nat} (hπ : Renames n π) {V V' : Factor K} (hV : FacRel n π V V') (cfg : Config) :
    gramP cfg V' = gramP cfg V := by
  funext i j
  unfold gramP
  rw [hV.n, hV.n']
  congr 1
  exact (hπ.sum _ _ (fun r hr => by rw [hV.rows r hr])).symm

/-! ### half-steps -/

section
variable {ω : Oracle T} {ω' : Oracle T'} (hω : ω.Complete) (hω' : ω'.Complete) (hT : 0 < T) (hT' : 0 < T')
  {X X' : CSR ℝ} {σ π : Nat → Nat} (h : Renamed X X' σ π) (hX : Spec.Sim.Proper X) (hX' : Spec.Sim.Proper X')
  (hz : Spec.Sim.NoStoredZero X) (hz' : Spec.Sim.NoStoredZero X') (hnn : ∀ row ∈ X.rows, NonNegRow row)
  (hnn' : ∀ row ∈ X'.rows, NonNegRow row) (cfg : Config) {V V' F F' : Factor K} (hV : FacRel X.cols π V V')
  (hF : FacRel X.nrows σ F F') (P : Matrix (Fin K) (Fin K) ℝ) (hP : ∀ i j, P i j = P j i)
include hω hω' hT hT' h hX hX' hz hz' hV hF

omit hω hω' hT hT' h hX hX' hz hz' hV hF in
theorem relE_refl {A : Type} (x : Except Err A) : RelE (fun a b => b = a) x x := by
  cases x with
  | ok a => exact .ok rfl
  | error e => exact .error _ _

include hP hnn hnn' in
theorem stepCholesky_rel : RelE (FacRel X.nrows σ) (stepCholesky ω cfg P X V F) (stepCholesky ω' cfg P X' V' F') := by
  unfold stepCholesky
  rw [hF.n, hF.n']
  refine (parRows_rel hω hω' hT hT' h.renamesUsers 1 1 one_pos one_pos _ _ _ _ (fun _ a b => b = a) ?_).map ?_
  · intro r hr
    have hr' : σ r < X'.nrows := by rw [h.users]; exact h.renamesUsers.bound r hr
    have hR := sameSystem h hX hX' hz hz' hV hr
    rw [choleskyRow_eq cfg P hP V _ (nonNeg_row hnn r), choleskyRow_eq cfg P hP V' _ (nonNeg_row hnn' _),
      hR.length, hR.n, hR.mat, hR.rhs]
    exact relE_refl _
  · intro a b hab _ _
    exact ⟨hF.n, hF.n', hab⟩

theorem stepCg_rel (sc : SolverConfig) (q q' : Option (Factor K))
    (hq : (q = none ∧ q' = none) ∨ ∃ p p', q = some p ∧ q' = some p' ∧ FacRel X.nrows σ p p') :
    RelE (FacRel X.nrows σ) (stepCg ω cfg sc P X V q F) (stepCg ω' cfg sc P X' V' q' F') := by
  unfold stepCg
  have hc1 : q.any (fun q => decide (q.n ≠ F.n)) = false := by
    rcases hq with ⟨rfl, -⟩ | ⟨p, p', rfl, -, hp⟩
    · rfl
    · simp [hp.n, hF.n]
  have hc2 : q'.any (fun q => decide (q.n ≠ F'.n)) = false := by
    rcases hq with ⟨-, rfl⟩ | ⟨p, p', -, rfl, hp⟩
    · rfl
    · simp [hp.n', hF.n']
  rw [if_neg (by rw [hc1]; decide), if_neg (by rw [hc2]; decide)]
  rw [hF.n, hF.n']
  refine (parRows_rel hω hω' hT hT' h.renamesUsers 1 1 one_pos one_pos _ _ _ _ (fun _ a b => b = a) ?_).map ?_
  · intro r hr
    have hR := sameSystem h hX hX' hz hz' hV hr
    have hqr : q'.map (fun q => q.row (σ r)) = q.map (fun q => q.row r) := by
      rcases hq with ⟨rfl, rfl⟩ | ⟨p, p', rfl, rfl, hp⟩
      · rfl
      · simp [hp.rows r hr]
    rw [hF.rows r hr, hqr]
    by_cases hne : (q.map (fun q => q.row r)).isNone = true ∧ (X.row r).length = 0
    · have hne' : (q.map (fun q => q.row r)).isNone = true ∧ (X'.row (σ r)).length = 0 := by rw [hR.length]; exact hne
      unfold cgRow
      rw [if_pos hne, if_pos hne']
      exact .ok rfl
    · have hne' : ¬ ((q.map (fun q => q.row r)).isNone = true ∧ (X'.row (σ r)).length = 0) := by rw [hR.length]; exact hne
      rw [cgRow_eq _ _ _ _ _ _ _ hne, cgRow_eq _ _ _ _ _ _ _ hne']
      simp only
      rw [hR.length, hR.n, hR.mat, hR.rhs]
      exact relE_refl _
  · intro a b hab _ _
    exact ⟨hF.n, hF.n', hab⟩

include hP hnn hnn' in
theorem stepCholeskyPrior_rel {q q' : Factor K} (hq : FacRel X.nrows σ q q') :
    RelE (FacRel X.nrows σ) (stepCholeskyPrior ω cfg P X V q F) (stepCholeskyPrior ω' cfg P X' V' q' F') := by
  unfold stepCholeskyPrior
  rw [if_neg (by rw [hq.n, hF.n]; simp), if_neg (by rw [hq.n', hF.n']; simp)]
  rw [hF.n, hF.n']
  refine (parRows_rel hω hω' hT hT' h.renamesUsers 1 1 one_pos one_pos _ _ _ _ (fun _ a b => b = a) ?_).map ?_
  · intro r hr
    have hR := sameSystem h hX hX' hz hz' hV hr
    rw [choleskyPriorRow_eq cfg P hP V _ _ (nonNeg_row hnn r), choleskyPriorRow_eq cfg P hP V' _ _ (nonNeg_row hnn' _),
      hR.length, hR.n, hR.mat, hR.rhs, hq.rows r hr]
    exact relE_refl _
  · intro a b hab _ _
    exact ⟨hF.n, hF.n', hab⟩

end

/-- corresponding states of iALS++ -/
structure PpRel (X X' : CSR ℝ) (V V' : Factor K) (σ : Nat → Nat) (s s' : Factor K × (Nat → List ℝ)) : Prop where
  fac : FacRel X.nrows σ s.1 s'.1
  preds : PredsOk X V s
  preds' : PredsOk X' V' s'

section
variable {ω : Oracle T} {ω' : Oracle T'} (hω : ω.Complete) (hω' : ω'.Complete) (hT : 0 < T) (hT' : 0 < T')
  {X X' : CSR ℝ} {σ π : Nat → Nat} (h : Renamed X X' σ π) (hX : Spec.Sim.Proper X) (hX' : Spec.Sim.Proper X')
  (hz : Spec.Sim.NoStoredZero X) (hz' : Spec.Sim.NoStoredZero X') (hnn : ∀ row ∈ X.rows, NonNegRow row)
  (hnn' : ∀ row ∈ X'.rows, NonNegRow row) {cfg : Config} (hreg : 0 ≤ cfg.reg) (ha : 0 ≤ cfg.alpha0)
  {V V' : Factor K} (hV : FacRel X.cols π V V')
include hω hω' hT hT' h hX hX' hz hz' hV hnn hnn'

theorem stepDimrange_rel (P : Matrix (Fin K) (Fin K) ℝ) (hP : ∀ i j, P i j = P j i) (lo hi : Nat)
    (s s' : Factor K × (Nat → List ℝ)) (hs : PpRel X X' V V' σ s s') :
    RelE (PpRel X X' V V' σ) (stepDimrange ω cfg P X V lo hi s) (stepDimrange ω' cfg P X' V' lo hi s') := by
  have hrel : RelE (fun a a' => ∀ r, r < X.nrows → (a' (σ r)).1 = (a r).1)
      (parRows ω s.1.n 1 (fun r y => dimrangeRow cfg P V lo hi (X.row r) (s.1.row r) y)
        (fun r => (fun i => s.1.row r i.1, s.2 r)))
      (parRows ω' s'.1.n 1 (fun r y => dimrangeRow cfg P V' lo hi (X'.row r) (s'.1.row r) y)
        (fun r => (fun i => s'.1.row r i.1, s'.2 r))) := by
    rw [hs.fac.n, hs.fac.n']
    refine parRows_rel hω hω' hT hT' h.renamesUsers 1 1 one_pos one_pos _ _ _ _
      (fun _ (a b : (Dims K lo hi → ℝ) × List ℝ) => b.1 = a.1) ?_
    intro r hr
    have hr' : σ r < X.nrows := h.renamesUsers.bound r hr
    have hR := sameSystem h hX hX' hz hz' hV hr
    rw [hs.preds r (by rw [hs.fac.n]; exact hr), hs.preds' (σ r) (by rw [hs.fac.n']; exact hr'), hs.fac.rows r hr,
      dimrangeRow_eq cfg P hP V lo hi _ (nonNeg_row hnn r), dimrangeRow_eq cfg P hP V' lo hi _ (nonNeg_row hnn' _)]
    simp only
    have hb := hR.block lo hi (fun i j : Dims K lo hi => P i.1 j.1) (computeReg cfg (X.row r).length V.n)
    rw [hR.length, hR.n, hR.mat, hR.rhs, hb]
    split
    · exact .ok rfl
    · exact .error _ _
  have hok := fun s₁ (hs1 : stepDimrange ω cfg P X V lo hi s = .ok s₁) =>
    (stepDimrange_progress hω hT cfg P hP X V lo hi s s₁ (fun r _ => nonNeg_row hnn r) hs.preds hs1).2
  have hok' := fun s₁ (hs1 : stepDimrange ω' cfg P X' V' lo hi s' = .ok s₁) =>
    (stepDimrange_progress hω' hT' cfg P hP X' V' lo hi s' s₁ (fun r _ => nonNeg_row hnn' r) hs.preds' hs1).2
  have := hrel.map (S := PpRel X X' V V' σ)
    (f := fun m => (s.1.setRows (fun r k => if h : lo ≤ k.val ∧ k.val < hi then (m r).1 ⟨k, h⟩
      else s.1.row r k), fun r => (m r).2))
    (f' := fun m => (s'.1.setRows (fun r k => if h : lo ≤ k.val ∧ k.val < hi then (m r).1 ⟨k, h⟩
      else s'.1.row r k), fun r => (m r).2)) (by
      intro a a' haa h1 h2
      refine ⟨⟨hs.fac.n, hs.fac.n', fun r hr => ?_⟩, hok _ ?_, hok' _ ?_⟩
      · funext k
        simp only [Factor.setRows]
        split
        · rw [haa r hr]
        · rw [hs.fac.rows r hr]
      · unfold stepDimrange; rw [h1]; rfl
      · unfold stepDimrange; rw [h2]; rfl)
  exact this

include hreg ha in
theorem stepIcdDim_rel (d : Fin K)
    (s s' : Factor K × (Nat → List ℝ)) (hs : PpRel X X' V V' σ s s') :
    RelE (PpRel X X' V V' σ) (stepIcdDim ω cfg (gramP cfg V) X V d s) (stepIcdDim ω' cfg (gramP cfg V) X' V' d s') := by
  have hP := gramP_symm cfg V
  have hpos := gramP_nonneg cfg ha V
  have hrel : RelE (fun a a' => ∀ r, r < X.nrows → (a' (σ r)).1 = (a r).1)
      (parRows ω s.1.n 1 (fun r y => icdRow cfg (gramP cfg V) V d (X.row r) (s.1.row r) y)
        (fun r => (s.1.row r d, s.2 r)))
      (parRows ω' s'.1.n 1 (fun r y => icdRow cfg (gramP cfg V) V' d (X'.row r) (s'.1.row r) y)
        (fun r => (s'.1.row r d, s'.2 r))) := by
    rw [hs.fac.n, hs.fac.n']
    refine parRows_rel hω hω' hT hT' h.renamesUsers 1 1 one_pos one_pos _ _ _ _
      (fun _ (a b : ℝ × List ℝ) => b.1 = a.1) ?_
    intro r hr
    have hr' : σ r < X.nrows := h.renamesUsers.bound r hr
    have hR := sameSystem h hX hX' hz hz' hV hr
    rw [hs.preds r (by rw [hs.fac.n]; exact hr), hs.preds' (σ r) (by rw [hs.fac.n']; exact hr'), hs.fac.rows r hr,
      icdRow_eq, icdRow_eq]
    simp only
    rw [hR.length, hR.n, hR.mat, hR.rhs]
    split
    · exact .error _ _
    · exact .ok rfl
  have hok := fun s₁ (hs1 : stepIcdDim ω cfg (gramP cfg V) X V d s = .ok s₁) =>
    (stepIcdDim_progress hω hT cfg _ hP hpos X V d s s₁ (fun r _ => nonNeg_row hnn r)
      (fun r _ => computeReg_nonneg cfg hreg ha _ _) hs.preds hs1).2
  have hok' := fun s₁ (hs1 : stepIcdDim ω' cfg (gramP cfg V) X' V' d s' = .ok s₁) =>
    (stepIcdDim_progress hω' hT' cfg _ hP hpos X' V' d s' s₁ (fun r _ => nonNeg_row hnn' r)
      (fun r _ => computeReg_nonneg cfg hreg ha _ _) hs.preds' hs1).2
  exact hrel.map (S := PpRel X X' V V' σ)
    (f := fun m => (s.1.setRows (fun r => Function.update (s.1.row r) d (m r).1), fun r => (m r).2))
    (f' := fun m => (s'.1.setRows (fun r => Function.update (s'.1.row r) d (m r).1), fun r => (m r).2)) (by
      intro a a' haa h1 h2
      refine ⟨⟨hs.fac.n, hs.fac.n', fun r hr => ?_⟩, hok _ ?_, hok' _ ?_⟩
      · simp only [Factor.setRows]
        rw [haa r hr, hs.fac.rows r hr]
      · unfold stepIcdDim; rw [h1]; rfl
      · unfold stepIcdDim; rw [h2]; rfl)

end

section
variable {ω : Oracle T} {ω' : Oracle T'} (hω : ω.Complete) (hω' : ω'.Complete) (hT : 0 < T) (hT' : 0 < T')
  {X X' : CSR ℝ} {σ π : Nat → Nat} (h : Renamed X X' σ π) (hX : Spec.Sim.Proper X) (hX' : Spec.Sim.Proper X')
  (hz : Spec.Sim.NoStoredZero X) (hz' : Spec.Sim.NoStoredZero X') (hnn : ∀ row ∈ X.rows, NonNegRow row)
  (hnn' : ∀ row ∈ X'.rows, NonNegRow row) {cfg : Config} (hreg : 0 ≤ cfg.reg) (ha : 0 ≤ cfg.alpha0)
  {V V' : Factor K} (hV : FacRel X.cols π V V')
include hω hω' hT hT' h hX hX' hz hz' hV hnn hnn' hreg ha

theorem prediction_rel {F F' : Factor K} (hF : FacRel X.nrows σ F F') :
    RelE (fun p p' => PpRel X X' V V' σ (F, p) (F', p')) (prediction ω X F V) (prediction ω' X' F' V') := by
  obtain ⟨p, hp⟩ := prediction_total (X := X) (V := V) ha hreg hω hT F
  obtain ⟨p', hp'⟩ := prediction_total (X := X') (V := V') ha hreg hω' hT' F'
  rw [hp, hp']
  exact .ok ⟨hF, prediction_ok hω hT X F V p hp, prediction_ok hω' hT' X' F' V' p' hp'⟩

theorem stepIalspp_rel (sc : SolverConfig) {F F' : Factor K} (hF : FacRel X.nrows σ F F') :
    RelE (FacRel X.nrows σ) (stepIalspp ω cfg sc (gramP cfg V) X V F) (stepIalspp ω' cfg sc (gramP cfg V) X' V' F') := by
  unfold stepIalspp
  refine RelE.foldlM ?_ _ _ _ hF
  intro G G' it hG
  split
  · unfold ialsppIteration
    refine (prediction_rel ((hω.at it).at 0) ((hω'.at it).at 0) hT hT' h hX hX' hz hz' hnn hnn' hreg ha hV hG).bind ?_
    intro p p' hp _ _
    refine (RelE.foldlM ?_ _ _ _ hp).bind (fun s s' hs _ _ => .ok hs.fac)
    intro s s' b hs
    exact stepDimrange_rel (((hω.at it).at 1).at b.1) (((hω'.at it).at 1).at b.1) hT hT' h hX hX' hz hz' hnn hnn'
      hV _ (gramP_symm cfg V) _ _ s s' hs
  · unfold icdIteration
    refine (prediction_rel ((hω.at it).at 0) ((hω'.at it).at 0) hT hT' h hX hX' hz hz' hnn hnn' hreg ha hV hG).bind ?_
    intro p p' hp _ _
    refine (RelE.foldlM ?_ _ _ _ hp).bind (fun s s' hs _ _ => .ok hs.fac)
    intro s s' b hs
    exact stepIcdDim_rel (((hω.at it).at 1).at b.val) (((hω'.at it).at 1).at b.val) hT hT' h hX hX' hz hz' hnn hnn'
      hreg ha hV b s s' hs

theorem solverStep_rel (sc : SolverConfig) {F F' : Factor K} (hF : FacRel X.nrows σ F F') :
    RelE (FacRel X.nrows σ) (solverStep ω cfg sc (gramP cfg V) X V F)
      (solverStep ω' cfg sc (gramP cfg V') X' V' F') := by
  rw [gramP_rename h.renamesItems hV]
  unfold solverStep
  cases sc.solverType with
  | cg => exact stepCg_rel hω hω' hT hT' h hX hX' hz hz' cfg hV hF _ sc none none (Or.inl ⟨rfl, rfl⟩)
  | cholesky => exact stepCholesky_rel hω hω' hT hT' h hX hX' hz hz' hnn hnn' cfg hV hF _ (gramP_symm cfg V)
  | ialspp => exact stepIalspp_rel hω hω' hT hT' h hX hX' hz hz' hnn hnn' hreg ha hV sc hF

end

/-! ### features -/

theorem empty_row_rename {X X' : CSR ℝ} {σ π : Nat → Nat} (h : Renamed X X' σ π) (hX : Spec.Sim.Proper X)
    (hX' : Spec.Sim.Proper X') (hz : Spec.Sim.NoStoredZero X) (hz' : Spec.Sim.NoStoredZero X') :
    (∃ row ∈ X'.rows, row = []) ↔ ∃ row ∈ X.rows, row = [] := by
  have key : ∀ Y : CSR ℝ, (∃ row ∈ Y.rows, row = []) ↔ ∃ u, u < Y.nrows ∧ Y.row u = [] := by
    intro Y
    constructor
    · rintro ⟨row, hm, rfl⟩
      obtain ⟨u, hu, e⟩ := List.getElem_of_mem hm
      refine ⟨u, hu, ?_⟩
      unfold CSR.row
      rw [List.getD_eq_getElem?_getD, List.getElem?_eq_getElem hu, e]; rfl
    · rintro ⟨u, hu, e⟩
      exact ⟨Y.row u, Sim.row_mem Y hu, e⟩
  have hl : ∀ u, u < X.nrows → (X'.row (σ u) = [] ↔ X.row u = []) := by
    intro u hu
    have := (row_perm h hX hX' hz hz' hu).length_eq
    rw [List.length_map] at this
    rw [← List.length_eq_zero_iff, ← List.length_eq_zero_iff, this]
  rw [key, key]
  constructor
  · rintro ⟨u', hu', e⟩
    rw [h.users] at hu'
    obtain ⟨u, hu, rfl⟩ := h.renamesUsers.surj u' hu'
    exact ⟨u, hu, (hl u hu).mp e⟩
  · rintro ⟨u, hu, e⟩
    exact ⟨σ u, by rw [h.users]; exact h.renamesUsers.bound u hu, (hl u hu).mpr e⟩

section
variable {ω : Oracle T} {ω' : Oracle T'} (hω : ω.Complete) (hω' : ω'.Complete) (hT : 0 < T) (hT' : 0 < T')
  {X X' : CSR ℝ} {σ π : Nat → Nat} (h : Renamed X X' σ π) (hX : Spec.Sim.Proper X) (hX' : Spec.Sim.Proper X')
  (hz : Spec.Sim.NoStoredZero X) (hz' : Spec.Sim.NoStoredZero X') (hnn : ∀ row ∈ X.rows, NonNegRow row)
  (hnn' : ∀ row ∈ X'.rows, NonNegRow row) {cfg : Config}
  {V V' : Factor K} (hV : FacRel X.cols π V V')
include hω hω' hT hT' h hX hX' hz hz'

include hV hnn hnn' in
theorem solverStepPrior_rel (sc : SolverConfig) {F F' q q' : Factor K} (hF : FacRel X.nrows σ F F')
    (hq : FacRel X.nrows σ q q') :
    RelE (FacRel X.nrows σ) (solverStepPrior ω cfg sc (gramP cfg V) X V q F)
      (solverStepPrior ω' cfg sc (gramP cfg V') X' V' q' F') := by
  rw [gramP_rename h.renamesItems hV]
  unfold solverStepPrior
  by_cases hc : cfg.alpha0 = 0 ∧ ¬ 0 < computeReg cfg 0 V.n ∧ ∃ row ∈ X.rows, row = []
  · have hc' : cfg.alpha0 = 0 ∧ ¬ 0 < computeReg cfg 0 V'.n ∧ ∃ row ∈ X'.rows, row = [] := by
      rw [empty_row_rename h hX hX' hz hz', hV.n', ← hV.n]; exact hc
    rw [if_pos hc, if_pos hc']
    exact .error _ _
  · have hc' : ¬ (cfg.alpha0 = 0 ∧ ¬ 0 < computeReg cfg 0 V'.n ∧ ∃ row ∈ X'.rows, row = []) := by
      rw [empty_row_rename h hX hX' hz hz', hV.n', ← hV.n]; exact hc
    rw [if_neg hc, if_neg hc']
    cases sc.solverType with
    | cg => exact stepCg_rel hω hω' hT hT' h hX hX' hz hz' cfg hV hF _ sc _ _ (Or.inr ⟨q, q', rfl, rfl, hq⟩)
    | cholesky => exact stepCholeskyPrior_rel hω hω' hT hT' h hX hX' hz hz' hnn hnn' cfg hV hF _ (gramP_symm cfg V) hq
    | ialspp => exact .error _ _

variable {rows cols : Nat} (hrows : rows = X.nrows) {val val' : Nat → Nat → ℝ}
  (hval : ∀ r, r < X.nrows → ∀ f, f < cols → val' (σ r) f = val r f) (lam : ℝ) (other : Nat)

omit hω hω' hT hT' in
include hrows hval in
theorem initCache_gram :
    (initCache cfg ⟨rows, cols, val'⟩ lam X' other).gram = (initCache cfg ⟨rows, cols, val⟩ lam X other).gram := by
  unfold initCache
  simp only
  congr 1
  funext i j
  rw [hrows]
  refine (h.renamesUsers.sum _ _ (fun r hr => ?_)).symm
  have hl := (row_perm h hX hX' hz hz' hr).length_eq
  rw [List.length_map] at hl
  rw [hval r hr _ i.2, hval r hr _ j.2, hl]

omit hω hω' hT hT' in
theorem initCache_weights (r : Nat) (hr : r < X.nrows) :
    (initCache cfg ⟨rows, cols, val'⟩ lam X' other).rowWeights (σ r) =
      (initCache cfg ⟨rows, cols, val⟩ lam X other).rowWeights r := by
  have hl := (row_perm h hX hX' hz hz' hr).length_eq
  rw [List.length_map] at hl
  unfold initCache
  simp only
  rw [hl]

/-- corresponding caches -/
def CacheRel (X : CSR ℝ) (σ : Nat → Nat) {cols : Nat} (c c' : Cache cols) : Prop :=
  c'.gram = c.gram ∧ ∀ r, r < X.nrows → c'.rowWeights (σ r) = c.rowWeights r

include hrows hval in
theorem updateFeatureWeight_rel {F F' : Factor K} (hF : FacRel X.nrows σ F F') (W : Weight K)
    (c c' : Option (Cache cols)) (hc : (c = none ∧ c' = none) ∨ ∃ d d', c = some d ∧ c' = some d' ∧ CacheRel X σ d d') :
    RelE (fun a a' => a'.1 = a.1 ∧ ((a.2 = none ∧ a'.2 = none) ∨ ∃ d d', a.2 = some d ∧ a'.2 = some d' ∧ CacheRel X σ d d'))
      (updateFeatureWeight ω cfg ⟨rows, cols, val⟩ F W lam X other c)
      (updateFeatureWeight ω' cfg ⟨rows, cols, val'⟩ F' W lam X' other c') := by
  unfold updateFeatureWeight
  simp only
  by_cases h0 : cols = 0
  · rw [if_pos h0, if_pos h0]; exact .ok ⟨rfl, hc⟩
  · rw [if_neg h0, if_neg h0]
    have hcache : RelE (CacheRel X σ) (featureCache cfg ⟨rows, cols, val⟩ lam X other c)
        (featureCache cfg ⟨rows, cols, val'⟩ lam X' other c') := by
      rcases hc with ⟨rfl, rfl⟩ | ⟨d, d', rfl, rfl, hd⟩
      · have hg := initCache_gram (cfg := cfg) h hX hX' hz hz' hrows hval lam other
        unfold featureCache
        simp only
        rw [hg]
        by_cases hp : PosDef (upperSymm (initCache cfg ⟨rows, cols, val⟩ lam X other).gramᵀ)
        · rw [if_pos hp, if_pos hp]
          exact .ok ⟨hg, fun r hr => initCache_weights h hX hX' hz hz' lam other r hr⟩
        · rw [if_neg hp, if_neg hp]
          exact .error _ _
      · exact .ok hd
    refine hcache.bind (fun d d' hd _ _ => ?_)
    refine RelE.bind (R := fun a a' => a' = a) ?_ (fun a a' haa _ _ => .ok ⟨haa, Or.inr ⟨d, d', rfl, rfl, hd⟩⟩)
    unfold solveFeatureWeight
    rw [if_neg (c := T = 0) (by omega), if_neg (c := T' = 0) (by omega)]
    by_cases hK : K = 0
    · rw [if_pos hK, if_pos hK]; exact .ok rfl
    rw [if_neg hK, if_neg hK]
    have hrhs : ∀ (k : Fin K) (f : Fin cols), ∑ r ∈ Finset.range rows, val' r f.val * (F'.row r k * d'.rowWeights r) =
        ∑ r ∈ Finset.range rows, val r f.val * (F.row r k * d.rowWeights r) := by
      intro k f
      rw [hrows]
      refine (h.renamesUsers.sum _ _ (fun r hr => ?_)).symm
      rw [hval r hr _ f.2, hF.rows r hr, hd.2 r hr]
    have hsolve : d'.solve = d.solve := by
      unfold Cache.solve; rw [hd.1]
    simp only
    have hpos : ∀ t, 0 < t → 0 < (K + min t K - 1) / min t K := by
      intro t ht
      have : 0 < min t K := by omega
      exact Nat.div_pos (by omega) this
    refine (parRows_rel hω hω' hT hT' (Renames.id K) _ _ (hpos T hT) (hpos T' hT') _ _ _ _ (fun _ a b => b = a) ?_).map ?_
    · intro k hk
      refine .ok ?_
      rw [dif_pos hk, dif_pos hk, hsolve]
      congr 1
      funext f
      exact hrhs _ _
    · intro a b hab _ _
      congr 1
      funext f k
      split
      · rw [hab k.val k.2]
      · rfl

end

/-! ### trainers -/

theorem RelE.mono {A A' : Type} {R S : A → A' → Prop} {x : Except Err A} {x' : Except Err A'} (hx : RelE R x x')
    (hf : ∀ a a', R a a' → x = .ok a → x' = .ok a' → S a a') : RelE S x x' := by
  cases hx with
  | ok h => exact .ok (hf _ _ h rfl rfl)
  | error e e' => exact .error e e'

/-- feature matrices that correspond -/
structure FeatRel (size : Nat) (σ : Nat → Nat) (F F' : Features) : Prop where
  rows : F'.rows = F.rows
  cols : F'.cols = F.cols
  val : ∀ r, r < size → ∀ f, f < F.cols → F'.val (σ r) f = F.val r f

/-- trainers that correspond -/
structure TRel (X : CSR ℝ) (σ π : Nat → Nat) (tr tr' : Trainer K) : Prop where
  user : FacRel X.nrows σ tr.user tr'.user
  item : FacRel X.cols π tr.item tr'.item
  aware : tr'.featureAware = tr.featureAware
  epoch : tr'.epoch = tr.epoch
  userF : FeatRel X.nrows σ tr.userF tr'.userF
  itemF : FeatRel X.cols π tr.itemF tr'.itemF
  userW : tr'.userW = tr.userW
  itemW : tr'.itemW = tr.itemW
  userC : tr'.userCache.isSome = tr.userCache.isSome
  itemC : tr'.itemCache.isSome = tr.itemCache.isSome

theorem featureTimesWeight_rel {n : Nat} {σ : Nat → Nat} {F F' : Features} (h : FeatRel n σ F F') (hn : F.rows = n)
    (W : Weight K) : FacRel n σ (featureTimesWeight F W) (featureTimesWeight F' W) := by
  refine ⟨hn, ?_, fun r hr => ?_⟩
  · rw [← hn, ← h.rows]; rfl
  · funext k
    unfold featureTimesWeight
    simp only
    rw [h.cols]
    exact Finset.sum_congr rfl (fun f hf => by rw [h.val r hr f (Finset.mem_range.mp hf)])

/-- the caches of corresponding trainers correspond -/
theorem updateFeature_rel {ω : Oracle T} {ω' : Oracle T'} (hω : ω.Complete) (hω' : ω'.Complete) (hT : 0 < T) (hT' : 0 < T')
    {X X' : CSR ℝ} {σ π : Nat → Nat} (h : Renamed X X' σ π) (hX : Spec.Sim.Proper X) (hX' : Spec.Sim.Proper X')
    (hz : Spec.Sim.NoStoredZero X) (hz' : Spec.Sim.NoStoredZero X') {cfg : Config} {F F' : Features}
    (hFe : FeatRel X.nrows σ F F') (hrows : F.rows = X.nrows) (lam : ℝ) (other : Nat) {G G' : Factor K}
    (hG : FacRel X.nrows σ G G') (W : Weight K) (c : Option (Cache F.cols)) (c' : Option (Cache F'.cols))
    (hc : CacheOk cfg F lam X other c) (hc' : CacheOk cfg F' lam X' other c') (hcc : c'.isSome = c.isSome) :
    RelE (fun a a' => a'.1 = a.1 ∧ a'.2.isSome = a.2.isSome)
      (updateFeatureWeight ω cfg F G W lam X other c) (updateFeatureWeight ω' cfg F' G' W lam X' other c') := by
  obtain ⟨rows, cols, val⟩ := F
  obtain ⟨rows', cols', val'⟩ := F'
  obtain ⟨h1, h2, h3⟩ := hFe
  simp only at h1 h2 h3 hrows
  subst h1 h2
  refine (updateFeatureWeight_rel hω hω' hT hT' h hX hX' hz hz' hrows h3 lam other hG W c c' ?_).mono ?_
  · cases hd : c with
    | none =>
      rw [hd] at hcc
      exact Or.inl ⟨rfl, by cases c' with
        | none => rfl
        | some d => simp at hcc⟩
    | some d =>
      cases hd' : c' with
      | none => rw [hd, hd'] at hcc; simp at hcc
      | some d' =>
        refine Or.inr ⟨d, d', rfl, rfl, ?_⟩
        rw [(hc d hd).1, (hc' d' hd').1]
        exact ⟨initCache_gram h hX hX' hz hz' hrows h3 lam other,
          fun r hr => initCache_weights h hX hX' hz hz' lam other r hr⟩
  · rintro a a' ⟨h4, h5⟩ _ _
    refine ⟨h4, ?_⟩
    rcases h5 with ⟨e, e'⟩ | ⟨d, d', e, e', -⟩ <;> rw [e, e'] <;> rfl

section
variable {ω : Oracle T} {ω' : Oracle T'} (hω : ω.Complete) (hω' : ω'.Complete) (hT : 0 < T) (hT' : 0 < T')
  {X X' : CSR ℝ} {σ π : Nat → Nat} (h : Renamed X X' σ π)
  (hz : Spec.Sim.NoStoredZero X) (hz' : Spec.Sim.NoStoredZero X') {cfg : Config}
  (hv : Valid cfg X) (hv' : Valid cfg X') (sc : SolverConfig)
include hω hω' hT hT' h hz hz' hv hv'

theorem stepUser_rel {tr tr' : Trainer K} (hg : tr.Good) (hg' : tr'.Good) (hc : tr.cfg = cfg) (hc' : tr'.cfg = cfg)
    (hx : tr.X = X) (hx' : tr'.X = X') (hr : TRel X σ π tr tr') :
    RelE (TRel X σ π) (tr.stepUser ω sc) (tr'.stepUser ω' sc) := by
  unfold Trainer.stepUser
  rw [prepareP_eq (hω.at 0) hT, prepareP_eq (hω'.at 0) hT']
  show RelE _ (if _ then _ else _) (if _ then _ else _)
  by_cases hif : tr.featureAware = true ∧ tr.cfg.warmup ≤ tr.epoch ∧ 0 < tr.userW.rows
  · have hif' : tr'.featureAware = true ∧ tr'.cfg.warmup ≤ tr'.epoch ∧ 0 < tr'.userW.rows := by
      rw [hr.aware, hr.epoch, hr.userW, hc', ← hc]; exact hif
    rw [if_pos hif, if_pos hif', hr.userW]
    have hrows : tr.userF.rows = X.nrows := by rw [← hx]; exact hg.uF hif.1
    have h1 := solverStepPrior_rel (hω.at 1) (hω'.at 1) hT hT' h hv.proper hv'.proper hz hz' hv.nonneg hv'.nonneg
      (cfg := cfg) hr.item sc hr.user (featureTimesWeight_rel hr.userF hrows tr.userW)
    rw [hc, hc', hx, hx']
    refine h1.bind (fun G G' hG _ _ => ?_)
    have hn : tr'.item.n = tr.item.n := by rw [hr.item.n, hr.item.n']
    rw [hn]
    refine RelE.bind (updateFeature_rel (hω.at 2) (hω'.at 2) hT hT' h hv.proper hv'.proper hz hz' hr.userF hrows
      cfg.lambdaUser tr.item.n hG tr.userW tr.userCache tr'.userCache ?_ ?_ hr.userC) ?_
    · have := hg.uc; rw [hc, hx] at this; exact this
    · have := hg'.uc; rw [hc', hx', hn] at this; exact this
    · rintro ⟨w, c⟩ ⟨w', c'⟩ ⟨e1, e2⟩ _ _
      exact .ok ⟨hG, hr.item, hr.aware, hr.epoch, hr.userF, hr.itemF, e1, hr.itemW, e2, hr.itemC⟩
  · have hif' : ¬ (tr'.featureAware = true ∧ tr'.cfg.warmup ≤ tr'.epoch ∧ 0 < tr'.userW.rows) := by
      rw [hr.aware, hr.epoch, hr.userW, hc', ← hc]; exact hif
    rw [if_neg hif, if_neg hif', hc, hc', hx, hx']
    refine (solverStep_rel (hω.at 1) (hω'.at 1) hT hT' h hv.proper hv'.proper hz hz' hv.nonneg hv'.nonneg
      hv.reg hv.alpha0 hr.item sc hr.user).bind (fun G G' hG _ _ => ?_)
    exact .ok ⟨hG, hr.item, hr.aware, hr.epoch, hr.userF, hr.itemF, hr.userW, hr.itemW, hr.userC, hr.itemC⟩

theorem stepItem_rel {tr tr' : Trainer K} (hg : tr.Good) (hg' : tr'.Good) (hc : tr.cfg = cfg) (hc' : tr'.cfg = cfg)
    (hx : tr.X = X) (hx' : tr'.X = X') (hr : TRel X σ π tr tr') :
    RelE (TRel X σ π) (tr.stepItem ω sc) (tr'.stepItem ω' sc) := by
  have ht := renamed_transpose h hv.proper hv'.proper
  have hp := Sim.transpose_proper X hv.proper
  have hp' := Sim.transpose_proper X' hv'.proper
  have hzt := Sim.transpose_noZero X hz
  have hzt' := Sim.transpose_noZero X' hz'
  have hnr : (transpose X).nrows = X.cols := Sim.transpose_nrows X
  have hnc : (transpose X).cols = X.nrows := rfl
  have hXt : tr.Xt = transpose X := by rw [hg.Xt, hx]
  have hXt' : tr'.Xt = transpose X' := by rw [hg'.Xt, hx']
  have huser : FacRel (transpose X).cols σ tr.user tr'.user := hr.user
  have hitem : FacRel (transpose X).nrows π tr.item tr'.item := by rw [hnr]; exact hr.item
  have hFe : FeatRel (transpose X).nrows π tr.itemF tr'.itemF := by rw [hnr]; exact hr.itemF
  unfold Trainer.stepItem
  rw [prepareP_eq (hω.at 0) hT, prepareP_eq (hω'.at 0) hT']
  show RelE _ (if _ then _ else _) (if _ then _ else _)
  by_cases hif : tr.featureAware = true ∧ tr.cfg.warmup ≤ tr.epoch ∧ 0 < tr.itemW.rows
  · have hif' : tr'.featureAware = true ∧ tr'.cfg.warmup ≤ tr'.epoch ∧ 0 < tr'.itemW.rows := by
      rw [hr.aware, hr.epoch, hr.itemW, hc', ← hc]; exact hif
    rw [if_pos hif, if_pos hif', hr.itemW]
    have hrows : tr.itemF.rows = (transpose X).nrows := by rw [hnr, ← hx]; exact hg.iF hif.1
    have h1 := solverStepPrior_rel (hω.at 1) (hω'.at 1) hT hT' ht hp hp' hzt hzt' (transpose_nonNeg hv.nonneg)
      (transpose_nonNeg hv'.nonneg) (cfg := cfg) huser sc hitem (featureTimesWeight_rel hFe hrows tr.itemW)
    rw [hc, hc', hXt, hXt']
    refine h1.bind (fun G G' hG _ _ => ?_)
    have hn : tr'.user.n = tr.user.n := by rw [hr.user.n, hr.user.n']
    rw [hn]
    refine RelE.bind (updateFeature_rel (hω.at 2) (hω'.at 2) hT hT' ht hp hp' hzt hzt' hFe hrows
      cfg.lambdaItem tr.user.n hG tr.itemW tr.itemCache tr'.itemCache ?_ ?_ hr.itemC) ?_
    · have := hg.ic; rw [hc, hXt] at this; exact this
    · have := hg'.ic; rw [hc', hXt', hn] at this; exact this
    · rintro ⟨w, c⟩ ⟨w', c'⟩ ⟨e1, e2⟩ _ _
      exact .ok ⟨hr.user, hnr ▸ hG, hr.aware, hr.epoch, hr.userF, hr.itemF, hr.userW, e1, hr.userC, e2⟩
  · have hif' : ¬ (tr'.featureAware = true ∧ tr'.cfg.warmup ≤ tr'.epoch ∧ 0 < tr'.itemW.rows) := by
      rw [hr.aware, hr.epoch, hr.itemW, hc', ← hc]; exact hif
    rw [if_neg hif, if_neg hif', hc, hc', hXt, hXt']
    refine (solverStep_rel (hω.at 1) (hω'.at 1) hT hT' ht hp hp' hzt hzt' (transpose_nonNeg hv.nonneg)
      (transpose_nonNeg hv'.nonneg) hv.reg hv.alpha0 huser sc hitem).bind (fun G G' hG _ _ => ?_)
    exact .ok ⟨hr.user, hnr ▸ hG, hr.aware, hr.epoch, hr.userF, hr.itemF, hr.userW, hr.itemW, hr.userC, hr.itemC⟩

theorem step_rel {tr tr' : Trainer K} (hg : tr.Good) (hg' : tr'.Good) (hc : tr.cfg = cfg) (hc' : tr'.cfg = cfg)
    (hx : tr.X = X) (hx' : tr'.X = X') (hr : TRel X σ π tr tr') :
    RelE (TRel X σ π) (tr.step ω sc) (tr'.step ω' sc) := by
  unfold Trainer.step
  rw [hr.aware]
  split
  · exact .error _ _
  refine (stepUser_rel (hω.at 0) (hω'.at 0) hT hT' h hz hz' hv hv' sc hg hg' hc hc' hx hx' hr).bind ?_
  intro tr₁ tr₁' h1 e1 e1'
  obtain ⟨g1, c1, x1, -⟩ := stepUser_good (hω.at 0) tr tr₁ hg e1 (hx ▸ hv.proper) (hx ▸ hv.nonneg) (hc ▸ hv.reg)
    (hc ▸ hv.alpha0)
  obtain ⟨g1', c1', x1', -⟩ := stepUser_good (hω'.at 0) tr' tr₁' hg' e1' (hx' ▸ hv'.proper) (hx' ▸ hv'.nonneg)
    (hc' ▸ hv'.reg) (hc' ▸ hv'.alpha0)
  refine (stepItem_rel (hω.at 1) (hω'.at 1) hT hT' h hz hz' hv hv' sc g1 g1' (c1.trans hc) (c1'.trans hc')
    (x1.trans hx) (x1'.trans hx') h1).bind ?_
  intro tr₂ tr₂' h2 _ _
  exact .ok ⟨h2.user, h2.item, h2.aware, by simp only [h2.epoch], h2.userF, h2.itemF, h2.userW, h2.itemW, h2.userC, h2.itemC⟩

end

end Irspack.Ials
