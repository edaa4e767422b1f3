import Verif.Proofs.FloatIals
import Verif.Props.IalsStep

/-!
# C79: iALS in single precision
-/

namespace Irspack.Props

open Irspack Irspack.Ials Spec Spec.Ials WorkQueue Rounding

variable {K T : Nat} {u eta : ℝ} {M : Float.Machine K}

/-- C79 (sums in any order).  However a library orders the additions of `n` numbers (vectorised, in
blocks, with fused multiply-add or without), the result is off by at most `(1 + u)^n - 1` times the sum of
their absolute values. -/
theorem C79_any_order (h0 : 0 ≤ u) (s : Multiset ℝ) (r : ℝ) (h : AddedUp u s r) :
    |r - s.sum| ≤ ((1 + u) ^ s.card - 1) * (s.map (fun x => |x|)).sum :=
  (addedUp_near h0 h).2.err

/-- C79 (Gram matrix).  The matrix `α₀ Vᵀ V` that every half-epoch starts from: for every number of
threads, every interleaving of the workers and every order of summation inside Eigen, each entry is the
exact one up to `17 ⌈n / 16⌉ + T + 1` roundings. -/
theorem C79_gram (hM : Accurate u eta M) {ω : Oracle T} (hω : ω.Complete) (cfg : Config)
    (ha : 0 ≤ cfg.alpha0) (V : Factor K) (P : Matrix (Fin K) (Fin K) ℝ)
    (h : Float.prepareP M ω cfg V = .ok P) (i j : Fin K) :
    |P i j - cfg.alpha0 * ∑ r ∈ Finset.range V.n, V.row r i * V.row r j| ≤
      ((1 + u) ^ (17 * ((V.n + 15) / 16) + T + 1) - 1) *
        (cfg.alpha0 * ∑ r ∈ Finset.range V.n, |V.row r i * V.row r j|) :=
  (Float.prepareP_near hM hω cfg ha V P h i j).2.err

/-- The matrix is refused without threads, and computed otherwise. -/
theorem C79_gram_total (ω : Oracle T) (cfg : Config) (V : Factor K) :
    (T = 0 → Float.prepareP M ω cfg V = .error .invalidArgument) ∧
    (0 < T → ∃ P, Float.prepareP M ω cfg V = .ok P) := by
  unfold Float.prepareP
  constructor
  · intro h; rw [if_pos h]
  · intro h; rw [if_neg (by omega)]; exact ⟨_, rfl⟩

theorem halfEpoch_rows {ω : Oracle T} (hω : ω.Complete) (cfg : Config) (X : CSR ℝ) (V F F' : Factor K)
    (h : Float.halfEpoch M ω cfg X V F = .ok F') :
    F'.n = F.n ∧ ∃ P, Float.prepareP M (ω.at 0) cfg V = .ok P ∧
      ∀ r, r < F.n → Float.choleskyRow M cfg P V (X.row r) = .ok (F'.row r) := by
  unfold Float.halfEpoch at h
  obtain ⟨P, hP, h⟩ := bind_ok h
  obtain ⟨m, hm, rfl⟩ := map_ok h
  have hT : 0 < T := by
    rcases Nat.eq_zero_or_pos T with h0 | h0
    · rw [(C79_gram_total (M := M) (ω.at 0) cfg V).1 h0] at hP; cases hP
    · exact h0
  have hres := parRows_ok (hω.at 1) hT Nat.one_pos hm
  exact ⟨rfl, P, hP, fun r hr => hres.1 r hr⟩

theorem scale_eq (cfg : Config) (X : CSR ℝ) (hX : Spec.Sim.Proper X) (V : Factor K) (hV : V.n = X.cols)
    (w : Nat) (k : Fin K) :
    scale (paramsOf cfg) (Data.ofCSR X) V.row w k =
      Real.sqrt (Float.exactMat cfg V (X.row w) k k) := by
  classical
  unfold scale
  congr 1
  rw [weight_ofCSR cfg X hX]
  unfold Float.exactMat sysMat gramP
  rw [if_pos rfl, hV]
  congr 1
  congr 1
  · have : (paramsOf cfg).alpha0 = cfg.alpha0 := rfl
    rw [this]
    congr 1
    exact Finset.sum_congr rfl (fun r _ => sq _)
  · refine (sum_filter_entries X hX w (fun i c => c * V.row i k ^ 2)).trans ?_
    unfold ents
    rw [List.map_map]
    congr 1
    apply List.map_congr_left
    intro e _
    simp only [Function.comp, sq]

theorem rhsScale_eq (cfg : Config) (X : CSR ℝ) (hX : Spec.Sim.Proper X) (V : Factor K)
    (w : Nat) (k : Fin K) :
    rhsScale (paramsOf cfg) (Data.ofCSR X) V.row w k =
      ((X.row w).map (fun e => (bias cfg + e.2) * |V.row e.1 k|)).sum := by
  classical
  unfold rhsScale
  rw [bias_eq]
  refine (sum_filter_entries X hX w (fun i c => (c + bias cfg) * |V.row i k|)).trans ?_
  congr 1
  apply List.map_congr_left
  intro e _
  rw [add_comm]

theorem userCount_eq (cfg : Config) (X : CSR ℝ) (hX : Spec.Sim.Proper X) (w : Nat) :
    (Data.ofCSR X).userCount w = (X.row w).length := by
  classical
  unfold Data.userCount
  rw [length_entries (X.row w) X.cols (Sim.row_nodup hX w) (Sim.row_bound hX w)]
  congr 1
  ext i
  simp [Data.ofCSR]

/-- the number of roundings in the system of a user with `L` items, for `n` items and `T` threads, where
`nu ≤ m` -/
def systemRoundings (n T L m : Nat) : Nat := 17 * ((n + 15) / 16) + T + 1 + 2 * L + 3 * m + 7

/-- C79 (embeddings).  A half-epoch with the Cholesky solver in single precision, for every number of
threads, every interleaving and every order of summation inside Eigen: the embedding computed for every
user solves the user's linear system (`C43_system_is_optimality`) up to `residualBound`, componentwise. -/
theorem C79_residual (hM : Accurate u eta M) (h8 : u ≤ 1 / 8) {ω : Oracle T} (hω : ω.Complete) (cfg : Config)
    (X : CSR ℝ) (hv : Valid cfg X) (hp : RegPositive cfg X) (m : Nat) (hn : 0 ≤ cfg.nu) (hm : cfg.nu ≤ m)
    (V F F' : Factor K) (hV : V.n = X.cols) (hF : F.n = X.nrows)
    (h : Float.halfEpoch M ω cfg X V F = .ok F') (w : Nat) (hw : w < X.nrows) (k : Fin K) :
    |systemAt (paramsOf cfg) (Data.ofCSR X) V.row w (F'.row w) k -
        systemRhs (paramsOf cfg) (Data.ofCSR X) V.row w k| ≤
      residualBound u eta (systemRoundings X.cols T ((Data.ofCSR X).userCount w) m)
        (2 * (Data.ofCSR X).userCount w + 1) (paramsOf cfg) (Data.ofCSR X) V.row w (F'.row w) k := by
  obtain ⟨-, P, hP, hrow⟩ := halfEpoch_rows hω cfg X V F F' h
  have hl : 0 < computeReg cfg (X.row w).length V.n := by rw [hV]; exact regPos_row hv hp hw
  have key := Float.row_residual hM h8 (hω.at 0) cfg hv.alpha0 hv.reg hn hm V P hP (X.row w)
    (nonNeg_row hv.nonneg w) hl (F'.row w) (hrow w (by rw [hF]; exact hw)) k
  unfold residualBound
  rw [userCount_eq cfg X hv.proper, rhsScale_eq cfg X hv.proper, scale_eq cfg X hv.proper V hV]
  simp only [scale_eq cfg X hv.proper V hV]
  rw [systemAt_eq cfg X hv.proper V hV, systemRhs_eq cfg X hv.proper]
  have e1 : sysRhs cfg V (X.row w) 0 k =
      ((X.row w).map (fun e => (bias cfg + e.2) * V.row e.1 k)).sum := by
    unfold sysRhs
    rw [zero_add, listSum_apply]
    rfl
  rw [e1]
  have e2 : Float.matrixRoundings V.n T (X.row w).length m =
      systemRoundings X.cols T (X.row w).length m := by rw [hV]; rfl
  rw [e2] at key
  exact key

theorem quad_near {A : Matrix (Fin K) (Fin K) ℝ} (hA : ∀ i j, A i j = A j i) {lam : ℝ} (hl : 0 < lam)
    (hpos : ∀ x : Vec K, lam * (x ⬝ᵥ x) ≤ x ⬝ᵥ A.mulVec x) (b x y : Vec K) :
    quad A b x ≤ quad A b y + normSq (A.mulVec x - b) / lam := by
  have h1 := quad_add hA b x (y - x)
  rw [add_sub_cancel] at h1
  have h2 := hpos (y - x)
  set d := y - x with hd
  rw [normSq_eq]
  have e : d ⬝ᵥ (b - A.mulVec x) = -(d ⬝ᵥ (A.mulVec x - b)) := by
    rw [← dotProduct_neg, neg_sub]
  set r := A.mulVec x - b with hr
  rw [e] at h1
  have h3 : 0 ≤ (lam • d + r) ⬝ᵥ (lam • d + r) := dot_self_nonneg _
  have h4 : (lam • d + r) ⬝ᵥ (lam • d + r) = lam ^ 2 * (d ⬝ᵥ d) + 2 * lam * (d ⬝ᵥ r) + r ⬝ᵥ r := by
    rw [add_dotProduct, dotProduct_add, dotProduct_add, smul_dotProduct, smul_dotProduct, dotProduct_smul,
      dotProduct_smul, dotProduct_comm r d]
    simp only [smul_eq_mul]
    ring
  rw [h4] at h3
  have h5 : 0 ≤ lam * (d ⬝ᵥ d) + 2 * (d ⬝ᵥ r) + (r ⬝ᵥ r) / lam := by
    have : lam * (d ⬝ᵥ d) + 2 * (d ⬝ᵥ r) + (r ⬝ᵥ r) / lam =
        (lam ^ 2 * (d ⬝ᵥ d) + 2 * lam * (d ⬝ᵥ r) + r ⬝ᵥ r) / lam := by
      field_simp
    rw [this]
    exact div_nonneg h3 hl.le
  linarith

theorem normSq_le {a b : Fin K → ℝ} (h : ∀ k, |a k| ≤ b k) : normSq a ≤ ∑ k, b k ^ 2 := by
  unfold normSq
  refine Finset.sum_le_sum (fun k _ => ?_)
  have := h k
  rw [← sq_abs]
  exact pow_le_pow_left₀ (abs_nonneg _) this 2

/-- C79 (the loss).  After such a half-epoch no other choice of user embeddings has a loss that is smaller
by more than `Σ_u ‖residualBound_u‖² / (2 λ_u)`: rounding, threads and interleavings cost at most
that much. -/
theorem C79_near_optimal (hM : Accurate u eta M) (h8 : u ≤ 1 / 8) {ω : Oracle T} (hω : ω.Complete)
    (cfg : Config) (X : CSR ℝ) (hv : Valid cfg X) (hp : RegPositive cfg X) (m : Nat) (hn : 0 ≤ cfg.nu)
    (hm : cfg.nu ≤ m) (V F F' : Factor K) (hV : V.n = X.cols) (hF : F.n = X.nrows)
    (h : Float.halfEpoch M ω cfg X V F = .ok F') (A : Nat → Fin K → ℝ) :
    loss (paramsOf cfg) (Data.ofCSR X) F'.row V.row ≤ loss (paramsOf cfg) (Data.ofCSR X) A V.row +
      ∑ w ∈ Finset.range X.nrows,
        (∑ k, residualBound u eta (systemRoundings X.cols T ((Data.ofCSR X).userCount w) m)
          (2 * (Data.ofCSR X).userCount w + 1) (paramsOf cfg) (Data.ofCSR X) V.row w (F'.row w) k ^ 2) /
        (2 * userWeight (paramsOf cfg) (Data.ofCSR X) w) := by
  simp only [loss_eq_priorLoss, priorLoss_eq]
  set R : Nat → ℝ := fun w => ∑ k, residualBound u eta
    (systemRoundings X.cols T ((Data.ofCSR X).userCount w) m) (2 * (Data.ofCSR X).userCount w + 1)
    (paramsOf cfg) (Data.ofCSR X) V.row w (F'.row w) k ^ 2 with hR
  have hrow : ∀ w ∈ Finset.range (Data.ofCSR X).U,
      rowObj (paramsOf cfg) (Data.ofCSR X) 0 V.row w (F'.row w) ≤
        rowObj (paramsOf cfg) (Data.ofCSR X) 0 V.row w (A w) +
          R w / userWeight (paramsOf cfg) (Data.ofCSR X) w := by
    intro w hw
    have hw' : w < X.nrows := Finset.mem_range.mp hw
    have hl : 0 < computeReg cfg (X.row w).length V.n := by rw [hV]; exact regPos_row hv hp hw'
    rw [rowObj_ofCSR cfg X hv.proper V hV, rowObj_ofCSR cfg X hv.proper V hV, smul_zero,
      weight_ofCSR cfg X hv.proper, ← hV]
    have hq := quad_near (rowMat_symm (cfg := cfg) (X := X) (V := V) hv.alpha0 hv.reg w) hl
      (rowMat_lower hv.alpha0 (nonNeg_row hv.nonneg w)) (sysRhs cfg V (X.row w) 0) (F'.row w) (A w)
    have hres : normSq ((rowMat cfg (gramP cfg V) X V w).mulVec (F'.row w) - sysRhs cfg V (X.row w) 0) ≤
        R w := by
      refine normSq_le (fun k => ?_)
      have := C79_residual hM h8 hω cfg X hv hp m hn hm V F F' hV hF h w hw' k
      rw [systemAt_eq cfg X hv.proper V hV, systemRhs_eq cfg X hv.proper] at this
      exact this
    have hd := div_le_div_of_nonneg_right hres hl.le
    unfold rowMat at hq hd
    linarith
  have hsum := Finset.sum_le_sum hrow
  rw [Finset.sum_add_distrib] at hsum
  have e : ∑ w ∈ Finset.range X.nrows, R w / (2 * userWeight (paramsOf cfg) (Data.ofCSR X) w) =
      1 / 2 * ∑ w ∈ Finset.range (Data.ofCSR X).U, R w / userWeight (paramsOf cfg) (Data.ofCSR X) w := by
    rw [Finset.mul_sum]
    refine Finset.sum_congr rfl (fun w _ => ?_)
    rw [mul_comm 2, ← div_div]
    ring
  rw [e]
  linarith

/-- C79 (item half-epochs).  The same for the embeddings of the items, whose half-epoch works on the
transposed matrix. -/
theorem C79_items_near_optimal (hM : Accurate u eta M) (h8 : u ≤ 1 / 8) {ω : Oracle T} (hω : ω.Complete)
    (cfg : Config) (X : CSR ℝ) (hv : Valid cfg X) (hp : RegPositive cfg (transpose X)) (m : Nat)
    (hn : 0 ≤ cfg.nu) (hm : cfg.nu ≤ m) (U F F' : Factor K) (hU : U.n = X.nrows) (hF : F.n = X.cols)
    (h : Float.halfEpoch M ω cfg (transpose X) U F = .ok F') (B : Nat → Fin K → ℝ) :
    loss (paramsOf cfg) (Data.ofCSR X) U.row F'.row ≤ loss (paramsOf cfg) (Data.ofCSR X) U.row B +
      ∑ i ∈ Finset.range X.cols,
        (∑ k, residualBound u eta (systemRoundings X.nrows T ((Data.ofCSR X).itemCount i) m)
          (2 * (Data.ofCSR X).itemCount i + 1) (paramsOf cfg) (Data.ofCSR X).swap U.row i (F'.row i) k ^ 2) /
        (2 * itemWeight (paramsOf cfg) (Data.ofCSR X) i) := by
  have hvt : Valid cfg (transpose X) :=
    ⟨Sim.transpose_proper X hv.proper, transpose_nonNeg hv.nonneg, hv.reg, hv.alpha0⟩
  have key := C79_near_optimal hM h8 hω cfg (transpose X) hvt hp m hn hm U F F' hU
    (by rw [hF, Sim.transpose_nrows]) h B
  rw [ofCSR_transpose X hv.proper, loss_eq_priorLoss, loss_eq_priorLoss, priorLoss_swap, priorLoss_swap,
    ← loss_eq_priorLoss, ← loss_eq_priorLoss, Sim.transpose_nrows] at key
  exact key

/-- C79 (threads).  Two half-epochs on the same data with different machines, numbers of threads and
interleavings: the embeddings of a user differ by at most the two residual bounds divided by the user's
regularisation. -/
theorem C79_threads {T₂ : Nat} {u₂ eta₂ : ℝ} {M₂ : Float.Machine K} (hM : Accurate u eta M)
    (hM₂ : Accurate u₂ eta₂ M₂) (h8 : u ≤ 1 / 8) (h8' : u₂ ≤ 1 / 8) {ω : Oracle T} {ω₂ : Oracle T₂}
    (hω : ω.Complete) (hω₂ : ω₂.Complete) (cfg : Config) (X : CSR ℝ) (hv : Valid cfg X)
    (hp : RegPositive cfg X) (m : Nat) (hn : 0 ≤ cfg.nu) (hm : cfg.nu ≤ m) (V F F₁ F₂ : Factor K)
    (hV : V.n = X.cols) (hF : F.n = X.nrows) (h₁ : Float.halfEpoch M ω cfg X V F = .ok F₁)
    (h₂ : Float.halfEpoch M₂ ω₂ cfg X V F = .ok F₂) (w : Nat) (hw : w < X.nrows) :
    userWeight (paramsOf cfg) (Data.ofCSR X) w ^ 2 * normSq (F₁.row w - F₂.row w) ≤
      ∑ k, (residualBound u eta (systemRoundings X.cols T ((Data.ofCSR X).userCount w) m)
          (2 * (Data.ofCSR X).userCount w + 1) (paramsOf cfg) (Data.ofCSR X) V.row w (F₁.row w) k +
        residualBound u₂ eta₂ (systemRoundings X.cols T₂ ((Data.ofCSR X).userCount w) m)
          (2 * (Data.ofCSR X).userCount w + 1) (paramsOf cfg) (Data.ofCSR X) V.row w (F₂.row w) k) ^ 2 := by
  have r1 := C79_residual hM h8 hω cfg X hv hp m hn hm V F F₁ hV hF h₁ w hw
  have r2 := C79_residual hM₂ h8' hω₂ cfg X hv hp m hn hm V F F₂ hV hF h₂ w hw
  rw [weight_ofCSR cfg X hv.proper, normSq_eq, ← hV]
  refine distance_of_residual (computeReg_nonneg cfg hv.reg hv.alpha0 _ _)
    (rowMat_lower hv.alpha0 (nonNeg_row hv.nonneg w)) rfl ?_
  rw [← normSq_eq, ← systemAt_eq cfg X hv.proper V hV, ← systemAt_eq cfg X hv.proper V hV, hV]
  refine normSq_le (fun k => ?_)
  have e : (systemAt (paramsOf cfg) (Data.ofCSR X) V.row w (F₁.row w) -
      systemAt (paramsOf cfg) (Data.ofCSR X) V.row w (F₂.row w)) k =
      (systemAt (paramsOf cfg) (Data.ofCSR X) V.row w (F₁.row w) k -
        systemRhs (paramsOf cfg) (Data.ofCSR X) V.row w k) +
      -(systemAt (paramsOf cfg) (Data.ofCSR X) V.row w (F₂.row w) k -
        systemRhs (paramsOf cfg) (Data.ofCSR X) V.row w k) := by
    rw [Pi.sub_apply]; ring
  rw [e]
  refine le_trans (abs_add_le _ _) ?_
  rw [abs_neg]
  exact add_le_add (r1 k) (r2 k)

/-- C79 (no refusals).  When a user's regularisation dominates the rounding errors of the user's system,
for every user, the half-epoch succeeds: the factorisation is refused for nobody, whatever the number of
threads and the interleaving. -/
theorem C79_succeeds (hM : Accurate u eta M) (h8 : u ≤ 1 / 8) {margin : ℝ} (hmar : 0 ≤ margin)
    (hllt : AcceptsDefinite margin M.llt) (hT : 0 < T) {ω : Oracle T} (hω : ω.Complete) (cfg : Config)
    (X : CSR ℝ) (hv : Valid cfg X) (hp : RegPositive cfg X) (m : Nat) (hn : 0 ≤ cfg.nu) (hm : cfg.nu ≤ m)
    (V F : Factor K) (hV : V.n = X.cols) (hF : F.n = X.nrows)
    (hdom : ∀ w < X.nrows,
      ((1 + u) ^ systemRoundings X.cols T ((Data.ofCSR X).userCount w) m - 1 +
        margin * (1 + u) ^ systemRoundings X.cols T ((Data.ofCSR X).userCount w) m) *
          ∑ k, scale (paramsOf cfg) (Data.ofCSR X) V.row w k ^ 2 <
        userWeight (paramsOf cfg) (Data.ofCSR X) w) :
    ∃ F', Float.halfEpoch M ω cfg X V F = .ok F' ∧ F'.n = F.n := by
  obtain ⟨P, hP⟩ := (C79_gram_total (M := M) (ω.at 0) cfg V).2 hT
  have hrow : ∀ r, ∃ x, r < F.n → Float.choleskyRow M cfg P V (X.row r) = .ok x := by
    intro r
    by_cases hr : r < F.n
    · rw [hF] at hr
      have hl : 0 < computeReg cfg (X.row r).length V.n := by rw [hV]; exact regPos_row hv hp hr
      have hd := hdom r hr
      rw [userCount_eq cfg X hv.proper, weight_ofCSR cfg X hv.proper, ← hV] at hd
      simp only [scale_eq cfg X hv.proper V hV] at hd
      have hs : ∀ k, Real.sqrt (Float.exactMat cfg V (X.row r) k k) ^ 2 =
          Float.exactMat cfg V (X.row r) k k := fun k =>
        Real.sq_sqrt (Float.absMat_le hv.alpha0 (nonNeg_row hv.nonneg r) hl k k).1.le
      simp only [hs] at hd
      obtain ⟨x, hx⟩ := Float.row_succeeds hM h8 hmar hllt (hω.at 0) cfg hv.alpha0 hv.reg hn hm V P hP
        (X.row r) (nonNeg_row hv.nonneg r) hd hl
      exact ⟨x, fun _ => hx⟩
    · exact ⟨0, fun h => absurd h hr⟩
  choose g hg using hrow
  have hpar := parRows_total (hω.at 1) hT Nat.one_pos (f := fun r (_ : Vec K) =>
    Float.choleskyRow M cfg P V (X.row r)) (m := F.row) g hg
  refine ⟨F.setRows (fun r => if r < F.n then g r else F.row r), ?_, rfl⟩
  unfold Float.halfEpoch
  rw [hP]
  change (parRows (ω.at 1) F.n 1 (fun r _ => Float.choleskyRow M cfg P V (X.row r)) F.row).map F.setRows = _
  rw [hpar]
  rfl

/-- C79 (scores).  `get_score` computes one score per user and item; each is the product of the two
embeddings up to `n_components` roundings, for every number of threads and every interleaving. -/
theorem C79_scores (hM : Accurate u eta M) (hK : 0 < K) {ω : Oracle T} (hω : ω.Complete)
    (user item : Factor K) (b e : Nat) (size : Nat) (s : Nat → Nat → ℝ)
    (h : Float.userScores M ω user item b e = .ok (size, s)) :
    size = e - b ∧ ∀ r i, r < e - b → i < item.n →
      |s r i - score (user.row (r + b)) (item.row i)| ≤
        ((1 + u) ^ K - 1) * ∑ k, |user.row (r + b) k * item.row i k| := by
  unfold Float.userScores at h
  by_cases hT : T = 0
  · rw [if_pos hT] at h; cases h
  rw [if_neg hT] at h
  by_cases h1 : e < b
  · rw [if_pos h1] at h; cases h
  rw [if_neg h1] at h
  by_cases h2 : user.n < e
  · rw [if_pos h2] at h; cases h
  rw [if_neg h2] at h
  obtain ⟨m, hm, hres⟩ := map_ok h
  cases hres
  refine ⟨rfl, fun r i hr hi => ?_⟩
  have hrow := (parRows_ok hω (Nat.pos_of_ne_zero hT) (show 0 < scoreChunk T (e - b) by unfold scoreChunk; omega) hm).1 r hr
  have := (Except.ok.inj hrow).symm
  rw [this]
  simp only [if_pos hi]
  have key := (addedUp_near hM.unit (hM.dot (user.row (r + b)) (item.row i) hK)).2.err
  rw [Multiset.coe_card, List.length_map, List.length_finRange, Multiset.map_coe, Multiset.sum_coe,
    Multiset.sum_coe, List.map_map, ← Fin.sum_univ_def, ← Fin.sum_univ_def] at key
  exact key

/-- C79 (scores, refusals). -/
theorem C79_scores_refused (ω : Oracle T) (user item : Factor K) (b e : Nat)
    (h : T = 0 ∨ e < b ∨ user.n < e) : Float.userScores M ω user item b e = .error .invalidArgument := by
  unfold Float.userScores
  by_cases hT : T = 0
  · rw [if_pos hT]
  rw [if_neg hT]
  by_cases h1 : e < b
  · rw [if_pos h1]
  rw [if_neg h1, if_pos (by tauto)]

/-- C79 (ranking).  If an item beats another by more than the two error bounds, every run, whatever its
threads and vectorisation, ranks it higher. -/
theorem C79_ranking (hM : Accurate u eta M) (hK : 0 < K) {ω : Oracle T} (hω : ω.Complete)
    (user item : Factor K) (b e : Nat) (size : Nat) (s : Nat → Nat → ℝ)
    (h : Float.userScores M ω user item b e = .ok (size, s)) (r i j : Nat) (hr : r < e - b)
    (hi : i < item.n) (hj : j < item.n)
    (hgap : score (user.row (r + b)) (item.row j) + ((1 + u) ^ K - 1) *
        (∑ k, |user.row (r + b) k * item.row i k| + ∑ k, |user.row (r + b) k * item.row j k|) <
      score (user.row (r + b)) (item.row i)) :
    s r j < s r i := by
  have hs := (C79_scores hM hK hω user item b e size s h).2
  have h1 := abs_le.mp (hs r i hr hi)
  have h2 := abs_le.mp (hs r j hr hj)
  linarith [h1.1, h2.2]

/-! ## Single precision -/

/-- The products are added to the accumulator one after the other, each rounded. -/
noncomputable def addSeq (fl : ℝ → ℝ) (a : ℝ) (l : List ℝ) : ℝ := l.foldl (fun s x => fl (s + fl x)) a

theorem addSeq_addedUp {fl : ℝ → ℝ} (hf : Rounds u fl) (l : List ℝ) :
    ∀ (s : Multiset ℝ) (a : ℝ), AddedUp u s a → AddedUp u (s + ↑l) (addSeq fl a l) := by
  induction l with
  | nil => intro s a h; simpa [addSeq] using h
  | cons x l ih =>
    intro s a h
    have h1 : AddedUp u (s + {x}) (fl (a + fl x)) :=
      AddedUp.add s {x} a (fl x) _ h (AddedUp.rounded x _ (hf x)) (hf _)
    have := ih _ _ h1
    have e : s + {x} + (l : Multiset ℝ) = s + ((x :: l : List ℝ) : Multiset ℝ) := by
      rw [add_assoc]; rfl
    rw [e] at this
    exact this

/-- IEEE single precision, one operation at a time, and a Cholesky solver without rounding errors of its
own. -/
noncomputable def single (K : Nat) : Float.Machine K where
  fl := toNearest 24
  sqrt := fun c => toNearest 24 (Real.sqrt c)
  pow := fun x y => toNearest 24 (x ^ y)
  gram := fun rows P i j => addSeq (toNearest 24) (P i j) (rows.map (fun v => v i * v j))
  rank := fun rows P i j =>
    if i ≤ j then addSeq (toNearest 24) (P i j) (rows.map (fun v => v i * v j)) else P i j
  axpy := fun c v b => addSeq (toNearest 24) b [c * v]
  llt := llt
  dot := fun x y =>
    match (List.finRange K).map (fun k => x k * y k) with
    | [] => 0
    | p :: l => addSeq (toNearest 24) (toNearest 24 p) l

/-- The assumptions hold for single precision, with `u = 2⁻²⁴`. -/
theorem C79_single (K : Nat) : Accurate (2 ^ (-24 : ℤ)) 0 (single K) where
  unit := by positivity
  stable := le_refl 0
  rounds := toNearest_rounds 24
  sqrt := fun c _ => by
    have := toNearest_rounds 24 (Real.sqrt c)
    rwa [abs_of_nonneg (Real.sqrt_nonneg c)] at this
  pow := fun x y hx => by
    have := toNearest_rounds 24 (x ^ y)
    rwa [abs_of_nonneg (Real.rpow_nonneg hx y)] at this
  gram := fun rows P i j => addSeq_addedUp (toNearest_rounds 24) _ {P i j} _ (AddedUp.exact _)
  rank := fun rows P i j hij => by
    change AddedUp _ _ (if i ≤ j then _ else _)
    rw [if_pos hij]
    exact addSeq_addedUp (toNearest_rounds 24) _ {P i j} _ (AddedUp.exact _)
  axpy := fun c v b => addSeq_addedUp (toNearest_rounds 24) [c * v] {b} b (AddedUp.exact _)
  llt := by
    intro A b x h
    refine ⟨0, fun i j => by simp, fun i => ?_⟩
    change llt A b = some x at h
    unfold llt at h
    by_cases hp : PosDef (upperSymm A)
    · rw [if_pos hp] at h
      have hx := Option.some.inj h
      have := congrFun (hp.solve b) i
      rw [hx] at this
      simpa [Matrix.mulVec, dotProduct, upperSymm] using this
    · rw [if_neg hp] at h; cases h
  dot := fun x y hK => by
    change AddedUp _ _ (match (List.finRange K).map (fun k => x k * y k) with
      | [] => 0
      | p :: l => addSeq (toNearest 24) (toNearest 24 p) l)
    cases hl : (List.finRange K).map (fun k => x k * y k) with
    | nil =>
      have := congrArg List.length hl
      rw [List.length_map, List.length_finRange] at this
      simp at this
      omega
    | cons p l =>
      exact addSeq_addedUp (toNearest_rounds 24) l {p} _ (AddedUp.rounded p _ (toNearest_rounds 24 p))

/-- Its solver refuses no positive definite matrix. -/
theorem C79_single_accepts (K : Nat) : AcceptsDefinite 0 (single K).llt := by
  intro A b h
  have hp : PosDef (upperSymm A) := by
    intro x hx
    have h1 := h x hx
    rw [zero_mul] at h1
    have e : x ⬝ᵥ (upperSymm A).mulVec x = ∑ i, ∑ j, x i * (if i ≤ j then A i j else A j i) * x j := by
      unfold dotProduct Matrix.mulVec dotProduct
      refine Finset.sum_congr rfl (fun i _ => ?_)
      rw [Finset.mul_sum]
      exact Finset.sum_congr rfl (fun j _ => by unfold upperSymm; ring)
    rw [e]
    exact h1
  change llt A b ≠ none
  unfold llt
  rw [if_pos hp]
  exact Option.some_ne_none _

/-! ### Threads change the last digit -/

/-- 33 embeddings of dimension 1, three of them not zero and in different blocks of 16 -/
noncomputable def lastDigitV : Factor 1 where
  n := 33
  row := fun r _ => if r = 0 then 1 else if r = 16 ∨ r = 32 then 3 / 2 ^ 14 else 0

/-- a configuration with `alpha0 = 1` -/
def lastDigitCfg : Config where
  K := 1
  alpha0 := 1
  reg := 1
  nu := 1
  initStdev := 1
  randomSeed := 0
  lossType := .ialspp
  lambdaUser := 0
  lambdaItem := 0
  warmup := 0

/-- An oracle that plays a given schedule in the region of `prepare_p` over three blocks. -/
def playing (ω : Oracle T) (sched : List (Fin T)) : Oracle T :=
  fun lab n c => if lab = [] ∧ n = 3 ∧ c = 1 then sched else ω lab n c

theorem playing_complete {ω : Oracle T} (hω : ω.Complete) (sched : List (Fin T))
    (h : Finished (run 3 1 (fun _ l m => (l, m)) (init () () : State T Unit Unit) sched)) :
    (playing ω sched).Complete := by
  intro lab n c hc
  unfold playing
  by_cases he : lab = [] ∧ n = 3 ∧ c = 1
  · rw [if_pos he]
    obtain ⟨-, rfl, rfl⟩ := he
    exact h
  · rw [if_neg he]
    exact hω lab n c hc

/-- one worker takes the three blocks -/
def oneWorker : List (Fin 1) := [0, 0, 0, 0, 0, 0, 0, 0, 0, 0]

/-- of two workers, one takes the first block and the other the second and third -/
def twoWorkers : List (Fin 2) := [0, 0, 1, 1, 1, 1, 1, 1, 1, 0, 0]

theorem fl_one : toNearest 24 (1 : ℝ) = 1 := by
  rw [toNearest_eq 24 _ 0 8388608] <;> norm_num

theorem fl_small : toNearest 24 (9 / 2 ^ 28 : ℝ) = 9 / 2 ^ 28 := by
  rw [toNearest_eq 24 _ (-25) 9437184] <;> norm_num

theorem fl_twice : toNearest 24 (9 / 2 ^ 27 : ℝ) = 9 / 2 ^ 27 := by
  rw [toNearest_eq 24 _ (-24) 9437184] <;> norm_num

theorem fl_lost : toNearest 24 (1 + 9 / 2 ^ 28 : ℝ) = 1 := by
  rw [toNearest_eq 24 _ 0 8388608] <;> norm_num

theorem fl_kept : toNearest 24 (1 + 9 / 2 ^ 27 : ℝ) = 8388609 / 2 ^ 23 := by
  rw [toNearest_eq 24 _ 0 8388609] <;> norm_num

theorem fl_last : toNearest 24 (8388609 / 2 ^ 23 : ℝ) = 8388609 / 2 ^ 23 := by
  rw [toNearest_eq 24 _ 0 8388609] <;> norm_num

theorem fl_zero : toNearest 24 (0 : ℝ) = 0 := by simp [toNearest]

/-- adding zeros changes nothing -/
theorem addSeq_zeros {a : ℝ} (ha : toNearest 24 a = a) (n : Nat) :
    addSeq (toNearest 24) a (List.replicate n 0) = a := by
  induction n with
  | zero => rfl
  | succ n ih =>
    rw [List.replicate_succ]
    unfold addSeq
    rw [List.foldl_cons, fl_zero, add_zero, ha]
    exact ih

theorem block₀ : (Float.blockRows lastDigitV 0).map (fun v => v 0 * v 0) = 1 :: List.replicate 15 0 := by
  simp [Float.blockRows, lastDigitV, List.range_succ, List.replicate]

theorem block₁ : (Float.blockRows lastDigitV 1).map (fun v => v 0 * v 0) =
    9 / 2 ^ 28 :: List.replicate 15 0 := by
  simp [Float.blockRows, lastDigitV, List.range_succ, List.replicate]
  norm_num

theorem block₂ : (Float.blockRows lastDigitV 2).map (fun v => v 0 * v 0) = [9 / 2 ^ 28] := by
  simp [Float.blockRows, lastDigitV, List.range_succ, List.replicate]
  norm_num

theorem gram₀ (P : Matrix (Fin 1) (Fin 1) ℝ) (hP : P 0 0 = 0) :
    (single 1).gram (Float.blockRows lastDigitV 0) P 0 0 = 1 := by
  change addSeq (toNearest 24) (P 0 0) ((Float.blockRows lastDigitV 0).map (fun v => v 0 * v 0)) = 1
  rw [hP, block₀]
  unfold addSeq
  rw [List.foldl_cons, fl_one, zero_add, fl_one]
  exact addSeq_zeros fl_one 15

theorem gram₁ (P : Matrix (Fin 1) (Fin 1) ℝ) {x y : ℝ} (hP : P 0 0 = x)
    (hy : toNearest 24 (x + 9 / 2 ^ 28) = y) (hyy : toNearest 24 y = y) :
    (single 1).gram (Float.blockRows lastDigitV 1) P 0 0 = y := by
  change addSeq (toNearest 24) (P 0 0) ((Float.blockRows lastDigitV 1).map (fun v => v 0 * v 0)) = y
  rw [hP, block₁]
  unfold addSeq
  rw [List.foldl_cons, fl_small, hy]
  exact addSeq_zeros hyy 15

theorem gram₂ (P : Matrix (Fin 1) (Fin 1) ℝ) {x y : ℝ} (hP : P 0 0 = x)
    (hy : toNearest 24 (x + 9 / 2 ^ 28) = y) :
    (single 1).gram (Float.blockRows lastDigitV 2) P 0 0 = y := by
  change addSeq (toNearest 24) (P 0 0) ((Float.blockRows lastDigitV 2).map (fun v => v 0 * v 0)) = y
  rw [hP, block₂]
  unfold addSeq
  rw [List.foldl_cons, fl_small, hy]
  rfl

/-- C79.  Without the tolerance the statement is false: in single precision, one thread and two threads
(in a possible interleaving) compute different Gram matrices from the same embeddings, so training with a
fixed seed is not reproducible to the last digit. -/
theorem C79_bitwise_counterexample :
    ∃ (ω₁ : Oracle 1) (ω₂ : Oracle 2) (P₁ P₂ : Matrix (Fin 1) (Fin 1) ℝ), ω₁.Complete ∧ ω₂.Complete ∧
      Float.prepareP (single 1) ω₁ lastDigitCfg lastDigitV = .ok P₁ ∧
      Float.prepareP (single 1) ω₂ lastDigitCfg lastDigitV = .ok P₂ ∧ P₁ 0 0 ≠ P₂ 0 0 := by
  obtain ⟨ω₁, hω₁⟩ := exists_complete_oracle 1 (by norm_num)
  obtain ⟨ω₂, hω₂⟩ := exists_complete_oracle 2 (by norm_num)
  have c₁ : (playing ω₁ oneWorker).Complete := playing_complete hω₁ _ (by
    intro t; fin_cases t; rfl)
  have c₂ : (playing ω₂ twoWorkers).Complete := playing_complete hω₂ _ (by
    intro t; fin_cases t <;> rfl)
  have l₁ : (Float.gramRegion (single 1) (playing ω₁ oneWorker) lastDigitV).loc 0 =
      (single 1).gram (Float.blockRows lastDigitV 2) ((single 1).gram (Float.blockRows lastDigitV 1)
        ((single 1).gram (Float.blockRows lastDigitV 0) 0)) := rfl
  have l₂ : (Float.gramRegion (single 1) (playing ω₂ twoWorkers) lastDigitV).loc 0 =
      (single 1).gram (Float.blockRows lastDigitV 0) 0 := rfl
  have l₃ : (Float.gramRegion (single 1) (playing ω₂ twoWorkers) lastDigitV).loc 1 =
      (single 1).gram (Float.blockRows lastDigitV 2) ((single 1).gram (Float.blockRows lastDigitV 1) 0) := rfl
  refine ⟨playing ω₁ oneWorker, playing ω₂ twoWorkers, _, _, c₁, c₂, if_neg (by norm_num),
    if_neg (by norm_num), ?_⟩
  have g₁ := gram₂ _ (gram₁ _ (gram₀ 0 rfl) fl_lost fl_one) fl_lost
  have g₂ := gram₀ 0 rfl
  have g₃ := gram₂ _ (gram₁ (x := 0) 0 rfl (by rw [zero_add]; exact fl_small) fl_small)
    (y := 9 / 2 ^ 27) (by rw [← fl_twice]; congr 1; norm_num)
  rw [← l₁] at g₁
  rw [← l₂] at g₂
  rw [← l₃] at g₃
  have f₁ : List.finRange 1 = [0] := rfl
  have f₂ : List.finRange 2 = [0, 1] := rfl
  rw [f₁, f₂]
  change toNearest 24 (toNearest 24 (0 + _) * 1) ≠ toNearest 24 (toNearest 24 (toNearest 24 (0 + _) + _) * 1)
  rw [g₁, g₂, g₃, zero_add, fl_one, mul_one, fl_one, fl_kept, mul_one, fl_last]
  norm_num

/-! ### The hypotheses are met -/

/-- With two threads, the Gram matrix of the example embeddings is computed and obeys the bound. -/
example : ∃ (ω : Oracle 2) (P : Matrix (Fin 1) (Fin 1) ℝ), ω.Complete ∧
    Float.prepareP (single 1) ω lastDigitCfg lastDigitV = .ok P ∧
    |P 0 0 - (1 + 9 / 2 ^ 27)| ≤ ((1 + 2 ^ (-24 : ℤ)) ^ 54 - 1) * (1 + 9 / 2 ^ 27) := by
  obtain ⟨ω, hω⟩ := exists_complete_oracle 2 (by norm_num)
  obtain ⟨P, hP⟩ := (C79_gram_total (M := single 1) ω lastDigitCfg lastDigitV).2 (by norm_num)
  refine ⟨ω, P, hω, hP, ?_⟩
  have := C79_gram (C79_single 1) hω lastDigitCfg (by norm_num [lastDigitCfg]) lastDigitV P hP 0 0
  norm_num [lastDigitCfg, lastDigitV, Finset.sum_range_succ] at this ⊢
  exact this

/-- item embeddings for the example data, in two dimensions -/
noncomputable def itemsForRounding : Factor 2 where
  n := exampleX.cols
  row := fun i k => if k = 0 then 1 else i

theorem example_scale (w : Nat) (hw : w < exampleX.nrows) :
    ∑ k, scale (paramsOf exampleCfg) (Data.ofCSR exampleX) itemsForRounding.row w k ^ 2 ≤ 1000 ∧
    1 ≤ userWeight (paramsOf exampleCfg) (Data.ofCSR exampleX) w ∧
    (Data.ofCSR exampleX).userCount w ≤ 10 := by
  have hv := exampleValid.proper
  have hl : 0 < computeReg exampleCfg (exampleX.row w).length itemsForRounding.n :=
    regPos_row exampleValid exampleRegPositive hw
  have hs : ∀ k, scale (paramsOf exampleCfg) (Data.ofCSR exampleX) itemsForRounding.row w k ^ 2 =
      Float.exactMat exampleCfg itemsForRounding (exampleX.row w) k k := fun k => by
    rw [scale_eq exampleCfg exampleX hv itemsForRounding rfl]
    exact Real.sq_sqrt (Float.absMat_le exampleValid.alpha0 (nonNeg_row exampleValid.nonneg w) hl k k).1.le
  simp only [hs]
  rw [userCount_eq exampleCfg exampleX hv, weight_ofCSR exampleCfg exampleX hv]
  have : w = 0 ∨ w = 1 := by
    have : exampleX.nrows = 2 := rfl
    omega
  rcases this with rfl | rfl <;>
  · simp only [Float.exactMat, sysMat, gramP, ents, computeReg, exampleX, itemsForRounding, exampleCfg, CSR.row,
      Fin.sum_univ_two, Finset.sum_range_succ]
    norm_num

/-- The hypotheses of the theorems about half-epochs are met: in single precision, with two threads, the
half-epoch of the example succeeds, and no other embeddings of the users have a loss smaller by more than
the bound. -/
example : ∃ (ω : Oracle 2) (F F' : Factor 2), ω.Complete ∧ F.n = exampleX.nrows ∧
    Float.halfEpoch (single 2) ω exampleCfg exampleX itemsForRounding F = .ok F' ∧
    ∀ A : Nat → Fin 2 → ℝ, loss (paramsOf exampleCfg) (Data.ofCSR exampleX) F'.row itemsForRounding.row ≤
      loss (paramsOf exampleCfg) (Data.ofCSR exampleX) A itemsForRounding.row +
      ∑ w ∈ Finset.range exampleX.nrows,
        (∑ k, residualBound (2 ^ (-24 : ℤ)) 0
          (systemRoundings exampleX.cols 2 ((Data.ofCSR exampleX).userCount w) 1)
          (2 * (Data.ofCSR exampleX).userCount w + 1) (paramsOf exampleCfg) (Data.ofCSR exampleX)
          itemsForRounding.row w (F'.row w) k ^ 2) /
        (2 * userWeight (paramsOf exampleCfg) (Data.ofCSR exampleX) w) := by
  obtain ⟨ω, hω⟩ := exists_complete_oracle 2 (by norm_num)
  have h8 : (2 : ℝ) ^ (-24 : ℤ) ≤ 1 / 8 := by norm_num
  have hn : (0 : ℝ) ≤ exampleCfg.nu := by norm_num [exampleCfg]
  have hm : exampleCfg.nu ≤ (1 : Nat) := by norm_num [exampleCfg]
  obtain ⟨F', h, -⟩ := C79_succeeds (C79_single 2) h8 le_rfl (C79_single_accepts 2) (by norm_num) hω
    exampleCfg exampleX exampleValid exampleRegPositive 1 hn hm itemsForRounding
    ⟨exampleX.nrows, fun _ _ => 0⟩ rfl rfl (by
      intro w hw
      obtain ⟨h1, h2, h3⟩ := example_scale w hw
      refine lt_of_lt_of_le ?_ h2
      rw [zero_mul, add_zero]
      have hr : systemRoundings exampleX.cols 2 ((Data.ofCSR exampleX).userCount w) 1 ≤ 200 := by
        have : exampleX.cols = 2 := rfl
        unfold systemRoundings
        omega
      have hpow : ((1 : ℝ) + 2 ^ (-24 : ℤ)) ^ systemRoundings exampleX.cols 2
          ((Data.ofCSR exampleX).userCount w) 1 - 1 ≤ 1 / 2000 := by
        have := pow_le_pow_right₀ (by norm_num : (1 : ℝ) ≤ 1 + 2 ^ (-24 : ℤ)) hr
        have h200 : ((1 : ℝ) + 2 ^ (-24 : ℤ)) ^ 200 ≤ 1 / 2000 + 1 := by norm_num
        exact sub_le_iff_le_add.mpr (le_trans this h200)
      have hpos : (0 : ℝ) ≤ ∑ k, scale (paramsOf exampleCfg) (Data.ofCSR exampleX) itemsForRounding.row w k ^ 2 :=
        Finset.sum_nonneg (fun k _ => sq_nonneg _)
      exact lt_of_le_of_lt (mul_le_mul hpow h1 hpos (by norm_num)) (by norm_num))
  exact ⟨ω, _, F', hω, rfl, h, C79_near_optimal (C79_single 2) h8 hω exampleCfg exampleX exampleValid
    exampleRegPositive 1 hn hm itemsForRounding _ F' rfl rfl h⟩

end Irspack.Props
