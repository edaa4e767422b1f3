import Mathlib.Algebra.Order.Ring.Pow
import Verif.Proofs.FloatSum
import Verif.Proofs.Rounding
import Verif.Proofs.IalsSystem
import Verif.Spec.FloatMachine

/-!
# iALS in floating-point arithmetic: lemmas
-/

namespace Irspack.Ials.Float

open Irspack WorkQueue Spec Spec.Ials

variable {K T : Nat} {u eta : ℝ} {M : Machine K}

/-! ### Blocks -/

theorem sum_blocks {A : Type} [AddCommMonoid A] (f : Nat → A) (n m : Nat) :
    ∑ b ∈ Finset.range m, ((List.range (min 16 (n - 16 * b))).map (fun k => f (16 * b + k))).sum =
      ∑ r ∈ Finset.range (min (16 * m) n), f r := by
  induction m with
  | zero => simp
  | succ m ih =>
    rw [Finset.sum_range_succ, ih]
    have hl : ((List.range (min 16 (n - 16 * m))).map (fun k => f (16 * m + k))).sum =
        ∑ k ∈ Finset.range (min 16 (n - 16 * m)), f (16 * m + k) := by
      rw [Finset.sum_range]
      rw [Fin.sum_univ_def, ← List.map_coe_finRange_eq_range, List.map_map]
      rfl
    rw [hl]
    by_cases h : 16 * m ≤ n
    · have h1 : min (16 * m) n = 16 * m := by omega
      have h2 : min (16 * (m + 1)) n = 16 * m + min 16 (n - 16 * m) := by omega
      rw [h1, h2, Finset.sum_range_add]
    · have h1 : min 16 (n - 16 * m) = 0 := by omega
      have h2 : min (16 * (m + 1)) n = min (16 * m) n := by omega
      rw [h1, h2]
      simp

theorem blockRows_length (V : Factor K) (b : Nat) : (blockRows V b).length ≤ 16 := by
  unfold blockRows
  simp

/-! ### The Gram matrix -/

section
variable (hM : Accurate u eta M)
include hM

/-- one worker's block -/
theorem gram_step (V : Factor K) (i j : Fin K) (b k : Nat) (P : Matrix (Fin K) (Fin K) ℝ) (l : ℝ × ℝ)
    (h : NearBy u (17 * k) l.2 l.1 (P i j)) :
    NearBy u (17 * (k + 1))
      (l + (((blockRows V b).map (fun v => v i * v j)).sum,
        ((blockRows V b).map (fun v => |v i * v j|)).sum)).2
      (l + (((blockRows V b).map (fun v => v i * v j)).sum,
        ((blockRows V b).map (fun v => |v i * v j|)).sum)).1
      (M.gram (blockRows V b) P i j) := by
  have := NearBy.addedUp hM.unit (blockRows V b) (17 * k) (fun v => |v i * v j|) (fun v => v i * v j)
    (fun v => v i * v j) h (fun v _ => nearBy_refl hM.unit (le_refl _) _) (hM.gram _ P i j)
  exact this.mono hM.unit (by have := blockRows_length V b; omega)

theorem merge_near (s sh A : Fin T → ℝ) (d : Nat) (l : List (Fin T))
    (h : ∀ t, NearBy u d (A t) (s t) (sh t)) :
    ∀ (k : Nat) (B p ph : ℝ), NearBy u (d + k) B p ph →
      NearBy u (d + k + l.length) (B + (l.map A).sum) (p + (l.map s).sum)
        (l.foldl (fun x t => M.fl (x + sh t)) ph) := by
  induction l with
  | nil => intro k B p ph hp; simpa using hp
  | cons t l ih =>
    intro k B p ph hp
    have h1 := ((hp.add ((h t).mono hM.unit (Nat.le_add_right d k))).round hM.unit
      (hM.rounds (ph + sh t)))
    have := ih (k + 1) _ _ _ h1
    simp only [List.map_cons, List.sum_cons, List.length_cons, List.foldl_cons]
    rw [← add_assoc B, ← add_assoc p]
    exact this.mono hM.unit (by omega)

omit hM in
theorem foldl_entry (l : List (Fin T)) (loc : Fin T → Matrix (Fin K) (Fin K) ℝ) (i j : Fin K) :
    ∀ P : Matrix (Fin K) (Fin K) ℝ,
      l.foldl (fun (P : Matrix (Fin K) (Fin K) ℝ) t => fun i j => M.fl (P i j + loc t i j)) P i j =
        l.foldl (fun x t => M.fl (x + loc t i j)) (P i j) := by
  induction l with
  | nil => intro P; rfl
  | cons t l ih => intro P; exact ih _

/-- the number of roundings in the Gram matrix of `n` rows with `T` threads -/
def gramRoundings (n T : Nat) : Nat := 17 * blocks n + T + 1

theorem prepareP_near {ω : Oracle T} (hω : ω.Complete) (cfg : Config) (ha : 0 ≤ cfg.alpha0) (V : Factor K)
    (P : Matrix (Fin K) (Fin K) ℝ) (h : prepareP M ω cfg V = .ok P) (i j : Fin K) :
    0 < T ∧ NearBy u (gramRoundings V.n T)
      (cfg.alpha0 * ∑ r ∈ Finset.range V.n, |V.row r i * V.row r j|) (gramP cfg V i j) (P i j) := by
  unfold prepareP at h
  by_cases hT : T = 0
  · rw [if_pos hT] at h; cases h
  rw [if_neg hT] at h
  have hT' : 0 < T := Nat.pos_of_ne_zero hT
  refine ⟨hT', ?_⟩
  have hP := (Except.ok.inj h).symm
  subst hP
  simp only
  rw [foldl_entry]
  set g : Nat → ℝ × ℝ := fun b => (((blockRows V b).map (fun v => v i * v j)).sum,
    ((blockRows V b).map (fun v => |v i * v j|)).sum) with hg
  have hsim := Rounding.loc_sim (T := T) (n := blocks V.n) (c := 1) (fun b P => M.gram (blockRows V b) P)
    (fun b (l : ℝ × ℝ) => l + g b) (fun k P l => NearBy u (17 * k) l.2 l.1 (P i j))
    (fun b k P l hR => gram_step hM V i j b k P l hR) (ω [] (blocks V.n) 1)
    (init 0 ()) (init 0 ()) rfl rfl rfl (fun t => by
      simpa [WorkQueue.rowsOf, init] using nearBy_refl hM.unit (x := 0) (A := 0) (by simp) 0)
  have hfin := finished_of_complete hω [] (blocks V.n) 1 Nat.one_pos
    (fun b (P : Matrix (Fin K) (Fin K) ℝ) (m : Unit) => (M.gram (blockRows V b) P, m)) 0 ()
  have hperm := rows_perm (inv_run (fun b (P : Matrix (Fin K) (Fin K) ℝ) (m : Unit) =>
    (M.gram (blockRows V b) P, m)) (ω [] (blocks V.n) 1) (inv_init (blocks V.n) 1 0 ()))
    (fun t => Or.inl (hfin t)) ⟨⟨0, hT'⟩, hfin _⟩
  have hlen : (gramRegion M ω V).hist.length = blocks V.n := by
    have := hperm.length_eq
    rw [List.length_map, List.length_range] at this
    exact this
  set s' := run (blocks V.n) 1 (fun b (l : ℝ × ℝ) (m : Unit) => (l + g b, m))
    (init 0 () : State T (ℝ × ℝ) Unit) (ω [] (blocks V.n) 1) with hs'
  have hnear : ∀ t, NearBy u (17 * blocks V.n) (s'.loc t).2 (s'.loc t).1 ((gramRegion M ω V).loc t i j) := by
    intro t
    refine (hsim.2 t).mono hM.unit (Nat.mul_le_mul_left 17 ?_)
    exact le_trans (Rounding.rowsOf_le (gramRegion M ω V) t) hlen.le
  have hsum : ∑ t, s'.loc t = ∑ b ∈ Finset.range (blocks V.n), g b :=
    parSum_eq hω hT' (blocks V.n) 1 Nat.one_pos g
  have h16 : min (16 * blocks V.n) V.n = V.n := by unfold blocks; omega
  have hb : ∀ f : Vec K → ℝ, ∑ b ∈ Finset.range (blocks V.n), ((blockRows V b).map f).sum =
      ∑ r ∈ Finset.range V.n, f (V.row r) := by
    intro f
    have := sum_blocks (fun r => f (V.row r)) V.n (blocks V.n)
    rw [h16] at this
    rw [← this]
    refine Finset.sum_congr rfl (fun b _ => ?_)
    unfold blockRows
    rw [List.map_map]
    rfl
  have h1 : ∑ t, (s'.loc t).1 = ∑ r ∈ Finset.range V.n, V.row r i * V.row r j := by
    rw [← Prod.fst_sum, hsum, Prod.fst_sum]
    exact hb (fun v => v i * v j)
  have h2 : ∑ t, (s'.loc t).2 = ∑ r ∈ Finset.range V.n, |V.row r i * V.row r j| := by
    rw [← Prod.snd_sum, hsum, Prod.snd_sum]
    exact hb (fun v => |v i * v j|)
  have hm := merge_near hM (fun t => (s'.loc t).1) (fun t => (gramRegion M ω V).loc t i j)
    (fun t => (s'.loc t).2) (17 * blocks V.n) (List.finRange T) hnear 0 0 0 0
    (nearBy_refl hM.unit (by simp) _)
  rw [← Fin.sum_univ_def, ← Fin.sum_univ_def, zero_add, zero_add, List.length_finRange, h1, h2] at hm
  have hmul := hm.mul hM.unit (nearBy_refl hM.unit (x := cfg.alpha0) (A := cfg.alpha0)
    (by rw [abs_of_nonneg ha]) 0)
  have hfl := hmul.round hM.unit (hM.rounds _)
  unfold gramP
  rw [mul_comm cfg.alpha0, mul_comm cfg.alpha0]
  exact hfl.mono hM.unit (by unfold gramRoundings; omega)

/-! ### The regularisation -/

theorem near_pow (h8 : u ≤ 1 / 8) {x xh nu : ℝ} {m : Nat} (hx : 0 ≤ x) (hn : 0 ≤ nu) (hm : nu ≤ m)
    (h : NearBy u 3 x x xh) : 0 ≤ xh ∧ NearBy u (3 * m) (x ^ nu) (x ^ nu) (xh ^ nu) := by
  have h0 := hM.unit
  set δ := (1 + u) ^ 3 - 1 with hδ
  have hd0 : 0 ≤ δ := by have := one_le_pow' h0 3; linarith
  have hd1 : δ < 1 := by
    have : (1 + u) ^ 3 ≤ (1 + 1 / 8) ^ 3 := pow_le_pow_left₀ (by linarith) (by linarith) 3
    norm_num at this
    linarith
  have he := abs_le.mp h.err
  have hlo : (1 - δ) * x ≤ xh := by linarith [he.1]
  have hhi : xh ≤ (1 + δ) * x := by linarith [he.2]
  have hxh : 0 ≤ xh := le_trans (mul_nonneg (by linarith) hx) hlo
  refine ⟨hxh, ?_⟩
  have hxn : 0 ≤ x ^ nu := Real.rpow_nonneg hx nu
  refine ⟨by rw [abs_of_nonneg hxn], ?_⟩
  have hup : xh ^ nu ≤ (1 + δ) ^ m * x ^ nu := by
    calc xh ^ nu ≤ ((1 + δ) * x) ^ nu := Real.rpow_le_rpow hxh hhi hn
      _ = (1 + δ) ^ nu * x ^ nu := Real.mul_rpow (by linarith) hx
      _ ≤ (1 + δ) ^ m * x ^ nu := by
          refine mul_le_mul_of_nonneg_right ?_ hxn
          rw [← Real.rpow_natCast]
          exact Real.rpow_le_rpow_of_exponent_le (by linarith) hm
  have hdn : (1 - δ) ^ m * x ^ nu ≤ xh ^ nu := by
    calc (1 - δ) ^ m * x ^ nu ≤ (1 - δ) ^ nu * x ^ nu := by
          refine mul_le_mul_of_nonneg_right ?_ hxn
          rw [← Real.rpow_natCast]
          exact Real.rpow_le_rpow_of_exponent_ge (by linarith) (by linarith) hm
      _ = ((1 - δ) * x) ^ nu := (Real.mul_rpow (by linarith) hx).symm
      _ ≤ xh ^ nu := Real.rpow_le_rpow (mul_nonneg (by linarith) hx) hlo hn
  have hb1 := one_add_mul_le_pow (show (-2 : ℝ) ≤ δ by linarith) m
  have hb2 := one_add_mul_le_pow (show (-2 : ℝ) ≤ -δ by linarith) m
  have e : (1 + u) ^ (3 * m) = (1 + δ) ^ m := by
    rw [pow_mul, hδ]; congr 1; ring
  have e2 : (1 + -δ) ^ m = (1 - δ) ^ m := by rw [← sub_eq_add_neg]
  rw [e2] at hb2
  rw [e, abs_le]
  have hk : (1 - δ) ^ m - 1 ≥ -((1 + δ) ^ m - 1) := by nlinarith
  have := mul_le_mul_of_nonneg_right hk.le hxn
  constructor <;> nlinarith

theorem computeReg_near (h8 : u ≤ 1 / 8) (cfg : Config) (ha : 0 ≤ cfg.alpha0) (hr : 0 ≤ cfg.reg) {m : Nat}
    (hn : 0 ≤ cfg.nu) (hm : cfg.nu ≤ m) (nnz other : Nat) :
    NearBy u (3 * m + 2) (Ials.computeReg cfg nnz other) (Ials.computeReg cfg nnz other)
      (computeReg M cfg nnz other) := by
  have h0 := hM.unit
  have nat : ∀ n : Nat, NearBy u 1 (n : ℝ) n (M.fl n) := fun n =>
    (nearBy_refl h0 (by rw [abs_of_nonneg (Nat.cast_nonneg n)]) 0).round h0 (hM.rounds _)
  have h1 := ((nearBy_refl h0 (x := cfg.alpha0) (A := cfg.alpha0) (by rw [abs_of_nonneg ha]) 0).mul h0
    (nat other)).round h0 (hM.rounds _)
  have h2 := (h1.add ((nat nnz).mono h0 (by omega : 1 ≤ 0 + 1 + 1))).round h0 (hM.rounds _)
  have hx : 0 ≤ cfg.alpha0 * other + (nnz : ℝ) := by positivity
  obtain ⟨hp, h3⟩ := near_pow hM h8 hx hn hm h2
  have h4 := h3.round h0 (by
    have := hM.pow (M.fl (M.fl (cfg.alpha0 * M.fl other) + M.fl nnz)) cfg.nu hp
    rwa [abs_of_nonneg (Real.rpow_nonneg hp cfg.nu)])
  have h5 := ((nearBy_refl h0 (x := cfg.reg) (A := cfg.reg) (by rw [abs_of_nonneg hr]) 0).mul h0 h4).round h0
    (hM.rounds _)
  exact h5.mono h0 (by omega)

/-! ### The system of a row -/

/-- one row of the buffer of the rank updater -/
theorem buf_near (v : Vec K) (c : ℝ) (hc : 0 ≤ c) (i j : Fin K) :
    NearBy u 4 (c * |v i * v j|) (c * (v i * v j)) (M.fl (M.sqrt c * v i) * M.fl (M.sqrt c * v j)) := by
  have h0 := hM.unit
  have hs : NearBy u 1 (Real.sqrt c) (Real.sqrt c) (M.sqrt c) :=
    (nearBy_refl h0 (by rw [abs_of_nonneg (Real.sqrt_nonneg c)]) 0).round h0
      (by rw [abs_of_nonneg (Real.sqrt_nonneg c)]; exact hM.sqrt c hc)
  have hk : ∀ k, NearBy u 2 (Real.sqrt c * |v k|) (Real.sqrt c * v k) (M.fl (M.sqrt c * v k)) := fun k =>
    (hs.mul h0 (nearBy_refl h0 (le_refl |v k|) 0)).round h0 (hM.rounds _)
  have := (hk i).mul h0 (hk j)
  have e1 : Real.sqrt c * |v i| * (Real.sqrt c * |v j|) = c * |v i * v j| := by
    rw [abs_mul]
    calc _ = (Real.sqrt c * Real.sqrt c) * (|v i| * |v j|) := by ring
      _ = _ := by rw [Real.mul_self_sqrt hc]
  have e2 : Real.sqrt c * v i * (Real.sqrt c * v j) = c * (v i * v j) := by
    calc _ = (Real.sqrt c * Real.sqrt c) * (v i * v j) := by ring
      _ = _ := by rw [Real.mul_self_sqrt hc]
  rwa [e1, e2] at this

/-- the rank updater after the entries `l`: the entries `l₁` are in the target, `l₂` in the buffer -/
def BatchInv (M : Machine K) (u : ℝ) (d : Nat) (A0 p0 : ℝ) (i j : Fin K) (l : List (Vec K × ℝ))
    (b : Batch (Fin K)) : Prop :=
  ∃ l₁ l₂, l = l₁ ++ l₂ ∧ b.buf = l₂.map (fun e k => M.fl (M.sqrt e.2 * e.1 k)) ∧
    NearBy u (d + 4 + 2 * l₁.length) (A0 + (l₁.map (fun e => e.2 * |e.1 i * e.1 j|)).sum)
      (p0 + (l₁.map (fun e => e.2 * (e.1 i * e.1 j))).sum) (b.target i j)

theorem batchInv_consume {d : Nat} {A0 p0 : ℝ} {i j : Fin K} (hij : i ≤ j) {l : List (Vec K × ℝ)}
    (hl : ∀ e ∈ l, 0 ≤ e.2) {b : Batch (Fin K)} (h : BatchInv M u d A0 p0 i j l b) :
    BatchInv M u d A0 p0 i j l (consume M b) ∧
    NearBy u (d + 4 + 2 * l.length) (A0 + (l.map (fun e => e.2 * |e.1 i * e.1 j|)).sum)
      (p0 + (l.map (fun e => e.2 * (e.1 i * e.1 j))).sum) ((consume M b).target i j) := by
  obtain ⟨l₁, l₂, rfl, hb, hn⟩ := h
  unfold consume
  by_cases h0 : 0 < b.buf.length
  · rw [if_pos h0]
    have hl2 : 0 < l₂.length := by rw [hb, List.length_map] at h0; exact h0
    have hr := hM.rank b.buf b.target i j hij
    rw [hb, List.map_map] at hr
    have key := NearBy.addedUp hM.unit l₂ (d + 4 + 2 * l₁.length) (fun e => e.2 * |e.1 i * e.1 j|)
      (fun e => e.2 * (e.1 i * e.1 j))
      (fun e => M.fl (M.sqrt e.2 * e.1 i) * M.fl (M.sqrt e.2 * e.1 j)) hn
      (fun e he => (buf_near hM e.1 e.2 (hl e (List.mem_append_right _ he)) i j).mono hM.unit (by omega)) hr
    rw [add_assoc A0, add_assoc p0, ← List.sum_append, ← List.sum_append, ← List.map_append,
      ← List.map_append, ← hb] at key
    have key2 := key.mono hM.unit (e := d + 4 + 2 * (l₁ ++ l₂).length)
      (by rw [List.length_append]; omega)
    exact ⟨⟨l₁ ++ l₂, [], by simp, rfl, key2⟩, key2⟩
  · rw [if_neg h0]
    have hl2 : l₂ = [] := by
      rw [hb, List.length_map] at h0
      exact List.length_eq_zero_iff.mp (by omega)
    subst hl2
    exact ⟨⟨l₁, [], rfl, hb, hn⟩, by simpa using hn⟩

theorem batchInv_addRow {d : Nat} {A0 p0 : ℝ} {i j : Fin K} (hij : i ≤ j) {l : List (Vec K × ℝ)} {v : Vec K}
    {c : ℝ} (hl : ∀ e ∈ l ++ [(v, c)], 0 ≤ e.2) {b : Batch (Fin K)} (h : BatchInv M u d A0 p0 i j l b) :
    BatchInv M u d A0 p0 i j (l ++ [(v, c)]) (addRow M b v c) := by
  obtain ⟨l₁, l₂, rfl, hb, hn⟩ := h
  have h1 : BatchInv M u d A0 p0 i j (l₁ ++ l₂ ++ [(v, c)])
      ⟨b.buf ++ [fun i => M.fl (M.sqrt c * v i)], b.target⟩ :=
    ⟨l₁, l₂ ++ [(v, c)], by simp, by simp [hb], hn⟩
  unfold addRow
  simp only
  split
  · exact (batchInv_consume hM hij hl h1).1
  · exact h1

/-- one entry of a row -/
noncomputable def rowStep (M : Machine K) (cfg : Config) (V : Factor K)
    (s : Batch (Fin K) × Vec K × Nat) (e : Nat × ℝ) : Batch (Fin K) × Vec K × Nat :=
  (addRow M s.1 (V.row e.1) e.2, (fun i => M.axpy (M.fl (bias cfg + e.2)) (V.row e.1 i) (s.2.1 i)), s.2.2 + 1)

omit hM in
theorem bias_nonneg {cfg : Config} (ha : 0 ≤ cfg.alpha0) : 0 ≤ bias cfg := by
  unfold bias
  cases cfg.lossType
  · exact ha
  · exact le_refl 0

theorem row_near (cfg : Config) (ha : 0 ≤ cfg.alpha0) (V : Factor K) (P : Matrix (Fin K) (Fin K) ℝ)
    {d : Nat} {A0 p0 : Fin K → Fin K → ℝ}
    (hP : ∀ i j, NearBy u d (A0 i j) (p0 i j) (P i j)) (row : SpVec ℝ) (hrow : NonNegRow row) :
    (∀ i j, i ≤ j → BatchInv M u d (A0 i j) (p0 i j) i j (ents V row)
      (row.foldl (rowStep M cfg V) (⟨[], P⟩, 0, 0)).1) ∧
    (∀ k, NearBy u (2 * row.length + 1) (row.map (fun e => (bias cfg + e.2) * |V.row e.1 k|)).sum
      (row.map (fun e => (bias cfg + e.2) * V.row e.1 k)).sum
      ((row.foldl (rowStep M cfg V) (⟨[], P⟩, 0, 0)).2.1 k)) ∧
    (row.foldl (rowStep M cfg V) (⟨[], P⟩, 0, 0)).2.2 = row.length := by
  have h0 := hM.unit
  induction row using List.reverseRecOn with
  | nil =>
    refine ⟨fun i j _ => ⟨[], [], rfl, rfl, ?_⟩, fun k => ?_, rfl⟩
    · simpa using (hP i j).mono h0 (by omega : d ≤ d + 4 + 2 * 0)
    · simpa using nearBy_refl h0 (x := 0) (A := 0) (by simp) 1
  | append_singleton l e ih =>
    obtain ⟨ih1, ih2, ih3⟩ := ih (fun e' he' => hrow e' (List.mem_append_left _ he'))
    have he : 0 ≤ e.2 := hrow e (List.mem_append_right _ (List.mem_singleton.mpr rfl))
    rw [List.foldl_append, List.foldl_cons, List.foldl_nil]
    set s := l.foldl (rowStep M cfg V) (⟨[], P⟩, 0, 0) with hs
    refine ⟨fun i j hij => ?_, fun k => ?_, ?_⟩
    · have hents : ents V (l ++ [e]) = ents V l ++ [(V.row e.1, e.2)] := by simp [ents]
      rw [hents]
      refine batchInv_addRow hM hij ?_ (ih1 i j hij)
      intro e' he'
      rw [← hents] at he'
      obtain ⟨e'', h1, rfl⟩ := List.mem_map.mp he'
      exact hrow e'' h1
    · have hb : 0 ≤ bias cfg + e.2 := add_nonneg (bias_nonneg ha) he
      have hc : NearBy u 1 (bias cfg + e.2) (bias cfg + e.2) (M.fl (bias cfg + e.2)) :=
        (nearBy_refl h0 (by rw [abs_of_nonneg hb]) 0).round h0 (hM.rounds _)
      have ht := hc.mul h0 (nearBy_refl h0 (le_refl |V.row e.1 k|) 0)
      have key := NearBy.addedUp h0 [()] (2 * l.length + 1) (fun _ => (bias cfg + e.2) * |V.row e.1 k|)
        (fun _ => (bias cfg + e.2) * V.row e.1 k) (fun _ => M.fl (bias cfg + e.2) * V.row e.1 k) (ih2 k)
        (fun _ _ => ht.mono h0 (by omega))
        (hM.axpy (M.fl (bias cfg + e.2)) (V.row e.1 k) (s.2.1 k))
      rw [List.map_append, List.map_append, List.sum_append, List.sum_append, List.length_append]
      simpa [rowStep, Nat.mul_add, Nat.add_right_comm] using key
    · simp [rowStep, ih3]

omit hM in
theorem choleskyRow_eq (cfg : Config) (V : Factor K) (P : Matrix (Fin K) (Fin K) ℝ) (row : SpVec ℝ) :
    choleskyRow M cfg P V row = (match M.llt (fun i j => if i = j then
        M.fl ((consume M (row.foldl (rowStep M cfg V) (⟨[], P⟩, 0, 0)).1).target i j +
          computeReg M cfg (row.foldl (rowStep M cfg V) (⟨[], P⟩, 0, 0)).2.2 V.n)
      else (consume M (row.foldl (rowStep M cfg V) (⟨[], P⟩, 0, 0)).1).target i j)
      (row.foldl (rowStep M cfg V) (⟨[], P⟩, 0, 0)).2.1 with
    | none => Except.error Err.runtimeError
    | some x => Except.ok x) := rfl

omit hM in
/-- the matrix of a row with absolute values -/
noncomputable def absMat (cfg : Config) (V : Factor K) (row : SpVec ℝ) (i j : Fin K) : ℝ :=
  cfg.alpha0 * ∑ r ∈ Finset.range V.n, |V.row r i * V.row r j|
    + ((ents V row).map (fun e => e.2 * |e.1 i * e.1 j|)).sum
    + (if i = j then Ials.computeReg cfg row.length V.n else 0)

/-- the matrix of a row -/
noncomputable def exactMat (cfg : Config) (V : Factor K) (row : SpVec ℝ) : Matrix (Fin K) (Fin K) ℝ :=
  sysMat (gramP cfg V) (ents V row) (Ials.computeReg cfg row.length V.n)

/-- the number of roundings in the matrix of a row with `L` entries -/
def matrixRoundings (n T L m : Nat) : Nat := gramRoundings n T + 2 * L + 3 * m + 7

theorem system_built (h8 : u ≤ 1 / 8) {ω : Oracle T} (hω : ω.Complete) (cfg : Config) (ha : 0 ≤ cfg.alpha0)
    (hr : 0 ≤ cfg.reg) {m : Nat} (hn : 0 ≤ cfg.nu) (hm : cfg.nu ≤ m) (V : Factor K)
    (P : Matrix (Fin K) (Fin K) ℝ) (hP : prepareP M ω cfg V = .ok P) (row : SpVec ℝ) (hrow : NonNegRow row) :
    ∃ (A : Matrix (Fin K) (Fin K) ℝ) (b : Vec K),
      choleskyRow M cfg P V row = (match M.llt A b with
        | none => Except.error Err.runtimeError
        | some x => Except.ok x) ∧
      (∀ i j, i ≤ j → NearBy u (matrixRoundings V.n T row.length m) (absMat cfg V row i j)
        (exactMat cfg V row i j) (A i j)) ∧
      (∀ k, NearBy u (2 * row.length + 1) (row.map (fun e => (bias cfg + e.2) * |V.row e.1 k|)).sum
        (row.map (fun e => (bias cfg + e.2) * V.row e.1 k)).sum (b k)) := by
  have h0 := hM.unit
  have hg := fun i j => (prepareP_near hM hω cfg ha V P hP i j).2
  obtain ⟨h1, h2, h3⟩ := row_near hM cfg ha V P hg row hrow
  refine ⟨_, _, choleskyRow_eq cfg V P row, fun i j hij => ?_, h2⟩
  have hents : ∀ e ∈ ents V row, 0 ≤ e.2 := by
    intro e he
    obtain ⟨e', h', rfl⟩ := List.mem_map.mp he
    exact hrow e' h'
  have ht := (batchInv_consume hM hij hents (h1 i j hij)).2
  have hlen : (ents V row).length = row.length := by simp [ents]
  rw [hlen] at ht
  unfold absMat exactMat sysMat
  by_cases he : i = j
  · rw [if_pos he, if_pos he, h3]
    have hreg := computeReg_near hM h8 cfg ha hr hn hm row.length V.n
    have := ((ht.mono h0 (Nat.le_add_right _ (3 * m + 2))).add
      (hreg.mono h0 (Nat.le_add_left _ (gramRoundings V.n T + 4 + 2 * row.length)))).round h0 (hM.rounds _)
    exact this.mono h0 (by unfold matrixRoundings; omega)
  · rw [if_neg he, if_neg he, add_zero, add_zero]
    exact ht.mono h0 (by unfold matrixRoundings; omega)

theorem system_near (h8 : u ≤ 1 / 8) {ω : Oracle T} (hω : ω.Complete) (cfg : Config) (ha : 0 ≤ cfg.alpha0)
    (hr : 0 ≤ cfg.reg) {m : Nat} (hn : 0 ≤ cfg.nu) (hm : cfg.nu ≤ m) (V : Factor K)
    (P : Matrix (Fin K) (Fin K) ℝ) (hP : prepareP M ω cfg V = .ok P) (row : SpVec ℝ) (hrow : NonNegRow row)
    (x : Vec K) (h : choleskyRow M cfg P V row = .ok x) :
    ∃ (A : Matrix (Fin K) (Fin K) ℝ) (b : Vec K), M.llt A b = some x ∧
      (∀ i j, i ≤ j → NearBy u (matrixRoundings V.n T row.length m) (absMat cfg V row i j)
        (exactMat cfg V row i j) (A i j)) ∧
      (∀ k, NearBy u (2 * row.length + 1) (row.map (fun e => (bias cfg + e.2) * |V.row e.1 k|)).sum
        (row.map (fun e => (bias cfg + e.2) * V.row e.1 k)).sum (b k)) := by
  obtain ⟨A, b, he, hA, hb⟩ := system_built hM h8 hω cfg ha hr hn hm V P hP row hrow
  refine ⟨A, b, ?_, hA, hb⟩
  rw [he] at h
  cases hl : M.llt A b with
  | none => rw [hl] at h; cases h
  | some y => rw [hl] at h; cases h; rfl

omit hM in
theorem absMat_symm (cfg : Config) (V : Factor K) (row : SpVec ℝ) (i j : Fin K) :
    absMat cfg V row i j = absMat cfg V row j i := by
  unfold absMat
  simp only [mul_comm (_ : ℝ) (V.row _ j), eq_comm (a := i)]
  congr 2
  exact congrArg List.sum (List.map_congr_left (fun e _ => by rw [mul_comm (e.1 i)]))

omit hM in
theorem exactMat_symm (cfg : Config) (V : Factor K) (row : SpVec ℝ) (i j : Fin K) :
    exactMat cfg V row i j = exactMat cfg V row j i :=
  sysMat_symm _ (gramP_symm cfg V) _ _ i j

omit hM in
theorem absMat_diag (cfg : Config) (V : Factor K) (row : SpVec ℝ) (i : Fin K) :
    absMat cfg V row i i = exactMat cfg V row i i := by
  unfold absMat exactMat sysMat gramP
  simp only [abs_mul_self]

omit hM in
/-- Cauchy-Schwarz -/
theorem absMat_le {cfg : Config} (ha : 0 ≤ cfg.alpha0) {V : Factor K} {row : SpVec ℝ} (hrow : NonNegRow row)
    (hl : 0 < Ials.computeReg cfg row.length V.n) (i j : Fin K) :
    0 < exactMat cfg V row i i ∧
    absMat cfg V row i j ≤ Real.sqrt (exactMat cfg V row i i) * Real.sqrt (exactMat cfg V row j j) := by
  have hents : ∀ e ∈ ents V row, 0 ≤ e.2 := by
    intro e he
    obtain ⟨e', h', rfl⟩ := List.mem_map.mp he
    exact hrow e' h'
  have hpos : ∀ k, 0 < exactMat cfg V row k k := by
    intro k
    unfold exactMat sysMat gramP
    rw [if_pos rfl]
    have h1 : 0 ≤ cfg.alpha0 * ∑ r ∈ Finset.range V.n, V.row r k * V.row r k :=
      mul_nonneg ha (Finset.sum_nonneg (fun r _ => mul_self_nonneg _))
    have h2 : 0 ≤ ((ents V row).map (fun e => e.2 * (e.1 k * e.1 k))).sum := by
      apply List.sum_nonneg
      intro y hy
      obtain ⟨e, he, rfl⟩ := List.mem_map.mp hy
      exact mul_nonneg (hents e he) (mul_self_nonneg _)
    linarith
  refine ⟨hpos i, ?_⟩
  by_cases hij : i = j
  · subst hij
    rw [absMat_diag, Real.mul_self_sqrt (hpos i).le]
  set a := Real.sqrt (exactMat cfg V row i i) with hadef
  set b := Real.sqrt (exactMat cfg V row j j) with hbdef
  have hap : 0 < a := Real.sqrt_pos.mpr (hpos i)
  have hbp : 0 < b := Real.sqrt_pos.mpr (hpos j)
  -- `2 |x y| ≤ t x² + y² / t` with `t = b / a`
  set t := b / a with ht
  have htp : 0 < t := div_pos hbp hap
  have amgm : ∀ x y : ℝ, 2 * |x * y| ≤ t * (x * x) + t⁻¹ * (y * y) := by
    intro x y
    have h1 : 0 ≤ t⁻¹ * (t * |x| - |y|) ^ 2 := mul_nonneg (inv_nonneg.mpr htp.le) (sq_nonneg _)
    have h2 : t⁻¹ * (t * |x| - |y|) ^ 2 = t * (|x| * |x|) + t⁻¹ * (|y| * |y|) - 2 * (|x| * |y|) := by
      field_simp
      ring
    rw [abs_mul_abs_self, abs_mul_abs_self] at h2
    rw [abs_mul]
    linarith
  have hg : 2 * (cfg.alpha0 * ∑ r ∈ Finset.range V.n, |V.row r i * V.row r j|) ≤
      t * gramP cfg V i i + t⁻¹ * gramP cfg V j j := by
    unfold gramP
    have : 2 * ∑ r ∈ Finset.range V.n, |V.row r i * V.row r j| ≤
        t * (∑ r ∈ Finset.range V.n, V.row r i * V.row r i) +
          t⁻¹ * ∑ r ∈ Finset.range V.n, V.row r j * V.row r j := by
      rw [Finset.mul_sum, Finset.mul_sum, Finset.mul_sum, ← Finset.sum_add_distrib]
      exact Finset.sum_le_sum (fun r _ => amgm _ _)
    have := mul_le_mul_of_nonneg_left this ha
    linarith
  have he : ∀ l : List (Vec K × ℝ), (∀ e ∈ l, 0 ≤ e.2) →
      2 * (l.map (fun e => e.2 * |e.1 i * e.1 j|)).sum ≤
      t * (l.map (fun e => e.2 * (e.1 i * e.1 i))).sum + t⁻¹ * (l.map (fun e => e.2 * (e.1 j * e.1 j))).sum := by
    intro l
    induction l with
    | nil => intro _; simp
    | cons e l ih =>
      intro hl
      have h1 := ih (fun e' he' => hl e' (List.mem_cons_of_mem _ he'))
      have h2 := mul_le_mul_of_nonneg_left (amgm (e.1 i) (e.1 j)) (hl e List.mem_cons_self)
      simp only [List.map_cons, List.sum_cons]
      linarith
  have hE := he _ hents
  have e1 : a * a = exactMat cfg V row i i := Real.mul_self_sqrt (hpos i).le
  have e2 : b * b = exactMat cfg V row j j := Real.mul_self_sqrt (hpos j).le
  have e3 : t * (a * a) + t⁻¹ * (b * b) = 2 * (a * b) := by
    rw [ht]; field_simp; ring
  have hab : absMat cfg V row i j = cfg.alpha0 * ∑ r ∈ Finset.range V.n, |V.row r i * V.row r j|
      + ((ents V row).map (fun e => e.2 * |e.1 i * e.1 j|)).sum := by
    unfold absMat; rw [if_neg hij, add_zero]
  have hii : exactMat cfg V row i i = gramP cfg V i i + ((ents V row).map (fun e => e.2 * (e.1 i * e.1 i))).sum
      + Ials.computeReg cfg row.length V.n := by unfold exactMat sysMat; rw [if_pos rfl]
  have hjj : exactMat cfg V row j j = gramP cfg V j j + ((ents V row).map (fun e => e.2 * (e.1 j * e.1 j))).sum
      + Ials.computeReg cfg row.length V.n := by unfold exactMat sysMat; rw [if_pos rfl]
  have h3 : 0 ≤ t * Ials.computeReg cfg row.length V.n + t⁻¹ * Ials.computeReg cfg row.length V.n := by positivity
  rw [e1, e2, hii, hjj] at e3
  rw [hab]
  linarith

theorem row_residual (h8 : u ≤ 1 / 8) {ω : Oracle T} (hω : ω.Complete) (cfg : Config) (ha : 0 ≤ cfg.alpha0)
    (hr : 0 ≤ cfg.reg) {m : Nat} (hn : 0 ≤ cfg.nu) (hm : cfg.nu ≤ m) (V : Factor K)
    (P : Matrix (Fin K) (Fin K) ℝ) (hP : prepareP M ω cfg V = .ok P) (row : SpVec ℝ) (hrow : NonNegRow row)
    (hl : 0 < Ials.computeReg cfg row.length V.n)
    (x : Vec K) (h : choleskyRow M cfg P V row = .ok x) (i : Fin K) :
    |(exactMat cfg V row).mulVec x i - (row.map (fun e => (bias cfg + e.2) * V.row e.1 i)).sum| ≤
      ((1 + u) ^ matrixRoundings V.n T row.length m - 1 + eta * (1 + u) ^ matrixRoundings V.n T row.length m) *
        (Real.sqrt (exactMat cfg V row i i) * ∑ j, Real.sqrt (exactMat cfg V row j j) * |x j|)
      + ((1 + u) ^ (2 * row.length + 1) - 1) * (row.map (fun e => (bias cfg + e.2) * |V.row e.1 i|)).sum := by
  have h0 := hM.unit
  obtain ⟨A, b, hllt, hA, hb⟩ := system_near hM h8 hω cfg ha hr hn hm V P hP row hrow x h
  set q := (1 + u) ^ matrixRoundings V.n T row.length m with hq
  have hq1 : 1 ≤ q := one_le_pow' h0 _
  obtain ⟨E, hE, hsol⟩ := hM.llt A b x hllt
  set S := exactMat cfg V row with hS
  have hdiag : ∀ k, A k k ≤ q * S k k := by
    intro k
    have h1 := (hA k k (le_refl k)).abs_le
    rw [absMat_diag] at h1
    exact le_trans (le_abs_self _) h1
  have hSp : ∀ k, 0 < S k k := fun k => (absMat_le ha hrow hl k k).1
  have hsq : ∀ k, Real.sqrt (A k k) ≤ Real.sqrt q * Real.sqrt (S k k) := by
    intro k
    rw [← Real.sqrt_mul (by linarith)]
    exact Real.sqrt_le_sqrt (hdiag k)
  have hterm : ∀ j, |S i j - ((if i ≤ j then A i j else A j i) + E i j)| ≤
      (q - 1 + eta * q) * (Real.sqrt (S i i) * Real.sqrt (S j j)) := by
    intro j
    have hU : |(if i ≤ j then A i j else A j i) - S i j| ≤ (q - 1) * absMat cfg V row i j := by
      by_cases hij : i ≤ j
      · rw [if_pos hij]; exact (hA i j hij).err
      · rw [if_neg hij]
        have := (hA j i (le_of_not_ge hij)).err
        have hs := exactMat_symm cfg V row j i
        rw [← hS] at hs
        rwa [absMat_symm, hs] at this
    have hc := (absMat_le ha hrow hl i j).2
    have h1 := mul_le_mul_of_nonneg_left hc (by linarith : (0 : ℝ) ≤ q - 1)
    have h2 : Real.sqrt (A i i) * Real.sqrt (A j j) ≤ q * (Real.sqrt (S i i) * Real.sqrt (S j j)) := by
      have := mul_le_mul (hsq i) (hsq j) (Real.sqrt_nonneg _)
        (mul_nonneg (Real.sqrt_nonneg _) (Real.sqrt_nonneg _))
      calc _ ≤ _ := this
        _ = (Real.sqrt q * Real.sqrt q) * (Real.sqrt (S i i) * Real.sqrt (S j j)) := by ring
        _ = _ := by rw [Real.mul_self_sqrt (by linarith)]
    have h3 := le_trans (hE i j) (mul_le_mul_of_nonneg_left h2 hM.stable)
    have e : S i j - ((if i ≤ j then A i j else A j i) + E i j) =
        -((if i ≤ j then A i j else A j i) - S i j) + -E i j := by ring
    rw [e]
    refine le_trans (abs_add_le _ _) ?_
    rw [abs_neg, abs_neg]
    linarith
  have e : S.mulVec x i - (row.map (fun e => (bias cfg + e.2) * V.row e.1 i)).sum =
      ∑ j, (S i j - ((if i ≤ j then A i j else A j i) + E i j)) * x j
        + (b i - (row.map (fun e => (bias cfg + e.2) * V.row e.1 i)).sum) := by
    have := hsol i
    simp only [sub_mul, Finset.sum_sub_distrib]
    rw [this]
    simp only [Matrix.mulVec, dotProduct]
    ring
  rw [e]
  refine le_trans (abs_add_le _ _) (add_le_add ?_ (hb i).err)
  refine le_trans (Finset.abs_sum_le_sum_abs _ _) ?_
  rw [Finset.mul_sum, Finset.mul_sum]
  refine Finset.sum_le_sum (fun j _ => ?_)
  rw [abs_mul]
  calc _ ≤ ((q - 1 + eta * q) * (Real.sqrt (S i i) * Real.sqrt (S j j))) * |x j| :=
        mul_le_mul_of_nonneg_right (hterm j) (abs_nonneg _)
    _ = _ := by ring

omit hM in
theorem sysMat_lower {cfg : Config} (ha : 0 ≤ cfg.alpha0) {row : SpVec ℝ} (hrow : NonNegRow row)
    {V : Factor K} (x : Vec K) :
    Ials.computeReg cfg row.length V.n * (x ⬝ᵥ x) ≤ x ⬝ᵥ (exactMat cfg V row).mulVec x := by
  unfold exactMat
  rw [sysMat_quad]
  have h1 := gramP_nonneg cfg ha V x
  have h2 : 0 ≤ ((ents V row).map (fun e => e.2 * (e.1 ⬝ᵥ x) ^ 2)).sum := by
    apply List.sum_nonneg
    intro z hz
    obtain ⟨e, he, rfl⟩ := List.mem_map.mp hz
    exact mul_nonneg (ents_nonneg hrow e he) (sq_nonneg _)
  linarith

/-- The factorisation of a row succeeds when the regularisation dominates the rounding errors. -/
theorem row_succeeds (h8 : u ≤ 1 / 8) {margin : ℝ} (hmar : 0 ≤ margin) (hllt : AcceptsDefinite margin M.llt)
    {ω : Oracle T} (hω : ω.Complete) (cfg : Config) (ha : 0 ≤ cfg.alpha0)
    (hr : 0 ≤ cfg.reg) {m : Nat} (hn : 0 ≤ cfg.nu) (hm : cfg.nu ≤ m) (V : Factor K)
    (P : Matrix (Fin K) (Fin K) ℝ) (hP : prepareP M ω cfg V = .ok P) (row : SpVec ℝ) (hrow : NonNegRow row)
    (hdom : ((1 + u) ^ matrixRoundings V.n T row.length m - 1 +
        margin * (1 + u) ^ matrixRoundings V.n T row.length m) * ∑ k, exactMat cfg V row k k <
      Ials.computeReg cfg row.length V.n)
    (hl : 0 < Ials.computeReg cfg row.length V.n) :
    ∃ x, choleskyRow M cfg P V row = .ok x := by
  have h0 := hM.unit
  obtain ⟨A, b, he, hA, -⟩ := system_built hM h8 hω cfg ha hr hn hm V P hP row hrow
  set q := (1 + u) ^ matrixRoundings V.n T row.length m with hq
  have hq1 : 1 ≤ q := one_le_pow' h0 _
  set S := exactMat cfg V row with hS
  set lam := Ials.computeReg cfg row.length V.n with hlam
  have hSp : ∀ k, 0 < S k k := fun k => (absMat_le ha hrow hl k k).1
  have hU : ∀ i j, |S i j - (if i ≤ j then A i j else A j i)| ≤
      (q - 1) * (Real.sqrt (S i i) * Real.sqrt (S j j)) := by
    intro i j
    refine le_trans ?_ (mul_le_mul_of_nonneg_left (absMat_le ha hrow hl i j).2 (by linarith))
    rw [abs_sub_comm]
    by_cases hij : i ≤ j
    · rw [if_pos hij]; exact (hA i j hij).err
    · rw [if_neg hij]
      have := (hA j i (le_of_not_ge hij)).err
      have hs := exactMat_symm cfg V row j i
      rw [← hS] at hs
      rwa [absMat_symm, hs] at this
  have hdiag : ∀ k, A k k ≤ q * S k k := by
    intro k
    have h1 := (hA k k (le_refl k)).abs_le
    rw [absMat_diag] at h1
    exact le_trans (le_abs_self _) h1
  have hacc : M.llt A b ≠ none := by
    refine hllt A b (fun x hx => ?_)
    have hx0 : 0 < ∑ k, x k ^ 2 := by
      obtain ⟨k, hk⟩ := Function.ne_iff.mp hx
      exact Finset.sum_pos' (fun k _ => sq_nonneg _) ⟨k, Finset.mem_univ k, by
        have : x k ≠ 0 := hk
        positivity⟩
    -- the exact form
    have hlow : lam * ∑ k, x k ^ 2 ≤ ∑ i, ∑ j, x i * S i j * x j := by
      have h1 := sysMat_lower (cfg := cfg) ha hrow (V := V) x
      have e1 : x ⬝ᵥ x = ∑ k, x k ^ 2 := by
        unfold dotProduct; exact Finset.sum_congr rfl (fun k _ => (sq _).symm)
      have e2 : x ⬝ᵥ S.mulVec x = ∑ i, ∑ j, x i * S i j * x j := by
        unfold dotProduct Matrix.mulVec dotProduct
        refine Finset.sum_congr rfl (fun i _ => ?_)
        rw [Finset.mul_sum]
        exact Finset.sum_congr rfl (fun j _ => by ring)
      rw [e1] at h1
      rw [← e2]
      exact h1
    -- the perturbation
    have hcs : (∑ k, Real.sqrt (S k k) * |x k|) ^ 2 ≤ (∑ k, S k k) * ∑ k, x k ^ 2 := by
      have := Finset.sum_mul_sq_le_sq_mul_sq Finset.univ (fun k => Real.sqrt (S k k)) (fun k => |x k|)
      simpa only [Real.sq_sqrt (hSp _).le, sq_abs] using this
    have hpert : ∑ i, ∑ j, x i * S i j * x j - ∑ i, ∑ j, x i * (if i ≤ j then A i j else A j i) * x j ≤
        (q - 1) * ((∑ k, S k k) * ∑ k, x k ^ 2) := by
      refine le_trans ?_ (mul_le_mul_of_nonneg_left hcs (by linarith))
      rw [sq, Finset.sum_mul_sum, Finset.mul_sum, ← Finset.sum_sub_distrib]
      refine Finset.sum_le_sum (fun i _ => ?_)
      rw [Finset.mul_sum, ← Finset.sum_sub_distrib]
      refine Finset.sum_le_sum (fun j _ => ?_)
      have h1 : x i * S i j * x j - x i * (if i ≤ j then A i j else A j i) * x j =
          (S i j - (if i ≤ j then A i j else A j i)) * (x i * x j) := by ring
      rw [h1]
      refine le_trans (le_abs_self _) ?_
      rw [abs_mul, abs_mul]
      refine le_trans (mul_le_mul_of_nonneg_right (hU i j) (by positivity)) (le_of_eq (by ring))
    have hmarg : margin * ∑ k, A k k * x k ^ 2 ≤ margin * q * ((∑ k, S k k) * ∑ k, x k ^ 2) := by
      rw [mul_assoc]
      refine mul_le_mul_of_nonneg_left ?_ hmar
      rw [Finset.sum_mul, Finset.mul_sum]
      refine Finset.sum_le_sum (fun k _ => ?_)
      rw [← mul_assoc]
      have h1 : x k ^ 2 ≤ ∑ k, x k ^ 2 :=
        Finset.single_le_sum (f := fun k => x k ^ 2) (fun _ _ => sq_nonneg _) (Finset.mem_univ k)
      exact mul_le_mul (hdiag k) h1 (sq_nonneg _) (mul_nonneg (by linarith) (hSp k).le)
    have hd := mul_lt_mul_of_pos_right hdom hx0
    linarith
  cases hl : M.llt A b with
  | none => exact absurd hl hacc
  | some x => exact ⟨x, by rw [he, hl]⟩

end

end Irspack.Ials.Float
