import Mathlib.Tactic.Linarith
import Mathlib.Tactic.Positivity
import Mathlib.Algebra.Order.BigOperators.Group.List
import Verif.Spec.FloatIals

/-!
# Error analysis of sums: lemmas
-/

namespace Irspack.Spec

variable {u : ℝ}

/-- `x̂` is `x` up to `d` relative errors of the size `A ≥ |x|`. -/
structure NearBy (u : ℝ) (d : Nat) (A x xh : ℝ) : Prop where
  size : |x| ≤ A
  err : |xh - x| ≤ ((1 + u) ^ d - 1) * A

theorem one_le_pow' (h0 : 0 ≤ u) (d : Nat) : 1 ≤ (1 + u) ^ d := one_le_pow₀ (by linarith)

theorem NearBy.nonneg {d : Nat} {A x xh : ℝ} (h : NearBy u d A x xh) : 0 ≤ A :=
  le_trans (abs_nonneg x) h.size

theorem nearBy_refl (h0 : 0 ≤ u) {x A : ℝ} (h : |x| ≤ A) (d : Nat) : NearBy u d A x x := by
  refine ⟨h, ?_⟩
  rw [sub_self, abs_zero]
  exact mul_nonneg (by have := one_le_pow' h0 d; linarith) (le_trans (abs_nonneg x) h)

theorem NearBy.mono (h0 : 0 ≤ u) {d e : Nat} {A x xh : ℝ} (hde : d ≤ e) (h : NearBy u d A x xh) :
    NearBy u e A x xh := by
  refine ⟨h.size, le_trans h.err (mul_le_mul_of_nonneg_right ?_ h.nonneg)⟩
  have := pow_le_pow_right₀ (by linarith : (1 : ℝ) ≤ 1 + u) hde
  linarith

theorem NearBy.abs_le {d : Nat} {A x xh : ℝ} (h : NearBy u d A x xh) : |xh| ≤ (1 + u) ^ d * A := by
  have h1 : |xh| ≤ |xh - x| + |x| := by
    have := abs_add_le (xh - x) x
    rwa [sub_add_cancel] at this
  have := h.err
  have := h.size
  linarith

theorem NearBy.round (h0 : 0 ≤ u) {d : Nat} {A x xh r : ℝ} (h : NearBy u d A x xh)
    (hr : |r - xh| ≤ u * |xh|) : NearBy u (d + 1) A x r := by
  refine ⟨h.size, ?_⟩
  have h1 : |r - x| ≤ |r - xh| + |xh - x| := by
    have := abs_add_le (r - xh) (xh - x)
    rwa [sub_add_sub_cancel] at this
  have h2 := mul_le_mul_of_nonneg_left h.abs_le h0
  have h3 := h.err
  rw [pow_succ]
  nlinarith

theorem NearBy.add {d : Nat} {A B x y xh yh : ℝ} (h : NearBy u d A x xh) (h' : NearBy u d B y yh) :
    NearBy u d (A + B) (x + y) (xh + yh) := by
  refine ⟨le_trans (abs_add_le _ _) (add_le_add h.size h'.size), ?_⟩
  have : xh + yh - (x + y) = (xh - x) + (yh - y) := by ring
  rw [this, mul_add]
  exact le_trans (abs_add_le _ _) (add_le_add h.err h'.err)

theorem NearBy.mul (h0 : 0 ≤ u) {d e : Nat} {A B x y xh yh : ℝ} (h : NearBy u d A x xh)
    (h' : NearBy u e B y yh) : NearBy u (d + e) (A * B) (x * y) (xh * yh) := by
  refine ⟨by rw [abs_mul]; exact mul_le_mul h.size h'.size (abs_nonneg _) h.nonneg, ?_⟩
  have : xh * yh - x * y = (xh - x) * yh + x * (yh - y) := by ring
  rw [this]
  refine le_trans (abs_add_le _ _) ?_
  rw [abs_mul, abs_mul]
  have pd := one_le_pow' h0 d
  have pe := one_le_pow' h0 e
  have h1 : |xh - x| * |yh| ≤ (((1 + u) ^ d - 1) * A) * ((1 + u) ^ e * B) :=
    mul_le_mul h.err h'.abs_le (abs_nonneg _) (mul_nonneg (by linarith) h.nonneg)
  have h2 : |x| * |yh - y| ≤ A * (((1 + u) ^ e - 1) * B) :=
    mul_le_mul h.size h'.err (abs_nonneg _) h.nonneg
  rw [pow_add]
  nlinarith

/-- adding up in any order: at most one rounding per summand and level -/
theorem addedUp_near (h0 : 0 ≤ u) {s : Multiset ℝ} {r : ℝ} (h : AddedUp u s r) :
    0 < s.card ∧ NearBy u s.card (s.map (fun x => |x|)).sum s.sum r := by
  induction h with
  | exact x =>
    rw [Multiset.card_singleton, Multiset.map_singleton, Multiset.sum_singleton, Multiset.sum_singleton]
    exact ⟨Nat.one_pos, nearBy_refl h0 (le_refl _) _⟩
  | rounded x r hr =>
    rw [Multiset.card_singleton, Multiset.map_singleton, Multiset.sum_singleton, Multiset.sum_singleton]
    exact ⟨Nat.one_pos, (nearBy_refl h0 (le_refl _) 0).round h0 hr⟩
  | add s t a b r _ _ hr ha hb =>
    rw [Multiset.card_add, Multiset.map_add, Multiset.sum_add, Multiset.sum_add]
    refine ⟨by omega, ?_⟩
    have := ((ha.2.mono h0 (Nat.le_max_left _ _)).add (hb.2.mono h0 (Nat.le_max_right _ _))).round h0 hr
    exact this.mono h0 (by omega)

theorem sum_nearBy {ι : Type} (l : List ι) (d : Nat) (A x xh : ι → ℝ)
    (h : ∀ i ∈ l, NearBy u d (A i) (x i) (xh i)) :
    NearBy u d (l.map A).sum (l.map x).sum (l.map xh).sum := by
  induction l with
  | nil => exact ⟨by simp, by simp⟩
  | cons i l ih =>
    simp only [List.map_cons, List.sum_cons]
    exact (h i List.mem_cons_self).add (ih (fun j hj => h j (List.mem_cons_of_mem _ hj)))

/-- A sum of approximations, itself approximated. -/
theorem NearBy.of_sum (h0 : 0 ≤ u) {ι : Type} (l : List ι) (d D : Nat) (A x xh : ι → ℝ) {r : ℝ}
    (h : ∀ i ∈ l, NearBy u d (A i) (x i) (xh i))
    (hr : |r - (l.map xh).sum| ≤ ((1 + u) ^ D - 1) * (l.map (fun i => |xh i|)).sum) :
    NearBy u (d + D) (l.map A).sum (l.map x).sum r := by
  have hs := sum_nearBy l d A x xh h
  refine ⟨hs.size, ?_⟩
  have h1 : |r - (l.map x).sum| ≤ |r - (l.map xh).sum| + |(l.map xh).sum - (l.map x).sum| := by
    have := abs_add_le (r - (l.map xh).sum) ((l.map xh).sum - (l.map x).sum)
    rwa [sub_add_sub_cancel] at this
  have h2 : (l.map (fun i => |xh i|)).sum ≤ (1 + u) ^ d * (l.map A).sum := by
    clear hr hs h1
    induction l with
    | nil => simp
    | cons i l ih =>
      simp only [List.map_cons, List.sum_cons]
      rw [mul_add]
      exact add_le_add (h i List.mem_cons_self).abs_le (ih (fun j hj => h j (List.mem_cons_of_mem _ hj)))
  have pD := one_le_pow' h0 D
  have h3 := mul_le_mul_of_nonneg_left h2 (by linarith : (0 : ℝ) ≤ (1 + u) ^ D - 1)
  have h4 := hs.err
  rw [pow_add]
  nlinarith

/-- An accumulator and the approximate terms that are added to it in any order. -/
theorem NearBy.addedUp (h0 : 0 ≤ u) {ι : Type} (l : List ι) (d : Nat) (A x xh : ι → ℝ)
    {B p ph r : ℝ} (hp : NearBy u d B p ph) (h : ∀ i ∈ l, NearBy u d (A i) (x i) (xh i))
    (hr : AddedUp u (ph ::ₘ ↑(l.map xh)) r) :
    NearBy u (d + (l.length + 1)) (B + (l.map A).sum) (p + (l.map x).sum) r := by
  have hn := (addedUp_near h0 hr).2
  have key := NearBy.of_sum h0 (ι := Option ι) (none :: l.map some) d (l.length + 1)
    (fun o => o.elim B A) (fun o => o.elim p x) (fun o => o.elim ph xh) (r := r) ?_ ?_
  · simpa [Function.comp_def] using key
  · intro o ho
    rcases List.mem_cons.mp ho with rfl | ho
    · exact hp
    · obtain ⟨i, hi, rfl⟩ := List.mem_map.mp ho
      exact h i hi
  · have := hn.err
    simpa [Function.comp_def] using this

end Irspack.Spec
