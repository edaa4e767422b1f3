import Verif.Model.Slim
import Verif.Spec.Slim
import Verif.Proofs.WorkQueue
import Mathlib.Tactic.Ring
import Mathlib.Tactic.Linarith
import Mathlib.Tactic.FieldSimp
import Mathlib.Tactic.Positivity
import Mathlib.Algebra.BigOperators.Ring.Finset
import Mathlib.Algebra.Order.BigOperators.Ring.Finset

/-! Helper lemmas for C37-C39. -/

namespace Irspack.Slim
open Spec.Slim

variable {K : Type} [Field K] [LinearOrder K]

theorem get_nil' (j : Nat) : SpVec.get ([] : SpVec K) j = 0 := by simp [SpVec.get]

theorem get_cons' (e : Nat × K) (v : SpVec K) (j : Nat) :
    SpVec.get (e :: v) j = (if e.1 = j then e.2 else 0) + SpVec.get v j := by
  unfold SpVec.get
  by_cases h : e.1 = j <;> simp [h]

theorem get_zero_of_not_mem (v : SpVec K) (j : Nat) (h : j ∉ v.map Prod.fst) : SpVec.get v j = 0 := by
  induction v with
  | nil => simp [SpVec.get]
  | cons e v ih =>
    simp only [List.map_cons, List.mem_cons, not_or] at h
    rw [get_cons', ih h.2, if_neg (fun x => h.1 x.symm), add_zero]

theorem sum_stored' (v : SpVec K) (N : Nat) (hv : ∀ e ∈ v, e.1 < N) (g : Nat → K) :
    (v.map (fun e => e.2 * g e.1)).sum = ∑ u ∈ Finset.range N, SpVec.get v u * g u := by
  induction v with
  | nil => simp [SpVec.get]
  | cons e v ih =>
    rw [List.map_cons, List.sum_cons, ih (fun e he => hv e (by simp [he]))]
    simp only [get_cons', add_mul, Finset.sum_add_distrib]
    congr 1
    simp [hv e (by simp)]

theorem sum_sq_stored (v : SpVec K) (hn : (v.map Prod.fst).Nodup) (N : Nat) (hv : ∀ e ∈ v, e.1 < N) :
    x2Sum v = ∑ u ∈ Finset.range N, SpVec.get v u * SpVec.get v u := by
  unfold x2Sum
  have : v.map (fun e => e.2 * e.2) = v.map (fun e => e.2 * SpVec.get v e.1) := by
    apply List.map_congr_left
    intro e he
    congr 1
    induction v with
    | nil => simp at he
    | cons a v ih =>
      simp only [List.map_cons, List.nodup_cons] at hn
      rw [get_cons']
      rcases List.mem_cons.mp he with rfl | he
      · rw [if_pos rfl, get_zero_of_not_mem _ _ hn.1, add_zero]
      · rw [if_neg, zero_add]
        · exact ih hn.2 (fun e he => hv e (by simp [he])) he
        · intro h; exact hn.1 (h ▸ List.mem_map_of_mem (f := Prod.fst) he)
  rw [this, sum_stored' v N hv]

theorem lastStored_eq (v : SpVec K) (hn : (v.map Prod.fst).Nodup) (u : Nat) :
    lastStored v u = SpVec.get v u := by
  have : ∀ (v : SpVec K) (a : K), (v.map Prod.fst).Nodup →
      v.foldl (fun acc e => if e.1 = u then e.2 else acc) a =
        if u ∈ v.map Prod.fst then SpVec.get v u else a := by
    intro v
    induction v with
    | nil => intro a _; simp
    | cons e v ih =>
      intro a hn
      simp only [List.map_cons, List.nodup_cons] at hn
      rw [List.foldl_cons, ih _ hn.2, get_cons']
      by_cases h : e.1 = u
      · subst h
        simp [hn.1, get_zero_of_not_mem _ _ hn.1]
      · have h' : ¬ u = e.1 := fun x => h x.symm
        simp only [h, if_false, zero_add, List.map_cons, List.mem_cons, h', false_or]
  unfold lastStored
  rw [this v 0 hn]
  split
  · rfl
  · rename_i h; rw [get_zero_of_not_mem _ _ h]

/-- A data matrix as the wrapper hands it over: rows in range, no position stored twice. -/
structure Proper (X : CSC K) : Prop where
  inside : ∀ col ∈ X.cols, ∀ e ∈ col, e.1 < X.rows
  nodup : ∀ col ∈ X.cols, (col.map Prod.fst).Nodup

theorem Proper.col_inside {X : CSC K} (h : Proper X) (f : Nat) : ∀ e ∈ column X f, e.1 < X.rows := by
  intro e he
  unfold column at he
  by_cases hf : f < X.cols.length
  · rw [List.getD_eq_getElem?_getD, List.getElem?_eq_getElem hf, Option.getD_some] at he
    exact h.inside _ (List.getElem_mem hf) e he
  · rw [List.getD_eq_getElem?_getD, List.getElem?_eq_none (by omega)] at he
    simp at he

theorem Proper.col_nodup {X : CSC K} (h : Proper X) (f : Nat) : ((column X f).map Prod.fst).Nodup := by
  unfold column
  by_cases hf : f < X.cols.length
  · rw [List.getD_eq_getElem?_getD, List.getElem?_eq_getElem hf, Option.getD_some]
    exact h.nodup _ (List.getElem_mem hf)
  · rw [List.getD_eq_getElem?_getD, List.getElem?_eq_none (by omega)]
    simp

/-- the remnants are `X b - x_j` for the lanes of the block -/
def Consistent (X : CSC K) (B begin : Nat) (s : Block K) : Prop :=
  ∀ k, k < B → begin + k < X.cols.length → ∀ u, u < X.rows →
    s.rem k u = ∑ f ∈ Finset.range X.cols.length, X.get u f * s.coef k f - X.get u (begin + k)

theorem init_consistent (X : CSC K) (hX : Proper X) (B begin : Nat) :
    Consistent X B begin (initBlock X B begin) := by
  intro k hk hj u hu
  simp only [initBlock]
  rw [if_pos ⟨hk, hj⟩, lastStored_eq _ (hX.col_nodup _)]
  simp [CSC.get, column]

theorem rem_update_sum (v : SpVec K) (u : Nat) (c : K) :
    (v.map (fun e => if e.1 = u then e.2 * c else 0)).sum = SpVec.get v u * c := by
  induction v with
  | nil => simp [SpVec.get]
  | cons e v ih =>
    rw [List.map_cons, List.sum_cons, ih, get_cons']
    split <;> ring

theorem sum_update (F f : Nat) (hf : f < F) (a b : Nat → K) (v : K) :
    ∑ g ∈ Finset.range F, a g * (if g = f then v else b g) =
      ∑ g ∈ Finset.range F, a g * b g + a f * (v - b f) := by
  have h : ∀ g ∈ Finset.range F, a g * (if g = f then v else b g) =
      a g * b g + (if g = f then a f * (v - b f) else 0) := by
    intro g _
    split
    · rename_i h; subst h; ring
    · ring
  rw [Finset.sum_congr rfl h, Finset.sum_add_distrib]
  simp [hf]

/-- nothing was lost: either no lane changes at all, or the remnants are updated -/
def NotLost (cfg : Config K) (X : CSC K) (begin : Nat) (s : Block K) (f : Nat) : Prop :=
  (∀ k, k < cfg.blockSize → change cfg X begin s f k = 0) ∨
    ∃ k, k < cfg.blockSize ∧ cfg.prec < |change cfg X begin s f k|

theorem isZero_iff (cfg : Config K) (X : CSC K) (begin : Nat) (s : Block K) (f : Nat) :
    isZero cfg X begin s f = true ↔ ∀ k, k < cfg.blockSize → |change cfg X begin s f k| ≤ cfg.prec := by
  simp [isZero]

theorem step_consistent (cfg : Config K) (X : CSC K) (begin : Nat) (s : Block K)
    (f : Nat) (hf : f < X.cols.length) (hs : Consistent X cfg.blockSize begin s)
    (hl : NotLost cfg X begin s f) :
    Consistent X cfg.blockSize begin (featureStep cfg X begin s f) := by
  intro k hk hj u hu
  simp only [featureStep]
  rw [sum_update _ f hf (fun g => X.get u g) (s.coef k)]
  have h0 := hs k hk hj u hu
  by_cases hz : isZero cfg X begin s f = true
  · rw [if_pos hz, h0]
    have : change cfg X begin s f k = 0 := by
      rcases hl with h | ⟨k', hk', h⟩
      · exact h k hk
      · exact absurd ((isZero_iff ..).mp hz k' hk') (not_le.mpr h)
    unfold change at this
    rw [this]; ring
  · rw [if_neg hz, h0, rem_update_sum]
    unfold change
    show _ + X.get u f * _ = _
    ring

variable [IsStrictOrderedRing K]

/-- variational inequality satisfied by the value `choose` returns -/
theorem choose_vi (pos : Bool) (q lin l1 : K) (hq : 0 < q) (h1 : 0 ≤ l1) (t : K)
    (ht : pos = true → 0 ≤ t) :
    let c := choose pos ((-lin - l1) / q) ((-lin + l1) / q)
    0 ≤ (q * c + lin) * (t - c) + l1 * (|t| - |c|) := by
  intro c
  have ht1 : t ≤ |t| := le_abs_self t
  have ht2 : -t ≤ |t| := neg_le_abs t
  have ht0 : 0 ≤ |t| := abs_nonneg t
  by_cases hp : (-lin - l1) / q > 0
  · have hc : c = (-lin - l1) / q := by
      simp only [c, choose]; cases pos <;> simp [hp]
    have hqc : q * c = -lin - l1 := by rw [hc]; field_simp
    have hc0 : |c| = c := abs_of_pos (hc ▸ hp)
    rw [hqc, hc0]
    nlinarith
  · cases hb : pos with
    | true =>
      have hc : c = 0 := by simp only [c, choose, hb]; simp [hp]
      have hlp : -lin - l1 ≤ 0 := by
        by_contra h
        exact hp (div_pos (not_le.mp h) hq)
      have ht' := ht hb
      rw [hc, abs_zero, abs_of_nonneg ht']
      nlinarith
    | false =>
      have hlp : -lin - l1 ≤ 0 := by
        by_contra h
        exact hp (div_pos (not_le.mp h) hq)
      by_cases hm : (-lin + l1) / q < 0
      · have hc : c = (-lin + l1) / q := by simp only [c, choose, hb]; simp [hp, hm]
        have hqc : q * c = -lin + l1 := by rw [hc]; field_simp
        have hc0 : |c| = -c := abs_of_neg (hc ▸ hm)
        rw [hqc, hc0]
        nlinarith
      · have hc : c = 0 := by simp only [c, choose, hb]; simp [hp, hm]
        have hlm : 0 ≤ -lin + l1 := by
          by_contra h
          exact hm (div_neg_of_neg_of_pos (not_le.mp h) hq)
        rw [hc, abs_zero]
        rcases le_total 0 t with h | h
        · rw [abs_of_nonneg h]; nlinarith
        · rw [abs_of_nonpos h]; nlinarith

theorem choose_zero (pos : Bool) (lin l1 : K) (h1 : 0 ≤ l1) :
    choose pos ((-lin - l1) / 0) ((-lin + l1) / 0) = 0 := by
  simp [choose]

/-- the gradient of the quadratic part in coordinate `f` -/
def grad (X : CSC K) (rem : Nat → K) (f : Nat) : K :=
  ∑ u ∈ Finset.range X.rows, X.get u f * rem u

def colSq (X : CSC K) (f : Nat) : K := ∑ u ∈ Finset.range X.rows, X.get u f * X.get u f

theorem colSq_nonneg (X : CSC K) (f : Nat) : 0 ≤ colSq X f :=
  Finset.sum_nonneg (fun _ _ => mul_self_nonneg _)

theorem linear_eq (X : CSC K) (hX : Proper X) (f : Nat) (rem : Nat → K) (c : K) :
    linear (column X f) rem c = grad X rem f - colSq X f * c := by
  unfold linear
  rw [sum_stored' _ _ (hX.col_inside f), sum_sq_stored _ (hX.col_nodup f) _ (hX.col_inside f)]
  rfl

theorem x2Sum_eq (X : CSC K) (hX : Proper X) (f : Nat) : x2Sum (column X f) = colSq X f :=
  sum_sq_stored _ (hX.col_nodup f) _ (hX.col_inside f)

/-- the value a lane's coefficient gets satisfies the variational inequality of its coordinate -/
theorem newCoef_vi (cfg : Config K) (X : CSC K) (hX : Proper X) (h2 : 0 ≤ cfg.l2) (h1 : 0 ≤ cfg.l1)
    (begin : Nat) (s : Block K) (f k : Nat) (hne : begin + k ≠ f) (t : K)
    (ht : cfg.positiveOnly = true → 0 ≤ t) :
    0 ≤ ((colSq X f + cfg.l2) * newCoef cfg X begin s f k
          + (grad X (s.rem k) f - colSq X f * s.coef k f)) * (t - newCoef cfg X begin s f k)
        + cfg.l1 * (|t| - |newCoef cfg X begin s f k|) := by
  have hc : newCoef cfg X begin s f k = choose cfg.positiveOnly
      ((-(grad X (s.rem k) f - colSq X f * s.coef k f) - cfg.l1) / (colSq X f + cfg.l2))
      ((-(grad X (s.rem k) f - colSq X f * s.coef k f) + cfg.l1) / (colSq X f + cfg.l2)) := by
    unfold newCoef
    simp only [hne, if_false]
    rw [linear_eq X hX, x2Sum_eq X hX]
  have hq := add_nonneg (colSq_nonneg X f) h2
  rcases hq.lt_or_eq with hq | hq
  · rw [hc]
    exact choose_vi cfg.positiveOnly _ _ _ hq h1 t ht
  · rw [← hq, choose_zero _ _ _ h1] at hc
    rw [hc, ← hq]
    have hsq : colSq X f = 0 := by
      have := colSq_nonneg X f; linarith
    have hx : ∀ u ∈ Finset.range X.rows, X.get u f * X.get u f = 0 :=
      (Finset.sum_eq_zero_iff_of_nonneg (fun _ _ => mul_self_nonneg _)).mp hsq
    have hg : grad X (s.rem k) f = 0 := by
      unfold grad
      apply Finset.sum_eq_zero
      intro u hu
      rw [mul_self_eq_zero.mp (hx u hu), zero_mul]
    rw [hsq, hg]
    simp
    exact mul_nonneg h1 (abs_nonneg t)

/-- what changes in the loss of a column when only coordinate `f` is changed to `t` -/
theorem loss_update (X : CSC K) (l2 l1 : K) (j f : Nat) (hf : f < X.cols.length) (b : Nat → K)
    (rem : Nat → K)
    (hrem : ∀ u, u < X.rows → rem u = ∑ g ∈ Finset.range X.cols.length, X.get u g * b g - X.get u j)
    (t : K) :
    columnLoss X.get X.rows X.cols.length l2 l1 j (fun g => if g = f then t else b g) =
      columnLoss X.get X.rows X.cols.length l2 l1 j b
        + (grad X rem f * (t - b f) + colSq X f * (t - b f) ^ 2 / 2
          + l2 / 2 * (t ^ 2 - b f ^ 2) + l1 * (|t| - |b f|)) := by
  unfold columnLoss
  have e1 : ∑ u ∈ Finset.range X.rows, (X.get u j - ∑ g ∈ Finset.range X.cols.length,
        X.get u g * (if g = f then t else b g)) ^ 2 =
      ∑ u ∈ Finset.range X.rows, (X.get u j - ∑ g ∈ Finset.range X.cols.length, X.get u g * b g) ^ 2
        + 2 * (t - b f) * grad X rem f + (t - b f) ^ 2 * colSq X f := by
    unfold grad colSq
    rw [Finset.mul_sum, Finset.mul_sum, ← Finset.sum_add_distrib, ← Finset.sum_add_distrib]
    apply Finset.sum_congr rfl
    intro u hu
    rw [sum_update _ f hf (fun g => X.get u g) b, hrem u (Finset.mem_range.mp hu)]
    ring
  have e2 : ∑ g ∈ Finset.range X.cols.length, (if g = f then t else b g) ^ 2 =
      ∑ g ∈ Finset.range X.cols.length, b g ^ 2 + (t ^ 2 - b f ^ 2) := by
    have := sum_update X.cols.length f hf (fun _ => (1 : K)) (fun g => b g ^ 2) (t ^ 2)
    simp only [one_mul] at this
    rw [← this]
    apply Finset.sum_congr rfl
    intro g _; split <;> rfl
  have e3 : ∑ g ∈ Finset.range X.cols.length, |if g = f then t else b g| =
      ∑ g ∈ Finset.range X.cols.length, |b g| + (|t| - |b f|) := by
    have := sum_update X.cols.length f hf (fun _ => (1 : K)) (fun g => |b g|) |t|
    simp only [one_mul] at this
    rw [← this]
    apply Finset.sum_congr rfl
    intro g _; split <;> rfl
  rw [e1, e2, e3]
  ring

/-- first-order lower bound of the loss: the change to any other column -/
theorem loss_strongly_convex (X : CSC K) (l2 l1 : K) (j : Nat) (b b' : Nat → K)
    (rem : Nat → K)
    (hrem : ∀ u, u < X.rows → rem u = ∑ g ∈ Finset.range X.cols.length, X.get u g * b g - X.get u j) :
    columnLoss X.get X.rows X.cols.length l2 l1 j b
        + ∑ f ∈ Finset.range X.cols.length,
          ((grad X rem f + l2 * b f) * (b' f - b f) + l1 * (|b' f| - |b f|))
        + l2 / 2 * ∑ f ∈ Finset.range X.cols.length, (b' f - b f) ^ 2
      ≤ columnLoss X.get X.rows X.cols.length l2 l1 j b' := by
  unfold columnLoss
  set F := X.cols.length
  have e1 : ∑ u ∈ Finset.range X.rows, (X.get u j - ∑ g ∈ Finset.range F, X.get u g * b g) ^ 2
        + 2 * ∑ f ∈ Finset.range F, grad X rem f * (b' f - b f)
      ≤ ∑ u ∈ Finset.range X.rows, (X.get u j - ∑ g ∈ Finset.range F, X.get u g * b' g) ^ 2 := by
    have hsw : ∑ f ∈ Finset.range F, grad X rem f * (b' f - b f) =
        ∑ u ∈ Finset.range X.rows, rem u * ∑ f ∈ Finset.range F, X.get u f * (b' f - b f) := by
      unfold grad
      simp only [Finset.sum_mul, Finset.mul_sum]
      rw [Finset.sum_comm]
      apply Finset.sum_congr rfl; intro u _
      apply Finset.sum_congr rfl; intro f _
      ring
    rw [hsw, Finset.mul_sum, ← Finset.sum_add_distrib]
    apply Finset.sum_le_sum
    intro u hu
    have hd : ∑ f ∈ Finset.range F, X.get u f * (b' f - b f) =
        ∑ f ∈ Finset.range F, X.get u f * b' f - ∑ f ∈ Finset.range F, X.get u f * b f := by
      rw [← Finset.sum_sub_distrib]
      apply Finset.sum_congr rfl; intro f _; ring
    rw [hd, hrem u (Finset.mem_range.mp hu)]
    nlinarith [sq_nonneg (∑ f ∈ Finset.range F, X.get u f * b' f - ∑ f ∈ Finset.range F, X.get u f * b f)]
  have e2 : ∑ f ∈ Finset.range F, b' f ^ 2 = ∑ f ∈ Finset.range F, b f ^ 2
      + 2 * ∑ f ∈ Finset.range F, b f * (b' f - b f) + ∑ f ∈ Finset.range F, (b' f - b f) ^ 2 := by
    rw [Finset.mul_sum, ← Finset.sum_add_distrib, ← Finset.sum_add_distrib]
    apply Finset.sum_congr rfl
    intro f _
    ring
  have e3 : ∑ f ∈ Finset.range F, ((grad X rem f + l2 * b f) * (b' f - b f) + l1 * (|b' f| - |b f|)) =
      ∑ f ∈ Finset.range F, grad X rem f * (b' f - b f) + l2 * ∑ f ∈ Finset.range F, b f * (b' f - b f)
        + l1 * (∑ f ∈ Finset.range F, |b' f| - ∑ f ∈ Finset.range F, |b f|) := by
    rw [Finset.mul_sum, ← Finset.sum_sub_distrib, Finset.mul_sum, ← Finset.sum_add_distrib,
      ← Finset.sum_add_distrib]
    apply Finset.sum_congr rfl; intro f _; ring
  rw [e3, e2]
  linarith

theorem loss_convex (X : CSC K) (l2 l1 : K) (h2 : 0 ≤ l2) (j : Nat) (b b' : Nat → K)
    (rem : Nat → K)
    (hrem : ∀ u, u < X.rows → rem u = ∑ g ∈ Finset.range X.cols.length, X.get u g * b g - X.get u j) :
    columnLoss X.get X.rows X.cols.length l2 l1 j b
        + ∑ f ∈ Finset.range X.cols.length,
          ((grad X rem f + l2 * b f) * (b' f - b f) + l1 * (|b' f| - |b f|))
      ≤ columnLoss X.get X.rows X.cols.length l2 l1 j b' := by
  have h := loss_strongly_convex X l2 l1 j b b' rem hrem
  have : 0 ≤ l2 / 2 * ∑ f ∈ Finset.range X.cols.length, (b' f - b f) ^ 2 :=
    mul_nonneg (by linarith) (Finset.sum_nonneg (fun _ _ => sq_nonneg _))
  linarith

/-! ### Reachable states -/

omit [IsStrictOrderedRing K] in
/-- the block after the features of a list have been visited in order -/
def visit (cfg : Config K) (X : CSC K) (begin : Nat) (visited : List Nat) : Block K :=
  visited.foldl (featureStep cfg X begin) (initBlock X cfg.blockSize begin)

/-- every change made on the way was either propagated to the remnants or exactly zero -/
def Lossless (cfg : Config K) (X : CSC K) (begin : Nat) (visited : List Nat) : Prop :=
  ∀ pre f, (pre ++ [f]) <+: visited → NotLost cfg X begin (visit cfg X begin pre) f

omit [IsStrictOrderedRing K] in
theorem visit_append (cfg : Config K) (X : CSC K) (begin : Nat) (v : List Nat) (f : Nat) :
    visit cfg X begin (v ++ [f]) = featureStep cfg X begin (visit cfg X begin v) f := by
  simp [visit]

omit [IsStrictOrderedRing K] in
theorem visit_consistent (cfg : Config K) (X : CSC K) (hX : Proper X) (begin : Nat) (v : List Nat)
    (hv : ∀ f ∈ v, f < X.cols.length) (hl : Lossless cfg X begin v) :
    Consistent X cfg.blockSize begin (visit cfg X begin v) := by
  induction v using List.reverseRecOn with
  | nil => exact init_consistent X hX _ _
  | append_singleton v f ih =>
    rw [visit_append]
    apply step_consistent _ _ _ _ _ (hv f (by simp)) _ (hl v f (List.prefix_refl _))
    exact ih (fun g hg => hv g (by simp [hg]))
      (fun pre g hp => hl pre g (hp.trans (List.prefix_append _ _)))

theorem lossless_exact (cfg : Config K) (hp : cfg.prec = 0) (X : CSC K) (begin : Nat) (v : List Nat) :
    Lossless cfg X begin v := by
  intro pre f _
  by_cases h : ∀ k, k < cfg.blockSize → change cfg X begin (visit cfg X begin pre) f k = 0
  · exact Or.inl h
  · right
    push Not at h
    obtain ⟨k, hk, hne⟩ := h
    exact ⟨k, hk, by rw [hp]; exact abs_pos.mpr hne⟩

omit [IsStrictOrderedRing K] in
theorem visit_diag (cfg : Config K) (X : CSC K) (begin : Nat) (v : List Nat) (k : Nat) :
    (visit cfg X begin v).coef k (begin + k) = 0 := by
  induction v using List.reverseRecOn with
  | nil => rfl
  | append_singleton v f ih =>
    rw [visit_append]
    simp only [featureStep]
    split
    · rename_i h; simp [newCoef, h]
    · exact ih

omit [IsStrictOrderedRing K] in
theorem choose_nonneg (a b : K) : 0 ≤ choose true a b := by
  unfold choose
  simp only [if_true]
  split
  · rename_i h; exact le_of_lt h
  · exact le_refl _

omit [IsStrictOrderedRing K] in
theorem visit_nonneg (cfg : Config K) (hp : cfg.positiveOnly = true) (X : CSC K) (begin : Nat)
    (v : List Nat) (k f : Nat) : 0 ≤ (visit cfg X begin v).coef k f := by
  induction v using List.reverseRecOn with
  | nil => exact le_refl _
  | append_singleton v g ih =>
    rw [visit_append]
    simp only [featureStep]
    split
    · unfold newCoef
      simp only
      split
      · exact le_refl _
      · rw [hp]; exact choose_nonneg _ _
    · exact ih

omit [IsStrictOrderedRing K] in
theorem sweep_fst (cfg : Config K) (X : CSC K) (begin : Nat) (order : List Nat) (s : Block K) :
    (sweep cfg X begin order s).1 = order.foldl (featureStep cfg X begin) s := by
  unfold sweep
  have : ∀ (order : List Nat) (s : Block K) (d : K),
      (order.foldl (fun p f => (featureStep cfg X begin p.1 f, deltaStep cfg X begin p.1 f p.2)) (s, d)).1
        = order.foldl (featureStep cfg X begin) s := by
    intro order
    induction order with
    | nil => intro s d; rfl
    | cons f fs ih => intro s d; simp only [List.foldl_cons]; exact ih _ _
  exact this order s 0

omit [IsStrictOrderedRing K] in
/-- the iterations of a block visit the features of some number of consecutive shuffles -/
theorem iterations_visits (cfg : Config K) (X : CSC K) (begin : Nat) (shuffles : Nat → List Nat) (n : Nat) :
    ∀ (c : Nat) (s : Block K), ∃ m, m ≤ n ∧ (0 < n → 0 < m) ∧
      iterations cfg X begin shuffles n c s =
        (((List.range m).flatMap (fun i => shuffles (c + i))).foldl (featureStep cfg X begin) s, c + m) := by
  induction n with
  | zero => intro c s; exact ⟨0, le_refl _, id, rfl⟩
  | succ n ih =>
    intro c s
    unfold iterations
    simp only
    split
    · refine ⟨1, by omega, fun _ => by omega, ?_⟩
      simp [sweep_fst]
    · obtain ⟨m, hm, _, he⟩ := ih (c + 1) (sweep cfg X begin (shuffles c) s).1
      refine ⟨m + 1, by omega, fun _ => by omega, ?_⟩
      rw [he, sweep_fst, List.range_succ_eq_map, List.flatMap_cons, List.foldl_append, List.flatMap_map,
        Prod.mk.injEq]
      refine ⟨?_, by omega⟩
      simp only [Nat.add_zero]
      congr 2
      funext i
      congr 1
      omega

end Irspack.Slim
