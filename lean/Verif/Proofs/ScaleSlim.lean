import Mathlib.Algebra.BigOperators.Ring.List
import Mathlib.Tactic.Ring
import Mathlib.Algebra.Order.BigOperators.Group.List
import Mathlib.Tactic.FieldSimp
import Verif.Model.Slim
import Verif.Spec.Scale

/-! # SLIM on interactions multiplied by a constant: lemmas -/

namespace Irspack.Slim

open Spec.Scale

variable {K : Type} [Field K] [LinearOrder K]

/-- the configuration with its penalties in the new unit -/
def Config.scale (c : K) (cfg : Config K) : Config K := { cfg with l1 := c ^ 2 * cfg.l1, l2 := c ^ 2 * cfg.l2 }

theorem column_scale (c : K) (X : CSC K) (f : Nat) : column (scaledCSC c X) f = scaledVec c (column X f) := by
  unfold column scaledCSC
  simp only [List.getD_eq_getElem?_getD, List.getElem?_map]
  cases X.cols[f]? <;> rfl

theorem length_scale (c : K) (X : CSC K) : (scaledCSC c X).cols.length = X.cols.length := by
  simp [scaledCSC]

theorem lastStored_scale (c : K) (v : SpVec K) (u : Nat) : lastStored (scaledVec c v) u = c * lastStored v u := by
  unfold lastStored scaledVec
  rw [List.foldl_map]
  have : ∀ (l : SpVec K) (a : K), l.foldl (fun acc e => if e.1 = u then c * e.2 else acc) (c * a) =
      c * l.foldl (fun acc e => if e.1 = u then e.2 else acc) a := by
    intro l
    induction l with
    | nil => intro a; rfl
    | cons e l ih =>
      intro a
      rw [List.foldl_cons, List.foldl_cons, ← ih]
      congr 1
      split <;> rfl
  have h := this v 0
  rw [mul_zero] at h
  exact h

theorem x2Sum_scale (c : K) (v : SpVec K) : x2Sum (scaledVec c v) = c ^ 2 * x2Sum v := by
  unfold x2Sum scaledVec
  rw [List.map_map, ← List.sum_map_mul_left]
  congr 1
  apply List.map_congr_left
  intro e _
  simp only [Function.comp]; ring

theorem linear_scale (c : K) (v : SpVec K) (rem : Nat → K) (coef : K) :
    linear (scaledVec c v) (fun u => c * rem u) coef = c ^ 2 * linear v rem coef := by
  unfold linear
  rw [x2Sum_scale, mul_sub, ← List.sum_map_mul_left]
  congr 1
  · congr 1
    unfold scaledVec
    rw [List.map_map]
    apply List.map_congr_left
    intro e _
    simp only [Function.comp]; ring
  · ring

/-- the block whose remnants are in the new unit -/
def Block.scale (c : K) (s : Block K) : Block K := ⟨fun k u => c * s.rem k u, s.coef⟩

variable {c : K} (hc : c ≠ 0) (cfg : Config K) (X : CSC K) (b : Nat)

theorem initBlock_scale (c : K) (B : Nat) : initBlock (scaledCSC c X) B b = (initBlock X B b).scale c := by
  unfold initBlock Block.scale
  simp only [Block.mk.injEq, and_true]
  funext k u
  rw [length_scale, column_scale, lastStored_scale]
  split
  · ring
  · ring

include hc

theorem newCoef_scale (s : Block K) (f k : Nat) :
    newCoef (cfg.scale c) (scaledCSC c X) b (s.scale c) f k = newCoef cfg X b s f k := by
  have hc2 : c ^ 2 ≠ 0 := pow_ne_zero 2 hc
  have hl : linear (scaledVec c (column X f)) ((s.scale c).rem k) ((s.scale c).coef k f) =
      c ^ 2 * linear (column X f) (s.rem k) (s.coef k f) := linear_scale c _ _ _
  have h1 : ∀ l q : K, (-(c ^ 2 * l) - c ^ 2 * cfg.l1) / (c ^ 2 * q + c ^ 2 * cfg.l2) = (-l - cfg.l1) / (q + cfg.l2) := by
    intro l q
    rw [show -(c ^ 2 * l) - c ^ 2 * cfg.l1 = c ^ 2 * (-l - cfg.l1) by ring, ← mul_add, mul_div_mul_left _ _ hc2]
  have h2 : ∀ l q : K, (-(c ^ 2 * l) + c ^ 2 * cfg.l1) / (c ^ 2 * q + c ^ 2 * cfg.l2) = (-l + cfg.l1) / (q + cfg.l2) := by
    intro l q
    rw [show -(c ^ 2 * l) + c ^ 2 * cfg.l1 = c ^ 2 * (-l + cfg.l1) by ring, ← mul_add, mul_div_mul_left _ _ hc2]
  unfold newCoef
  rw [column_scale, hl, x2Sum_scale]
  simp only [Config.scale, h1, h2]

theorem change_scale (s : Block K) (f k : Nat) :
    change (cfg.scale c) (scaledCSC c X) b (s.scale c) f k = change cfg X b s f k := by
  unfold change
  rw [newCoef_scale hc]
  rfl

theorem isZero_scale (s : Block K) (f : Nat) :
    isZero (cfg.scale c) (scaledCSC c X) b (s.scale c) f = isZero cfg X b s f := by
  unfold isZero
  simp only [change_scale hc]
  rfl

theorem featureStep_scale (s : Block K) (f : Nat) :
    featureStep (cfg.scale c) (scaledCSC c X) b (s.scale c) f = (featureStep cfg X b s f).scale c := by
  unfold featureStep
  simp only [isZero_scale hc, change_scale hc, newCoef_scale hc, column_scale]
  unfold Block.scale
  simp only [Block.mk.injEq, and_true]
  funext k u
  split
  · rfl
  · rw [mul_add, ← List.sum_map_mul_left]
    congr 2
    unfold scaledVec
    rw [List.map_map]
    apply List.map_congr_left
    intro e _
    simp only [Function.comp]
    split <;> ring

theorem deltaStep_scale (s : Block K) (f : Nat) (d : K) :
    deltaStep (cfg.scale c) (scaledCSC c X) b (s.scale c) f d = deltaStep cfg X b s f d := by
  unfold deltaStep
  simp only [isZero_scale hc, change_scale hc]
  rfl

theorem sweep_scale (order : List Nat) (s : Block K) :
    sweep (cfg.scale c) (scaledCSC c X) b order (s.scale c) =
      ((sweep cfg X b order s).1.scale c, (sweep cfg X b order s).2) := by
  unfold sweep
  have : ∀ (l : List Nat) (p : Block K × K),
      l.foldl (fun p f => (featureStep (cfg.scale c) (scaledCSC c X) b p.1 f,
        deltaStep (cfg.scale c) (scaledCSC c X) b p.1 f p.2)) (p.1.scale c, p.2) =
      ((l.foldl (fun p f => (featureStep cfg X b p.1 f, deltaStep cfg X b p.1 f p.2)) p).1.scale c,
       (l.foldl (fun p f => (featureStep cfg X b p.1 f, deltaStep cfg X b p.1 f p.2)) p).2) := by
    intro l
    induction l with
    | nil => intro p; rfl
    | cons f l ih =>
      intro p
      rw [List.foldl_cons, List.foldl_cons, featureStep_scale hc, deltaStep_scale hc]
      exact ih (_, _)
  exact this order (s, 0)

theorem iterations_scale (shuffles : Nat → List Nat) : ∀ (n q : Nat) (s : Block K),
    iterations (cfg.scale c) (scaledCSC c X) b shuffles n q (s.scale c) =
      ((iterations cfg X b shuffles n q s).1.scale c, (iterations cfg X b shuffles n q s).2) := by
  intro n
  induction n with
  | zero => intro q s; rfl
  | succ n ih =>
    intro q s
    rw [iterations, iterations, sweep_scale hc]
    have ht : (cfg.scale c).tol = cfg.tol := rfl
    simp only [ht]
    split
    · rfl
    · exact ih _ _

theorem processBlock_scale (shuffles : Nat → List Nat) (srt : List (K × Nat) → List (K × Nat)) (i : Nat)
    (w : Worker K) :
    processBlock (cfg.scale c) (scaledCSC c X) shuffles srt i w = processBlock cfg X shuffles srt i w := by
  unfold processBlock
  have h1 : (cfg.scale c).blockSize = cfg.blockSize := rfl
  have h2 : (cfg.scale c).nIter = cfg.nIter := rfl
  have h3 : (cfg.scale c).topK = cfg.topK := rfl
  simp only [h1, h2, h3, length_scale, initBlock_scale, iterations_scale hc]
  rfl

theorem slim_scale [IsStrictOrderedRing K] {T : Nat} (shuffles : Nat → List Nat)
    (srt : List (K × Nat) → List (K × Nat)) (sched : List (Fin T)) :
    slim (cfg.scale c) (scaledCSC c X) shuffles srt sched = slim cfg X shuffles srt sched := by
  have hc2 : 0 < c ^ 2 := lt_of_le_of_ne (sq_nonneg c) (pow_ne_zero 2 hc).symm
  have h1 : (cfg.scale c).blockSize = cfg.blockSize := rfl
  have h2 : (cfg.scale c).nIter = cfg.nIter := rfl
  have h3 : (cfg.scale c).topK = cfg.topK := rfl
  have hl2 : (cfg.scale c).l2 < 0 ↔ cfg.l2 < 0 := by
    show c ^ 2 * cfg.l2 < 0 ↔ _
    constructor
    · intro h; by_contra h'; exact absurd h (not_lt.mpr (mul_nonneg hc2.le (not_lt.mp h')))
    · exact fun h => mul_neg_of_pos_of_neg hc2 h
  have hl1 : (cfg.scale c).l1 < 0 ↔ cfg.l1 < 0 := by
    show c ^ 2 * cfg.l1 < 0 ↔ _
    constructor
    · intro h; by_contra h'; exact absurd h (not_lt.mpr (mul_nonneg hc2.le (not_lt.mp h')))
    · exact fun h => mul_neg_of_pos_of_neg hc2 h
  have hb : blockCount (cfg.scale c) (scaledCSC c X) = blockCount cfg X := by
    unfold blockCount; rw [length_scale, h1]
  have hw : freshWorker (cfg.scale c) (scaledCSC c X) = freshWorker cfg X := by
    unfold freshWorker; rw [length_scale, h3]
  have hp : (fun i (w : Worker K) (m : Unit) => (processBlock (cfg.scale c) (scaledCSC c X) shuffles srt i w, m)) =
      fun i w m => (processBlock cfg X shuffles srt i w, m) := by
    funext i w m
    rw [processBlock_scale hc]
  unfold slim
  simp only [h2, hl1, hl2, hb, hw, hp]

end Irspack.Slim
