import Verif.Spec.Rounding
import Verif.Model.FloatEval
import Verif.Proofs.Region
import Mathlib.Tactic.Linarith
import Mathlib.Tactic.NormNum
import Mathlib.Tactic.Positivity
import Mathlib.Tactic.FieldSimp
import Mathlib.Algebra.Order.Round

namespace Irspack.Rounding

open Irspack Spec WorkQueue

section within
variable {u : ℝ} {d e : Nat} {x y xh yh : ℝ}

theorem pow_bounds (h0 : 0 ≤ u) (h1 : u < 1) (d : Nat) : 0 < (1 - u) ^ d ∧ (1 - u) ^ d ≤ 1 :=
  ⟨pow_pos (by linarith) d, pow_le_one₀ (by linarith) (by linarith)⟩

theorem within_refl (h0 : 0 ≤ u) (h1 : u < 1) (hx : 0 ≤ x) (d : Nat) : Within u d x x := by
  have := pow_bounds h0 h1 d
  refine ⟨hx, ?_, ?_⟩ <;> nlinarith [this.1, this.2]

theorem within_nonneg (h0 : 0 ≤ u) (h1 : u < 1) (h : Within u d x xh) : 0 ≤ xh :=
  le_trans (mul_nonneg (pow_bounds h0 h1 d).1.le h.1) h.2.1

theorem within_mono (h0 : 0 ≤ u) (h1 : u < 1) (hde : d ≤ e) (h : Within u d x xh) : Within u e x xh := by
  have hp : (1 - u) ^ e ≤ (1 - u) ^ d := pow_le_pow_of_le_one (by linarith) (by linarith) hde
  have hxh := within_nonneg h0 h1 h
  exact ⟨h.1, le_trans (mul_le_mul_of_nonneg_right hp h.1) h.2.1,
    le_trans (mul_le_mul_of_nonneg_right hp hxh) h.2.2⟩

theorem within_symm (h0 : 0 ≤ u) (h1 : u < 1) (h : Within u d x xh) : Within u d xh x :=
  ⟨within_nonneg h0 h1 h, h.2.2, h.2.1⟩

theorem within_trans {z : ℝ} (h0 : 0 ≤ u) (h1 : u < 1) (h : Within u d x y) (h' : Within u e y z) :
    Within u (d + e) x z := by
  have pd := (pow_bounds h0 h1 d).1.le
  have pe := (pow_bounds h0 h1 e).1.le
  refine ⟨h.1, ?_, ?_⟩
  · calc (1 - u) ^ (d + e) * x = (1 - u) ^ e * ((1 - u) ^ d * x) := by rw [pow_add]; ring
      _ ≤ (1 - u) ^ e * y := mul_le_mul_of_nonneg_left h.2.1 pe
      _ ≤ z := h'.2.1
  · calc (1 - u) ^ (d + e) * z = (1 - u) ^ d * ((1 - u) ^ e * z) := by rw [pow_add]; ring
      _ ≤ (1 - u) ^ d * y := mul_le_mul_of_nonneg_left h'.2.2 pd
      _ ≤ x := h.2.2

theorem within_fl {fl : ℝ → ℝ} (h0 : 0 ≤ u) (h1 : u < 1) (hf : Rounds u fl) (h : Within u d x xh) :
    Within u (d + 1) x (fl xh) := by
  have hxh := within_nonneg h0 h1 h
  have hr := abs_le.mp (hf xh)
  rw [abs_of_nonneg hxh] at hr
  have pd := (pow_bounds h0 h1 d).1.le
  have lo : (1 - u) * xh ≤ fl xh := by nlinarith [hr.1]
  have hi : (1 - u) * fl xh ≤ xh := by nlinarith [hr.2, mul_nonneg (mul_self_nonneg u) hxh]
  refine ⟨h.1, ?_, ?_⟩
  · calc (1 - u) ^ (d + 1) * x = (1 - u) * ((1 - u) ^ d * x) := by rw [pow_succ]; ring
      _ ≤ (1 - u) * xh := mul_le_mul_of_nonneg_left h.2.1 (by linarith)
      _ ≤ fl xh := lo
  · calc (1 - u) ^ (d + 1) * fl xh = (1 - u) ^ d * ((1 - u) * fl xh) := by rw [pow_succ]; ring
      _ ≤ (1 - u) ^ d * xh := mul_le_mul_of_nonneg_left hi pd
      _ ≤ x := h.2.2

theorem within_add (h : Within u d x xh) (h' : Within u d y yh) : Within u d (x + y) (xh + yh) := by
  refine ⟨add_nonneg h.1 h'.1, ?_, ?_⟩
  · rw [mul_add]; exact add_le_add h.2.1 h'.2.1
  · rw [mul_add]; exact add_le_add h.2.2 h'.2.2

theorem within_div (h0 : 0 ≤ u) (h1 : u < 1) (h : Within u d x xh) (h' : Within u e y yh) (hy : 0 < y) :
    Within u (d + e) (x / y) (xh / yh) := by
  have pd := (pow_bounds h0 h1 d).1.le
  have pe := (pow_bounds h0 h1 e).1
  have hyh : 0 < yh := lt_of_lt_of_le (mul_pos pe hy) h'.2.1
  have hxh := within_nonneg h0 h1 h
  refine ⟨div_nonneg h.1 hy.le, ?_, ?_⟩
  · rw [← mul_div_assoc, div_le_div_iff₀ hy hyh]
    calc (1 - u) ^ (d + e) * x * yh = ((1 - u) ^ d * x) * ((1 - u) ^ e * yh) := by rw [pow_add]; ring
      _ ≤ xh * y := mul_le_mul h.2.1 h'.2.2 (mul_nonneg pe.le hyh.le) hxh
  · rw [← mul_div_assoc, div_le_div_iff₀ hyh hy]
    calc (1 - u) ^ (d + e) * xh * y = ((1 - u) ^ d * xh) * ((1 - u) ^ e * y) := by rw [pow_add]; ring
      _ ≤ x * yh := mul_le_mul h.2.2 h'.2.1 (mul_nonneg pe.le hy.le) h.1

end within

/-! ### Two runs of one schedule -/

/-- Runs of the same schedule with two bodies: the rows are the same, and a relation that one row
carries from `k` to `k + 1` holds for each worker at the number of rows it has processed. -/
theorem loc_sim {T : Nat} {L L' : Type} {n c : Nat} (up : Nat → L → L) (up' : Nat → L' → L')
    (R : Nat → L → L' → Prop) (hstep : ∀ r k l l', R k l l' → R (k + 1) (up r l) (up' r l'))
    (sched : List (Fin T)) :
    ∀ (s : State T L Unit) (s' : State T L' Unit), s.pc = s'.pc → s.cursor = s'.cursor →
      s.hist = s'.hist → (∀ t, R (rowsOf s t).length (s.loc t) (s'.loc t)) →
      (run n c (fun r l m => (up r l, m)) s sched).hist =
          (run n c (fun r l m => (up' r l, m)) s' sched).hist ∧
      ∀ t, R (rowsOf (run n c (fun r l m => (up r l, m)) s sched) t).length
        ((run n c (fun r l m => (up r l, m)) s sched).loc t)
        ((run n c (fun r l m => (up' r l, m)) s' sched).loc t) := by
  induction sched with
  | nil => intro s s' _ _ hh hR; exact ⟨hh, hR⟩
  | cons t ts ih =>
    intro s s' hpc hcur hh hR
    have key : (step n c (fun r l m => (up r l, m)) s t).pc = (step n c (fun r l m => (up' r l, m)) s' t).pc ∧
        (step n c (fun r l m => (up r l, m)) s t).cursor =
          (step n c (fun r l m => (up' r l, m)) s' t).cursor ∧
        (step n c (fun r l m => (up r l, m)) s t).hist = (step n c (fun r l m => (up' r l, m)) s' t).hist ∧
        ∀ t', R (rowsOf (step n c (fun r l m => (up r l, m)) s t) t').length
          ((step n c (fun r l m => (up r l, m)) s t).loc t')
          ((step n c (fun r l m => (up' r l, m)) s' t).loc t') := by
      unfold step
      rw [← hpc, ← hcur]
      cases h : s.pc t with
      | fetch => exact ⟨by simp, by simp, hh, hR⟩
      | work r hi =>
        by_cases hr : r < hi
        · simp only [hr, if_true]
          refine ⟨trivial, trivial, by rw [hh], ?_⟩
          intro t'
          by_cases hx : t' = t
          · subst hx
            simp only [Function.update_self]
            have hl : (rowsOf { s with
                pc := Function.update s.pc t' (.work (r + 1) hi)
                loc := Function.update s.loc t' (up r (s.loc t'))
                mem := s.mem
                hist := s.hist ++ [(t', r)] } t').length = (rowsOf s t').length + 1 := by
              simp [rowsOf, List.filter_append]
            rw [hl]
            exact hstep r _ _ _ (hR t')
          · have hx' : ¬ t = t' := fun e => hx e.symm
            simp only [Function.update_of_ne hx]
            have := hR t'
            simpa [rowsOf, List.filter_append, hx'] using this
        · simp only [hr, if_false]
          exact ⟨trivial, trivial, hh, hR⟩
      | stopped => exact ⟨hpc, hcur, hh, hR⟩
    exact ih _ _ key.1 key.2.1 key.2.2.1 key.2.2.2

theorem rowsOf_le {T : Nat} {L M : Type} (s : State T L M) (t : Fin T) :
    (rowsOf s t).length ≤ s.hist.length := by
  unfold rowsOf
  rw [List.length_map]
  exact List.length_filter_le _ _

/-! ### The evaluator -/

open Evaluation Evaluation.FloatEval

theorem within_of_rel {u x xh : ℝ} (h0 : 0 ≤ u) (h1 : u < 1) (hx : 0 ≤ x) (h : |xh - x| ≤ u * |x|) :
    Within u 1 x xh := by
  have hr := abs_le.mp h
  rw [abs_of_nonneg hx] at hr
  refine ⟨hx, ?_, ?_⟩
  · rw [pow_one]; nlinarith [hr.1]
  · rw [pow_one]
    have : xh ≤ (1 + u) * x := by linarith [hr.2]
    nlinarith [hr.2, mul_nonneg (mul_self_nonneg u) hx]

/-- Accumulators that agree in the counters and are within `d` roundings in the sums. -/
structure NearM (u : ℝ) (d : Nat) (m mh : Metrics) : Prop where
  valid : mh.validUser = m.validUser
  total : mh.totalUser = m.totalUser
  cnt : mh.itemCnt = m.itemCnt
  hit : Within u d m.hit mh.hit
  recall : Within u d m.recall mh.recall
  ndcg : Within u d m.ndcg mh.ndcg
  precision : Within u d m.precision mh.precision
  map : Within u d m.map mh.map

section
variable {u : ℝ} (h0 : 0 ≤ u) (h1 : u < 1)
include h0 h1

theorem NearM.mono {d e : Nat} {m mh : Metrics} (hde : d ≤ e) (h : NearM u d m mh) : NearM u e m mh :=
  ⟨h.valid, h.total, h.cnt, within_mono h0 h1 hde h.hit, within_mono h0 h1 hde h.recall,
    within_mono h0 h1 hde h.ndcg, within_mono h0 h1 hde h.precision, within_mono h0 h1 hde h.map⟩

theorem nearM_empty (d : Nat) : NearM u d Metrics.empty Metrics.empty := by
  have h := within_refl h0 h1 (le_refl (0 : ℝ)) d
  exact ⟨rfl, rfl, rfl, h, h, h, h, h⟩

variable {A : Arith} (hf : Rounds u A.fl)
include hf

theorem within_acc {d : Nat} {x xh y yh : ℝ} (h : Within u d x xh) (h' : Within u d y yh) :
    Within u (d + 1) (x + y) (A.fl (xh + yh)) :=
  within_fl h0 h1 hf (within_add h h')

theorem nearM_merge {d : Nat} {m mh o oh : Metrics} (h : NearM u d m mh) (h' : NearM u d o oh) :
    NearM u (d + 1) (m.merge o) (mergeFl A mh oh) where
  valid := by simp [Metrics.merge, mergeFl, h.valid, h'.valid]
  total := by simp [Metrics.merge, mergeFl, h.total, h'.total]
  cnt := by simp [Metrics.merge, mergeFl, h.cnt, h'.cnt]
  hit := within_acc h0 h1 hf h.hit h'.hit
  recall := within_acc h0 h1 hf h.recall h'.recall
  ndcg := within_acc h0 h1 hf h.ndcg h'.ndcg
  precision := within_acc h0 h1 hf h.precision h'.precision
  map := within_acc h0 h1 hf h.map h'.map

theorem nearM_mergeAll (d : Nat) (l lh : List Metrics) (h : List.Forall₂ (NearM u d) l lh) :
    ∀ (k : Nat) (m mh : Metrics), NearM u (d + k) m mh →
      NearM u (d + k + l.length) (l.foldl Metrics.merge m) (lh.foldl (mergeFl A) mh) := by
  induction h with
  | nil => intro k m mh hm; exact hm
  | cons ha _ ih =>
    intro k m mh hm
    have := ih (k + 1) _ _ (by
      have := nearM_merge h0 h1 hf hm (ha.mono h0 h1 (Nat.le_add_right d k))
      exact this)
    simp only [List.foldl_cons, List.length_cons]
    exact this.mono h0 h1 (by omega)

variable (hlog : AccurateLog2 u A.log2)
include hlog

theorem logb_pos' (i : Nat) : 0 < Real.logb 2 ((2 + i : Nat) : ℝ) := by
  apply Real.logb_pos (by norm_num)
  have : (2 : ℝ) ≤ ((2 + i : Nat) : ℝ) := by exact_mod_cast Nat.le_add_right 2 i
  linarith

theorem within_discount (i : Nat) : Within u 2 (dcgDiscount i) (A.discount i) := by
  have hp := logb_pos' h0 h1 hf hlog i
  have hl := within_of_rel h0 h1 hp.le (hlog (2 + i) (by omega))
  have hd := within_div h0 h1 (within_refl h0 h1 (zero_le_one (α := ℝ)) 0) hl hp
  have := within_fl h0 h1 hf hd
  unfold dcgDiscount Arith.discount
  have hc : ((2 + i : Nat) : ℝ) = 2 + (i : ℝ) := by push_cast; ring
  rw [hc] at this
  exact this

theorem dcgDiscount_pos' (i : Nat) : 0 < dcgDiscount i := by
  have hp := logb_pos' h0 h1 hf hlog i
  have hc : ((2 + i : Nat) : ℝ) = 2 + (i : ℝ) := by push_cast; ring
  rw [hc] at hp
  exact one_div_pos.mpr hp

theorem within_idcg (n : Nat) :
    Within u (2 + n) ((List.range n).map dcgDiscount).sum (idcgFl A n) := by
  unfold idcgFl
  induction n with
  | zero => exact within_refl h0 h1 (le_refl _) _
  | succ n ih =>
    rw [List.range_succ, List.map_append, List.sum_append, List.foldl_append]
    simp only [List.map_cons, List.map_nil, List.sum_cons, List.sum_nil, add_zero, List.foldl_cons,
      List.foldl_nil]
    exact within_acc h0 h1 hf ih (within_mono h0 h1 (Nat.le_add_right 2 n) (within_discount h0 h1 hf hlog n))

theorem idcg_pos (n : Nat) (hn : 0 < n) : 0 < ((List.range n).map dcgDiscount).sum := by
  obtain ⟨k, rfl⟩ : ∃ k, n = k + 1 := ⟨n - 1, by omega⟩
  rw [List.range_succ, List.map_append, List.sum_append]
  have h := (within_idcg h0 h1 hf hlog k).1
  have := dcgDiscount_pos' h0 h1 hf hlog k
  simp only [List.map_cons, List.map_nil, List.sum_cons, List.sum_nil, add_zero]
  linarith

/-- loop variables that agree in the counters and are within `k` further roundings in the sums -/
structure NearA (u : ℝ) (k : Nat) (a ah : UpdAcc) : Prop where
  i : ah.i = a.i
  cum : ah.cumHit = a.cumHit
  cnt : ah.itemCnt = a.itemCnt
  dcg : Within u (2 + k) a.dcg ah.dcg
  ap : Within u (2 + k) a.averagePrecision ah.averagePrecision

theorem nearA_fold (gt : Finset Nat) (recs : List Nat) :
    ∀ (k : Nat) (a ah : UpdAcc), NearA u k a ah →
      NearA u (k + recs.length) (recs.foldl (updStep gt) a) (recs.foldl (updStepFl A gt) ah) := by
  induction recs with
  | nil => intro k a ah h; exact h
  | cons r rs ih =>
    intro k a ah h
    have hs : NearA u (k + 1) (updStep gt a r) (updStepFl A gt ah r) := by
      unfold updStep updStepFl
      by_cases hr : r ∈ gt
      · simp only [hr, if_true]
        refine ⟨by rw [h.i], by rw [h.cum], by rw [h.cnt], ?_, ?_⟩
        · rw [h.i]
          exact within_acc h0 h1 hf h.dcg
            (within_mono h0 h1 (Nat.le_add_right 2 k) (within_discount h0 h1 hf hlog a.i))
        · rw [h.i, h.cum]
          refine within_acc h0 h1 hf h.ap ?_
          refine within_mono h0 h1 (show 1 ≤ 2 + k by omega) ?_
          exact within_fl h0 h1 hf (within_refl h0 h1 (by positivity) 0)
      · simp only [hr, if_false]
        exact ⟨by rw [h.i], h.cum, by rw [h.cnt], within_mono h0 h1 (by omega) h.dcg,
          within_mono h0 h1 (by omega) h.ap⟩
    have := ih (k + 1) _ _ hs
    simp only [List.foldl_cons, List.length_cons]
    have e : k + (rs.length + 1) = k + 1 + rs.length := by omega
    rw [e]
    exact this

theorem nearM_update {d : Nat} {m mh : Metrics} (h : NearM u d m mh) (recs : List Nat)
    (gt : Finset Nat) (hgt : gt ≠ ∅) (capped : Bool) (hd : 2 * recs.length + 5 ≤ d) :
    NearM u (d + 1) (m.update recs gt capped) (updateFl A mh recs gt capped) := by
  unfold Metrics.update updateFl
  by_cases hr : recs.length = 0
  · simp only [hr, if_true]
    exact ⟨by rw [h.valid], h.total, h.cnt, within_mono h0 h1 (by omega) h.hit,
      within_mono h0 h1 (by omega) h.recall, within_mono h0 h1 (by omega) h.ndcg,
      within_mono h0 h1 (by omega) h.precision, within_mono h0 h1 (by omega) h.map⟩
  · have hg : 0 < gt.card := Finset.card_pos.mpr (Finset.nonempty_iff_ne_empty.mpr hgt)
    have ha := nearA_fold h0 h1 hf hlog gt recs 0
      { i := 0, dcg := 0, cumHit := 0, averagePrecision := 0, itemCnt := m.itemCnt }
      { i := 0, dcg := 0, cumHit := 0, averagePrecision := 0, itemCnt := mh.itemCnt }
      ⟨rfl, rfl, h.cnt, within_refl h0 h1 (le_refl _) _, within_refl h0 h1 (le_refl _) _⟩
    simp only [hr, if_false]
    refine ⟨by rw [h.valid], h.total, ha.cnt, ?_, ?_, ?_, ?_, ?_⟩
    · simp only [ha.cum]
      split
      · exact within_acc h0 h1 hf h.hit (within_refl h0 h1 zero_le_one _)
      · exact within_mono h0 h1 (by omega) h.hit
    · simp only [ha.cum]
      refine within_acc h0 h1 hf h.recall (within_mono h0 h1 (show 1 ≤ d by omega) ?_)
      exact within_fl h0 h1 hf (within_refl h0 h1 (by positivity) 0)
    · have hw := within_fl h0 h1 hf (within_div h0 h1 ha.dcg (within_idcg h0 h1 hf hlog
          (min gt.card recs.length)) (idcg_pos h0 h1 hf hlog _ (by omega)))
      refine within_acc h0 h1 hf h.ndcg (within_mono h0 h1 ?_ hw)
      have := Nat.min_le_right gt.card recs.length
      omega
    · simp only [ha.cum]
      refine within_acc h0 h1 hf h.precision (within_mono h0 h1 (show 1 ≤ d by omega) ?_)
      exact within_fl h0 h1 hf (within_refl h0 h1 (by positivity) 0)
    · have hw := within_fl h0 h1 hf (within_div h0 h1 ha.ap
          (within_refl h0 h1 (Nat.cast_nonneg gt.card) 0) (by exact_mod_cast hg))
      exact within_acc h0 h1 hf h.map (within_mono h0 h1 (by omega) hw)

theorem nearM_evalRow {S : Type} [LinearOrder S] [OrderBot S] (c : Core) (rows : List (ScoreRow S))
    (cutoff offset : Nat) (capped : Bool) (r k : Nat) (m mh : Metrics)
    (h : NearM u (2 * cutoff + 5 + k) m mh) :
    NearM u (2 * cutoff + 5 + (k + 1)) (c.evalRow rows cutoff offset capped r m)
      (evalRowFl A c rows cutoff offset capped r mh) := by
  unfold Core.evalRow evalRowFl
  have hi : NearM u (2 * cutoff + 5 + k) m.incrementTotalUser mh.incrementTotalUser :=
    ⟨h.valid, by simp [Metrics.incrementTotalUser, h.total], h.cnt, h.hit, h.recall, h.ndcg,
      h.precision, h.map⟩
  by_cases hg : c.gtSet (r + offset) = ∅
  · simp only [hg, if_true]
    exact hi.mono h0 h1 (by omega)
  · simp only [hg, if_false]
    refine nearM_update h0 h1 hf hlog hi _ _ hg capped ?_
    have : (topCutoff c.nItems (c.recommendableFor (r + offset)) cutoff
        (rows.getD r (fun _ => ⊥))).length ≤ cutoff := by
      unfold topCutoff
      rw [List.length_map, List.length_take]
      omega
    omega

end

/-! ### Rounding to nearest -/

theorem two_zpow_pos (e : ℤ) : (0 : ℝ) < 2 ^ e := zpow_pos (by norm_num) e

theorem toNearest_rounds (p : Nat) : Rounds (2 ^ (-(p : ℤ))) (toNearest p) := by
  intro x
  by_cases hx : x = 0
  · subst hx; simp [toNearest]
  · have hpos : 0 < |x| := abs_pos.mpr hx
    have hlog : (2 : ℝ) ^ Int.log 2 |x| ≤ |x| := by
      have := Int.zpow_log_le_self (R := ℝ) (b := 2) (by norm_num) hpos
      exact_mod_cast this
    unfold toNearest
    set e := Int.log 2 |x| with he
    have hh := two_zpow_pos (e - p + 1)
    have hr := abs_sub_round (x / 2 ^ (e - p + 1))
    have heq : (round (x / 2 ^ (e - p + 1)) : ℝ) * 2 ^ (e - p + 1) - x =
        -((x / 2 ^ (e - p + 1) - round (x / 2 ^ (e - p + 1))) * 2 ^ (e - p + 1)) := by
      field_simp
      ring
    rw [heq, abs_neg, abs_mul, abs_of_pos hh]
    calc |x / 2 ^ (e - p + 1) - round (x / 2 ^ (e - p + 1))| * 2 ^ (e - p + 1)
        ≤ 1 / 2 * 2 ^ (e - p + 1) := mul_le_mul_of_nonneg_right hr hh.le
      _ = 2 ^ (-(p : ℤ)) * 2 ^ e := by
          rw [show e - p + 1 = (-(p : ℤ)) + e + 1 by ring, zpow_add₀ (by norm_num), zpow_add₀ (by norm_num)]
          ring
      _ ≤ 2 ^ (-(p : ℤ)) * |x| := mul_le_mul_of_nonneg_left hlog (two_zpow_pos _).le

/-- Numbers that are an integral multiple of the last place are not rounded. -/
theorem toNearest_of_multiple (p : Nat) (x : ℝ) (k : ℤ)
    (h : x = k * 2 ^ (Int.log 2 |x| - p + 1)) : toNearest p x = x := by
  unfold toNearest
  have hh := two_zpow_pos (Int.log 2 |x| - p + 1)
  have : x / 2 ^ (Int.log 2 |x| - p + 1) = (k : ℝ) := by
    rw [div_eq_iff hh.ne']
    exact h
  rw [this, round_intCast]
  exact h.symm

theorem toNearest_exactOnIntegers (p : Nat) (hp : 0 < p) :
    ExactOnIntegers (2 ^ p) (toNearest p) := by
  intro z hz
  by_cases hz0 : z = 0
  · subst hz0; simp [toNearest]
  · have hpos : (0 : ℝ) < |(z : ℝ)| := abs_pos.mpr (by exact_mod_cast hz0)
    have hlog : (2 : ℝ) ^ Int.log 2 |(z : ℝ)| ≤ |(z : ℝ)| := by
      have := Int.zpow_log_le_self (R := ℝ) (b := 2) (by norm_num) hpos
      exact_mod_cast this
    have hzr : |(z : ℝ)| ≤ 2 ^ p := by
      have : ((|z| : ℤ) : ℝ) ≤ (((2 ^ p : Nat) : ℤ) : ℝ) := by exact_mod_cast hz
      simpa using this
    have hle : (2 : ℝ) ^ Int.log 2 |(z : ℝ)| ≤ 2 ^ (p : ℤ) := by
      rw [zpow_natCast]; exact hlog.trans hzr
    have hep : Int.log 2 |(z : ℝ)| ≤ p := (zpow_le_zpow_iff_right₀ (by norm_num)).mp hle
    by_cases heq : Int.log 2 |(z : ℝ)| ≤ p - 1
    · obtain ⟨j, hj⟩ : ∃ j : ℕ, (p : ℤ) - 1 - Int.log 2 |(z : ℝ)| = j :=
        ⟨((p : ℤ) - 1 - Int.log 2 |(z : ℝ)|).toNat, by omega⟩
      refine toNearest_of_multiple p z (z * 2 ^ j) ?_
      rw [show Int.log 2 |(z : ℝ)| - p + 1 = -(j : ℤ) by omega]
      push_cast
      rw [mul_assoc, zpow_neg, zpow_natCast, mul_inv_cancel₀ (by positivity), mul_one]
    · have he : Int.log 2 |(z : ℝ)| = p := by omega
      have habs : |(z : ℝ)| = 2 ^ p := by
        apply le_antisymm hzr
        rw [he, zpow_natCast] at hlog
        exact hlog
      obtain ⟨q, rfl⟩ : ∃ q, p = q + 1 := ⟨p - 1, by omega⟩
      have hpow : (2 : ℝ) ^ (q + 1) = 2 ^ q * 2 := pow_succ 2 q
      rcases abs_choice (z : ℝ) with h | h
      · refine toNearest_of_multiple _ z (2 ^ q) ?_
        rw [he, ← h, habs]
        simp [hpow]
      · refine toNearest_of_multiple _ z (-2 ^ q) ?_
        rw [he]
        have : (z : ℝ) = -(2 ^ q * 2) := by linarith
        rw [this]
        simp

/-- computing a rounding: `2^e ≤ x < 2^(e+1)`, and `k` is nearest to the significand -/
theorem toNearest_keepsShares (p : Nat) (hp : 0 < p) : KeepsShares (toNearest p) := by
  intro x hx hx1
  by_cases h1 : x = 1
  · subst h1
    have := toNearest_exactOnIntegers p hp 1 (by exact_mod_cast Nat.one_le_two_pow)
    rw [Int.cast_one] at this
    exact this.le
  · have hlt : x < 1 := lt_of_le_of_ne hx1 h1
    rw [toNearest, abs_of_pos hx]
    have he : Int.log 2 x + 1 ≤ 0 := by
      have := (Int.lt_zpow_iff_log_lt (R := ℝ) (b := 2) (by norm_num) (r := x) (x := 0) hx).mp (by simpa using hlt)
      omega
    have hup := Int.lt_zpow_succ_log_self (R := ℝ) (b := 2) (by norm_num) x
    have hh := two_zpow_pos (Int.log 2 x - p + 1)
    have hq : x / 2 ^ (Int.log 2 x - p + 1) ≤ ((2 ^ p : ℤ) : ℝ) := by
      rw [div_le_iff₀ hh]
      push_cast
      rw [← zpow_natCast, ← zpow_add₀ (by norm_num : (2 : ℝ) ≠ 0)]
      rw [show (p : ℤ) + (Int.log 2 x - p + 1) = Int.log 2 x + 1 by ring]
      exact_mod_cast hup.le
    have hr : round (x / 2 ^ (Int.log 2 x - p + 1)) ≤ (2 ^ p : ℤ) := by
      rw [round_eq]
      have h2 : x / 2 ^ (Int.log 2 x - p + 1) + 1 / 2 < (((2 ^ p : ℤ) + 1 : ℤ) : ℝ) := by
        push_cast at hq ⊢
        linarith
      have := Int.floor_lt.mpr h2
      omega
    have hr' : ((round (x / 2 ^ (Int.log 2 x - p + 1)) : ℤ) : ℝ) ≤ ((2 ^ p : ℤ) : ℝ) := by exact_mod_cast hr
    refine le_trans (mul_le_mul_of_nonneg_right hr' hh.le) ?_
    push_cast
    rw [← zpow_natCast, ← zpow_add₀ (by norm_num : (2 : ℝ) ≠ 0)]
    rw [show (p : ℤ) + (Int.log 2 x - p + 1) = Int.log 2 x + 1 by ring]
    exact zpow_le_one_of_nonpos₀ (by norm_num) he

theorem toNearest_eq (p : Nat) (x : ℝ) (e k : ℤ) (hlo : (2 : ℝ) ^ e ≤ x) (hhi : x < 2 ^ (e + 1))
    (h1 : (k : ℝ) - 1 / 2 ≤ x / 2 ^ (e - p + 1)) (h2 : x / 2 ^ (e - p + 1) < k + 1 / 2) :
    toNearest p x = k * 2 ^ (e - p + 1) := by
  have hx : 0 < x := lt_of_lt_of_le (two_zpow_pos e) hlo
  have he : Int.log 2 |x| = e := by
    rw [abs_of_pos hx]
    apply le_antisymm
    · have := (Int.lt_zpow_iff_log_lt (b := 2) (by norm_num) hx (x := e + 1)).mp (by exact_mod_cast hhi)
      omega
    · exact (Int.zpow_le_iff_le_log (b := 2) (by norm_num) hx).mp (by exact_mod_cast hlo)
  unfold toNearest
  rw [he]
  have : round (x / 2 ^ (e - p + 1)) = k := by
    rw [round_eq, Int.floor_eq_iff]
    constructor <;> linarith
  rw [this]

end Irspack.Rounding
