import Verif.Props.Chance
import Verif.Proofs.Ceiling

/-!
# C119: what a perfect ranking scores
-/

namespace Irspack.Props
open Irspack Spec Evaluation Sampled

variable {S : Type} [LinearOrder S] [OrderBot S] {us : List Nat} {gt : Nat → List Nat} {n k : Nat} {capped : Bool}
  {score : Nat → ScoreRow S} {d : MetricDict}

/-- a metric of a report is the mean over the users with ground truth -/
theorem metric_mean (φ : List Nat → Finset Nat → ℝ) (L : Nat → List Nat) (x : ℝ)
    (hx : x = meanOver us.length (fun j => ((us[j]?).map (relevant gt (fun _ _ => True))).getD ∅)
      (fun j => φ (((us[j]?).map L).getD []) (((us[j]?).map (relevant gt (fun _ _ => True))).getD ∅)))
    (hne : ∃ u ∈ us, gt u ≠ []) :
    x = ((us.filter (fun u => decide (gt u ≠ []))).map (fun u => φ (L u) (gt u).toFinset)).sum /
        (us.filter (fun u => decide (gt u ≠ []))).length := by
  have h1 := mean_times us (relevant gt (fun _ _ => True)) L φ
  simp only [← hx, card_valid, all_relevant] at h1
  have hcount : (((us.map (fun u => if (gt u).toFinset.Nonempty then 1 else 0)).sum : ℕ) : ℝ) =
      (us.filter (fun u => decide (gt u ≠ []))).length := by
    rw [valid_sum us gt (fun _ => (1 : ℕ)), List.map_const', List.sum_replicate]
    simp
  have hpos : ((us.filter (fun u => decide (gt u ≠ []))).length : ℝ) ≠ 0 := by
    obtain ⟨u, hu, h⟩ := hne
    have : u ∈ us.filter (fun u => decide (gt u ≠ [])) := List.mem_filter.mpr ⟨hu, by simpa using h⟩
    exact_mod_cast (List.length_pos_of_mem this).ne'
  rw [hcount, valid_sum] at h1
  rw [eq_div_iff hpos, mul_comm]
  exact h1

/-- the list of a model that gives no item -inf -/
theorem full_list (hk : k ≤ n) (u : Nat) (hb : ∀ i < n, score u i ≠ ⊥) :
    IsTopK (Finset.range n) (score u) k (listFor score (fun _ _ => True) (fun _ _ => False) n k u) ∧
      (listFor score (fun _ _ => True) (fun _ _ => False) n k u).length = k := by
  obtain ⟨C, hC, hL⟩ := listFor_isTopK score (fun _ _ => True) (fun _ _ => False) n k u
  have hCr : C = Finset.range n := by
    ext i
    rw [hC, Finset.mem_range]
    constructor
    · exact fun h => h.1
    · exact fun h => ⟨h, by simp, hb i h⟩
  subst hCr
  exact ⟨hL, by rw [hL.length, Finset.card_range]; omega⟩

/-- C119.  All items may be recommended and none has -inf.  If the model scores every item of a user's ground truth above
every other item, hit rate and NDCG are 1, and precision, recall and MAP are the means over the users with ground truth of
`min(|G|, k) / k`, `min(|G|, k) / |G|` (1 if recall is capped) and `min(|G|, k) / |G|`. -/
theorem C119_perfect (hk0 : 0 < k) (hk : k ≤ n) (hgt : ∀ u ∈ us, ∀ i ∈ gt u, i < n)
    (hd : ReportOn us gt score (fun _ _ => True) (fun _ _ => False) n k capped d) (hne : ∃ u ∈ us, gt u ≠ [])
    (hb : ∀ u ∈ us, ∀ i < n, score u i ≠ ⊥)
    (hs : ∀ u ∈ us, ∀ g ∈ gt u, ∀ x < n, x ∉ gt u → score u x < score u g) :
    d.hit = 1 ∧ d.ndcg = 1 ∧
    d.precision = ((us.filter (fun u => decide (gt u ≠ []))).map
      (fun u => ((min (gt u).toFinset.card k : ℕ) : ℝ) / k)).sum / (us.filter (fun u => decide (gt u ≠ []))).length ∧
    d.recall = (if capped then 1 else ((us.filter (fun u => decide (gt u ≠ []))).map
      (fun u => ((min (gt u).toFinset.card k : ℕ) : ℝ) / (gt u).toFinset.card)).sum /
        (us.filter (fun u => decide (gt u ≠ []))).length) ∧
    d.map = ((us.filter (fun u => decide (gt u ≠ []))).map
      (fun u => ((min (gt u).toFinset.card k : ℕ) : ℝ) / (gt u).toFinset.card)).sum /
        (us.filter (fun u => decide (gt u ≠ []))).length := by
  have hr := reportOn_isReport hd
  have hpos : ((us.filter (fun u => decide (gt u ≠ []))).length : ℝ) ≠ 0 := by
    obtain ⟨u, hu, h⟩ := hne
    have : u ∈ us.filter (fun u => decide (gt u ≠ [])) := List.mem_filter.mpr ⟨hu, by simpa using h⟩
    exact_mod_cast (List.length_pos_of_mem this).ne'
  have hone : ∀ f : Nat → ℝ, (∀ u ∈ us.filter (fun u => decide (gt u ≠ [])), f u = 1) →
      ((us.filter (fun u => decide (gt u ≠ []))).map f).sum / (us.filter (fun u => decide (gt u ≠ []))).length = 1 := by
    intro f hf
    rw [List.map_congr_left hf, List.map_const', List.sum_replicate, nsmul_eq_mul, mul_one, div_self hpos]
  have hlist : ∀ u ∈ us.filter (fun u => decide (gt u ≠ [])),
      (∀ j ≤ k, hitsAt (listFor score (fun _ _ => True) (fun _ _ => False) n k u) (gt u).toFinset j =
        min j (gt u).toFinset.card) ∧
      (listFor score (fun _ _ => True) (fun _ _ => False) n k u).length = k ∧ 0 < (gt u).toFinset.card := by
    intro u hu
    rw [List.mem_filter, decide_eq_true_eq] at hu
    obtain ⟨hL, hlen⟩ := full_list hk u (hb u hu.1)
    refine ⟨?_, hlen, Finset.card_pos.mpr ((List.toFinset_nonempty_iff _).mpr hu.2)⟩
    refine perfect_hits hL ?_ (by simpa using hk) ?_
    · intro i hi
      exact Finset.mem_range.mpr (hgt u hu.1 i (by simpa using hi))
    · intro g hg x hx hxG
      exact hs u hu.1 g (by simpa using hg) x (Finset.mem_range.mp hx) (by simpa using hxG)
  have hnil : ∀ u ∈ us.filter (fun u => decide (gt u ≠ [])),
      listFor score (fun _ _ => True) (fun _ _ => False) n k u ≠ [] := by
    intro u hu hc
    have := (hlist u hu).2.1
    rw [hc] at this
    simp at this
    omega
  refine ⟨?_, ?_, ?_, ?_, ?_⟩
  · rw [metric_mean Spec.hit _ d.hit hr.hit hne]
    refine hone _ (fun u hu => ?_)
    obtain ⟨h1, h2, h3⟩ := hlist u hu
    rw [hit_eq, h2, h1 k le_rfl, if_pos (by omega)]
  · rw [metric_mean Spec.ndcg _ d.ndcg hr.ndcg hne]
    refine hone _ (fun u hu => ?_)
    obtain ⟨h1, h2, h3⟩ := hlist u hu
    unfold Spec.ndcg
    rw [if_neg (hnil u hu), perfect_dcg (by rw [h2]; exact h1), h2]
    exact div_self (idealDcg_pos (by omega)).ne'
  · rw [metric_mean Spec.precision _ d.precision hr.precision hne]
    congr 2
    refine List.map_congr_left (fun u hu => ?_)
    obtain ⟨h1, h2, h3⟩ := hlist u hu
    unfold Spec.precision
    rw [if_neg (hnil u hu), h2, h1 k le_rfl, Nat.min_comm]
  · rw [metric_mean (Spec.recall capped) _ d.recall hr.recall hne]
    cases capped with
    | true =>
      refine hone _ (fun u hu => ?_)
      obtain ⟨h1, h2, h3⟩ := hlist u hu
      unfold Spec.recall
      rw [if_neg (hnil u hu), h2, h1 k le_rfl, if_pos rfl, Nat.min_comm]
      exact div_self (by exact_mod_cast (by omega : min (gt u).toFinset.card k ≠ 0))
    | false =>
      simp only [Bool.false_eq_true, if_false]
      congr 2
      refine List.map_congr_left (fun u hu => ?_)
      obtain ⟨h1, h2, h3⟩ := hlist u hu
      unfold Spec.recall
      rw [if_neg (hnil u hu), h2, h1 k le_rfl, Nat.min_comm]
      simp
  · rw [metric_mean Spec.averagePrecision _ d.map hr.map hne]
    congr 2
    refine List.map_congr_left (fun u hu => ?_)
    obtain ⟨h1, h2, h3⟩ := hlist u hu
    rw [perfect_ap (by rw [h2]; exact h1), h2]

/-- C119.  No model exceeds these values of precision, recall and MAP (as long as no item has -inf), so a large ground
truth bounds recall and MAP away from 1, and a small one precision. -/
theorem C119_ceiling (hk0 : 0 < k) (hk : k ≤ n)
    (hd : ReportOn us gt score (fun _ _ => True) (fun _ _ => False) n k capped d) (hne : ∃ u ∈ us, gt u ≠ [])
    (hb : ∀ u ∈ us, ∀ i < n, score u i ≠ ⊥) :
    d.precision ≤ ((us.filter (fun u => decide (gt u ≠ []))).map
      (fun u => ((min (gt u).toFinset.card k : ℕ) : ℝ) / k)).sum / (us.filter (fun u => decide (gt u ≠ []))).length ∧
    (capped = false → d.recall ≤ ((us.filter (fun u => decide (gt u ≠ []))).map
      (fun u => ((min (gt u).toFinset.card k : ℕ) : ℝ) / (gt u).toFinset.card)).sum /
        (us.filter (fun u => decide (gt u ≠ []))).length) ∧
    d.map ≤ ((us.filter (fun u => decide (gt u ≠ []))).map
      (fun u => ((min (gt u).toFinset.card k : ℕ) : ℝ) / (gt u).toFinset.card)).sum /
        (us.filter (fun u => decide (gt u ≠ []))).length := by
  have hr := reportOn_isReport hd
  have hlist : ∀ u ∈ us.filter (fun u => decide (gt u ≠ [])),
      (listFor score (fun _ _ => True) (fun _ _ => False) n k u).length = k ∧
      ((hitsAt (listFor score (fun _ _ => True) (fun _ _ => False) n k u) (gt u).toFinset k : ℕ) : ℝ) ≤
        (min (gt u).toFinset.card k : ℕ) := by
    intro u hu
    rw [List.mem_filter, decide_eq_true_eq] at hu
    obtain ⟨hL, hlen⟩ := full_list hk u (hb u hu.1)
    refine ⟨hlen, ?_⟩
    have h1 := hitsAt_le_gt (pairwise_before_nodup hL.sorted) (gt u).toFinset
    rw [hlen] at h1
    exact_mod_cast le_min h1 (hitsAt_le _ _ k)
  have hnil : ∀ u ∈ us.filter (fun u => decide (gt u ≠ [])),
      listFor score (fun _ _ => True) (fun _ _ => False) n k u ≠ [] := by
    intro u hu hc
    have := (hlist u hu).1
    rw [hc] at this
    simp at this
    omega
  refine ⟨?_, ?_, ?_⟩
  · rw [metric_mean Spec.precision _ d.precision hr.precision hne]
    refine div_le_div_of_nonneg_right (List.sum_le_sum (fun u hu => ?_)) (Nat.cast_nonneg _)
    obtain ⟨h2, h1⟩ := hlist u hu
    unfold Spec.precision
    rw [if_neg (hnil u hu), h2]
    exact div_le_div_of_nonneg_right h1 (Nat.cast_nonneg _)
  · rintro rfl
    rw [metric_mean (Spec.recall false) _ d.recall hr.recall hne]
    refine div_le_div_of_nonneg_right (List.sum_le_sum (fun u hu => ?_)) (Nat.cast_nonneg _)
    obtain ⟨h2, h1⟩ := hlist u hu
    unfold Spec.recall
    rw [if_neg (hnil u hu), h2]
    simp only [Bool.false_eq_true, if_false]
    exact div_le_div_of_nonneg_right h1 (Nat.cast_nonneg _)
  · rw [metric_mean Spec.averagePrecision _ d.map hr.map hne]
    refine div_le_div_of_nonneg_right (List.sum_le_sum (fun u hu => ?_)) (Nat.cast_nonneg _)
    obtain ⟨h2, h1⟩ := hlist u hu
    refine (ap_le_hits _ _).trans ?_
    rw [h2]
    exact div_le_div_of_nonneg_right h1 (Nat.cast_nonneg _)

/-- scores of a model that knows the ground truth `0, 1` -/
def scoreP : Nat → ScoreRow (WithBot Nat) := fun _ i => if i < 2 then 1 else 0

/-- Two relevant items of three and lists of one: a perfect model has hit rate, NDCG and precision 1, recall and MAP 1/2. -/
example : ∃ d : MetricDict, ReportOn [0] (fun _ => [0, 1]) scoreP (fun _ _ => True) (fun _ _ => False) 3 1 false d ∧
    d.hit = 1 ∧ d.ndcg = 1 ∧ d.precision = 1 ∧ d.recall = 1 / 2 ∧ d.map = 1 / 2 := by
  obtain ⟨d, hd⟩ := reportOn_exists [0] (fun _ => [0, 1]) scoreP 3 1 false (by decide) (by decide)
  obtain ⟨h1, h2, h3, h4, h5⟩ := C119_perfect (by decide) (by decide) (by simp) hd ⟨0, by simp, by simp⟩
    (by
      intro u _ i _
      unfold scoreP
      split_ifs <;> decide)
    (by
      intro u _ g hg x _ hxG
      have hg2 : g < 2 := by simp at hg; omega
      have hx2 : ¬ x < 2 := by simp at hxG; omega
      show (if x < 2 then (1 : WithBot Nat) else 0) < if g < 2 then 1 else 0
      rw [if_neg hx2, if_pos hg2]
      decide)
  refine ⟨d, hd, h1, h2, h3.trans ?_, h4.trans ?_, h5.trans ?_⟩ <;> simp

/-- A model that ranks item 2 first, with the ground truth 0, 1 and lists of one: its recall is at most 1/2. -/
example : ∃ d : MetricDict,
    ReportOn [0] (fun _ => [0, 1]) (fun _ i => (i : WithBot Nat)) (fun _ _ => True) (fun _ _ => False) 3 1 false d ∧
    d.precision ≤ 1 ∧ d.recall ≤ 1 / 2 ∧ d.map ≤ 1 / 2 := by
  obtain ⟨d, hd⟩ := reportOn_exists [0] (fun _ => [0, 1]) (fun _ i => (i : WithBot Nat)) 3 1 false (by decide) (by decide)
  have h := C119_ceiling (by decide) (by decide) hd ⟨0, by simp, by simp⟩ (fun _ _ _ _ => WithBot.coe_ne_bot)
  refine ⟨d, hd, h.1.trans ?_, (h.2.1 rfl).trans ?_, h.2.2.trans ?_⟩ <;> simp

/-- scores of a model that only scores item 0 -/
def scoreO : Nat → ScoreRow (WithBot Nat) := fun _ i => if i = 0 then 1 else ⊥

/-- C119.  With -inf the ceiling of precision does not hold: a model that scores nothing but the one relevant item has
precision 1 with lists of up to two items, because precision is divided by the length of the list. -/
theorem C119_inf_counterexample : ∃ d : MetricDict,
    ReportOn [0] (fun _ => [0]) scoreO (fun _ _ => True) (fun _ _ => False) 3 2 false d ∧ d.precision = 1 := by
  obtain ⟨d, hd⟩ := reportOn_exists [0] (fun _ => [0]) scoreO 3 2 false (by decide) (by decide)
  refine ⟨d, hd, ?_⟩
  rw [metric_mean Spec.precision _ d.precision (reportOn_isReport hd).precision ⟨0, by simp, by simp⟩]
  obtain ⟨C, hC, hL⟩ := listFor_isTopK scoreO (fun _ _ => True) (fun _ _ => False) 3 2 0
  have hC0 : C = {0} := by
    ext i
    rw [hC, Finset.mem_singleton]
    unfold scoreO
    constructor
    · rintro ⟨_, _, h⟩
      by_contra hi
      exact h (if_neg hi)
    · rintro rfl
      exact ⟨by decide, by simp, by decide⟩
  subst hC0
  have hlen := hL.length
  rw [Finset.card_singleton, Nat.min_eq_right (by decide)] at hlen
  obtain ⟨x, hx⟩ := List.length_eq_one_iff.mp hlen
  have hx0 : x = 0 := by simpa using hL.mem x (by rw [hx]; simp)
  subst hx0
  have : Spec.precision [0] {0} = 1 := by
    unfold Spec.precision
    rw [if_neg (by simp), List.length_singleton, hitsAt_one]
    simp
  simp [hx, this]

end Irspack.Props
