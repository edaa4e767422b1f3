import Verif.Spec.Cutoff
import Verif.Proofs.Report
import Verif.Proofs.PyEvaluator
import Verif.Proofs.Retrieval

/-!
# Reports at two cutoffs: helper lemmas
-/

namespace Irspack.Spec
open Irspack Evaluation

/-! ### Prefixes -/

theorem topCutoff_take {S : Type} [LinearOrder S] [OrderBot S] (nItems : Nat)
    (rec : Option (List Nat)) (row : ScoreRow S) {k k' : Nat} (h : k ≤ k') :
    topCutoff nItems rec k row = (topCutoff nItems rec k' row).take k := by
  unfold topCutoff
  rw [← List.map_take, List.take_take]
  congr 2
  omega

theorem hitsAt_take (l : List Nat) (gt : Finset Nat) (k : Nat) :
    hitsAt (l.take k) gt (l.take k).length = hitsAt l gt (min k l.length) := by
  conv_rhs => rw [← List.take_append_drop k l]
  rw [hitsAt_append_left _ _ _ (by simp), List.length_take, List.take_append_drop]

theorem hitsAt_take_le (l : List Nat) (gt : Finset Nat) (k : Nat) :
    hitsAt (l.take k) gt (l.take k).length ≤ hitsAt l gt l.length := by
  rw [hitsAt_take]
  exact hitsAt_mono _ _ (Nat.min_le_right _ _)

theorem relevant_take (l : List Nat) (gt : Finset Nat) (k j : Nat) (h : Relevant (l.take k) gt j) :
    Relevant l gt j := by
  obtain ⟨i, hi, hg⟩ := h
  refine ⟨i, ?_, hg⟩
  rw [List.getElem?_take] at hi
  split at hi
  · exact hi
  · cases hi

theorem hit_take_le (l : List Nat) (gt : Finset Nat) (k : Nat) : hit (l.take k) gt ≤ hit l gt := by
  unfold hit
  split
  · rename_i h
    obtain ⟨j, hj⟩ := h
    rw [if_pos ⟨j, relevant_take _ _ _ _ hj⟩]
  · split <;> norm_num

theorem sum_take_le (l : List Nat) (gt : Finset Nat) (k : Nat) (f g : Nat → ℝ)
    [DecidablePred (Relevant (l.take k) gt)] [DecidablePred (Relevant l gt)]
    (hfg : ∀ j, Relevant (l.take k) gt j → f j = g j) (hg : ∀ j, 0 ≤ g j) :
    ∑ j ∈ (Finset.range (l.take k).length).filter (Relevant (l.take k) gt), f j ≤
      ∑ j ∈ (Finset.range l.length).filter (Relevant l gt), g j := by
  rw [Finset.sum_congr rfl (fun j hj => hfg j (Finset.mem_filter.mp hj).2)]
  refine Finset.sum_le_sum_of_subset_of_nonneg ?_ (fun j _ _ => hg j)
  intro j hj
  rw [Finset.mem_filter, Finset.mem_range] at hj ⊢
  refine ⟨?_, relevant_take _ _ _ _ hj.2⟩
  have := hj.1
  rw [List.length_take] at this
  omega

theorem dcg_take_le (l : List Nat) (gt : Finset Nat) (k : Nat) : dcg (l.take k) gt ≤ dcg l gt := by
  classical
  unfold dcg
  exact sum_take_le l gt k _ _ (fun _ _ => rfl) (fun j => (disc_pos j).le)

theorem averagePrecision_take_le (l : List Nat) (gt : Finset Nat) (k : Nat) :
    averagePrecision (l.take k) gt ≤ averagePrecision l gt := by
  classical
  unfold averagePrecision
  refine div_le_div_of_nonneg_right ?_ (Nat.cast_nonneg _)
  refine sum_take_le l gt k _ _ ?_ (fun j => by positivity)
  intro j hj
  have hlt := relevant_lt hj
  congr 2
  conv_rhs => rw [← List.take_append_drop k l]
  rw [hitsAt_append_left _ _ _ (by omega)]

/-! ### One user at two cutoffs -/

theorem recall_take_le (l : List Nat) (gt : Finset Nat) (k : Nat) :
    recall false (l.take k) gt ≤ recall false l gt := by
  unfold recall
  by_cases h : l.take k = []
  · rw [if_pos h]
    split
    · exact le_rfl
    · positivity
  · have hl0 : l ≠ [] := by rintro rfl; simp at h
    rw [if_neg h, if_neg hl0]
    simp only [Bool.false_eq_true, if_false]
    refine div_le_div_of_nonneg_right ?_ (Nat.cast_nonneg _)
    exact_mod_cast hitsAt_take_le l gt k

/-- `k * (a / x) ≤ k' * (b / y)` from `a ≤ b` and `k * y ≤ k' * x`. -/
theorem scaled_div_le {a b x y k k' : Nat} (hab : a ≤ b) (hx : 0 < x) (hy : 0 < y)
    (h : k * y ≤ k' * x) : (k : ℝ) * ((a : ℝ) / x) ≤ k' * ((b : ℝ) / y) := by
  have hxR : (0 : ℝ) < x := by exact_mod_cast hx
  have hyR : (0 : ℝ) < y := by exact_mod_cast hy
  rw [mul_div_assoc', mul_div_assoc', div_le_div_iff₀ hxR hyR]
  have h1 : k * a * y ≤ k' * b * x := by
    calc k * a * y = (k * y) * a := by ring
      _ ≤ (k' * x) * b := Nat.mul_le_mul h hab
      _ = k' * b * x := by ring
  exact_mod_cast h1

theorem precision_take_scaled (l : List Nat) (gt : Finset Nat) {k k' : Nat} (hk : k ≤ k')
    (hl : l.length ≤ k') : (k : ℝ) * precision (l.take k) gt ≤ k' * precision l gt := by
  unfold precision
  by_cases h : l.take k = []
  · rw [if_pos h, mul_zero]
    split
    · simp
    · positivity
  · have hl0 : l ≠ [] := by rintro rfl; simp at h
    rw [if_neg h, if_neg hl0]
    have hx : 0 < (l.take k).length := List.length_pos_iff.mpr h
    have hy : 0 < l.length := List.length_pos_iff.mpr hl0
    refine scaled_div_le (hitsAt_take_le l gt k) hx hy ?_
    rw [List.length_take] at hx ⊢
    rcases Nat.le_total k l.length with h1 | h1
    · rw [Nat.min_eq_left h1, Nat.mul_comm k' k]
      exact Nat.mul_le_mul_left _ hl
    · rw [Nat.min_eq_right h1]
      exact Nat.mul_le_mul_right _ hk

theorem recall_take_scaled (capped : Bool) (l : List Nat) (gt : Finset Nat) (hg : gt.Nonempty)
    {k k' : Nat} (hk : k ≤ k') (hl : l.length ≤ k') :
    (k : ℝ) * recall capped (l.take k) gt ≤ k' * recall capped l gt := by
  have hgc := hg.card_pos
  unfold recall
  by_cases h : l.take k = []
  · rw [if_pos h, mul_zero]
    split
    · simp
    · positivity
  · have hl0 : l ≠ [] := by rintro rfl; simp at h
    rw [if_neg h, if_neg hl0]
    have hx : 0 < (l.take k).length := List.length_pos_iff.mpr h
    have hy : 0 < l.length := List.length_pos_iff.mpr hl0
    refine scaled_div_le (hitsAt_take_le l gt k) ?_ ?_ ?_
    · split <;> omega
    · split <;> omega
    · rw [List.length_take] at hx ⊢
      split
      · rcases Nat.le_total gt.card (min k l.length) with h1 | h1
        · rw [Nat.min_eq_left h1, Nat.min_eq_left (by omega)]
          exact Nat.mul_le_mul_right _ hk
        · rw [Nat.min_eq_right h1]
          rcases Nat.le_total k l.length with h2 | h2
          · rw [Nat.min_eq_left h2, Nat.mul_comm k' k]
            exact Nat.mul_le_mul_left _ (by omega)
          · rw [Nat.min_eq_right h2]
            exact Nat.mul_le_mul hk (by omega)
      · exact Nat.mul_le_mul_right _ hk

theorem ndcg_take_scaled (l : List Nat) (gt : Finset Nat) (hg : gt.Nonempty)
    {k k' : Nat} (hk : k ≤ k') (hl : l.length ≤ k') :
    idealDcg k * ndcg (l.take k) gt ≤ idealDcg k' * ndcg l gt := by
  have hgc := hg.card_pos
  rcases Nat.eq_zero_or_pos k with rfl | hk0
  · have h0 : idealDcg 0 = 0 := by simp [idealDcg]
    have h1 : 0 ≤ idealDcg k' := by rw [← h0]; exact idealDcg_mono (Nat.zero_le _)
    have h2 : 0 ≤ ndcg l gt := by
      unfold ndcg
      split
      · exact le_rfl
      · rename_i hne
        have := List.length_pos_iff.mpr hne
        exact div_nonneg (dcg_nonneg _ _) (idealDcg_pos (by omega)).le
    rw [h0, zero_mul]
    exact mul_nonneg h1 h2
  have hpk := idealDcg_pos hk0
  have hpk' := idealDcg_pos (Nat.lt_of_lt_of_le hk0 hk)
  unfold ndcg
  by_cases h : l.take k = []
  · rw [if_pos h, mul_zero]
    split
    · simp
    · exact mul_nonneg hpk'.le (div_nonneg (dcg_nonneg _ _)
        (idealDcg_pos (by
          have : 0 < l.length := List.length_pos_iff.mpr ‹_›
          omega)).le)
  · have hl0 : l ≠ [] := by rintro rfl; simp at h
    rw [if_neg h, if_neg hl0]
    have hx : 0 < (l.take k).length := List.length_pos_iff.mpr h
    have hy : 0 < l.length := List.length_pos_iff.mpr hl0
    have hpx := idealDcg_pos (n := min gt.card (l.take k).length) (by omega)
    have hpy := idealDcg_pos (n := min gt.card l.length) (by omega)
    rw [mul_div_assoc', mul_div_assoc', div_le_div_iff₀ hpx hpy]
    have key : idealDcg k * idealDcg (min gt.card l.length) ≤
        idealDcg k' * idealDcg (min gt.card (l.take k).length) := by
      rw [List.length_take]
      rcases Nat.le_total (min gt.card l.length) k with h1 | h1
      · rw [show min gt.card (min k l.length) = min gt.card l.length by omega]
        exact mul_le_mul_of_nonneg_right (idealDcg_mono hk) hpy.le
      · rw [show min gt.card (min k l.length) = k by omega, mul_comm (idealDcg k') _]
        exact mul_le_mul_of_nonneg_left (idealDcg_mono (by omega)) hpk.le
    calc idealDcg k * dcg (l.take k) gt * idealDcg (min gt.card l.length)
        = (idealDcg k * idealDcg (min gt.card l.length)) * dcg (l.take k) gt := by ring
      _ ≤ (idealDcg k' * idealDcg (min gt.card (l.take k).length)) * dcg l gt :=
          mul_le_mul key (dcg_take_le l gt k) (dcg_nonneg _ _) (mul_nonneg hpk'.le hpx.le)
      _ = idealDcg k' * dcg l gt * idealDcg (min gt.card (l.take k).length) := by ring

/-! ### Means -/

theorem meanOver_mono (n : Nat) (G : Nat → Finset Nat) (f g : Nat → ℝ)
    (h : ∀ u < n, (G u).Nonempty → f u ≤ g u) : meanOver n G f ≤ meanOver n G g := by
  unfold meanOver
  refine div_le_div_of_nonneg_right (Finset.sum_le_sum ?_) (Nat.cast_nonneg _)
  intro u hu
  rw [validUsers, Finset.mem_filter, Finset.mem_range] at hu
  exact h u hu.1 hu.2

theorem meanOver_congr (n : Nat) (G : Nat → Finset Nat) (f g : Nat → ℝ)
    (h : ∀ u < n, (G u).Nonempty → f u = g u) : meanOver n G f = meanOver n G g :=
  le_antisymm (meanOver_mono n G f g (fun u hu hg => (h u hu hg).le))
    (meanOver_mono n G g f (fun u hu hg => (h u hu hg).ge))

theorem meanOver_scale (n : Nat) (G : Nat → Finset Nat) (f : Nat → ℝ) (c : ℝ) :
    c * meanOver n G f = meanOver n G (fun u => c * f u) := by
  unfold meanOver
  rw [← Finset.mul_sum, mul_div_assoc]

theorem recommendedCount_le (n : Nat) (L L' : Nat → List Nat) (G : Nat → Finset Nat) (k : Nat)
    (h : ∀ u < n, L u = (L' u).take k) (i : Nat) :
    recommendedCount n L G i ≤ recommendedCount n L' G i := by
  unfold recommendedCount
  refine Finset.sum_le_sum ?_
  intro u hu
  rw [validUsers, Finset.mem_filter, Finset.mem_range] at hu
  rw [h u hu.1]
  exact (List.take_sublist _ _).count_le _

/-- Two reports whose lists are prefixes of each other. -/
theorem IsReport.grows {n nItems k k' : Nat} {capped : Bool} {L L' : Nat → List Nat}
    {G : Nat → Finset Nat} {d d' : MetricDict} (hd : IsReport n nItems capped L G d)
    (hd' : IsReport n nItems capped L' G d') (hk : k ≤ k')
    (hlen : ∀ u < n, (L' u).length ≤ k') (h : ∀ u < n, L u = (L' u).take k) :
    GrowsWith k k' capped d d' := by
  refine ⟨?_, ?_, ?_, ?_, ?_, ?_, ?_, ?_, ?_⟩
  · rw [hd.totalUser, hd'.totalUser]
  · rw [hd.validUser, hd'.validUser]
  · rw [hd.hit, hd'.hit]
    refine meanOver_mono _ _ _ _ (fun u hu _ => ?_)
    rw [h u hu]; exact hit_take_le _ _ _
  · rw [hd.map, hd'.map]
    refine meanOver_mono _ _ _ _ (fun u hu _ => ?_)
    rw [h u hu]; exact averagePrecision_take_le _ _ _
  · rintro rfl
    rw [hd.recall, hd'.recall]
    refine meanOver_mono _ _ _ _ (fun u hu _ => ?_)
    rw [h u hu]; exact recall_take_le _ _ _
  · rw [hd.appearedItem, hd'.appearedItem]
    unfold appeared
    have : ((Finset.range nItems).filter (fun i => recommendedCount n L G i ≠ 0)).card ≤
        ((Finset.range nItems).filter (fun i => recommendedCount n L' G i ≠ 0)).card := by
      refine Finset.card_le_card ?_
      intro i hi
      rw [Finset.mem_filter] at hi ⊢
      have := recommendedCount_le n L L' G k h i
      exact ⟨hi.1, by omega⟩
    exact_mod_cast this
  · rw [hd.precision, hd'.precision, meanOver_scale, meanOver_scale]
    refine meanOver_mono _ _ _ _ (fun u hu _ => ?_)
    rw [h u hu]; exact precision_take_scaled _ _ hk (hlen u hu)
  · rw [hd.recall, hd'.recall, meanOver_scale, meanOver_scale]
    refine meanOver_mono _ _ _ _ (fun u hu hg => ?_)
    rw [h u hu]; exact recall_take_scaled _ _ _ hg hk (hlen u hu)
  · rw [hd.ndcg, hd'.ndcg, meanOver_scale, meanOver_scale]
    refine meanOver_mono _ _ _ _ (fun u hu hg => ?_)
    rw [h u hu]; exact ndcg_take_scaled _ _ hg hk (hlen u hu)

/-! ### One user at one cutoff -/

theorem precision_le_hit (l : List Nat) (hn : l.Nodup) (gt : Finset Nat) (hg : gt.Nonempty) :
    precision l gt ≤ hit l gt := by
  rw [hit_eq]
  split
  · exact (spec_unit_interval hn hg false).2.1.2
  · rename_i h
    have h0 : hitsAt l gt l.length = 0 := by omega
    unfold precision
    split
    · rfl
    · rw [h0]; simp

theorem recall_le_hit (capped : Bool) (l : List Nat) (hn : l.Nodup) (gt : Finset Nat)
    (hg : gt.Nonempty) : recall capped l gt ≤ hit l gt := by
  rw [hit_eq]
  split
  · exact (spec_unit_interval hn hg capped).2.2.1.2
  · rename_i h
    have h0 : hitsAt l gt l.length = 0 := by omega
    unfold recall
    split
    · rfl
    · rw [h0]; simp

theorem dcg_eq_zero (l : List Nat) (gt : Finset Nat) (h : hitsAt l gt l.length = 0) :
    dcg l gt = 0 := by
  have := dcg_le_ideal_hits l gt
  rw [h] at this
  have h0 : idealDcg 0 = 0 := by simp [idealDcg]
  rw [h0] at this
  exact le_antisymm this (dcg_nonneg _ _)

theorem ndcg_le_hit (l : List Nat) (hn : l.Nodup) (gt : Finset Nat) (hg : gt.Nonempty) :
    ndcg l gt ≤ hit l gt := by
  rw [hit_eq]
  split
  · exact (spec_unit_interval hn hg false).2.2.2.1.2
  · rename_i h
    have h0 : hitsAt l gt l.length = 0 := by omega
    unfold ndcg
    split
    · rfl
    · rw [dcg_eq_zero _ _ h0]; simp

theorem recall_false_le_recall (capped : Bool) (l : List Nat) (gt : Finset Nat) (hg : gt.Nonempty) :
    recall false l gt ≤ recall capped l gt := by
  have hgc := hg.card_pos
  cases capped with
  | false => rfl
  | true =>
    unfold recall
    split
    · rfl
    · rename_i h
      have hy : 0 < l.length := List.length_pos_iff.mpr h
      simp only [Bool.false_eq_true, if_false, if_true]
      refine div_le_div_of_nonneg_left (Nat.cast_nonneg _) ?_ ?_
      · have : 0 < min gt.card l.length := by omega
        exact_mod_cast this
      · exact_mod_cast Nat.min_le_left _ _

theorem averagePrecision_le_recall (capped : Bool) (l : List Nat) (gt : Finset Nat)
    (hg : gt.Nonempty) : averagePrecision l gt ≤ recall capped l gt := by
  classical
  refine le_trans ?_ (recall_false_le_recall capped l gt hg)
  unfold recall
  split
  · rename_i h
    subst h
    simp [averagePrecision]
  · unfold averagePrecision
    simp only [Bool.false_eq_true, if_false]
    refine div_le_div_of_nonneg_right ?_ (Nat.cast_nonneg _)
    exact ap_sum_le l gt

theorem precision_le_recall_capped (l : List Nat) (gt : Finset Nat) (hg : gt.Nonempty) :
    precision l gt ≤ recall true l gt := by
  have hgc := hg.card_pos
  unfold precision recall
  split
  · rfl
  · rename_i h
    have hy : 0 < l.length := List.length_pos_iff.mpr h
    simp only [if_true]
    refine div_le_div_of_nonneg_left (Nat.cast_nonneg _) ?_ ?_
    · have : 0 < min gt.card l.length := by omega
      exact_mod_cast this
    · exact_mod_cast Nat.min_le_right _ _

theorem hit_le_precision (l : List Nat) (gt : Finset Nat) (k : Nat) (hl : l.length ≤ k) :
    hit l gt ≤ k * precision l gt := by
  rw [hit_eq]
  split
  · rename_i h
    have hne : l ≠ [] := by
      rintro rfl
      rw [List.length_nil, hitsAt_zero] at h
      omega
    have hy : 0 < l.length := List.length_pos_iff.mpr hne
    have hyR : (0 : ℝ) < l.length := by exact_mod_cast hy
    unfold precision
    rw [if_neg hne, mul_div_assoc', le_div_iff₀ hyR, one_mul]
    have h1 : l.length ≤ k * hitsAt l gt l.length := by
      calc l.length ≤ k * 1 := by omega
        _ ≤ _ := Nat.mul_le_mul_left _ h
    exact_mod_cast h1
  · unfold precision
    split
    · simp
    · positivity

theorem single_values (l : List Nat) (hn : l.Nodup) (gt : Finset Nat) (hg : gt.Nonempty)
    (hl : l.length ≤ 1) : precision l gt = hit l gt ∧ ndcg l gt = hit l gt ∧
      recall true l gt = hit l gt := by
  have hgc := hg.card_pos
  have h1 := hit_le_precision l gt 1 hl
  rw [Nat.cast_one, one_mul] at h1
  have hp : precision l gt = hit l gt := le_antisymm (precision_le_hit l hn gt hg) h1
  have hr : recall true l gt = hit l gt := le_antisymm (recall_le_hit true l hn gt hg)
    (h1.trans (precision_le_recall_capped l gt hg))
  refine ⟨hp, ?_, hr⟩
  rcases Nat.lt_or_ge 0 (hitsAt l gt l.length) with h | h
  · have hne : l ≠ [] := by
      rintro rfl
      rw [List.length_nil, hitsAt_zero] at h
      omega
    have hy : l.length = 1 := by
      have := List.length_pos_iff.mpr hne
      omega
    refine le_antisymm (ndcg_le_hit l hn gt hg) ?_
    rw [hit_eq, if_pos h]
    unfold ndcg
    rw [if_neg hne, hy, Nat.min_eq_right hgc, le_div_iff₀ (idealDcg_pos Nat.one_pos), one_mul]
    obtain ⟨a, rfl⟩ := List.length_eq_one_iff.mp hy
    classical
    have hrel : Relevant [a] gt 0 := by
      have h2 := hitsAt_succ [a] gt 0
      rw [hitsAt_zero, Nat.zero_add] at h2
      by_contra hc
      rw [if_neg hc] at h2
      simp only [List.length_cons, List.length_nil, Nat.zero_add] at h
      omega
    have hf : (Finset.range ([a] : List Nat).length).filter (Relevant [a] gt) = {0} := by
      ext j
      simp only [List.length_cons, List.length_nil, Nat.zero_add, Finset.mem_filter, Finset.mem_range,
        Finset.mem_singleton]
      constructor
      · rintro ⟨h, -⟩; omega
      · rintro rfl; exact ⟨Nat.one_pos, hrel⟩
    unfold dcg idealDcg
    have : ∑ j ∈ (Finset.range ([a] : List Nat).length).filter (Relevant [a] gt),
        1 / Real.logb 2 ((j : ℝ) + 2) = ∑ j ∈ Finset.range 1, 1 / Real.logb 2 ((j : ℝ) + 2) := by
      rw [hf]; simp
    convert this.ge
  · have h0 : hitsAt l gt l.length = 0 := by omega
    rw [hit_eq, if_neg (by omega)]
    unfold ndcg
    split
    · rfl
    · rw [dcg_eq_zero _ _ h0]; simp

/-- The metrics of one report. -/
theorem IsReport.ordered {n nItems k : Nat} {capped : Bool} {L : Nat → List Nat}
    {G : Nat → Finset Nat} {d : MetricDict} (hd : IsReport n nItems capped L G d)
    (hlen : ∀ u < n, (L u).length ≤ k) (hn : ∀ u < n, (L u).Nodup) :
    MetricsOrdered k capped d := by
  refine ⟨?_, ?_, ?_, ?_, ?_, ?_, ?_⟩
  · rw [hd.precision, hd.hit]
    exact meanOver_mono _ _ _ _ (fun u hu hg => precision_le_hit _ (hn u hu) _ hg)
  · rw [hd.recall, hd.hit]
    exact meanOver_mono _ _ _ _ (fun u hu hg => recall_le_hit _ _ (hn u hu) _ hg)
  · rw [hd.ndcg, hd.hit]
    exact meanOver_mono _ _ _ _ (fun u hu hg => ndcg_le_hit _ (hn u hu) _ hg)
  · rw [hd.map, hd.recall]
    exact meanOver_mono _ _ _ _ (fun u _ hg => averagePrecision_le_recall _ _ _ hg)
  · rintro rfl
    rw [hd.precision, hd.recall]
    exact meanOver_mono _ _ _ _ (fun u _ hg => precision_le_recall_capped _ _ hg)
  · rw [hd.precision, hd.hit, meanOver_scale]
    exact meanOver_mono _ _ _ _ (fun u hu _ => hit_le_precision _ _ _ (hlen u hu))
  · rintro rfl
    rw [hd.precision, hd.hit, hd.ndcg]
    have := fun u (hu : u < n) hg => single_values (L u) (hn u hu) (G u) hg (hlen u hu)
    refine ⟨meanOver_congr _ _ _ _ (fun u hu hg => (this u hu hg).1),
      meanOver_congr _ _ _ _ (fun u hu hg => (this u hu hg).2.1), ?_⟩
    rintro rfl
    rw [hd.recall]
    exact meanOver_congr _ _ _ _ (fun u hu hg => (this u hu hg).2.2)

theorem recall_one (capped : Bool) (l : List Nat) (hn : l.Nodup) (gt : Finset Nat)
    (hg : gt.card = 1) : recall capped l gt = hit l gt := by
  have hle := hitsAt_le_gt hn gt
  unfold recall
  rw [hit_eq]
  by_cases h : l = []
  · subst h
    rw [if_pos rfl, if_neg]
    rw [List.length_nil, hitsAt_zero]; omega
  · rw [if_neg h]
    have hy : 0 < l.length := List.length_pos_iff.mpr h
    have hden : (if capped = true then min gt.card l.length else gt.card) = 1 := by
      split <;> omega
    rw [hden, Nat.cast_one, div_one]
    split
    · have : hitsAt l gt l.length = 1 := by omega
      rw [this, Nat.cast_one]
    · have : hitsAt l gt l.length = 0 := by omega
      rw [this, Nat.cast_zero]

/-! ### Retrieval -/

section top
variable {A F : Type} [LinearOrder F]

theorem IsTopScores.take {elig : List A} {s : A → F} {k k' : Nat} {out : List A}
    (h : IsTopScores elig s k' out) (hk : k ≤ k') : IsTopScores elig s k (out.take k) := by
  obtain ⟨rest, hp, hl, h1, h2⟩ := h
  refine ⟨out.drop k ++ rest, ?_, ?_, h1.sublist (List.take_sublist _ _), ?_⟩
  · rw [← List.append_assoc, List.take_append_drop]; exact hp
  · rw [List.length_take, hl]; omega
  · intro a ha b hb
    rcases List.mem_append.mp hb with hb | hb
    · rw [← List.take_append_drop k out, List.pairwise_append] at h1
      exact h1.2.2 a ha b hb
    · exact h2 a (List.mem_of_mem_take ha) b hb

end top

end Irspack.Spec
