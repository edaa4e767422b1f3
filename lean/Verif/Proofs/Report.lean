import Verif.Proofs.Ranking
import Verif.Proofs.Diversity
import Verif.Spec.Report

namespace Irspack.Evaluation
open Irspack Spec

/-- sum of the contributions of `n` users -/
noncomputable def totalMetrics (n : Nat) (capped : Bool) (L : Nat → List Nat) (G : Nat → Finset Nat) :
    Metrics :=
  ∑ u ∈ Finset.range n, (oneUser + if (G u).Nonempty then contribution capped (L u) (G u) else 0)

theorem totalMetrics_itemCnt (n : Nat) (capped : Bool) (L : Nat → List Nat) (G : Nat → Finset Nat) :
    (totalMetrics n capped L G).itemCnt = recommendedCount n L G := by
  funext i
  unfold totalMetrics recommendedCount validUsers
  rw [sum_itemCnt, Finset.sum_filter]
  apply Finset.sum_congr rfl
  intro u hu
  by_cases h : (G u).Nonempty
  · simp only [h, if_true, add_itemCnt, contribution, oneUser, Metrics.empty, zero_add]
  · simp [h, oneUser, Metrics.empty]

theorem isReport_total (n nItems : Nat) (capped : Bool) (L : Nat → List Nat) (G : Nat → Finset Nat) :
    IsReport n nItems capped L G ((totalMetrics n capped L G).asDict nItems) := by
  set m := totalMetrics n capped L G with hm
  have hsum : m = ∑ u ∈ Finset.range n, (oneUser +
      if (G u).Nonempty then contribution capped (L u) (G u) else 0) := rfl
  have hv : m.validUser = (validUsers n G).card := by
    unfold validUsers
    rw [hsum, sum_validUser, Finset.card_filter]
    apply Finset.sum_congr rfl
    intro u _
    by_cases h : (G u).Nonempty <;> simp [h, contribution, oneUser, Metrics.empty]
  have ht : m.totalUser = n := by
    rw [hsum, sum_totalUser]
    have : ∀ u ∈ Finset.range n, (oneUser +
        if (G u).Nonempty then contribution capped (L u) (G u) else 0).totalUser = 1 := by
      intro u _
      by_cases h : (G u).Nonempty <;> simp [h, contribution, oneUser]
    rw [Finset.sum_congr rfl this]; simp
  have hden : ∀ x : ℝ, ((validUsers n G).card = 0 → x = 0) →
      x / ((if m.validUser > 0 then m.validUser else 1 : Nat) : ℝ) = x / (validUsers n G).card := by
    intro x hx
    rw [hv]
    by_cases h : (validUsers n G).card > 0
    · rw [if_pos h]
    · rw [hx (by omega)]; simp
  have hfield : ∀ (F : Metrics → ℝ) (g : Nat → ℝ),
      F 0 = 0 → (∀ a b, F (a + b) = F a + F b) → F oneUser = 0 →
      (∀ u, F (contribution capped (L u) (G u)) = g u) →
      F m / ((if m.validUser > 0 then m.validUser else 1 : Nat) : ℝ) = meanOver n G g := by
    intro F g h0 hadd h1 hc
    have hFm : F m = ∑ u ∈ validUsers n G, g u := by
      rw [hsum]
      let Fh : Metrics →+ ℝ := { toFun := F, map_zero' := h0, map_add' := hadd }
      have : F (∑ u ∈ Finset.range n, (oneUser +
          if (G u).Nonempty then contribution capped (L u) (G u) else 0)) =
          ∑ u ∈ Finset.range n, F (oneUser +
          if (G u).Nonempty then contribution capped (L u) (G u) else 0) :=
        map_sum Fh _ _
      unfold validUsers
      rw [this, Finset.sum_filter]
      apply Finset.sum_congr rfl
      intro u _
      rw [hadd, h1, zero_add]
      split
      · exact hc u
      · exact h0
    rw [hFm]
    apply hden
    intro h
    rw [Finset.card_eq_zero] at h
    rw [h]; simp
  have hdiv := asDict_diversity nItems m
  rw [hm, totalMetrics_itemCnt, ← hm] at hdiv
  exact
    { totalUser := by show ((m.totalUser : Nat) : ℝ) = _; rw [ht]
      validUser := by show ((m.validUser : Nat) : ℝ) = _; rw [hv]
      itemNumber := rfl
      hit := hfield Metrics.hit _ rfl (fun _ _ => rfl) rfl (fun _ => rfl)
      precision := hfield Metrics.precision _ rfl (fun _ _ => rfl) rfl (fun _ => rfl)
      recall := hfield Metrics.recall _ rfl (fun _ _ => rfl) rfl (fun _ => rfl)
      ndcg := hfield Metrics.ndcg _ rfl (fun _ _ => rfl) rfl (fun _ => rfl)
      map := hfield Metrics.map _ rfl (fun _ _ => rfl) rfl (fun _ => rfl)
      appearedItem := hdiv.1
      entropy := hdiv.2.1
      giniIndex := hdiv.2.2 }

theorem mean_unit {A : Type} (s : Finset A) (g : A → ℝ) (hg : ∀ u ∈ s, 0 ≤ g u ∧ g u ≤ 1) :
    0 ≤ (∑ u ∈ s, g u) / (s.card : ℝ) ∧ (∑ u ∈ s, g u) / (s.card : ℝ) ≤ 1 := by
  refine ⟨div_nonneg (Finset.sum_nonneg (fun u hu => (hg u hu).1)) (Nat.cast_nonneg _), ?_⟩
  apply div_le_one_of_le₀ _ (Nat.cast_nonneg _)
  have := Finset.sum_le_card_nsmul s g 1 (fun u hu => (hg u hu).2)
  simpa using this

/-- A report over lists without repetition has all accuracy values in the unit interval. -/
theorem IsReport.unit {n nItems : Nat} {capped : Bool} {L : Nat → List Nat} {G : Nat → Finset Nat}
    {d : MetricDict} (h : IsReport n nItems capped L G d) (hn : ∀ u < n, (L u).Nodup) :
    (0 ≤ d.hit ∧ d.hit ≤ 1) ∧ (0 ≤ d.precision ∧ d.precision ≤ 1) ∧
    (0 ≤ d.recall ∧ d.recall ≤ 1) ∧ (0 ≤ d.ndcg ∧ d.ndcg ≤ 1) ∧ (0 ≤ d.map ∧ d.map ≤ 1) := by
  have hu : ∀ u ∈ validUsers n G, _ := fun u hu => by
    unfold validUsers at hu
    rw [Finset.mem_filter, Finset.mem_range] at hu
    exact spec_unit_interval (hn u hu.1) hu.2 capped
  rw [h.hit, h.precision, h.recall, h.ndcg, h.map]
  exact ⟨mean_unit _ _ (fun u h => (hu u h).1), mean_unit _ _ (fun u h => (hu u h).2.1),
    mean_unit _ _ (fun u h => (hu u h).2.2.1), mean_unit _ _ (fun u h => (hu u h).2.2.2.1),
    mean_unit _ _ (fun u h => (hu u h).2.2.2.2)⟩

end Irspack.Evaluation
