import Verif.Proofs.Overtake

/-!
# The largest values of the accuracy metrics
-/

namespace Irspack.Sampled
open Irspack Spec Evaluation

variable {G : Finset Nat} {L : List Nat}

/-- if all relevant items score above all others, they fill the first places -/
theorem perfect_hits {S : Type} [LinearOrder S] {C : Finset Nat} {s : Nat → S} {k : Nat} (h : IsTopK C s k L) (hG : G ⊆ C)
    (hk : k ≤ C.card) (hs : ∀ g ∈ G, ∀ x ∈ C, x ∉ G → s x < s g) (j : Nat) (hj : j ≤ k) : hitsAt L G j = min j G.card := by
  have hlen : L.length = k := by rw [h.length]; omega
  have hT := topK_take h hj
  have hn := pairwise_before_nodup hT.sorted
  have h1 := hits_card _ hn G
  rw [hitsAt_take, hlen, Nat.min_eq_left hj] at h1
  have hTc : (L.take j).toFinset.card = j := by
    rw [List.toFinset_card_of_nodup hn, List.length_take, hlen, Nat.min_eq_left hj]
  rw [h1]
  have hle1 := Finset.card_le_card (Finset.inter_subset_left (s₁ := (L.take j).toFinset) (s₂ := G))
  have hle2 := Finset.card_le_card (Finset.inter_subset_right (s₁ := (L.take j).toFinset) (s₂ := G))
  by_contra hne
  have hlt1 : ((L.take j).toFinset ∩ G).card < j := by omega
  have hlt2 : ((L.take j).toFinset ∩ G).card < G.card := by omega
  obtain ⟨y, hy, hyG⟩ : ∃ y ∈ (L.take j).toFinset, y ∉ G := by
    by_contra hc
    push Not at hc
    rw [Finset.inter_eq_left.mpr hc] at hlt1
    omega
  obtain ⟨x, hx, hxT⟩ : ∃ x ∈ G, x ∉ (L.take j).toFinset := by
    by_contra hc
    push Not at hc
    rw [Finset.inter_eq_right.mpr hc] at hlt2
    omega
  rw [List.mem_toFinset] at hy hxT
  exact before_asymm (hT.best y hy x (hG hx) hxT) (.inl (hs x hx y (hT.mem y hy) hyG))

theorem relevant_iff_hits (j : Nat) : Relevant L G j ↔ hitsAt L G (j + 1) = hitsAt L G j + 1 := by
  classical
  rw [hitsAt_succ]
  split_ifs with h <;> simp [h]

open Classical in
/-- the relevant places of a perfect list -/
theorem perfect_places (h : ∀ j ≤ L.length, hitsAt L G j = min j G.card) :
    (Finset.range L.length).filter (Relevant L G) = Finset.range (min G.card L.length) := by
  ext j
  rw [Finset.mem_filter, Finset.mem_range, Finset.mem_range, relevant_iff_hits]
  constructor
  · rintro ⟨h1, h2⟩
    rw [h _ h1, h _ h1.le] at h2
    omega
  · intro h1
    refine ⟨by omega, ?_⟩
    rw [h _ (by omega), h _ (by omega)]
    omega

theorem perfect_dcg (h : ∀ j ≤ L.length, hitsAt L G j = min j G.card) : dcg L G = idealDcg (min G.card L.length) := by
  unfold dcg idealDcg
  rw [perfect_places h]

theorem perfect_ap (h : ∀ j ≤ L.length, hitsAt L G j = min j G.card) :
    averagePrecision L G = (min G.card L.length : ℕ) / G.card := by
  unfold averagePrecision
  rw [perfect_places h]
  congr 1
  rw [Finset.sum_congr rfl (g := fun _ => (1 : ℝ)), Finset.sum_const, Finset.card_range, nsmul_eq_mul, mul_one]
  intro j hj
  rw [Finset.mem_range] at hj
  rw [h _ (by omega), Nat.min_eq_left (by omega)]
  have : ((j : ℝ) + 1) ≠ 0 := by positivity
  push_cast
  exact div_self this

/-- average precision is at most the share of relevant items that the list holds -/
theorem ap_le_hits (L : List Nat) (G : Finset Nat) : averagePrecision L G ≤ (hitsAt L G L.length : ℝ) / G.card := by
  classical
  unfold averagePrecision
  refine div_le_div_of_nonneg_right ?_ (Nat.cast_nonneg _)
  have : (hitsAt L G L.length : ℝ) = ∑ j ∈ (Finset.range L.length).filter (Relevant L G), (1 : ℝ) := by
    rw [Finset.sum_const, nsmul_eq_mul, mul_one]
    unfold hitsAt
    congr!
  rw [this]
  refine (Finset.sum_le_sum (fun j _ => ?_)).trans (le_of_eq (by congr!))
  rw [div_le_one (by positivity)]
  exact_mod_cast hitsAt_le L G (j + 1)

end Irspack.Sampled
