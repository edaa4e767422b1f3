import Verif.Proofs.Fair
import Verif.Proofs.Chance

/-!
# Random rankings that miss every relevant item
-/

namespace Irspack.Sampled
open Irspack Spec Evaluation Fair

variable {n k : Nat}

theorem miss_card (hk : k ≤ n) (τ : Equiv.Perm (Fin n)) (A : Finset (Fin n)) :
    (Finset.univ.filter (fun σ : Equiv.Perm (Fin n) => ∀ i ∈ A, ¬ ((σ * τ) i).1 < k)).card * n.choose k =
      (n - A.card).choose k * n.factorial := by
  have hbij : (Finset.univ.filter (fun σ : Equiv.Perm (Fin n) => ∀ i ∈ A, ¬ ((σ * τ) i).1 < k)).card =
      (Finset.univ.filter (fun π : Equiv.Perm (Fin n) => (firstK n k).map π.toEmbedding ⊆ Aᶜ)).card := by
    refine Finset.card_bij (fun σ _ => (σ * τ)⁻¹) ?_ ?_ ?_
    · intro σ hσ
      simp only [Finset.mem_filter, Finset.mem_univ, true_and] at hσ ⊢
      intro x hx
      rw [Finset.mem_map_equiv] at hx
      rw [Finset.mem_compl]
      intro hxA
      have h1 := hσ x hxA
      simp only [firstK, Finset.mem_filter, Finset.mem_univ, true_and] at hx
      exact h1 hx
    · intro σ _ σ' _ he
      exact mul_right_cancel (inv_injective he)
    · intro π hπ
      refine ⟨π⁻¹ * τ⁻¹, ?_, by simp⟩
      simp only [Finset.mem_filter, Finset.mem_univ, true_and] at hπ ⊢
      intro i hi hlt
      have : i ∈ (firstK n k).map π.toEmbedding := by
        rw [Finset.mem_map_equiv]
        simp only [firstK, Finset.mem_filter, Finset.mem_univ, true_and]
        simpa using hlt
      exact Finset.mem_compl.mp (hπ this) hi
  rw [hbij, Finset.card_eq_sum_card_fiberwise (t := Finset.powersetCard k Aᶜ)
    (f := fun π : Equiv.Perm (Fin n) => (firstK n k).map π.toEmbedding)]
  · have : ∀ T ∈ Finset.powersetCard k Aᶜ, ((Finset.univ.filter (fun π : Equiv.Perm (Fin n) =>
        (firstK n k).map π.toEmbedding ⊆ Aᶜ)).filter (fun π => (firstK n k).map π.toEmbedding = T)).card * n.choose k =
          n.factorial := by
      intro T hT
      rw [Finset.mem_powersetCard] at hT
      have hc := card_putFirst hk T hT.2
      rw [Fintype.card_perm, Fintype.card_fin] at hc
      rw [← hc]
      congr 2
      ext π
      simp only [putFirst, Finset.mem_filter, Finset.mem_univ, true_and]
      exact ⟨fun h => h.2, fun h => ⟨h ▸ hT.1, h⟩⟩
    rw [Finset.sum_mul, Finset.sum_congr rfl this, Finset.sum_const, Finset.card_powersetCard, Finset.card_compl,
      Fintype.card_fin, smul_eq_mul]
  · intro π hπ
    have h : (firstK n k).map π.toEmbedding ⊆ Aᶜ := by simpa using hπ
    rw [Finset.mem_coe, Finset.mem_powersetCard]
    exact ⟨h, by rw [Finset.card_map, card_firstK hk]⟩

end Irspack.Sampled
