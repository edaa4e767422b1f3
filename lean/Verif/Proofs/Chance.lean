import Verif.Proofs.Overtake
import Mathlib.GroupTheory.Perm.Basic
import Mathlib.Data.Fintype.Perm

/-!
# Random rankings
-/

namespace Irspack.Sampled
open Irspack Spec Evaluation

variable {n : Nat}

/-- orders that put item `i` at place `j` -/
def placed (i j : Fin n) : Finset (Equiv.Perm (Fin n)) := Finset.univ.filter (fun σ => σ i = j)

theorem placed_card (i j j' : Fin n) : (placed i j).card = (placed i j').card := by
  have h : (placed i j).map (Equiv.mulLeft (Equiv.swap j j')).toEmbedding = placed i j' := by
    ext σ
    simp only [placed, Finset.mem_map_equiv, Finset.mem_filter, Finset.mem_univ, true_and, Equiv.mulLeft_symm_apply,
      Equiv.Perm.mul_apply, Equiv.swap_inv]
    constructor
    · intro h
      have := congrArg (Equiv.swap j j') h
      simpa using this
    · intro h
      rw [h, Equiv.swap_apply_right]
  rw [← h, Finset.card_map]

theorem placed_total (i : Fin n) (s : Finset (Fin n)) :
    (Finset.univ.filter (fun σ : Equiv.Perm (Fin n) => σ i ∈ s)).card = ∑ j ∈ s, (placed i j).card := by
  rw [Finset.card_eq_sum_card_fiberwise (f := fun σ : Equiv.Perm (Fin n) => σ i) (t := s)]
  · refine Finset.sum_congr rfl (fun j hj => ?_)
    congr 1
    ext σ
    simp only [placed, Finset.mem_filter, Finset.mem_univ, true_and]
    exact ⟨fun h => h.2, fun h => ⟨h ▸ hj, h⟩⟩
  · intro σ hσ
    simpa using hσ

/-- an item is among the first `k` of `n` in the share `k / n` of the orders -/
theorem early_card (i : Fin n) {k : Nat} (hk : k ≤ n) :
    (Finset.univ.filter (fun σ : Equiv.Perm (Fin n) => (σ i).1 < k)).card * n = k * n.factorial := by
  have h1 := placed_total i (Finset.univ.filter (fun j : Fin n => j.1 < k))
  have h2 := placed_total i Finset.univ
  have hc : ∀ j, (placed i j).card = (placed i i).card := fun j => placed_card i j i
  simp only [hc, Finset.sum_const, smul_eq_mul] at h1 h2
  have hk' : (Finset.univ.filter (fun j : Fin n => j.1 < k)).card = k := by
    rw [Fin.card_filter_val_lt]
    omega
  simp only [Finset.mem_univ, Finset.filter_true, Finset.card_univ, Fintype.card_perm, Fintype.card_fin] at h2
  simp only [Finset.mem_filter, Finset.mem_univ, true_and] at h1
  rw [h1, hk', h2]
  ring

/-- If `C` are all items below `n` and the first places get the best scores, the list holds the items placed before `k`. -/
theorem topK_places {S : Type} [LinearOrder S] {s : Nat → S} {k : Nat} {L : List Nat} (σ : Equiv.Perm (Fin n))
    (h : IsTopK (Finset.range n) s k L) (hk : k ≤ n) (hs : ∀ i j : Fin n, σ i < σ j → s j < s i) :
    L.toFinset = (Finset.univ.filter (fun i : Fin n => (σ i).1 < k)).map Fin.valEmbedding := by
  have hn := pairwise_before_nodup h.sorted
  have hcard : ((Finset.univ.filter (fun i : Fin n => (σ i).1 < k)).map Fin.valEmbedding).card = k := by
    rw [Finset.card_map]
    have : (Finset.univ.filter (fun i : Fin n => (σ i).1 < k)).map σ.toEmbedding =
        Finset.univ.filter (fun j : Fin n => j.1 < k) := by
      ext j
      simp [Finset.mem_map_equiv]
    rw [← Finset.card_map σ.toEmbedding, this, Fin.card_filter_val_lt]
    omega
  have hlen : L.toFinset.card = k := by
    rw [List.toFinset_card_of_nodup hn, h.length, Finset.card_range]
    omega
  refine Finset.eq_of_subset_of_card_le ?_ (by rw [hcard, hlen])
  intro x hx
  rw [List.mem_toFinset] at hx
  have hxn : x < n := Finset.mem_range.mp (h.mem x hx)
  by_contra hxT
  have hex : ∃ y ∈ (Finset.univ.filter (fun i : Fin n => (σ i).1 < k)).map Fin.valEmbedding, y ∉ L.toFinset := by
    by_contra hc
    push Not at hc
    have heq := Finset.eq_of_subset_of_card_le hc (by rw [hcard, hlen])
    rw [heq] at hxT
    exact hxT (by simpa using hx)
  obtain ⟨y, hy, hyL⟩ := hex
  rw [Finset.mem_map] at hy
  obtain ⟨y, hy, rfl⟩ := hy
  rw [Finset.mem_filter] at hy
  have hxk : ¬ (σ ⟨x, hxn⟩).1 < k := by
    intro hc
    exact hxT (Finset.mem_map.mpr ⟨⟨x, hxn⟩, Finset.mem_filter.mpr ⟨Finset.mem_univ _, hc⟩, rfl⟩)
  have hlt := hs y ⟨x, hxn⟩ (by rw [Fin.lt_def]; omega)
  have hb := h.best x hx y.1 (Finset.mem_range.mpr y.2) (by simpa using hyL)
  exact before_asymm hb (.inl hlt)

end Irspack.Sampled
