import Verif.Proofs.Chance
import Mathlib.Data.Finset.Prod

/-!
# Pairs of items in random rankings
-/

namespace Irspack.Sampled

variable {n : Nat}

/-- orders that put both items before place `m` -/
def bothEarly (m : Nat) (p : Fin n × Fin n) : Finset (Equiv.Perm (Fin n)) :=
  Finset.univ.filter (fun σ => (σ p.1).1 < m ∧ (σ p.2).1 < m)

theorem exists_perm_pair {p q : Fin n × Fin n} (hp : p.1 ≠ p.2) (hq : q.1 ≠ q.2) :
    ∃ π : Equiv.Perm (Fin n), π p.1 = q.1 ∧ π p.2 = q.2 := by
  refine ⟨Equiv.swap (Equiv.swap p.1 q.1 p.2) q.2 * Equiv.swap p.1 q.1, ?_, ?_⟩
  · rw [Equiv.Perm.mul_apply, Equiv.swap_apply_left]
    apply Equiv.swap_apply_of_ne_of_ne
    · intro h
      have := congrArg (Equiv.swap p.1 q.1) h
      rw [Equiv.swap_apply_right, Equiv.swap_apply_self] at this
      exact hp this
    · exact hq
  · rw [Equiv.Perm.mul_apply, Equiv.swap_apply_left]

theorem bothEarly_card (m : Nat) {p q : Fin n × Fin n} (hp : p.1 ≠ p.2) (hq : q.1 ≠ q.2) :
    (bothEarly m p).card = (bothEarly m q).card := by
  obtain ⟨π, h1, h2⟩ := exists_perm_pair hp hq
  have h : (bothEarly m q).map (Equiv.mulRight π).toEmbedding = bothEarly m p := by
    ext σ
    simp only [bothEarly, Finset.mem_map_equiv, Finset.mem_filter, Finset.mem_univ, true_and, Equiv.mulRight_symm_apply,
      Equiv.Perm.mul_apply, ← h1, ← h2]
    simp
  rw [← h, Finset.card_map]

theorem offDiag_filter (A : Finset (Fin n)) (P : Fin n → Prop) [DecidablePred P] :
    (A.filter P).offDiag = A.offDiag.filter (fun p => P p.1 ∧ P p.2) := by
  ext p
  simp only [Finset.mem_offDiag, Finset.mem_filter]
  tauto

theorem early_places (σ : Equiv.Perm (Fin n)) {m : Nat} (hm : m ≤ n) :
    (Finset.univ.filter (fun i : Fin n => (σ i).1 < m)).card = m := by
  have : (Finset.univ.filter (fun i : Fin n => (σ i).1 < m)).map σ.toEmbedding =
      Finset.univ.filter (fun j : Fin n => j.1 < m) := by
    ext j
    simp [Finset.mem_map_equiv]
  rw [← Finset.card_map σ.toEmbedding, this, Fin.card_filter_val_lt]
  omega

/-- the pairs of items of `A` that are both early, summed over the orders -/
theorem sum_pairs (A : Finset (Fin n)) (m : Nat) :
    ∑ σ : Equiv.Perm (Fin n), (A.filter (fun i => (σ i).1 < m)).offDiag.card = ∑ p ∈ A.offDiag, (bothEarly m p).card := by
  simp only [offDiag_filter, bothEarly, Finset.card_filter]
  rw [Finset.sum_comm]

theorem sum_pairs_eq (A : Finset (Fin n)) {m : Nat} (hm : m ≤ n) :
    (∑ σ : Equiv.Perm (Fin n), (A.filter (fun i => (σ i).1 < m)).offDiag.card) * (n * n - n) =
      (A.card * A.card - A.card) * ((m * m - m) * n.factorial) := by
  rw [sum_pairs]
  by_cases hA : A.offDiag = ∅
  · have := Finset.offDiag_card A
    rw [hA, Finset.card_empty] at this
    rw [hA, ← this]
    simp
  obtain ⟨q, hq⟩ := Finset.nonempty_iff_ne_empty.mpr hA
  have hq' := (Finset.mem_offDiag.mp hq).2.2
  have h1 : ∀ B : Finset (Fin n), ∑ p ∈ B.offDiag, (bothEarly m p).card = (B.card * B.card - B.card) * (bothEarly m q).card := by
    intro B
    rw [Finset.sum_congr rfl (fun p hp => bothEarly_card m (Finset.mem_offDiag.mp hp).2.2 hq'), Finset.sum_const,
      Finset.offDiag_card, smul_eq_mul]
  have h2 := sum_pairs (Finset.univ : Finset (Fin n)) m
  have h3 : ∀ σ : Equiv.Perm (Fin n), (Finset.univ.filter (fun i : Fin n => (σ i).1 < m)).offDiag.card = m * m - m := by
    intro σ
    rw [Finset.offDiag_card, early_places σ hm]
  rw [Finset.sum_congr rfl (fun σ _ => h3 σ), h1, Finset.sum_const, Finset.card_univ, Fintype.card_perm, Finset.card_univ,
    Fintype.card_fin, smul_eq_mul] at h2
  rw [h1, mul_assoc, mul_comm (bothEarly m q).card, ← h2, mul_comm n.factorial]

end Irspack.Sampled
