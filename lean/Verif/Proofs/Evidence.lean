import Verif.Proofs.Similarity
import Verif.Spec.Evidence

/-!
# How the similarity formulas react to one more user
-/

namespace Irspack.Evidence

open Spec.Sim

theorem eps0 : 0 < eps := by unfold eps; norm_num

theorem frac_lt {N D D' c : ℝ} (hN : 0 ≤ N) (hD : 0 ≤ D) (hD' : 0 ≤ D') (hc : 0 < c) (h : N * D' ≤ (N + 1) * D) :
    N / (D + c) < (N + 1) / (D' + c) := by
  rw [div_lt_div_iff₀ (by positivity) (by positivity)]
  nlinarith

theorem frac_le {N D D' c : ℝ} (hN : 0 ≤ N) (hD : 0 ≤ D) (hc : 0 < c) (h : D ≤ D') : N / (D' + c) ≤ N / (D + c) :=
  div_le_div_of_nonneg_left hN (by positivity) (by linarith)

/-- the others who have interacted -/
noncomputable def rest (n v : Nat) (f : Nat → ℝ) : Finset Nat := (support n f).erase v

theorem rest_congr {n v : Nat} {f f' : Nat → ℝ} (h : ∀ u, u ≠ v → f' u = f u) : rest n v f' = rest n v f := by
  ext u
  simp only [rest, support, Finset.mem_erase, Finset.mem_filter]
  constructor <;> rintro ⟨h1, h2, h3⟩ <;> refine ⟨h1, h2, ?_⟩
  · rwa [← h u h1]
  · rwa [h u h1]

theorem support_out {n v : Nat} {f : Nat → ℝ} (h : f v = 0) : support n f = rest n v f := by
  unfold rest
  rw [Finset.erase_eq_of_notMem]
  simp [support, h]

theorem support_in {n v : Nat} (hv : v < n) {f : Nat → ℝ} (h : f v ≠ 0) : support n f = insert v (rest n v f) := by
  unfold rest
  rw [Finset.insert_erase]
  simp [support, h, hv]

theorem not_rest (n v : Nat) (f : Nat → ℝ) : v ∉ rest n v f := by simp [rest]

/-! ### counting -/

variable {v : Nat} {S T : Finset Nat}

theorem inter_both (hS : v ∉ S) : (insert v S ∩ insert v T).card = (S ∩ T).card + 1 := by
  rw [← Finset.insert_inter_distrib, Finset.card_insert_of_notMem (by simp [hS])]

theorem inter_left (hT : v ∉ T) : insert v S ∩ T = S ∩ T := Finset.insert_inter_of_notMem hT

theorem inter_right (hS : v ∉ S) : S ∩ insert v T = S ∩ T := Finset.inter_insert_of_notMem hS

theorem union_both (hS : v ∉ S) (hT : v ∉ T) : (insert v S ∪ insert v T).card = (S ∪ T).card + 1 := by
  rw [← Finset.insert_union_distrib, Finset.card_insert_of_notMem (by simp [hS, hT])]

theorem union_left (hS : v ∉ S) (hT : v ∉ T) : (insert v S ∪ T).card = (S ∪ T).card + 1 := by
  rw [Finset.insert_union, Finset.card_insert_of_notMem (by simp [hS, hT])]

theorem union_right (hS : v ∉ S) (hT : v ∉ T) : (S ∪ insert v T).card = (S ∪ T).card + 1 := by
  rw [Finset.union_insert, Finset.card_insert_of_notMem (by simp [hS, hT])]

theorem sdiff_both (hS : v ∉ S) : insert v S \ insert v T = S \ T := by
  ext u
  simp only [Finset.mem_sdiff, Finset.mem_insert, not_or]
  constructor
  · rintro ⟨h1 | h1, h2, h3⟩
    · exact absurd h1 h2
    · exact ⟨h1, h3⟩
  · rintro ⟨h1, h2⟩
    exact ⟨.inr h1, fun h => hS (h ▸ h1), h2⟩

theorem sdiff_left (hS : v ∉ S) (hT : v ∉ T) : (insert v S \ T).card = (S \ T).card + 1 := by
  rw [Finset.insert_sdiff_of_notMem _ hT, Finset.card_insert_of_notMem (by simp [hS])]

theorem sdiff_right (hS : v ∉ S) : S \ insert v T = S \ T := by
  ext u
  simp only [Finset.mem_sdiff, Finset.mem_insert, not_or]
  exact ⟨fun ⟨a, _, b⟩ => ⟨a, b⟩, fun ⟨a, b⟩ => ⟨a, fun h => hS (h ▸ a), b⟩⟩

/-! ### one more user -/

/-- the histories of all others are the same, before and after -/
structure Change (n v : Nat) (f g f' g' : Nat → ℝ) : Prop where
  lt : v < n
  left : ∀ u, u ≠ v → f' u = f u
  right : ∀ u, u ≠ v → g' u = g u

variable {n : Nat} {f g f' g' : Nat → ℝ}

theorem jaccard_closer (h : Change n v f g f' g') {s : ℝ} (hs : 0 ≤ s) (h0 : ¬ (f v ≠ 0 ∧ g v ≠ 0))
    (h1 : f' v ≠ 0 ∧ g' v ≠ 0) : jaccard n s f g < jaccard n s f' g' := by
  have e := eps0
  have n1 := not_rest n v f
  have n2 := not_rest n v g
  unfold jaccard
  rw [support_in h.lt h1.1, support_in h.lt h1.2, rest_congr h.left, rest_congr h.right, inter_both n1, union_both n1 n2]
  have hle : (((rest n v f ∩ rest n v g).card : ℕ) : ℝ) ≤ ((rest n v f ∪ rest n v g).card : ℕ) := by
    exact_mod_cast Finset.card_le_card (Finset.inter_subset_union)
  by_cases hf : f v = 0
  · by_cases hg : g v = 0
    · rw [support_out hf, support_out hg, add_assoc, add_assoc]
      push_cast
      exact frac_lt (by positivity) (by positivity) (by positivity) (by linarith) (by nlinarith)
    · rw [support_out hf, support_in h.lt hg, inter_right n1, union_right n1 n2, add_assoc]
      push_cast
      exact frac_lt (by positivity) (by positivity) (by positivity) (by linarith) (by nlinarith)
  · have hg : g v = 0 := by
      by_contra hg; exact h0 ⟨hf, hg⟩
    rw [support_in h.lt hf, support_out hg, inter_left n2, union_left n1 n2, add_assoc]
    push_cast
    exact frac_lt (by positivity) (by positivity) (by positivity) (by linarith) (by nlinarith)

theorem jaccard_apart (h : Change n v f g f' g') {s : ℝ} (hs : 0 ≤ s) (h0 : f v = 0 ∧ g v = 0)
    (h1 : ¬ (f' v ≠ 0 ∧ g' v ≠ 0)) : jaccard n s f' g' ≤ jaccard n s f g := by
  have e := eps0
  have n1 := not_rest n v f
  have n2 := not_rest n v g
  unfold jaccard
  rw [support_out h0.1, support_out h0.2]
  by_cases hf : f' v = 0
  · by_cases hg : g' v = 0
    · rw [support_out hf, support_out hg, rest_congr h.left, rest_congr h.right]
    · rw [support_out hf, support_in h.lt hg, rest_congr h.left, rest_congr h.right, inter_right n1, union_right n1 n2,
        add_assoc, add_assoc]
      push_cast
      exact frac_le (by positivity) (by positivity) (by linarith) (by linarith)
  · have hg : g' v = 0 := by
      by_contra hg; exact h1 ⟨hf, hg⟩
    rw [support_in h.lt hf, support_out hg, rest_congr h.left, rest_congr h.right, inter_left n2, union_left n1 n2,
      add_assoc, add_assoc]
    push_cast
    exact frac_le (by positivity) (by positivity) (by linarith) (by linarith)

theorem tversky_closer (h : Change n v f g f' g') {s a b : ℝ} (hs : 0 ≤ s) (ha : 0 ≤ a) (hb : 0 ≤ b)
    (h0 : ¬ (f v ≠ 0 ∧ g v ≠ 0)) (h1 : f' v ≠ 0 ∧ g' v ≠ 0) : tversky n a b s f g < tversky n a b s f' g' := by
  have e := eps0
  have n1 := not_rest n v f
  have n2 := not_rest n v g
  unfold tversky
  rw [support_in h.lt h1.1, support_in h.lt h1.2, rest_congr h.left, rest_congr h.right, inter_both n1, sdiff_both n1,
    sdiff_both n2]
  set N : ℝ := (((rest n v f ∩ rest n v g).card : ℕ) : ℝ) with hN
  set P : ℝ := (((rest n v f \ rest n v g).card : ℕ) : ℝ) with hP
  set Q : ℝ := (((rest n v g \ rest n v f).card : ℕ) : ℝ) with hQ
  have p1 : 0 ≤ N := by positivity
  have p2 : 0 ≤ a * P := by positivity
  have p3 : 0 ≤ b * Q := by positivity
  push_cast
  rw [← hN]
  by_cases hf : f v = 0
  · by_cases hg : g v = 0
    · rw [support_out hf, support_out hg, ← hN, ← hP, ← hQ, add_assoc _ s, add_assoc _ s]
      exact frac_lt p1 (by linarith) (by linarith) (by linarith) (by nlinarith)
    · rw [support_out hf, support_in h.lt hg, inter_right n1, sdiff_right n1, sdiff_left n2 n1, add_assoc _ s, add_assoc _ s]
      push_cast
      rw [← hN, ← hP, ← hQ]
      exact frac_lt p1 (by nlinarith) (by linarith) (by linarith) (by nlinarith [mul_nonneg p1 hb])
  · have hg : g v = 0 := by
      by_contra hg; exact h0 ⟨hf, hg⟩
    rw [support_in h.lt hf, support_out hg, inter_left n2, sdiff_right n2, sdiff_left n1 n2, add_assoc _ s, add_assoc _ s]
    push_cast
    rw [← hN, ← hP, ← hQ]
    exact frac_lt p1 (by nlinarith) (by linarith) (by linarith) (by nlinarith [mul_nonneg p1 ha])

theorem tversky_apart (h : Change n v f g f' g') {s a b : ℝ} (hs : 0 ≤ s) (ha : 0 ≤ a) (hb : 0 ≤ b)
    (h0 : f v = 0 ∧ g v = 0) (h1 : ¬ (f' v ≠ 0 ∧ g' v ≠ 0)) : tversky n a b s f' g' ≤ tversky n a b s f g := by
  have e := eps0
  have n1 := not_rest n v f
  have n2 := not_rest n v g
  unfold tversky
  rw [support_out h0.1, support_out h0.2]
  set N : ℝ := (((rest n v f ∩ rest n v g).card : ℕ) : ℝ) with hN
  set P : ℝ := (((rest n v f \ rest n v g).card : ℕ) : ℝ) with hP
  set Q : ℝ := (((rest n v g \ rest n v f).card : ℕ) : ℝ) with hQ
  have p1 : 0 ≤ N := by positivity
  have p2 : 0 ≤ a * P := by positivity
  have p3 : 0 ≤ b * Q := by positivity
  by_cases hf : f' v = 0
  · by_cases hg : g' v = 0
    · rw [support_out hf, support_out hg, rest_congr h.left, rest_congr h.right]
    · rw [support_out hf, support_in h.lt hg, rest_congr h.left, rest_congr h.right, inter_right n1, sdiff_right n1,
        sdiff_left n2 n1, add_assoc _ s, add_assoc _ s]
      push_cast
      rw [← hN, ← hP, ← hQ]
      exact frac_le p1 (by linarith) (by linarith) (by nlinarith)
  · have hg : g' v = 0 := by
      by_contra hg; exact h1 ⟨hf, hg⟩
    rw [support_in h.lt hf, support_out hg, rest_congr h.left, rest_congr h.right, inter_left n2, sdiff_right n2,
      sdiff_left n1 n2, add_assoc _ s, add_assoc _ s]
    push_cast
    rw [← hN, ← hP, ← hQ]
    exact frac_le p1 (by linarith) (by linarith) (by nlinarith)

/-! ### binary columns -/

theorem dot_binary (hf : ∀ u, f u = 0 ∨ f u = 1) (hg : ∀ u, g u = 0 ∨ g u = 1) :
    dot n f g = (support n f ∩ support n g).card := by
  have : ∀ u, f u * g u = if f u ≠ 0 ∧ g u ≠ 0 then 1 else 0 := by
    intro u
    rcases hf u with h | h <;> rcases hg u with h' | h' <;> simp [h, h']
  unfold dot support
  rw [← Finset.filter_and, Finset.sum_congr rfl (fun u _ => this u), Finset.sum_boole]

theorem norm_binary (hf : ∀ u, f u = 0 ∨ f u = 1) : l2norm n f = Real.sqrt (support n f).card := by
  unfold l2norm
  rw [dot_binary hf hf, Finset.inter_self]

/-- the denominators of the two cosines, as a function of the numbers of users -/
structure Denom (D : ℝ → ℝ → ℝ) : Prop where
  nonneg : ∀ a b, 0 ≤ a → 0 ≤ b → 0 ≤ D a b
  mono : ∀ a b a' b', 0 ≤ a → 0 ≤ b → a ≤ a' → b ≤ b' → D a b ≤ D a' b'
  slow : ∀ N a b, 0 ≤ N → N ≤ a → N ≤ b → N * D (a + 1) (b + 1) ≤ (N + 1) * D a b

theorem binary_closer {D : ℝ → ℝ → ℝ} (hD : Denom D) (h : Change n v f g f' g') {c : ℝ} (hc : 0 < c)
    (h0 : ¬ (f v ≠ 0 ∧ g v ≠ 0)) (h1 : f' v ≠ 0 ∧ g' v ≠ 0) :
    ((support n f ∩ support n g).card : ℝ) / (D (support n f).card (support n g).card + c) <
      ((support n f' ∩ support n g').card : ℝ) / (D (support n f').card (support n g').card + c) := by
  have n1 := not_rest n v f
  have n2 := not_rest n v g
  rw [support_in h.lt h1.1, support_in h.lt h1.2, rest_congr h.left, rest_congr h.right, inter_both n1,
    Finset.card_insert_of_notMem n1, Finset.card_insert_of_notMem n2]
  have hA : ((rest n v f ∩ rest n v g).card : ℝ) ≤ (rest n v f).card := by
    exact_mod_cast Finset.card_le_card Finset.inter_subset_left
  have hB : ((rest n v f ∩ rest n v g).card : ℝ) ≤ (rest n v g).card := by
    exact_mod_cast Finset.card_le_card Finset.inter_subset_right
  have key := hD.slow _ _ _ (Nat.cast_nonneg _) hA hB
  have hinter : (support n f ∩ support n g).card = (rest n v f ∩ rest n v g).card := by
    by_cases hf : f v = 0
    · by_cases hg : g v = 0
      · rw [support_out hf, support_out hg]
      · rw [support_out hf, support_in h.lt hg, inter_right n1]
    · have hg : g v = 0 := by
        by_contra hg; exact h0 ⟨hf, hg⟩
      rw [support_in h.lt hf, support_out hg, inter_left n2]
  have hmf : ((rest n v f).card : ℝ) ≤ (support n f).card := by
    exact_mod_cast Finset.card_le_card (Finset.erase_subset _ _)
  have hmg : ((rest n v g).card : ℝ) ≤ (support n g).card := by
    exact_mod_cast Finset.card_le_card (Finset.erase_subset _ _)
  have hm := hD.mono _ _ _ _ (Nat.cast_nonneg _) (Nat.cast_nonneg _) hmf hmg
  rw [hinter]
  push_cast
  refine frac_lt (by positivity) (hD.nonneg _ _ (by positivity) (by positivity))
    (hD.nonneg _ _ (by positivity) (by positivity)) hc (key.trans ?_)
  exact mul_le_mul_of_nonneg_left hm (by positivity)

theorem binary_apart {D : ℝ → ℝ → ℝ} (hD : Denom D) (h : Change n v f g f' g') {c : ℝ} (hc : 0 < c)
    (h0 : f v = 0 ∧ g v = 0) (h1 : ¬ (f' v ≠ 0 ∧ g' v ≠ 0)) :
    ((support n f' ∩ support n g').card : ℝ) / (D (support n f').card (support n g').card + c) ≤
      ((support n f ∩ support n g).card : ℝ) / (D (support n f).card (support n g).card + c) := by
  have n1 := not_rest n v f
  have n2 := not_rest n v g
  rw [support_out h0.1, support_out h0.2]
  have hinter : (support n f' ∩ support n g').card = (rest n v f ∩ rest n v g).card := by
    by_cases hf : f' v = 0
    · by_cases hg : g' v = 0
      · rw [support_out hf, support_out hg, rest_congr h.left, rest_congr h.right]
      · rw [support_out hf, support_in h.lt hg, rest_congr h.left, rest_congr h.right, inter_right n1]
    · have hg : g' v = 0 := by
        by_contra hg; exact h1 ⟨hf, hg⟩
      rw [support_in h.lt hf, support_out hg, rest_congr h.left, rest_congr h.right, inter_left n2]
  have hmf : ((rest n v f).card : ℝ) ≤ (support n f').card := by
    rw [← rest_congr h.left]
    exact_mod_cast Finset.card_le_card (Finset.erase_subset _ _)
  have hmg : ((rest n v g).card : ℝ) ≤ (support n g').card := by
    rw [← rest_congr h.right]
    exact_mod_cast Finset.card_le_card (Finset.erase_subset _ _)
  rw [hinter]
  exact frac_le (by positivity) (hD.nonneg _ _ (by positivity) (by positivity)) hc
    (hD.mono _ _ _ _ (Nat.cast_nonneg _) (Nat.cast_nonneg _) hmf hmg)

theorem denom_pow {al : ℝ} (h0 : 0 ≤ al) (h1 : al ≤ 1) :
    Denom (fun a b => Real.sqrt a ^ (2 * al) * Real.sqrt b ^ (2 * (1 - al))) := by
  have h2 : 0 ≤ 1 - al := by linarith
  have sq : ∀ a x : ℝ, 0 ≤ a → Real.sqrt a ^ (2 * x) = a ^ x := by
    intro a x ha
    rw [Real.rpow_mul (Real.sqrt_nonneg a), Real.rpow_two, Real.sq_sqrt ha]
  refine ⟨fun a b ha hb => by positivity, fun a b a' b' ha hb haa hbb => ?_, fun N a b hN hNa hNb => ?_⟩
  · have := Real.sqrt_le_sqrt haa
    have := Real.sqrt_le_sqrt hbb
    gcongr <;> first | positivity | linarith
  · have ha : 0 ≤ a := hN.trans hNa
    have hb : 0 ≤ b := hN.trans hNb
    rw [sq _ _ (by linarith), sq _ _ (by linarith), sq _ _ ha, sq _ _ hb]
    have split : ∀ x : ℝ, 0 ≤ x → ∀ y z : ℝ, 0 ≤ y → 0 ≤ z →
        x * (y ^ al * z ^ (1 - al)) = (x * y) ^ al * (x * z) ^ (1 - al) := by
      intro x hx y z hy hz
      rw [Real.mul_rpow hx hy, Real.mul_rpow hx hz]
      have : x = x ^ al * x ^ (1 - al) := by
        rcases eq_or_lt_of_le hx with rfl | hx
        · by_cases h : al = 0
          · subst h; simp
          · rw [Real.zero_rpow h, zero_mul]
        · rw [← Real.rpow_add hx]; simp
      calc x * (y ^ al * z ^ (1 - al)) = (x ^ al * x ^ (1 - al)) * (y ^ al * z ^ (1 - al)) := by rw [← this]
        _ = _ := by ring
    rw [split N hN _ _ (by linarith) (by linarith), split (N + 1) (by linarith) _ _ ha hb]
    have e1 : N * (a + 1) ≤ (N + 1) * a := by nlinarith
    have e2 : N * (b + 1) ≤ (N + 1) * b := by nlinarith
    exact mul_le_mul (Real.rpow_le_rpow (by nlinarith) e1 h0) (Real.rpow_le_rpow (by nlinarith) e2 h2)
      (Real.rpow_nonneg (by nlinarith) _) (Real.rpow_nonneg (by nlinarith) _)

theorem asymmetric_eq (hf : ∀ u, f u = 0 ∨ f u = 1) (hg : ∀ u, g u = 0 ∨ g u = 1) (al s : ℝ) :
    asymmetric n al s f g = ((support n f ∩ support n g).card : ℝ) /
      ((fun a b : ℝ => Real.sqrt a ^ (2 * al) * Real.sqrt b ^ (2 * (1 - al))) (support n f).card (support n g).card +
        (s + eps)) := by
  unfold asymmetric
  rw [dot_binary hf hg, norm_binary hf, norm_binary hg, add_assoc]

theorem cosine_eq (f g : Nat → ℝ) (s : ℝ) : cosine n s f g = asymmetric n (1 / 2) s f g := by
  unfold cosine asymmetric
  norm_num

end Irspack.Evidence
