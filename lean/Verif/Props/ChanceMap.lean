import Verif.Props.ChanceNdcg
import Verif.Proofs.ChancePairs

/-!
# C118: the mean average precision and the capped recall of a random ranking
-/

namespace Irspack.Props
open Irspack Spec Evaluation Sampled

variable {us : List Nat} {gt : Nat → List Nat} {n k : Nat}

theorem fin_card {G : Finset Nat} (hG : ∀ i ∈ G, i < n) : (Finset.univ.filter (fun i : Fin n => i.1 ∈ G)).card = G.card := by
  rw [← Finset.card_map Fin.valEmbedding]
  congr 1
  ext x
  simp only [Finset.mem_map, Finset.mem_filter, Finset.mem_univ, true_and]
  constructor
  · rintro ⟨i, hi, rfl⟩; exact hi
  · intro hx; exact ⟨⟨x, hG x hx⟩, hx, rfl⟩

/-- the sum over the orders of `h (h + 1) / 2`, with `h` the number of relevant items at the first `m` places -/
theorem sum_triangle (hn : 0 < n) {m : Nat} (hm : m ≤ n) (τ : Equiv.Perm (Fin n)) (G : Finset Nat) (hG : ∀ i ∈ G, i < n) :
    ∑ σ : Equiv.Perm (Fin n),
      ((((Finset.univ.filter (fun i : Fin n => i.1 ∈ G)).filter (fun i => ((σ * τ) i).1 < m)).card : ℝ) *
        (((Finset.univ.filter (fun i : Fin n => i.1 ∈ G)).filter (fun i => ((σ * τ) i).1 < m)).card + 1) / 2) =
      (G.card * (m / n) + G.card * ((G.card - 1) / (n - 1)) * (m * (m - 1) / 2) / n) * n.factorial := by
  have h1 := sum_hits hm hn τ G hG
  have h2 := sum_pairs_eq (Finset.univ.filter (fun i : Fin n => i.1 ∈ G)) hm
  rw [← Equiv.sum_comp (Equiv.mulRight τ)] at h2
  simp only [Equiv.coe_mulRight, Finset.offDiag_card, fin_card hG] at h2
  have hsq : ∀ a : Nat, ((a * a - a : ℕ) : ℝ) = a * a - a := by
    intro a
    rw [Nat.cast_sub (Nat.le_mul_self a), Nat.cast_mul]
  have h3 := congrArg (Nat.cast : ℕ → ℝ) h2
  simp only [Nat.cast_mul, Nat.cast_sum, hsq] at h3
  have hn' : (n : ℝ) ≠ 0 := by exact_mod_cast hn.ne'
  have hs : ∀ c : ℝ, c * (c + 1) / 2 = (c * c - c) / 2 + c := fun c => by ring
  rw [Finset.sum_congr rfl (fun σ _ => hs _), Finset.sum_add_distrib, h1, ← Finset.sum_div, add_mul, add_comm]
  congr 1
  by_cases hn1 : n = 1
  · subst hn1
    have hle : ∀ σ : Equiv.Perm (Fin 1),
        ((((Finset.univ.filter (fun i : Fin 1 => i.1 ∈ G)).filter (fun i => ((σ * τ) i).1 < m)).card : ℝ) *
        ((Finset.univ.filter (fun i : Fin 1 => i.1 ∈ G)).filter (fun i => ((σ * τ) i).1 < m)).card -
        ((Finset.univ.filter (fun i : Fin 1 => i.1 ∈ G)).filter (fun i => ((σ * τ) i).1 < m)).card) = 0 := by
      intro σ
      have hc := Finset.card_le_univ ((Finset.univ.filter (fun i : Fin 1 => i.1 ∈ G)).filter (fun i => ((σ * τ) i).1 < m))
      rw [Fintype.card_fin] at hc
      rcases (by omega : ((Finset.univ.filter (fun i : Fin 1 => i.1 ∈ G)).filter (fun i => ((σ * τ) i).1 < m)).card = 0 ∨
        ((Finset.univ.filter (fun i : Fin 1 => i.1 ∈ G)).filter (fun i => ((σ * τ) i).1 < m)).card = 1) with h | h <;>
        rw [h] <;> simp
    rw [Finset.sum_congr rfl (fun σ _ => hle σ)]
    simp
  · have hn2 : (n : ℝ) - 1 ≠ 0 := by
      intro h
      exact hn1 (by exact_mod_cast (sub_eq_zero.mp h))
    have hnn : (n : ℝ) * n - n ≠ 0 := by
      rw [show (n : ℝ) * n - n = n * (n - 1) by ring]
      exact mul_ne_zero hn' hn2
    rw [← eq_div_iff hnn] at h3
    refine Eq.trans (b := (G.card * G.card - G.card) * ((m * m - m) * (n.factorial : ℝ)) / (n * n - n) / 2) ?_ ?_
    · rw [← h3]
      congr!
    · rw [show (n : ℝ) * n - n = n * (n - 1) by ring]
      field_simp

/-- C118.  The expected mean average precision of a random ranking.  The item at place `j` (from 0) is relevant with chance
`|G| / n`, and then every earlier place is relevant with chance `(|G| - 1) / (n - 1)`. -/
theorem C118_chance_map {d : Equiv.Perm (Fin n) → MetricDict} (τ : Nat → Equiv.Perm (Fin n)) (hk0 : 0 < k) (hk : k ≤ n)
    (hgt : ∀ u ∈ us, ∀ i ∈ gt u, i < n) {capped : Bool}
    (hd : ∀ σ, ReportOn us gt (fun u => placeScore (σ * τ u)) (fun _ _ => True) (fun _ _ => False) n k capped (d σ))
    (hne : ∃ u ∈ us, gt u ≠ []) :
    expected (fun σ => (d σ).map) =
      ((us.filter (fun u => decide (gt u ≠ []))).map (fun u => (∑ j ∈ Finset.range k,
        (((gt u).toFinset.card : ℝ) / n) * ((1 + j * (((gt u).toFinset.card - 1) / (n - 1))) / (j + 1))) /
          (gt u).toFinset.card)).sum /
        (us.filter (fun u => decide (gt u ≠ []))).length := by
  have hr := fun σ => reportOn_isReport (hd σ)
  have hn : 0 < n := by omega
  have hcount : (((us.map (fun u => if (gt u).toFinset.Nonempty then 1 else 0)).sum : ℕ) : ℝ) =
      (us.filter (fun u => decide (gt u ≠ []))).length := by
    rw [valid_sum us gt (fun _ => (1 : ℕ)), List.map_const', List.sum_replicate]
    simp
  have hpos : ((us.filter (fun u => decide (gt u ≠ []))).length : ℝ) ≠ 0 := by
    obtain ⟨u, hu, h⟩ := hne
    have : u ∈ us.filter (fun u => decide (gt u ≠ [])) := List.mem_filter.mpr ⟨hu, by simpa using h⟩
    exact_mod_cast (List.length_pos_of_mem this).ne'
  have := expected_metric (us := us) (gt := gt) (k := k) Spec.averagePrecision τ
    (fun u => (∑ j ∈ Finset.range k,
        (((gt u).toFinset.card : ℝ) / n) * ((1 + j * (((gt u).toFinset.card - 1) / (n - 1))) / (j + 1))) /
          (gt u).toFinset.card)
    (fun σ => (d σ).map) (fun σ => (hr σ).map) ?_
  · rw [hcount, valid_sum] at this
    rw [eq_div_iff hpos, mul_comm]
    exact this
  · intro u hu _
    have hG : ∀ i ∈ (gt u).toFinset, i < n := fun i hi => hgt u hu i (by simpa using hi)
    have hlen := fun σ : Equiv.Perm (Fin n) =>
      (random_hits hk (fun u => placeScore (σ * τ u)) u (σ * τ u) rfl (gt u).toFinset).2
    have hpre := fun (σ : Equiv.Perm (Fin n)) (j : Nat) (hj : j ≤ k) =>
      random_prefix hk (fun u => placeScore (σ * τ u)) u (σ * τ u) rfl (gt u).toFinset j hj
    simp only [ap_steps, hlen]
    rw [← Finset.sum_div, Finset.sum_comm, div_mul_eq_mul_div]
    congr 1
    rw [Finset.sum_mul]
    refine Finset.sum_congr rfl (fun j hj => ?_)
    rw [Finset.mem_range] at hj
    simp only [hpre _ (j + 1) hj, hpre _ j hj.le]
    rw [← Finset.sum_mul, Finset.sum_sub_distrib, sum_triangle hn (by omega : j + 1 ≤ n) (τ u) _ hG,
      sum_triangle hn (by omega : j ≤ n) (τ u) _ hG]
    push_cast
    ring

/-- C118.  The expected recall when it is divided by the size of the ground truth or the cutoff, whichever is smaller. -/
theorem C118_chance_capped {d : Equiv.Perm (Fin n) → MetricDict} (τ : Nat → Equiv.Perm (Fin n)) (hk0 : 0 < k) (hk : k ≤ n)
    (hgt : ∀ u ∈ us, ∀ i ∈ gt u, i < n)
    (hd : ∀ σ, ReportOn us gt (fun u => placeScore (σ * τ u)) (fun _ _ => True) (fun _ _ => False) n k true (d σ))
    (hne : ∃ u ∈ us, gt u ≠ []) :
    expected (fun σ => (d σ).recall) =
      ((us.filter (fun u => decide (gt u ≠ []))).map (fun u => (max (gt u).toFinset.card k : ℝ) / n)).sum /
        (us.filter (fun u => decide (gt u ≠ []))).length := by
  have hr := fun σ => reportOn_isReport (hd σ)
  have hn : 0 < n := by omega
  have hcount : (((us.map (fun u => if (gt u).toFinset.Nonempty then 1 else 0)).sum : ℕ) : ℝ) =
      (us.filter (fun u => decide (gt u ≠ []))).length := by
    rw [valid_sum us gt (fun _ => (1 : ℕ)), List.map_const', List.sum_replicate]
    simp
  have hpos : ((us.filter (fun u => decide (gt u ≠ []))).length : ℝ) ≠ 0 := by
    obtain ⟨u, hu, h⟩ := hne
    have : u ∈ us.filter (fun u => decide (gt u ≠ [])) := List.mem_filter.mpr ⟨hu, by simpa using h⟩
    exact_mod_cast (List.length_pos_of_mem this).ne'
  have := expected_metric (us := us) (gt := gt) (k := k) (Spec.recall true) τ
    (fun u => (max (gt u).toFinset.card k : ℝ) / n) (fun σ => (d σ).recall) (fun σ => (hr σ).recall) ?_
  · rw [hcount, valid_sum] at this
    rw [eq_div_iff hpos, mul_comm]
    exact this
  · intro u hu hGne
    have hh := fun σ : Equiv.Perm (Fin n) => random_hits hk (fun u => placeScore (σ * τ u)) u (σ * τ u) rfl (gt u).toFinset
    have hp : ∀ σ : Equiv.Perm (Fin n),
        Spec.recall true (listFor (fun u => placeScore (σ * τ u)) (fun _ _ => True) (fun _ _ => False) n k u)
          (gt u).toFinset =
        (((Finset.univ.filter (fun i : Fin n => i.1 ∈ (gt u).toFinset)).filter (fun i => ((σ * τ u) i).1 < k)).card : ℝ) /
          (min k (gt u).toFinset.card : ℕ) := by
      intro σ
      unfold Spec.recall
      rw [if_neg (by intro hc; have := (hh σ).2; rw [hc] at this; simp at this; omega), (hh σ).1, (hh σ).2]
      simp [min_comm]
    rw [Finset.sum_congr rfl (fun σ _ => hp σ), ← Finset.sum_div, sum_hits hk hn (τ u) _
      (fun i hi => hgt u hu i (by simpa using hi))]
    have hc := Finset.card_pos.mpr hGne
    have hc' : ((gt u).toFinset.card : ℝ) ≠ 0 := by exact_mod_cast hc.ne'
    have hk' : (k : ℝ) ≠ 0 := by exact_mod_cast hk0.ne'
    rcases le_total k (gt u).toFinset.card with h | h
    · rw [Nat.min_eq_left h, max_eq_left (by exact_mod_cast h)]
      field_simp
    · rw [Nat.min_eq_right h, max_eq_right (by exact_mod_cast h)]
      field_simp

/-- One user with two relevant items among three, lists of two: the expected average precision is 7/12,
the expected capped recall 2/3. -/
example : ∃ d : Equiv.Perm (Fin 3) → MetricDict,
    (∀ σ, ReportOn [0] (fun _ => [0, 1]) (fun _ => placeScore (σ * 1)) (fun _ _ => True)
      (fun _ _ => False) 3 2 true (d σ)) ∧
    expected (fun σ => (d σ).map) = 7 / 12 ∧ expected (fun σ => (d σ).recall) = 2 / 3 := by
  have h := fun σ : Equiv.Perm (Fin 3) => reportOn_exists [0] (fun _ => [0, 1])
    (fun _ => placeScore (σ * 1)) 3 2 true (by decide) (by decide)
  choose d hd using h
  have h1 := C118_chance_map (fun _ => 1) (by decide) (by decide) (by simp) hd ⟨0, by simp, by simp⟩
  have h2 := C118_chance_capped (fun _ => 1) (by decide) (by decide) (by simp) hd ⟨0, by simp, by simp⟩
  refine ⟨d, hd, h1.trans ?_, h2.trans ?_⟩
  · simp [Finset.sum_range_succ]
    norm_num
  · simp

end Irspack.Props
