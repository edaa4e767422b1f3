import Verif.Props.Sensitivity
import Verif.Proofs.ChanceHit
import Verif.Spec.RandomOrder

/-!
# C118: what a random ranking scores
-/

namespace Irspack.Props
open Irspack Spec Evaluation Sampled

variable {us : List Nat} {gt : Nat → List Nat} {n k : Nat}

theorem placeScore_lt (place : Equiv.Perm (Fin n)) (i j : Fin n) (h : place i < place j) :
    placeScore place j < placeScore place i := by
  unfold placeScore
  rw [dif_pos i.2, dif_pos j.2]
  have h1 := (place i).2
  have h2 := (place j).2
  rw [Fin.lt_def] at h
  simp only [Fin.eta]
  exact_mod_cast (by omega : n - (place j).1 < n - (place i).1)

theorem placeScore_ne (place : Equiv.Perm (Fin n)) (i : Nat) : placeScore place i ≠ ⊥ ↔ i < n := by
  unfold placeScore
  by_cases h : i < n
  · simp [h]
  · simp [h]

/-- the relevant items that are placed early -/
theorem random_hits (hk : k ≤ n) (score : Nat → ScoreRow (WithBot Nat)) (u : Nat) (place : Equiv.Perm (Fin n))
    (hs : score u = placeScore place) (G : Finset Nat) :
    hitsAt (listFor score (fun _ _ => True) (fun _ _ => False) n k u) G
      (listFor score (fun _ _ => True) (fun _ _ => False) n k u).length =
        ((Finset.univ.filter (fun i : Fin n => i.1 ∈ G)).filter (fun i => (place i).1 < k)).card ∧
    (listFor score (fun _ _ => True) (fun _ _ => False) n k u).length = k := by
  obtain ⟨C, hC, hL⟩ := listFor_isTopK score (fun _ _ => True) (fun _ _ => False) n k u
  have hCr : C = Finset.range n := by
    ext i
    rw [hC, hs, placeScore_ne, Finset.mem_range]
    simp
  subst hCr
  refine ⟨?_, by rw [hL.length, Finset.card_range]; omega⟩
  rw [hs] at hL
  rw [hits_card _ (pairwise_before_nodup hL.sorted), topK_places place hL hk (placeScore_lt place),
    ← Finset.card_map Fin.valEmbedding]
  congr 1
  ext x
  simp only [Finset.mem_inter, Finset.mem_map, Finset.mem_filter, Finset.mem_univ, true_and]
  constructor
  · rintro ⟨⟨i, hi, rfl⟩, hG⟩
    exact ⟨i, ⟨hG, hi⟩, rfl⟩
  · rintro ⟨i, ⟨hG, hi⟩, rfl⟩
    exact ⟨⟨i, hi, rfl⟩, hG⟩

theorem sum_hits (hk : k ≤ n) (hn : 0 < n) (τ : Equiv.Perm (Fin n)) (G : Finset Nat) (hG : ∀ i ∈ G, i < n) :
    ∑ σ : Equiv.Perm (Fin n),
      ((((Finset.univ.filter (fun i : Fin n => i.1 ∈ G)).filter (fun i => ((σ * τ) i).1 < k)).card : ℕ) : ℝ) =
        G.card * (k / n) * n.factorial := by
  have hcard : (Finset.univ.filter (fun i : Fin n => i.1 ∈ G)).card = G.card := by
    rw [← Finset.card_map Fin.valEmbedding]
    congr 1
    ext x
    simp only [Finset.mem_map, Finset.mem_filter, Finset.mem_univ, true_and]
    constructor
    · rintro ⟨i, hi, rfl⟩; exact hi
    · intro hx; exact ⟨⟨x, hG x hx⟩, hx, rfl⟩
  have hone : ∀ i : Fin n, ∑ σ : Equiv.Perm (Fin n), (if ((σ * τ) i).1 < k then (1 : ℝ) else 0) =
      (k / n) * n.factorial := by
    intro i
    have := early_card (τ i) hk
    rw [Finset.sum_boole]
    have hn' : (n : ℝ) ≠ 0 := by exact_mod_cast hn.ne'
    have h2 : ((Finset.univ.filter (fun σ : Equiv.Perm (Fin n) => (σ (τ i)).1 < k)).card : ℝ) * n =
        k * n.factorial := by exact_mod_cast this
    simp only [Equiv.Perm.mul_apply]
    field_simp
    exact h2
  simp only [Finset.card_filter, Finset.sum_filter, Nat.cast_sum, Nat.cast_ite, Nat.cast_one, Nat.cast_zero]
  rw [Finset.sum_comm]
  have : ∀ i : Fin n, ∑ σ : Equiv.Perm (Fin n),
      (if i.1 ∈ G then (if ((σ * τ) i).1 < k then (1 : ℝ) else 0) else 0) =
        if i.1 ∈ G then (k / n) * (n.factorial : ℝ) else 0 := by
    intro i
    split_ifs
    · exact hone i
    · simp
  rw [Finset.sum_congr rfl (fun i _ => this i), ← Finset.sum_filter, Finset.sum_const, hcard, nsmul_eq_mul]
  ring

theorem sum_list_comm {A : Type} (s : Finset A) (us : List Nat) (f : A → Nat → ℝ) :
    ∑ a ∈ s, (us.map (f a)).sum = (us.map (fun u => ∑ a ∈ s, f a u)).sum := by
  induction us with
  | nil => simp
  | cons u us ih => simp only [List.map_cons, List.sum_cons, Finset.sum_add_distrib, ih]

theorem valid_sum {M : Type} [AddCommMonoid M] (us : List Nat) (gt : Nat → List Nat) (f : Nat → M) :
    (us.map (fun u => if (gt u).toFinset.Nonempty then f u else 0)).sum =
      ((us.filter (fun u => decide (gt u ≠ []))).map f).sum := by
  induction us with
  | nil => rfl
  | cons u us ih =>
    rw [List.map_cons, List.sum_cons, ih]
    by_cases h : gt u = []
    · rw [List.filter_cons_of_neg (by simpa using h)]
      simp [h]
    · rw [List.filter_cons_of_pos (by simpa using h), List.map_cons, List.sum_cons,
        if_pos ((List.toFinset_nonempty_iff _).mpr h)]

/-- the expected sum of a metric -/
theorem expected_metric (φ : List Nat → Finset Nat → ℝ) (τ : Nat → Equiv.Perm (Fin n)) (v : Nat → ℝ)
    (m : Equiv.Perm (Fin n) → ℝ)
    (hm : ∀ σ, m σ = meanOver us.length (fun j => ((us[j]?).map (relevant gt (fun _ _ => True))).getD ∅)
      (fun j => φ (((us[j]?).map (listFor (fun u => placeScore (σ * τ u)) (fun _ _ => True) (fun _ _ => False) n k)).getD [])
        (((us[j]?).map (relevant gt (fun _ _ => True))).getD ∅)))
    (hv : ∀ u ∈ us, (gt u).toFinset.Nonempty → ∑ σ : Equiv.Perm (Fin n),
      φ (listFor (fun u => placeScore (σ * τ u)) (fun _ _ => True) (fun _ _ => False) n k u) (gt u).toFinset =
        v u * n.factorial) :
    ((us.map (fun u => if (gt u).toFinset.Nonempty then 1 else 0)).sum : ℕ) * expected m =
      (us.map (fun u => if (gt u).toFinset.Nonempty then v u else 0)).sum := by
  have h1 := fun σ : Equiv.Perm (Fin n) => mean_times us (relevant gt (fun _ _ => True))
    (listFor (fun u => placeScore (σ * τ u)) (fun _ _ => True) (fun _ _ => False) n k) φ
  simp only [← hm, card_valid, all_relevant] at h1
  have hf : (n.factorial : ℝ) ≠ 0 := by exact_mod_cast n.factorial_ne_zero
  unfold expected
  rw [← mul_div_assoc, div_eq_iff hf, Finset.mul_sum, Finset.sum_congr rfl (fun σ _ => h1 σ), sum_list_comm]
  rw [← List.sum_map_mul_right]
  congr 1
  apply List.map_congr_left
  intro u hu
  split_ifs with hne
  · exact hv u hu hne
  · simp

variable {d : Equiv.Perm (Fin n) → MetricDict}

/-- C118.  All items may be recommended, and the items are ranked in a random order, for each user in a fixed rearrangement
`τ u` of it (the same order for all if `τ u = 1`).  The expected precision is then the mean, over the users with ground
truth, of the share of items that are relevant; the expected recall is the share of items that are listed. -/
theorem C118_chance (τ : Nat → Equiv.Perm (Fin n)) (hk0 : 0 < k) (hk : k ≤ n) (hgt : ∀ u ∈ us, ∀ i ∈ gt u, i < n)
    (hd : ∀ σ, ReportOn us gt (fun u => placeScore (σ * τ u)) (fun _ _ => True) (fun _ _ => False) n k false (d σ))
    (hne : ∃ u ∈ us, gt u ≠ []) :
    expected (fun σ => (d σ).precision) =
      ((us.filter (fun u => decide (gt u ≠ []))).map (fun u => ((gt u).toFinset.card : ℝ) / n)).sum /
        (us.filter (fun u => decide (gt u ≠ []))).length ∧
    expected (fun σ => (d σ).recall) = (k : ℝ) / n := by
  have hr := fun σ => reportOn_isReport (hd σ)
  have hn : 0 < n := by omega
  have hk0' : (k : ℝ) ≠ 0 := by exact_mod_cast hk0.ne'
  have hfil : ∀ f : Nat → ℝ, (us.map (fun u => if (gt u).toFinset.Nonempty then f u else 0)).sum =
      ((us.filter (fun u => decide (gt u ≠ []))).map f).sum := by
    exact fun f => valid_sum us gt f
  have hcount : (((us.map (fun u => if (gt u).toFinset.Nonempty then 1 else 0)).sum : ℕ) : ℝ) =
      (us.filter (fun u => decide (gt u ≠ []))).length := by
    rw [valid_sum us gt (fun _ => (1 : ℕ)), List.map_const', List.sum_replicate]
    simp
  have hpos : ((us.filter (fun u => decide (gt u ≠ []))).length : ℝ) ≠ 0 := by
    obtain ⟨u, hu, h⟩ := hne
    have : u ∈ us.filter (fun u => decide (gt u ≠ [])) := List.mem_filter.mpr ⟨hu, by simpa using h⟩
    exact_mod_cast (List.length_pos_of_mem this).ne'
  constructor
  · have := expected_metric (us := us) (gt := gt) (k := k) Spec.precision τ (fun u => ((gt u).toFinset.card : ℝ) / n)
      (fun σ => (d σ).precision) (fun σ => (hr σ).precision) ?_
    · rw [hcount, hfil] at this
      rw [eq_div_iff hpos, mul_comm]
      exact this
    · intro u hu _
      have hh := fun σ : Equiv.Perm (Fin n) => random_hits hk (fun u => placeScore (σ * τ u)) u (σ * τ u) rfl (gt u).toFinset
      have hp : ∀ σ : Equiv.Perm (Fin n),
          Spec.precision (listFor (fun u => placeScore (σ * τ u)) (fun _ _ => True) (fun _ _ => False) n k u) (gt u).toFinset =
          (((Finset.univ.filter (fun i : Fin n => i.1 ∈ (gt u).toFinset)).filter (fun i => ((σ * τ u) i).1 < k)).card : ℝ) / k := by
        intro σ
        unfold Spec.precision
        rw [if_neg (by intro hc; have := (hh σ).2; rw [hc] at this; simp at this; omega), (hh σ).1, (hh σ).2]
      rw [Finset.sum_congr rfl (fun σ _ => hp σ), ← Finset.sum_div, sum_hits hk hn (τ u) _
        (fun i hi => hgt u hu i (by simpa using hi))]
      field_simp
  · have := expected_metric (us := us) (gt := gt) (k := k) (Spec.recall false) τ (fun _ => (k : ℝ) / n)
      (fun σ => (d σ).recall) (fun σ => (hr σ).recall) ?_
    · rw [hcount, hfil] at this
      rw [List.map_const', List.sum_replicate, nsmul_eq_mul] at this
      exact mul_left_cancel₀ hpos this
    · intro u hu hG
      have hh := fun σ : Equiv.Perm (Fin n) => random_hits hk (fun u => placeScore (σ * τ u)) u (σ * τ u) rfl (gt u).toFinset
      have hc : ((gt u).toFinset.card : ℝ) ≠ 0 := by exact_mod_cast (Finset.card_pos.mpr hG).ne'
      have hp : ∀ σ : Equiv.Perm (Fin n),
          Spec.recall false (listFor (fun u => placeScore (σ * τ u)) (fun _ _ => True) (fun _ _ => False) n k u)
            (gt u).toFinset =
          (((Finset.univ.filter (fun i : Fin n => i.1 ∈ (gt u).toFinset)).filter (fun i => ((σ * τ u) i).1 < k)).card : ℝ) /
            (gt u).toFinset.card := by
        intro σ
        unfold Spec.recall
        rw [if_neg (by intro hc; have := (hh σ).2; rw [hc] at this; simp at this; omega), (hh σ).1]
        simp
      rw [Finset.sum_congr rfl (fun σ _ => hp σ), ← Finset.sum_div, sum_hits hk hn (τ u) _
        (fun i hi => hgt u hu i (by simpa using hi))]
      field_simp

theorem sum_hit (hk : k ≤ n) (τ : Equiv.Perm (Fin n)) (G : Finset Nat) (hG : ∀ i ∈ G, i < n) :
    ∑ σ : Equiv.Perm (Fin n), (if
      ((Finset.univ.filter (fun i : Fin n => i.1 ∈ G)).filter (fun i => ((σ * τ) i).1 < k)).card > 0 then (1 : ℝ) else 0) =
        (1 - ((n - G.card).choose k : ℝ) / n.choose k) * n.factorial := by
  have hcard : (Finset.univ.filter (fun i : Fin n => i.1 ∈ G)).card = G.card := by
    rw [← Finset.card_map Fin.valEmbedding]
    congr 1
    ext x
    simp only [Finset.mem_map, Finset.mem_filter, Finset.mem_univ, true_and]
    constructor
    · rintro ⟨i, hi, rfl⟩; exact hi
    · intro hx; exact ⟨⟨x, hG x hx⟩, hx, rfl⟩
  have hm := miss_card hk τ (Finset.univ.filter (fun i : Fin n => i.1 ∈ G))
  rw [hcard] at hm
  have hch : (n.choose k : ℝ) ≠ 0 := by exact_mod_cast (Nat.choose_pos hk).ne'
  have hm' : ((Finset.univ.filter (fun σ : Equiv.Perm (Fin n) =>
      ∀ i ∈ Finset.univ.filter (fun i : Fin n => i.1 ∈ G), ¬ ((σ * τ) i).1 < k)).card : ℝ) * n.choose k =
      ((n - G.card).choose k : ℝ) * n.factorial := by exact_mod_cast hm
  have hsplit : ∀ σ : Equiv.Perm (Fin n), (if
      ((Finset.univ.filter (fun i : Fin n => i.1 ∈ G)).filter (fun i => ((σ * τ) i).1 < k)).card > 0 then (1 : ℝ) else 0) =
      1 - if (∀ i ∈ Finset.univ.filter (fun i : Fin n => i.1 ∈ G), ¬ ((σ * τ) i).1 < k) then 1 else 0 := by
    intro σ
    by_cases h : ∀ i ∈ Finset.univ.filter (fun i : Fin n => i.1 ∈ G), ¬ ((σ * τ) i).1 < k
    · rw [if_pos h, if_neg, sub_self]
      rw [Finset.filter_eq_empty_iff.mpr (fun {i} hi => h i hi)]
      simp
    · rw [if_neg h, if_pos, sub_zero]
      push Not at h
      obtain ⟨i, hi, hlt⟩ := h
      exact Finset.card_pos.mpr ⟨i, Finset.mem_filter.mpr ⟨hi, hlt⟩⟩
  rw [Finset.sum_congr rfl (fun σ _ => hsplit σ), Finset.sum_sub_distrib, Finset.sum_boole, Finset.sum_const,
    Finset.card_univ, Fintype.card_perm, Fintype.card_fin, nsmul_eq_mul, mul_one, sub_mul, one_mul]
  congr 1
  field_simp
  exact hm'

/-- C118.  The expected hit rate of a random ranking is the mean, over the users with ground truth, of the chance that `k`
of `n` items drawn without replacement include one of the ground truth. -/
theorem C118_chance_hit (τ : Nat → Equiv.Perm (Fin n)) (hk : k ≤ n) (hgt : ∀ u ∈ us, ∀ i ∈ gt u, i < n)
    {capped : Bool}
    (hd : ∀ σ, ReportOn us gt (fun u => placeScore (σ * τ u)) (fun _ _ => True) (fun _ _ => False) n k capped (d σ))
    (hne : ∃ u ∈ us, gt u ≠ []) :
    expected (fun σ => (d σ).hit) =
      ((us.filter (fun u => decide (gt u ≠ []))).map
        (fun u => 1 - ((n - (gt u).toFinset.card).choose k : ℝ) / n.choose k)).sum /
        (us.filter (fun u => decide (gt u ≠ []))).length := by
  have hr := fun σ => reportOn_isReport (hd σ)
  have hcount : (((us.map (fun u => if (gt u).toFinset.Nonempty then 1 else 0)).sum : ℕ) : ℝ) =
      (us.filter (fun u => decide (gt u ≠ []))).length := by
    rw [valid_sum us gt (fun _ => (1 : ℕ)), List.map_const', List.sum_replicate]
    simp
  have hpos : ((us.filter (fun u => decide (gt u ≠ []))).length : ℝ) ≠ 0 := by
    obtain ⟨u, hu, h⟩ := hne
    have : u ∈ us.filter (fun u => decide (gt u ≠ [])) := List.mem_filter.mpr ⟨hu, by simpa using h⟩
    exact_mod_cast (List.length_pos_of_mem this).ne'
  have := expected_metric (us := us) (gt := gt) (k := k) Spec.hit τ
    (fun u => 1 - ((n - (gt u).toFinset.card).choose k : ℝ) / n.choose k) (fun σ => (d σ).hit) (fun σ => (hr σ).hit) ?_
  · rw [hcount, valid_sum] at this
    rw [eq_div_iff hpos, mul_comm]
    exact this
  · intro u hu _
    have hh := fun σ : Equiv.Perm (Fin n) => random_hits hk (fun u => placeScore (σ * τ u)) u (σ * τ u) rfl (gt u).toFinset
    have hp : ∀ σ : Equiv.Perm (Fin n),
        Spec.hit (listFor (fun u => placeScore (σ * τ u)) (fun _ _ => True) (fun _ _ => False) n k u) (gt u).toFinset =
        if ((Finset.univ.filter (fun i : Fin n => i.1 ∈ (gt u).toFinset)).filter (fun i => ((σ * τ u) i).1 < k)).card > 0
          then (1 : ℝ) else 0 := by
      intro σ
      rw [hit_eq, (hh σ).1]
    rw [Finset.sum_congr rfl (fun σ _ => hp σ), sum_hit hk (τ u) _ (fun i hi => hgt u hu i (by simpa using hi))]

/-- Two users with the ground truths 0 and 0, 1 among three items, lists of two: the expected precision is 1/2, the
expected recall 2/3 and the expected hit rate 5/6. -/
example : ∃ d : Equiv.Perm (Fin 3) → MetricDict,
    (∀ σ, ReportOn [0, 1] (fun u => if u = 0 then [0] else [0, 1]) (fun _ => placeScore (σ * 1)) (fun _ _ => True)
      (fun _ _ => False) 3 2 false (d σ)) ∧
    expected (fun σ => (d σ).precision) = 1 / 2 ∧ expected (fun σ => (d σ).recall) = 2 / 3 ∧
    expected (fun σ => (d σ).hit) = 5 / 6 := by
  have h := fun σ : Equiv.Perm (Fin 3) => reportOn_exists [0, 1] (fun u => if u = 0 then [0] else [0, 1])
    (fun _ => placeScore (σ * 1)) 3 2 false (by decide) (by decide)
  choose d hd using h
  have := C118_chance (fun _ => 1) (by decide) (by decide) (by simp) hd ⟨0, by simp, by simp⟩
  have hhit := C118_chance_hit (fun _ => 1) (by decide) (by simp) hd ⟨0, by simp, by simp⟩
  refine ⟨d, hd, this.1.trans ?_, this.2.trans (by norm_num), hhit.trans ?_⟩
  · simp
    norm_num
  · simp
    norm_num [Nat.choose]

end Irspack.Props
