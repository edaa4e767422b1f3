import Verif.Props.Chance

/-!
# C118: the NDCG of a random ranking
-/

namespace Irspack.Props
open Irspack Spec Evaluation Sampled

variable {us : List Nat} {gt : Nat → List Nat} {n k : Nat}

/-- the relevant items among the first places -/
theorem random_prefix (hk : k ≤ n) (score : Nat → ScoreRow (WithBot Nat)) (u : Nat) (place : Equiv.Perm (Fin n))
    (hs : score u = placeScore place) (G : Finset Nat) (j : Nat) (hj : j ≤ k) :
    hitsAt (listFor score (fun _ _ => True) (fun _ _ => False) n k u) G j =
      ((Finset.univ.filter (fun i : Fin n => i.1 ∈ G)).filter (fun i => (place i).1 < j)).card := by
  obtain ⟨C, hC, hL⟩ := listFor_isTopK score (fun _ _ => True) (fun _ _ => False) n k u
  have hCr : C = Finset.range n := by
    ext i
    rw [hC, hs, placeScore_ne, Finset.mem_range]
    simp
  subst hCr
  rw [hs] at hL
  have hlen : (listFor score (fun _ _ => True) (fun _ _ => False) n k u).length = k := by
    rw [hL.length, Finset.card_range]; omega
  have hT := topK_take hL hj
  have h1 := hits_card _ (pairwise_before_nodup hT.sorted) G
  rw [hitsAt_take, hlen, Nat.min_eq_left hj] at h1
  rw [h1, topK_places place hT (hj.trans hk) (placeScore_lt place), ← Finset.card_map Fin.valEmbedding]
  congr 1
  ext x
  simp only [Finset.mem_inter, Finset.mem_map, Finset.mem_filter, Finset.mem_univ, true_and]
  constructor
  · rintro ⟨⟨i, hi, rfl⟩, hG⟩
    exact ⟨i, ⟨hG, hi⟩, rfl⟩
  · rintro ⟨i, ⟨hG, hi⟩, rfl⟩
    exact ⟨⟨i, hi, rfl⟩, hG⟩

/-- C118.  The expected NDCG of a random ranking: every place of the list is relevant with the chance that an item is. -/
theorem C118_chance_ndcg {d : Equiv.Perm (Fin n) → MetricDict} (τ : Nat → Equiv.Perm (Fin n)) (hk0 : 0 < k) (hk : k ≤ n)
    (hgt : ∀ u ∈ us, ∀ i ∈ gt u, i < n) {capped : Bool}
    (hd : ∀ σ, ReportOn us gt (fun u => placeScore (σ * τ u)) (fun _ _ => True) (fun _ _ => False) n k capped (d σ))
    (hne : ∃ u ∈ us, gt u ≠ []) :
    expected (fun σ => (d σ).ndcg) =
      ((us.filter (fun u => decide (gt u ≠ []))).map (fun u => ((gt u).toFinset.card : ℝ) / n *
        (idealDcg k / idealDcg (min (gt u).toFinset.card k)))).sum /
        (us.filter (fun u => decide (gt u ≠ []))).length := by
  have hr := fun σ => reportOn_isReport (hd σ)
  have hn : 0 < n := by omega
  have hcount : (((us.map (fun u => if (gt u).toFinset.Nonempty then 1 else 0)).sum : ℕ) : ℝ) =
      (us.filter (fun u => decide (gt u ≠ []))).length := by
    rw [valid_sum us gt (fun _ => (1 : ℕ)), List.map_const', List.sum_replicate]
    simp
  have hpos : ((us.filter (fun u => decide (gt u ≠ []))).length : ℝ) ≠ 0 := by
    obtain ⟨u, hu, h⟩ := hne
    have : u ∈ us.filter (fun u => decide (gt u ≠ [])) := List.mem_filter.mpr ⟨hu, by simpa using h⟩
    exact_mod_cast (List.length_pos_of_mem this).ne'
  have := expected_metric (us := us) (gt := gt) (k := k) Spec.ndcg τ
    (fun u => ((gt u).toFinset.card : ℝ) / n * (idealDcg k / idealDcg (min (gt u).toFinset.card k)))
    (fun σ => (d σ).ndcg) (fun σ => (hr σ).ndcg) ?_
  · rw [hcount, valid_sum] at this
    rw [eq_div_iff hpos, mul_comm]
    exact this
  · intro u hu _
    have hG : ∀ i ∈ (gt u).toFinset, i < n := fun i hi => hgt u hu i (by simpa using hi)
    have hlen := fun σ : Equiv.Perm (Fin n) =>
      (random_hits hk (fun u => placeScore (σ * τ u)) u (σ * τ u) rfl (gt u).toFinset).2
    have hpre := fun (σ : Equiv.Perm (Fin n)) (j : Nat) (hj : j ≤ k) =>
      random_prefix hk (fun u => placeScore (σ * τ u)) u (σ * τ u) rfl (gt u).toFinset j hj
    have hp : ∀ σ : Equiv.Perm (Fin n),
        Spec.ndcg (listFor (fun u => placeScore (σ * τ u)) (fun _ _ => True) (fun _ _ => False) n k u) (gt u).toFinset =
        (∑ j ∈ Finset.range k, (
          (((Finset.univ.filter (fun i : Fin n => i.1 ∈ (gt u).toFinset)).filter
            (fun i => ((σ * τ u) i).1 < j + 1)).card : ℝ) -
          ((Finset.univ.filter (fun i : Fin n => i.1 ∈ (gt u).toFinset)).filter
            (fun i => ((σ * τ u) i).1 < j)).card) * disc j) / idealDcg (min (gt u).toFinset.card k) := by
      intro σ
      unfold Spec.ndcg
      rw [if_neg (by intro hc; have := hlen σ; rw [hc] at this; simp at this; omega), dcg_steps, hlen σ]
      congr 1
      refine Finset.sum_congr rfl (fun j hj => ?_)
      rw [Finset.mem_range] at hj
      rw [hpre σ (j + 1) hj, hpre σ j hj.le]
    rw [Finset.sum_congr rfl (fun σ _ => hp σ), ← Finset.sum_div, Finset.sum_comm]
    have hn' : (n : ℝ) ≠ 0 := by exact_mod_cast hn.ne'
    have hin : ∀ j ∈ Finset.range k, ∑ σ : Equiv.Perm (Fin n), (
          (((Finset.univ.filter (fun i : Fin n => i.1 ∈ (gt u).toFinset)).filter
            (fun i => ((σ * τ u) i).1 < j + 1)).card : ℝ) -
          ((Finset.univ.filter (fun i : Fin n => i.1 ∈ (gt u).toFinset)).filter
            (fun i => ((σ * τ u) i).1 < j)).card) * disc j =
        (gt u).toFinset.card / n * n.factorial * disc j := by
      intro j hj
      rw [Finset.mem_range] at hj
      rw [← Finset.sum_mul, Finset.sum_sub_distrib, sum_hits (by omega : j + 1 ≤ n) hn (τ u) _ hG,
        sum_hits (by omega : j ≤ n) hn (τ u) _ hG]
      push_cast
      ring
    rw [Finset.sum_congr rfl hin, ← Finset.mul_sum]
    have : ∑ j ∈ Finset.range k, disc j = idealDcg k := by
      unfold idealDcg
      exact Finset.sum_congr rfl (fun j _ => by simp [disc])
    rw [this]
    ring

/-- Two users with one relevant item each among three, lists of one item: the expected NDCG is 1/3. -/
example : ∃ d : Equiv.Perm (Fin 3) → MetricDict,
    (∀ σ, ReportOn [0, 1] (fun u => if u = 0 then [0] else [1]) (fun _ => placeScore (σ * 1)) (fun _ _ => True)
      (fun _ _ => False) 3 1 false (d σ)) ∧
    expected (fun σ => (d σ).ndcg) = 1 / 3 := by
  have h := fun σ : Equiv.Perm (Fin 3) => reportOn_exists [0, 1] (fun u => if u = 0 then [0] else [1])
    (fun _ => placeScore (σ * 1)) 3 1 false (by decide) (by decide)
  choose d hd using h
  have := C118_chance_ndcg (fun _ => 1) (by decide) (by decide) (by simp) hd ⟨0, by simp, by simp⟩
  refine ⟨d, hd, this.trans ?_⟩
  have h1 : idealDcg 1 ≠ 0 := by simp [idealDcg]
  simp [div_self h1]

end Irspack.Props
