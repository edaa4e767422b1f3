import Verif.Proofs.Cutoff

/-!
# Rankings among fewer candidates
-/

namespace Irspack.Sampled
open Irspack Spec Evaluation

open Classical in
/-- a sum over the relevant positions, by recursion -/
noncomputable def sumRel (G : Finset Nat) : (Nat → ℝ) → List Nat → ℝ
  | _, [] => 0
  | f, x :: xs => (if x ∈ G then f 0 else 0) + sumRel G (fun j => f (j + 1)) xs

theorem relevant_zero (x : Nat) (xs : List Nat) (G : Finset Nat) : Relevant (x :: xs) G 0 ↔ x ∈ G := by
  simp [Relevant]

theorem relevant_succ (x : Nat) (xs : List Nat) (G : Finset Nat) (j : Nat) :
    Relevant (x :: xs) G (j + 1) ↔ Relevant xs G j := by
  simp [Relevant]

open Classical in
theorem sum_eq (G : Finset Nat) (f : Nat → ℝ) (L : List Nat) :
    ∑ j ∈ (Finset.range L.length).filter (Relevant L G), f j = sumRel G f L := by
  rw [Finset.sum_filter]
  induction L generalizing f with
  | nil => simp [sumRel]
  | cons x xs ih =>
    rw [List.length_cons, Finset.sum_range_succ', sumRel, ← ih]
    simp only [relevant_zero, relevant_succ]
    rw [add_comm]

theorem hitsAt_cons (x : Nat) (xs : List Nat) (G : Finset Nat) (k : Nat) :
    hitsAt (x :: xs) G (k + 1) = (if x ∈ G then 1 else 0) + hitsAt xs G k := by
  classical
  have := hitsAt_append_right [x] xs G k
  rw [show [x] ++ xs = x :: xs from rfl, show [x].length + k = k + 1 by simp [Nat.add_comm]] at this
  rw [this]
  congr 1
  show hitsAt [x] G (0 + 1) = _
  rw [hitsAt_succ, hitsAt_zero, relevant_zero]
  simp

variable {G : Finset Nat} {p : Nat → Bool}

/-- discounts: leaving out items that are not relevant moves the relevant ones up -/
theorem sumRel_filter (hp : ∀ x ∈ G, p x = true) (L : List Nat) (f g : Nat → ℝ) (hfg : ∀ j, f j ≤ g j)
    (hf : ∀ j, f (j + 1) ≤ f j) : sumRel G f L ≤ sumRel G g (L.filter p) := by
  classical
  induction L generalizing f g with
  | nil => exact le_rfl
  | cons x xs ih =>
    by_cases h : p x = true
    · rw [List.filter_cons_of_pos h, sumRel, sumRel]
      have := ih (fun j => f (j + 1)) (fun j => g (j + 1)) (fun j => hfg _) (fun j => hf _)
      have h0 := hfg 0
      split_ifs <;> linarith
    · have hx : x ∉ G := fun hc => h (hp x hc)
      rw [List.filter_cons_of_neg h, sumRel, if_neg hx, zero_add]
      exact ih _ _ (fun j => (hf j).trans (hfg j)) (fun j => hf _)

theorem hits_filter (hp : ∀ x ∈ G, p x = true) (L : List Nat) :
    hitsAt (L.filter p) G (L.filter p).length = hitsAt L G L.length := by
  induction L with
  | nil => rfl
  | cons x xs ih =>
    by_cases h : p x = true
    · rw [List.filter_cons_of_pos h, List.length_cons, List.length_cons, hitsAt_cons, hitsAt_cons, ih]
    · have hx : x ∉ G := fun hc => h (hp x hc)
      rw [List.filter_cons_of_neg h, List.length_cons, hitsAt_cons, if_neg hx, zero_add, ih]

theorem sumRel_congr (L : List Nat) (f g : Nat → ℝ) (h : ∀ j, f j = g j) : sumRel G f L = sumRel G g L := by
  rw [show f = g from funext h]

theorem ap_filter (hp : ∀ x ∈ G, p x = true) (L : List Nat) (h o o' : Nat) (ho : o' ≤ o) :
    sumRel G (fun j => ((h : ℝ) + hitsAt L G (j + 1)) / (((o + j : ℕ) : ℝ) + 1)) L ≤
      sumRel G (fun j => ((h : ℝ) + hitsAt (L.filter p) G (j + 1)) / (((o' + j : ℕ) : ℝ) + 1)) (L.filter p) := by
  classical
  induction L generalizing h o o' with
  | nil => exact le_rfl
  | cons x xs ih =>
    have hshift : ∀ (xs : List Nat) (o : Nat), sumRel G (fun j => ((h : ℝ) + hitsAt (x :: xs) G (j + 1 + 1)) /
        (((o + (j + 1) : ℕ) : ℝ) + 1)) xs = sumRel G (fun j => (((h + if x ∈ G then 1 else 0 : ℕ) : ℝ) +
          hitsAt xs G (j + 1)) / (((o + 1 + j : ℕ) : ℝ) + 1)) xs := by
      intro xs o
      apply sumRel_congr
      intro j
      rw [hitsAt_cons, show o + (j + 1) = o + 1 + j by omega]
      push_cast
      ring
    by_cases hx : p x = true
    · rw [List.filter_cons_of_pos hx, sumRel, sumRel, hshift, hshift]
      refine add_le_add ?_ (ih _ _ _ (by omega))
      split_ifs with hg
      · rw [hitsAt_cons, hitsAt_cons, hitsAt_zero, hitsAt_zero]
        refine div_le_div_of_nonneg_left (by positivity) (by positivity) ?_
        have : (o' : ℝ) ≤ o := by exact_mod_cast ho
        simpa using this
      · exact le_rfl
    · have hg : x ∉ G := fun hc => hx (hp x hc)
      rw [List.filter_cons_of_neg hx, sumRel, if_neg hg, zero_add, hshift]
      simp only [if_neg hg, add_zero]
      exact ih _ _ _ (by omega)

theorem dcg_filter (hp : ∀ x ∈ G, p x = true) (L : List Nat) : dcg L G ≤ dcg (L.filter p) G := by
  classical
  unfold dcg
  rw [sum_eq, sum_eq]
  refine sumRel_filter hp L _ _ (fun _ => le_rfl) (fun j => ?_)
  exact disc_strictAnti.antitone (Nat.le_succ j)

theorem averagePrecision_filter (hp : ∀ x ∈ G, p x = true) (L : List Nat) :
    averagePrecision L G ≤ averagePrecision (L.filter p) G := by
  classical
  unfold averagePrecision
  rw [sum_eq, sum_eq]
  refine div_le_div_of_nonneg_right ?_ (Nat.cast_nonneg _)
  have := ap_filter hp L 0 0 0 le_rfl
  simpa using this

theorem topK_take {S : Type} [LinearOrder S] {C : Finset Nat} {s : Nat → S} {k n : Nat} {L : List Nat}
    (h : IsTopK C s k L) (hn : n ≤ k) : IsTopK C s n (L.take n) := by
  refine ⟨fun i hi => h.mem i (List.mem_of_mem_take hi), ?_, h.sorted.sublist (List.take_sublist _ _), ?_⟩
  · rw [List.length_take, h.length]; omega
  · intro i hi j hj hjn
    by_cases hjl : j ∈ L
    · have hs := h.sorted
      rw [← List.take_append_drop n L, List.pairwise_append] at hs
      refine hs.2.2 i hi j ?_
      rw [← List.take_append_drop n L, List.mem_append] at hjl
      exact hjl.resolve_left hjn
    · exact h.best i (List.mem_of_mem_take hi) j hj hjl

/-- the best among fewer candidates: those of the old list that are still candidates, then others -/
theorem topK_filter {S : Type} [LinearOrder S] {C C' : Finset Nat} {s : Nat → S} {k : Nat} {L L' : List Nat}
    (h : IsTopK C s k L) (h' : IsTopK C' s k L') (hsub : C' ⊆ C) (hp : ∀ x ∈ L, p x = true ↔ x ∈ C') :
    L.filter p = L'.take (L.filter p).length ∧ L'.length ≤ L.length := by
  have hmem : ∀ i ∈ L.filter p, i ∈ C' := by
    intro i hi
    rw [List.mem_filter] at hi
    exact (hp i hi.1).mp hi.2
  have hnd : (L.filter p).Nodup := (pairwise_before_nodup h.sorted).filter _
  have hle : (L.filter p).length ≤ C'.card := by
    rw [← List.toFinset_card_of_nodup hnd]
    exact Finset.card_le_card (fun i hi => hmem i (by simpa using hi))
  have hk : (L.filter p).length ≤ k := by
    have := List.length_filter_le p L
    have := h.length
    omega
  have h1 : IsTopK C' s (L.filter p).length (L.filter p) := by
    refine ⟨hmem, by omega, h.sorted.filter _, ?_⟩
    intro i hi j hj hjn
    refine h.best i (List.mem_of_mem_filter hi) j (hsub hj) ?_
    intro hc
    exact hjn (List.mem_filter.mpr ⟨hc, (hp j hc).mpr hj⟩)
  refine ⟨isTopK_unique h1 (topK_take h' hk) (fun _ _ _ _ => Iff.rfl), ?_⟩
  have := Finset.card_le_card hsub
  rw [h.length, h'.length]
  omega

/-- `L'` has the relevant items of `L` no later, perhaps more of them, and is no longer. -/
structure NoWorse (G : Finset Nat) (L L' : List Nat) : Prop where
  hits : hitsAt L G L.length ≤ hitsAt L' G L'.length
  dcg : Spec.dcg L G ≤ Spec.dcg L' G
  ap : averagePrecision L G ≤ averagePrecision L' G
  length : L'.length ≤ L.length

theorem noWorse {S : Type} [LinearOrder S] {C C' : Finset Nat} {s : Nat → S} {k : Nat} {L L' : List Nat}
    (h : IsTopK C s k L) (h' : IsTopK C' s k L') (hsub : C' ⊆ C) (hG : ∀ x ∈ G, x ∈ C → x ∈ C') : NoWorse G L L' := by
  classical
  obtain ⟨h1, h2⟩ := topK_filter (p := fun x => decide (x ∈ C' ∨ x ∈ G)) h h' hsub (by
    intro x hx
    simp only [decide_eq_true_eq]
    exact ⟨fun hc => hc.elim id (fun hg => hG x hg (h.mem x hx)), Or.inl⟩)
  have hp : ∀ x ∈ G, (fun x => decide (x ∈ C' ∨ x ∈ G)) x = true := fun x hx => by simp [hx]
  refine ⟨?_, ?_, ?_, h2⟩
  · rw [← hits_filter hp L, h1]
    exact hitsAt_take_le _ _ _
  · refine (dcg_filter hp L).trans ?_
    rw [h1]
    exact dcg_take_le _ _ _
  · refine (averagePrecision_filter hp L).trans ?_
    rw [h1]
    exact averagePrecision_take_le _ _ _

variable {L L' : List Nat}

theorem hits_nil (G : Finset Nat) : hitsAt ([] : List Nat) G ([] : List Nat).length = 0 := hitsAt_zero _ _

theorem NoWorse.hit (h : NoWorse G L L') : Spec.hit L G ≤ Spec.hit L' G := by
  have := h.hits
  rw [hit_eq, hit_eq]
  split_ifs <;> first | omega | norm_num

theorem NoWorse.precision (h : NoWorse G L L') : Spec.precision L G ≤ Spec.precision L' G := by
  unfold Spec.precision
  have h1 := h.hits
  have h2 := h.length
  by_cases hL' : L' = []
  · subst hL'
    rw [hits_nil] at h1
    rw [Nat.le_zero.mp h1]
    simp
  · have hp : 0 < L'.length := List.length_pos_iff.mpr hL'
    rw [if_neg hL', if_neg (by rintro rfl; exact hL' (by simpa using h2))]
    exact div_le_div₀ (by positivity) (by exact_mod_cast h1) (by exact_mod_cast hp) (by exact_mod_cast h2)

theorem NoWorse.recall (h : NoWorse G L L') (hG : G.Nonempty) (capped : Bool) :
    Spec.recall capped L G ≤ Spec.recall capped L' G := by
  unfold Spec.recall
  have h1 := h.hits
  have h2 := h.length
  have hc := Finset.card_pos.mpr hG
  by_cases hL' : L' = []
  · subst hL'
    rw [hits_nil] at h1
    rw [Nat.le_zero.mp h1]
    simp
  · have hp : 0 < L'.length := List.length_pos_iff.mpr hL'
    rw [if_neg hL', if_neg (by rintro rfl; exact hL' (by simpa using h2))]
    refine div_le_div₀ (by positivity) (by exact_mod_cast h1) ?_ ?_
    · cases capped
      · simpa using hc
      · simp only [if_true]; exact_mod_cast (by omega : 0 < min G.card L'.length)
    · cases capped
      · simp
      · simp only [if_true]; exact_mod_cast (by omega : min G.card L'.length ≤ min G.card L.length)

theorem NoWorse.ndcg (h : NoWorse G L L') (hG : G.Nonempty) : Spec.ndcg L G ≤ Spec.ndcg L' G := by
  unfold Spec.ndcg
  have h1 := h.hits
  have h2 := h.length
  have h3 := h.dcg
  have hc := Finset.card_pos.mpr hG
  by_cases hL' : L' = []
  · subst hL'
    rw [hits_nil] at h1
    rw [dcg_eq_zero L G (Nat.le_zero.mp h1)]
    simp
  · have hp : 0 < L'.length := List.length_pos_iff.mpr hL'
    rw [if_neg hL', if_neg (by rintro rfl; exact hL' (by simpa using h2))]
    refine div_le_div₀ ?_ h3 (idealDcg_pos (by omega)) (idealDcg_mono (by omega))
    refine le_trans ?_ h3
    unfold Spec.dcg
    exact Finset.sum_nonneg (fun j _ => (disc_pos j).le)

end Irspack.Sampled
