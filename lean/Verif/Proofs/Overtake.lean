import Verif.Proofs.Sampled

/-!
# Rankings in which relevant items do not fall behind
-/

namespace Irspack.Sampled
open Irspack Spec Evaluation

/-- weighted steps of a sequence that stays above another one -/
theorem steps_ge (c w : Nat → ℝ) (h0 : c 0 = 0) (hw : ∀ j, w (j + 1) ≤ w j) (n : Nat)
    (hc : ∀ j ≤ n, 0 ≤ c j) : c n * w n ≤ ∑ j ∈ Finset.range n, (c (j + 1) - c j) * w j := by
  induction n with
  | zero => simp [h0]
  | succ n ih =>
    rw [Finset.sum_range_succ]
    have h1 := ih (fun j hj => hc j (by omega))
    have h2 := hc (n + 1) le_rfl
    have h3 := mul_le_mul_of_nonneg_left (hw n) h2
    linarith

theorem steps_mono (a b w : Nat → ℝ) (h0 : a 0 = b 0) (hw : ∀ j, w (j + 1) ≤ w j) (hw0 : ∀ j, 0 ≤ w j) (n : Nat)
    (hab : ∀ j ≤ n, a j ≤ b j) :
    ∑ j ∈ Finset.range n, (a (j + 1) - a j) * w j ≤ ∑ j ∈ Finset.range n, (b (j + 1) - b j) * w j := by
  have h := steps_ge (fun j => b j - a j) w (by simp [h0]) hw n (fun j hj => by linarith [hab j hj])
  have h2 : 0 ≤ (b n - a n) * w n := mul_nonneg (by linarith [hab n le_rfl]) (hw0 n)
  have h3 : ∑ j ∈ Finset.range n, ((b (j + 1) - a (j + 1)) - (b j - a j)) * w j =
      ∑ j ∈ Finset.range n, (b (j + 1) - b j) * w j - ∑ j ∈ Finset.range n, (a (j + 1) - a j) * w j := by
    rw [← Finset.sum_sub_distrib]
    exact Finset.sum_congr rfl (fun j _ => by ring)
  rw [h3] at h
  linarith

theorem dcg_steps (L : List Nat) (G : Finset Nat) :
    dcg L G = ∑ j ∈ Finset.range L.length, ((hitsAt L G (j + 1) : ℝ) - hitsAt L G j) * disc j := by
  classical
  unfold dcg
  rw [Finset.sum_filter]
  refine Finset.sum_congr rfl (fun j _ => ?_)
  rw [hitsAt_succ]
  split_ifs <;> simp [disc]

theorem ap_steps (L : List Nat) (G : Finset Nat) :
    averagePrecision L G = (∑ j ∈ Finset.range L.length, ((hitsAt L G (j + 1) : ℝ) * (hitsAt L G (j + 1) + 1) / 2 -
      (hitsAt L G j : ℝ) * (hitsAt L G j + 1) / 2) * (1 / ((j : ℝ) + 1))) / G.card := by
  classical
  unfold averagePrecision
  rw [Finset.sum_filter]
  congr 1
  refine Finset.sum_congr rfl (fun j _ => ?_)
  rw [hitsAt_succ]
  split_ifs <;> push_cast <;> ring

variable {G : Finset Nat} {L L' : List Nat}

/-- if every prefix holds at least as many relevant items -/
theorem noWorse_of_hits (hl : L'.length = L.length) (h : ∀ j ≤ L.length, hitsAt L G j ≤ hitsAt L' G j) :
    NoWorse G L L' := by
  refine ⟨by rw [hl]; exact h _ le_rfl, ?_, ?_, hl.le⟩
  · rw [dcg_steps, dcg_steps, hl]
    refine steps_mono (fun j => (hitsAt L G j : ℝ)) (fun j => (hitsAt L' G j : ℝ)) disc (by simp [hitsAt_zero])
      (fun j => disc_strictAnti.antitone (Nat.le_succ j)) (fun j => (disc_pos j).le) _ ?_
    intro j hj
    exact_mod_cast h j hj
  · rw [ap_steps, ap_steps, hl]
    refine div_le_div_of_nonneg_right ?_ (Nat.cast_nonneg _)
    refine steps_mono (fun j => (hitsAt L G j : ℝ) * (hitsAt L G j + 1) / 2)
      (fun j => (hitsAt L' G j : ℝ) * (hitsAt L' G j + 1) / 2) (fun j => 1 / ((j : ℝ) + 1)) (by simp [hitsAt_zero])
      (fun j => ?_) (fun j => by positivity) _ ?_
    · refine one_div_le_one_div_of_le (by positivity) ?_
      push_cast; linarith
    · intro j hj
      have : (hitsAt L G j : ℝ) ≤ hitsAt L' G j := by exact_mod_cast h j hj
      have h0 : (0 : ℝ) ≤ hitsAt L G j := Nat.cast_nonneg _
      nlinarith

theorem hits_card (l : List Nat) (hn : l.Nodup) (G : Finset Nat) :
    hitsAt l G l.length = (l.toFinset ∩ G).card := by
  induction l with
  | nil => rw [hits_nil]; simp
  | cons x xs ih =>
    rw [List.nodup_cons] at hn
    rw [List.length_cons, hitsAt_cons, ih hn.2, List.toFinset_cons]
    by_cases hx : x ∈ G
    · rw [if_pos hx, Finset.insert_inter_of_mem hx, Finset.card_insert_of_notMem (by simp [hn.1])]
      omega
    · rw [if_neg hx, Finset.insert_inter_of_notMem hx, zero_add]

/-- No candidate that is not relevant overtakes a relevant one: every top-k list holds at least as many relevant items. -/
theorem hits_overtake {S : Type} [LinearOrder S] {C : Finset Nat} {s s' : Nat → S} {k : Nat} (h : IsTopK C s k L)
    (h' : IsTopK C s' k L') (hb : ∀ g ∈ C, g ∈ G → ∀ x ∈ C, x ∉ G → Before s g x → Before s' g x) :
    hitsAt L G L.length ≤ hitsAt L' G L'.length := by
  have hn := pairwise_before_nodup h.sorted
  have hn' := pairwise_before_nodup h'.sorted
  rw [hits_card L hn, hits_card L' hn']
  by_contra hlt
  rw [not_le] at hlt
  have hex : ∃ g ∈ L.toFinset ∩ G, g ∉ L'.toFinset ∩ G := by
    by_contra hc
    push Not at hc
    exact absurd (Finset.card_le_card hc) (by omega)
  obtain ⟨g, hg, hg'⟩ := hex
  rw [Finset.mem_inter, List.mem_toFinset] at hg hg'
  have hgL' : g ∉ L' := fun hc => hg' ⟨hc, hg.2⟩
  have hsub : L'.toFinset \ G ⊆ L.toFinset \ G := by
    intro x hx
    rw [Finset.mem_sdiff, List.mem_toFinset] at hx ⊢
    refine ⟨?_, hx.2⟩
    by_contra hxL
    have hxC := h'.mem x hx.1
    have h1 := h.best g hg.1 x hxC hxL
    have h2 := hb g (h.mem g hg.1) hg.2 x hxC hx.2 h1
    exact before_asymm h2 (h'.best x hx.1 g (h.mem g hg.1) hgL')
  have hcard := Finset.card_le_card hsub
  have e1 := Finset.card_sdiff_add_card_inter L.toFinset G
  have e2 := Finset.card_sdiff_add_card_inter L'.toFinset G
  rw [List.toFinset_card_of_nodup hn] at e1
  rw [List.toFinset_card_of_nodup hn'] at e2
  have := h.length
  have := h'.length
  omega

theorem noWorse_overtake {S : Type} [LinearOrder S] {C : Finset Nat} {s s' : Nat → S} {k : Nat} (h : IsTopK C s k L)
    (h' : IsTopK C s' k L') (hb : ∀ g ∈ C, g ∈ G → ∀ x ∈ C, x ∉ G → Before s g x → Before s' g x) : NoWorse G L L' := by
  have hl : L'.length = L.length := by rw [h.length, h'.length]
  refine noWorse_of_hits hl (fun j hj => ?_)
  have hjk : j ≤ k := by have := h.length; omega
  have := hits_overtake (topK_take h hjk) (topK_take h' hjk) hb
  rw [hitsAt_take, hitsAt_take] at this
  simpa [Nat.min_eq_left hj, hl] using this

end Irspack.Sampled
