import Verif.Props.Overtake

/-!
# C116: more ground truth
-/

namespace Irspack.Props
open Irspack Spec Evaluation Sampled

variable {S : Type} [LinearOrder S] [OrderBot S] {us : List Nat} {gt gt' : Nat → List Nat} {score : Nat → ScoreRow S}
  {allowed seen : Nat → Nat → Prop} {nItems cutoff : Nat} {capped : Bool} {d e : MetricDict}

theorem hitsAt_subset {G G' : Finset Nat} (h : G ⊆ G') (L : List Nat) (k : Nat) : hitsAt L G k ≤ hitsAt L G' k := by
  classical
  unfold hitsAt
  refine Finset.card_le_card (Finset.monotone_filter_right _ ?_)
  rintro j _ ⟨i, hi, hg⟩
  exact ⟨i, hi, h hg⟩

theorem relevant_subset {u : Nat} (h : ∀ i ∈ gt u, i ∈ gt' u) : relevant gt allowed u ⊆ relevant gt' allowed u := by
  classical
  intro i hi
  simp only [relevant, List.mem_toFinset, List.mem_filter] at hi ⊢
  exact ⟨h i hi.1, hi.2⟩

/-- C116.  If ground truth is added for users who have relevant items already, hit rate and precision do not fall; the
users counted and the diversity metrics stay the same. -/
theorem C116_more_truth (hd : ReportOn us gt score allowed seen nItems cutoff capped d)
    (he : ReportOn us gt' score allowed seen nItems cutoff capped e) (hsub : ∀ u ∈ us, ∀ i ∈ gt u, i ∈ gt' u)
    (hval : ∀ u ∈ us, ∀ i ∈ gt' u, allowed u i → ∃ j ∈ gt u, allowed u j) :
    d.hit ≤ e.hit ∧ d.precision ≤ e.precision ∧ e.totalUser = d.totalUser ∧ e.validUser = d.validUser ∧
    e.appearedItem = d.appearedItem ∧ e.entropy = d.entropy ∧ e.giniIndex = d.giniIndex := by
  classical
  have rd := reportOn_isReport hd
  have re := reportOn_isReport he
  have hs : ∀ k : Nat, ((us[k]?).map (relevant gt allowed)).getD ∅ ⊆ ((us[k]?).map (relevant gt' allowed)).getD ∅ := by
    intro k
    cases hk : us[k]? with
    | none => simp
    | some u => exact relevant_subset (hsub u (List.mem_of_getElem? hk))
  have hback : ∀ k : Nat, (((us[k]?).map (relevant gt' allowed)).getD ∅).Nonempty →
      (((us[k]?).map (relevant gt allowed)).getD ∅).Nonempty := by
    intro k
    cases hk : us[k]? with
    | none => simp
    | some u =>
      rintro ⟨i, hi⟩
      simp only [Option.map_some, Option.getD_some, relevant, List.mem_toFinset, List.mem_filter, decide_eq_true_eq] at hi
      obtain ⟨j, hj, ha⟩ := hval u (List.mem_of_getElem? hk) i hi.1 hi.2
      exact ⟨j, by simp [relevant, hj, ha]⟩
  have hv : validUsers us.length (fun k => ((us[k]?).map (relevant gt' allowed)).getD ∅) =
      validUsers us.length (fun k => ((us[k]?).map (relevant gt allowed)).getD ∅) := by
    unfold validUsers
    exact Finset.filter_congr (fun k _ => ⟨hback k, fun h => h.mono (hs k)⟩)
  have hcount : recommendedCount us.length (fun k => ((us[k]?).map (listFor score allowed seen nItems cutoff)).getD [])
      (fun k => ((us[k]?).map (relevant gt' allowed)).getD ∅) =
      recommendedCount us.length (fun k => ((us[k]?).map (listFor score allowed seen nItems cutoff)).getD [])
      (fun k => ((us[k]?).map (relevant gt allowed)).getD ∅) := by
    funext i
    unfold recommendedCount
    rw [hv]
  have hmean : ∀ f g : Nat → ℝ, (∀ k, f k ≤ g k) →
      meanOver us.length (fun k => ((us[k]?).map (relevant gt allowed)).getD ∅) f ≤
        meanOver us.length (fun k => ((us[k]?).map (relevant gt' allowed)).getD ∅) g := by
    intro f g hfg
    unfold meanOver
    rw [hv]
    exact div_le_div_of_nonneg_right (Finset.sum_le_sum (fun k _ => hfg k)) (Nat.cast_nonneg _)
  refine ⟨?_, ?_, by rw [re.totalUser, rd.totalUser], by rw [re.validUser, rd.validUser, hv],
    by rw [re.appearedItem, rd.appearedItem, hcount], by rw [re.entropy, rd.entropy, hcount],
    by rw [re.giniIndex, rd.giniIndex, hcount]⟩
  · rw [rd.hit, re.hit]
    refine hmean _ _ (fun k => ?_)
    rw [hit_eq, hit_eq]
    have := hitsAt_subset (hs k) (((us[k]?).map (listFor score allowed seen nItems cutoff)).getD [])
      (((us[k]?).map (listFor score allowed seen nItems cutoff)).getD []).length
    split_ifs <;> first | omega | norm_num
  · rw [rd.precision, re.precision]
    refine hmean _ _ (fun k => ?_)
    unfold Spec.precision
    split_ifs
    · exact le_rfl
    · refine div_le_div_of_nonneg_right ?_ (Nat.cast_nonneg _)
      exact_mod_cast hitsAt_subset (hs k) _ _

/-- item 0 before item 2 before item 1, for every user -/
def scoreC : Nat → ScoreRow (WithBot Nat) := fun _ i => if i = 1 then 0 else if i = 0 then 2 else 1

theorem scoreC_list (u : Nat) : listFor scoreC (fun _ _ => True) (fun _ _ => False) 3 1 u = [0] :=
  listFor_best _ _ _ _ _ _ (by decide) trivial id (show (2 : WithBot Nat) ≠ ⊥ by decide) (by
    intro j hj _ hne
    rcases (by omega : j = 0 ∨ j = 1 ∨ j = 2) with rfl | rfl | rfl
    · exact absurd rfl hne
    · exact (by decide : (0 : WithBot Nat) < 2)
    · exact (by decide : (1 : WithBot Nat) < 2))

theorem all_relevant (gt : Nat → List Nat) (u : Nat) : relevant gt (fun _ _ => True) u = (gt u).toFinset := by
  unfold relevant
  simp

theorem hitsAt_one (x : Nat) (G : Finset Nat) : hitsAt [x] G 1 = if x ∈ G then 1 else 0 := by
  have := hitsAt_cons x [] G 0
  rw [hitsAt_zero] at this
  simpa using this

/-- C116 fails for recall and MAP: the user's one relevant item is found; with a second one, which is not found, both
fall from 1 to 1/2. -/
theorem C116_recall_counterexample : ∃ d e : MetricDict,
    ReportOn [0] (fun _ => [0]) scoreC (fun _ _ => True) (fun _ _ => False) 3 1 false d ∧
    ReportOn [0] (fun _ => [0, 1]) scoreC (fun _ _ => True) (fun _ _ => False) 3 1 false e ∧
    d.recall = 1 ∧ e.recall = 1 / 2 ∧ d.map = 1 ∧ e.map = 1 / 2 := by
  obtain ⟨d, hd⟩ := reportOn_exists [0] (fun _ => [0]) scoreC 3 1 false (by decide) (by decide)
  obtain ⟨e, he⟩ := reportOn_exists [0] (fun _ => [0, 1]) scoreC 3 1 false (by decide) (by decide)
  have rd := reportOn_isReport hd
  have re := reportOn_isReport he
  have hone : ∀ (gt : Nat → List Nat) (φ : List Nat → Finset Nat → ℝ), (gt 0).toFinset.Nonempty →
      meanOver 1 (fun k => (([0] : List Nat)[k]?.map (relevant gt (fun _ _ => True))).getD ∅)
        (fun k => φ ((([0] : List Nat)[k]?.map (listFor scoreC (fun _ _ => True) (fun _ _ => False) 3 1)).getD [])
          ((([0] : List Nat)[k]?.map (relevant gt (fun _ _ => True))).getD ∅)) = φ [0] (gt 0).toFinset := by
    intro gt φ hne
    have h1 := mean_times [0] (relevant gt (fun _ _ => True)) (listFor scoreC (fun _ _ => True) (fun _ _ => False) 3 1) φ
    rw [card_valid] at h1
    simp only [List.map_cons, List.map_nil, List.sum_cons, List.sum_nil, all_relevant, if_pos hne, scoreC_list, add_zero,
      Nat.cast_one, one_mul] at h1
    simpa [all_relevant] using h1
  have hap : ∀ G : Finset Nat, 0 ∈ G → averagePrecision [0] G = 1 / G.card := by
    intro G h0
    rw [ap_steps]
    simp [hitsAt_zero, hitsAt_one, h0]
  refine ⟨d, e, hd, he, ?_, ?_, ?_, ?_⟩
  · rw [rd.recall]
    refine (hone _ (Spec.recall false) (by simp)).trans ?_
    simp [Spec.recall, hitsAt_one]
  · rw [re.recall]
    refine (hone _ (Spec.recall false) (by simp)).trans ?_
    simp [Spec.recall, hitsAt_one]
  · rw [rd.map]
    refine (hone _ averagePrecision (by simp)).trans ?_
    rw [hap _ (by simp)]; simp
  · rw [re.map]
    refine (hone _ averagePrecision (by simp)).trans ?_
    rw [hap _ (by simp)]; simp

/-- C116 needs users with relevant items: ground truth for a user who had none makes the user count, and the hit rate
can fall. -/
theorem C116_new_user_counterexample : ∃ d e : MetricDict,
    ReportOn [0, 1] (fun u => if u = 0 then [0] else []) scoreC (fun _ _ => True) (fun _ _ => False) 3 1 false d ∧
    ReportOn [0, 1] (fun u => if u = 0 then [0] else [1]) scoreC (fun _ _ => True) (fun _ _ => False) 3 1 false e ∧
    d.hit = 1 ∧ e.hit = 1 / 2 := by
  obtain ⟨d, hd⟩ := reportOn_exists [0, 1] (fun u => if u = 0 then [0] else []) scoreC 3 1 false (by decide) (by decide)
  obtain ⟨e, he⟩ := reportOn_exists [0, 1] (fun u => if u = 0 then [0] else [1]) scoreC 3 1 false (by decide) (by decide)
  have rd := reportOn_isReport hd
  have re := reportOn_isReport he
  refine ⟨d, e, hd, he, ?_, ?_⟩
  · have hm := mean_times [0, 1] (relevant (fun u => if u = 0 then [0] else []) (fun _ _ => True))
      (listFor scoreC (fun _ _ => True) (fun _ _ => False) 3 1) Spec.hit
    rw [← rd.hit, card_valid] at hm
    simpa [all_relevant, scoreC_list, hit_eq, hitsAt_one] using hm
  · have hm := mean_times [0, 1] (relevant (fun u => if u = 0 then [0] else [1]) (fun _ _ => True))
      (listFor scoreC (fun _ _ => True) (fun _ _ => False) 3 1) Spec.hit
    rw [← re.hit, card_valid] at hm
    simp [all_relevant, scoreC_list, hit_eq, hitsAt_one] at hm
    linarith

/-- The evaluations of the first counterexample meet the hypotheses of the theorem. -/
example : ∃ d e : MetricDict,
    ReportOn [0] (fun _ => [0]) scoreC (fun _ _ => True) (fun _ _ => False) 3 1 false d ∧
    ReportOn [0] (fun _ => [0, 1]) scoreC (fun _ _ => True) (fun _ _ => False) 3 1 false e ∧ d.hit ≤ e.hit := by
  obtain ⟨d, e, hd, he, _⟩ := C116_recall_counterexample
  exact ⟨d, e, hd, he, (C116_more_truth hd he (by simp) (by simp)).1⟩

end Irspack.Props
