import Verif.Proofs.DataFrame

/-! # C16: evaluation of data frames -/

namespace Irspack.Props
open Irspack Spec Evaluation

variable {U I : Type} [LinearOrder U] [LinearOrder I]

/-- Lists without repetitions have no hit beyond the number of items. -/
theorem no_late_hit (recs gt : List (U × I))
    (hn : ∀ u ∈ commonUsers recs gt, (itemsOf recs u).Nodup) : ¬ LateHit recs gt := by
  rintro ⟨u, hu, i, hi, _⟩
  have h1 : (itemsOf recs u).length ≤ (allItems recs gt).card := by
    rw [← List.toFinset_card_of_nodup (hn u hu)]
    apply Finset.card_le_card
    intro x hx
    unfold allItems
    exact Finset.mem_biUnion.mpr ⟨u, hu, Finset.mem_union_left _ hx⟩
  rw [List.drop_eq_nil_of_le h1] at hi
  cases hi

/-- C16. `evaluate_recommendation_df` never raises and reports the means over the users that occur in
both frames, with each user's recommendations in row order and the ground truth as a set.

Partial: the full statement is this without `hfit`.  It is false of the code, see
`C16_late_hit_undefined`. -/
theorem C16_frame_report_partial (recs gt : List (U × I)) (nThreads : Nat) (hT : 0 < nThreads)
    (hfit : ¬ LateHit recs gt) :
    ∃ d, evaluateDf recs gt nThreads = .ok d ∧ IsFrameReport recs gt d :=
  (evaluateDf_cases recs gt nThreads hT).2 hfit

/-- C16. …in particular if no user has a repeated recommendation. -/
theorem C16_frame_report_without_repetitions (recs gt : List (U × I)) (nThreads : Nat)
    (hT : 0 < nThreads) (hn : ∀ u ∈ commonUsers recs gt, (itemsOf recs u).Nodup) :
    ∃ d, evaluateDf recs gt nThreads = .ok d ∧ IsFrameReport recs gt d :=
  C16_frame_report_partial recs gt nThreads hT (no_late_hit recs gt hn)

/-- C16, why it is partial: a relevant recommendation at a rank beyond the number of distinct items
makes the code read behind the end of its discount table, so that no value is defined. -/
theorem C16_late_hit_undefined (recs gt : List (U × I)) (nThreads : Nat) (hT : 0 < nThreads)
    (h : LateHit recs gt) : evaluateDf recs gt nThreads = .error .outOfBounds :=
  (evaluateDf_cases recs gt nThreads hT).1 h

/-- …and two rows that recommend the only item twice are enough. -/
theorem C16_late_hit_counterexample :
    evaluateDf [(0, 0), (0, 0)] [((0 : Nat), (0 : Nat))] 1 = .error .outOfBounds :=
  C16_late_hit_undefined _ _ 1 (by decide) ⟨0, by decide, 0, by decide, by decide⟩

/-- C16. Only the common users, their recommendations in order and their relevant sets matter: order and
repetition of ground-truth rows, interleaving of users in either frame, rows of users missing from
the other frame, and the number of threads do not. -/
theorem C16_only_user_lists_matter (recs gt recs' gt' : List (U × I)) (nThreads nThreads' : Nat)
    (hT : 0 < nThreads) (hT' : 0 < nThreads')
    (husers : commonUsers recs gt = commonUsers recs' gt')
    (hrec : ∀ u ∈ commonUsers recs gt, itemsOf recs u = itemsOf recs' u)
    (hgt : ∀ u ∈ commonUsers recs gt, itemSet gt u = itemSet gt' u) :
    evaluateDf recs gt nThreads = evaluateDf recs' gt' nThreads' := by
  have hall : allItems recs gt = allItems recs' gt' := by
    unfold allItems
    rw [← husers]
    apply Finset.biUnion_congr rfl
    intro u hu
    unfold itemSet at hgt ⊢
    rw [hrec u hu, hgt u hu]
  have hlate : LateHit recs gt ↔ LateHit recs' gt' := by
    unfold LateHit
    rw [← husers, ← hall]
    constructor
    · rintro ⟨u, hu, h⟩
      rw [hrec u hu, hgt u hu] at h
      exact ⟨u, hu, h⟩
    · rintro ⟨u, hu, h⟩
      rw [← hrec u hu, ← hgt u hu] at h
      exact ⟨u, hu, h⟩
  by_cases hl : LateHit recs gt
  · rw [C16_late_hit_undefined recs gt nThreads hT hl,
      C16_late_hit_undefined recs' gt' nThreads' hT' (hlate.mp hl)]
  obtain ⟨d, hd, r⟩ := C16_frame_report_partial recs gt nThreads hT hl
  obtain ⟨d', hd', r'⟩ := C16_frame_report_partial recs' gt' nThreads' hT' (fun h => hl (hlate.mpr h))
  have hmean : ∀ f, meanUsers recs gt f = meanUsers recs' gt' f := by
    intro f
    unfold meanUsers
    rw [← husers]
    congr 1
    exact Finset.sum_congr rfl (fun u hu => by rw [hrec u hu, hgt u hu])
  have htimes : timesRecommended recs gt = timesRecommended recs' gt' := by
    funext i
    unfold timesRecommended
    rw [← husers]
    exact Finset.sum_congr rfl (fun u hu => by rw [hrec u hu])
  have htot : allRecommended recs gt = allRecommended recs' gt' := by
    unfold allRecommended; rw [hall, htimes]
  rw [hd, hd']
  congr 1
  ext
  · rw [r.totalUser, r'.totalUser, husers]
  · rw [r.validUser, r'.validUser, husers]
  · rw [r.itemNumber, r'.itemNumber, hall]
  · rw [r.hit, r'.hit, hmean]
  · rw [r.ndcg, r'.ndcg, hmean]
  · rw [r.recall, r'.recall, hmean]
  · rw [r.map, r'.map, hmean]
  · rw [r.precision, r'.precision, hmean]
  · rw [r.appearedItem, r'.appearedItem, hall, htimes]
  · rw [r.entropy, r'.entropy, hall, htimes, htot]
  · rw [r.giniIndex, r'.giniIndex, hall, htimes, htot]

/-- C16. In particular the ground-truth rows may be permuted. -/
theorem C16_ground_truth_order_does_not_matter (recs gt gt' : List (U × I)) (nThreads : Nat)
    (hT : 0 < nThreads) (hp : gt.Perm gt') :
    evaluateDf recs gt nThreads = evaluateDf recs gt' nThreads := by
  apply C16_only_user_lists_matter _ _ _ _ _ _ hT hT
  · unfold commonUsers
    congr 1
    exact List.toFinset_eq_of_perm _ _ (hp.map _)
  · intro u _; rfl
  · intro u _
    unfold itemSet itemsOf
    exact List.toFinset_eq_of_perm _ _ ((hp.filter _).map _)

/-- C16. If no user has a repeated recommendation, all accuracy values lie in `[0, 1]`. -/
theorem C16_unit_interval (recs gt : List (U × I)) (nThreads : Nat) (hT : 0 < nThreads)
    (hn : ∀ u ∈ commonUsers recs gt, (itemsOf recs u).Nodup) :
    ∃ d, evaluateDf recs gt nThreads = .ok d ∧
      (0 ≤ d.hit ∧ d.hit ≤ 1) ∧ (0 ≤ d.precision ∧ d.precision ≤ 1) ∧
      (0 ≤ d.recall ∧ d.recall ≤ 1) ∧ (0 ≤ d.ndcg ∧ d.ndcg ≤ 1) ∧ (0 ≤ d.map ∧ d.map ≤ 1) := by
  obtain ⟨d, hd, r⟩ := C16_frame_report_without_repetitions recs gt nThreads hT hn
  refine ⟨d, hd, ?_⟩
  have hu : ∀ u ∈ commonUsers recs gt, _ := fun u hu => by
    have hne : (itemSet gt u).Nonempty := by
      unfold itemSet
      rw [List.toFinset_nonempty_iff]
      unfold commonUsers at hu
      rw [Finset.mem_inter, List.mem_toFinset, List.mem_toFinset] at hu
      obtain ⟨x, hx, rfl⟩ := List.mem_map.mp hu.2
      apply List.ne_nil_of_mem (a := x.2)
      exact List.mem_map.mpr ⟨x, List.mem_filter.mpr ⟨hx, by simp⟩, rfl⟩
    exact spec_unit_interval' (hn u hu) hne
  rw [r.hit, r.precision, r.recall, r.ndcg, r.map]
  exact ⟨mean_unit _ _ (fun u h => (hu u h).1), mean_unit _ _ (fun u h => (hu u h).2.1),
    mean_unit _ _ (fun u h => (hu u h).2.2.1), mean_unit _ _ (fun u h => (hu u h).2.2.2.1),
    mean_unit _ _ (fun u h => (hu u h).2.2.2.2)⟩

/-- C16, the restriction is needed: with an item recommended twice, ndcg exceeds 1. -/
theorem C16_repeated_recommendation_counterexample :
    ∃ d, evaluateDf [(0, 0), (0, 0), (0, 1)] [((0 : Nat), (0 : Nat))] 1 = .ok d ∧ 1 < d.ndcg := by
  have hc : commonUsers [(0, 0), (0, 0), (0, 1)] [((0 : Nat), (0 : Nat))] = {0} := by decide
  have hi : itemsOf [(0, 0), (0, 0), (0, 1)] (0 : Nat) = [(0 : Nat), 0, 1] := by decide
  have hg : itemSet [((0 : Nat), (0 : Nat))] 0 = {0} := by decide
  obtain ⟨d, hd, r⟩ := C16_frame_report_partial [(0, 0), (0, 0), (0, 1)] [((0 : Nat), (0 : Nat))] 1
    (by decide) (by
      rintro ⟨u, hu, i, hi', hg'⟩
      rw [hc, Finset.mem_singleton] at hu
      subst hu
      have h2 : (allItems [(0, 0), (0, 0), (0, 1)] [((0 : Nat), (0 : Nat))]).card = 2 := by decide
      rw [hi, h2] at hi'
      rw [hg, Finset.mem_singleton] at hg'
      subst hg'
      simp at hi')
  refine ⟨d, hd, ?_⟩
  rw [r.ndcg]
  unfold meanUsers
  rw [hc, Finset.sum_singleton, hi, hg, Finset.card_singleton]
  unfold ndcg dcg
  rw [if_neg (by simp)]
  classical
  have hrel : (Finset.range [(0 : Nat), 0, 1].length).filter
      (fun j => Relevant [(0 : Nat), 0, 1] {0} j) = Finset.range 2 := by
    ext j
    simp only [List.length_cons, List.length_nil, Finset.mem_filter, Finset.mem_range]
    unfold Relevant
    constructor
    · rintro ⟨h3, i, h, h0⟩
      by_contra hj
      have : j = 2 := by omega
      subst this
      simp at h h0
      omega
    · intro h
      have : j = 0 ∨ j = 1 := by omega
      rcases this with rfl | rfl <;> exact ⟨by omega, 0, rfl, by simp⟩
  rw [hrel, Finset.card_singleton]
  have h1 : idealDcg (min 1 [(0 : Nat), 0, 1].length) = 1 := by
    unfold idealDcg
    rw [show min 1 [(0 : Nat), 0, 1].length = 1 from rfl, Finset.sum_range_one]
    simp
  rw [h1, Finset.sum_range_succ, Finset.sum_range_one]
  have h3 : (0 : ℝ) < Real.logb 2 (1 + 2) := Real.logb_pos (by norm_num) (by norm_num)
  have : (0 : ℝ) < 1 / Real.logb 2 (1 + 2) := by positivity
  simpa using this

/-- C16, another restriction: `n_threads = 0` is not rejected and silently reports zeros. -/
theorem C16_zero_threads_counterexample :
    ∃ d, evaluateDf [(0, 0)] [((0 : Nat), (0 : Nat))] 0 = .ok d ∧ d.totalUser = 0 ∧ d.hit = 0 := by
  refine ⟨Metrics.empty.asDict 1, ?_, by simp [Metrics.asDict, Metrics.empty],
    by simp [Metrics.asDict, Metrics.empty]⟩
  have hs : sortedSet [(0 : Nat)] = [0] := by
    simp [sortedSet]
  have hs2 : sortedSet [(0 : Nat), 0] = [0] := by
    have : ([0, 0] : List Nat).dedup = [0] := by decide
    simp [sortedSet, this]
  have h1 : restrictTo [((0 : Nat), (0 : Nat))] [((0 : Nat), (0 : Nat))] = [(0, 0)] := by decide
  unfold evaluateDf
  simp only [h1, List.map_cons, List.map_nil, List.cons_append, List.nil_append, hs, hs2]
  rfl

/-- Non-vacuity of C16: interleaved users, one user missing from either frame, no repetition. -/
example : commonUsers [("a", 1), ("b", 1), ("a", 2)] [("b", 1), ("a", 7), ("c", 1), ("a", 2)] =
      {"a", "b"} ∧
    itemsOf [("a", 1), ("b", 1), ("a", 2)] "a" = [1, 2] ∧
    ∀ u ∈ commonUsers [("a", 1), ("b", 1), ("a", 2)] [("b", 1), ("a", 7), ("c", 1), ("a", 2)],
      (itemsOf [("a", 1), ("b", 1), ("a", 2)] u).Nodup := by decide

end Irspack.Props
