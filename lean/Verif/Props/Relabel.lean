import Verif.Proofs.Relabel
import Verif.Proofs.Frame
import Mathlib.Tactic.IntervalCases

/-!
# C87: the numbers of users and items, and the order of the log, are immaterial
-/

namespace Irspack.Evaluation
open Spec Spec.Relabel

section
variable {S : Type} [LinearOrder S] [OrderBot S]

/-- C87. Give the users (`σ`) and the items (`π`) of an evaluation other numbers, in the ground truth, in the
recommendable lists and in the scores alike: the reported metrics, and the errors, stay the same.  Ties between
items of one user that are not masked must keep their order, because they are broken by number; if only users are
renumbered (`π` the identity) this condition is void. -/
theorem C87_evaluation
    {gtRows gtRows' recLists recLists' : List (List Nat)} {nItems : Nat} {c c' : Core}
    (hc : Core.make gtRows nItems recLists = .ok c) (hc' : Core.make gtRows' nItems recLists' = .ok c')
    (rows rows' : List (ScoreRow S)) (σ π : Nat → Nat)
    (hn : gtRows'.length = gtRows.length) (hl : rows.length = gtRows.length) (hl' : rows'.length = gtRows.length)
    (hσ : Renames gtRows.length σ) (hπ : Renames nItems π)
    (hb : ∀ u, u < gtRows.length → ∀ i ∈ gtRows.getD u [], i < nItems)
    (hb' : ∀ u, u < gtRows.length → ∀ i ∈ gtRows'.getD u [], i < nItems)
    (hgt : ∀ u i, u < gtRows.length → i < nItems → (i ∈ gtRows.getD u [] ↔ π i ∈ gtRows'.getD (σ u) []))
    (hrec : ∀ u i, u < gtRows.length → i < nItems →
      (RecommendableTo recLists u i ↔ RecommendableTo recLists' (σ u) (π i)))
    (hs : ∀ u i, u < gtRows.length → i < nItems →
      rows'.getD (σ u) (fun _ => ⊥) (π i) = rows.getD u (fun _ => ⊥) i)
    (ht : ∀ u i j, u < gtRows.length → i < j → j < nItems →
      rows.getD u (fun _ => ⊥) i = rows.getD u (fun _ => ⊥) j → rows.getD u (fun _ => ⊥) i ≠ ⊥ → π i < π j)
    (cutoff nThreads : Nat) (capped : Bool) :
    (c'.getMetrics rows' cutoff 0 nThreads capped).map (Metrics.asDict nItems) =
      (c.getMetrics rows cutoff 0 nThreads capped).map (Metrics.asDict nItems) := by
  obtain ⟨hw, hni, hgr, -⟩ := make_wf hc
  obtain ⟨hw', hni', hgr', -⟩ := make_wf hc'
  rw [getMetrics_eq, getMetrics_eq]
  have hca : c'.checkArgs rows'.length cutoff 0 nThreads = c.checkArgs rows.length cutoff 0 nThreads := by
    unfold Core.checkArgs Core.nUsers
    rw [hni, hni', hgr, hgr', hn, hl, hl']
  rw [hca]
  cases c.checkArgs rows.length cutoff 0 nThreads with
  | error e => rfl
  | ok _ =>
    simp only [Except.map]
    congr 1
    have hsum : ∑ u ∈ Finset.range rows'.length, rowContribution c' rows' cutoff 0 capped u =
        ∑ u ∈ Finset.range rows.length, rowContribution c' rows' cutoff 0 capped (σ u) := by
      rw [hl', hl]
      exact (hσ.sum (fun u => rowContribution c' rows' cutoff 0 capped (σ u)) _ (fun _ _ => rfl)).symm
    rw [hsum]
    refine SameUpTo.asDict hπ (SameUpTo.sum _ _ _ (fun u hu => ?_))
    have hu : u < gtRows.length := by rw [← hl]; exact Finset.mem_range.mp hu
    have hσu := hσ.bound u hu
    -- the relevant items
    have hgs : c'.gtSet (σ u) = (c.gtSet u).image π := by
      ext j
      rw [gtSet_spec hc', Finset.mem_image]
      constructor
      · rintro ⟨h1, h2⟩
        obtain ⟨i, hi, rfl⟩ := hπ.surj j (hb' _ hσu j h1)
        exact ⟨i, (gtSet_spec hc).mpr ⟨(hgt u i hu hi).mpr h1, (hrec u i hu hi).mpr h2⟩, rfl⟩
      · rintro ⟨i, hi, rfl⟩
        obtain ⟨h1, h2⟩ := (gtSet_spec hc).mp hi
        have hin := hb u hu i h1
        exact ⟨(hgt u i hu hin).mp h1, (hrec u i hu hin).mp h2⟩
    have hgb : ∀ i ∈ c.gtSet u, i < nItems := fun i hi => hb u hu i ((gtSet_spec hc).mp hi).1
    -- the candidates
    set row := rows.getD u (fun _ => ⊥) with hrow
    set row' := rows'.getD (σ u) (fun _ => ⊥) with hrow'
    have hcb : ∀ i ∈ candSet c.nItems (c.recommendableFor u) row, i < nItems :=
      fun i hi => ((candSet_spec hc u row i).mp hi).1
    have hcs : candSet c'.nItems (c'.recommendableFor (σ u)) row' =
        (candSet c.nItems (c.recommendableFor u) row).image π := by
      ext j
      rw [candSet_spec hc', Finset.mem_image]
      constructor
      · rintro ⟨h1, h2, h3⟩
        obtain ⟨i, hi, rfl⟩ := hπ.surj j h1
        refine ⟨i, (candSet_spec hc u row i).mpr ⟨hi, (hrec u i hu hi).mpr h2, ?_⟩, rfl⟩
        exact fun e => h3 ((hs u i hu hi).trans e)
      · rintro ⟨i, hi, rfl⟩
        obtain ⟨h1, h2, h3⟩ := (candSet_spec hc u row i).mp hi
        refine ⟨hπ.bound i h1, (hrec u i hu h1).mp h2, ?_⟩
        exact fun e => h3 ((hs u i hu h1).symm.trans e)
    have htop : topCutoff c'.nItems (c'.recommendableFor (σ u)) cutoff row' =
        (topCutoff c.nItems (c.recommendableFor u) cutoff row).map π := by
      refine topK_map hπ hcb hcs (fun i hi => hs u i hu (hcb i hi)) ?_
        (topCutoff_isTopK _ _ row cutoff (WF_recommendableFor hw u))
        (topCutoff_isTopK _ _ row' cutoff (WF_recommendableFor hw' (σ u)))
      intro i hi j hj hij he
      exact ht u i j hu hij (hcb j hj) he ((candSet_spec hc u row i).mp hi).2.2
    have htb : ∀ i ∈ topCutoff c.nItems (c.recommendableFor u) cutoff row, i < nItems := by
      intro i hi; rw [← hni]; exact topCutoff_bound hw u cutoff row i hi
    unfold rowContribution
    simp only [Nat.add_zero]
    rw [← hrow, ← hrow', htop]
    refine SameUpTo.add ⟨rfl, rfl, rfl, rfl, rfl, rfl, rfl, fun _ _ => rfl⟩ ?_
    by_cases he : c.gtSet u = ∅
    · rw [if_pos he, if_pos (by rw [hgs, he]; rfl)]
      exact SameUpTo.zero _ _
    · rw [if_neg he, if_neg (by rw [hgs, Finset.image_eq_empty]; exact he)]
      obtain ⟨h1, h2, h3, h4, h5, h6⟩ := contribution_rename nItems π hπ capped
        (topCutoff c.nItems (c.recommendableFor u) cutoff row) (c.gtSet u) (c'.gtSet (σ u)) htb hgb hgs
      exact ⟨rfl, rfl, h1, h2, h3, h4, h5, h6⟩

/-- Two users and three items; user 0 becomes user 1, the items turn round.  The hypotheses hold and the metrics
are not an error. -/
example :
    let gt := [[0, 2], [1]]; let gt' := [[1], [0, 2]]
    let rec_ := [[0, 1], [1, 2]]; let rec' := [[1, 0], [2, 1]]
    let rows : List (ScoreRow (WithBot ℕ)) := [fun i => if i = 0 then 5 else if i = 1 then 3 else ⊥, fun i => (i : ℕ)]
    let rows' : List (ScoreRow (WithBot ℕ)) :=
      [fun i => ((2 - i : ℕ) : WithBot ℕ), fun i => if i = 2 then 5 else if i = 1 then 3 else ⊥]
    let σ := fun u => 1 - u; let π := fun i => 2 - i
    ∃ c c', Core.make gt 3 rec_ = .ok c ∧ Core.make gt' 3 rec' = .ok c' ∧
      Renames 2 σ ∧ Renames 3 π ∧
      (∀ u i, u < 2 → i < 3 → (i ∈ gt.getD u [] ↔ π i ∈ gt'.getD (σ u) [])) ∧
      (∀ u i, u < 2 → i < 3 → (RecommendableTo rec_ u i ↔ RecommendableTo rec' (σ u) (π i))) ∧
      (∀ u i, u < 2 → i < 3 → rows'.getD (σ u) (fun _ => ⊥) (π i) = rows.getD u (fun _ => ⊥) i) ∧
      (∀ u i j, u < 2 → i < j → j < 3 → rows.getD u (fun _ => ⊥) i = rows.getD u (fun _ => ⊥) j →
        rows.getD u (fun _ => ⊥) i ≠ ⊥ → π i < π j) ∧
      ∃ m, c.getMetrics rows 2 0 1 false = .ok m := by
  intro gt gt' rec_ rec' rows rows' σ π
  obtain ⟨c, hc⟩ := (make_ok_iff gt 3 rec_).mpr (by decide)
  obtain ⟨c', hc'⟩ := (make_ok_iff gt' 3 rec').mpr (by decide)
  refine ⟨c, c', hc, hc', ⟨?_, ?_⟩, ⟨?_, ?_⟩, ?_, ?_, ?_, ?_, ?_⟩
  · intro i hi; show 1 - i < 2; omega
  · intro i j hi hj h; have : 1 - i = 1 - j := h; omega
  · intro i hi; show 2 - i < 3; omega
  · intro i j hi hj h; have : 2 - i = 2 - j := h; omega
  · intro u i hu hi
    interval_cases u <;> interval_cases i <;> decide
  · intro u i hu hi
    show i ∈ rec_.getD u [] ↔ π i ∈ rec'.getD (σ u) []
    interval_cases u <;> interval_cases i <;> decide
  · intro u i hu hi
    interval_cases u <;> interval_cases i <;> rfl
  · intro u i j hu hij hj he hne
    interval_cases u <;> interval_cases j <;> interval_cases i <;> first | exact absurd he (by decide) | skip
  · obtain ⟨-, h1, h2, -⟩ := make_wf hc
    rw [getMetrics_eq]
    have : c.checkArgs rows.length 2 0 1 = .ok () := by
      unfold Core.checkArgs Core.nUsers; rw [h1, h2]; rfl
    rw [this]; exact ⟨_, rfl⟩

end

/-- C87, why ties are excepted: with two items of the same score and a list of one item, the item with the smaller
number is recommended, so that exchanging the numbers changes a hit into a miss.  All other hypotheses of
`C87_evaluation` hold. -/
theorem C87_ties_counterexample :
    ∃ (gt gt' : List (List Nat)) (rows : List (ScoreRow (WithBot ℕ))) (π : Nat → Nat) (c c' : Core) (d d' : MetricDict),
      Core.make gt 2 [] = .ok c ∧ Core.make gt' 2 [] = .ok c' ∧ gt.length = 1 ∧ gt'.length = 1 ∧ rows.length = 1 ∧
      Renames 2 π ∧ (∀ i, i < 2 → (i ∈ gt.getD 0 [] ↔ π i ∈ gt'.getD 0 [])) ∧
      (∀ i, i < 2 → rows.getD 0 (fun _ => ⊥) (π i) = rows.getD 0 (fun _ => ⊥) i) ∧
      (c.getMetrics rows 1 0 1 false).map (Metrics.asDict 2) = .ok d ∧
      (c'.getMetrics rows 1 0 1 false).map (Metrics.asDict 2) = .ok d' ∧ d.hit = 1 ∧ d'.hit = 0 := by
  have htop : topCutoff 2 none 1 (fun _ => (0 : WithBot ℕ)) = [0] := by
    refine isTopK_unique (topCutoff_isTopK 2 none (fun _ => (0 : WithBot ℕ)) 1 (by simp)) (l' := [0])
      (s' := fun _ => (0 : WithBot ℕ)) ?_ (fun _ _ _ _ => Iff.rfl)
    refine ⟨?_, ?_, ?_, ?_⟩
    · intro i hi; rw [List.mem_singleton.mp hi]; decide
    · decide
    · simp
    · intro i hi j hj hjl
      rw [List.mem_singleton.mp hi]
      have : j ≠ 0 := by simpa using hjl
      exact Or.inr ⟨rfl, by omega⟩
  have key : ∀ (i : Nat), (Core.getMetrics ⟨2, [[i]], []⟩ [fun _ => (0 : WithBot ℕ)] 1 0 1 false).map
      (Metrics.asDict 2) = .ok (Metrics.asDict 2 (oneUser + contribution false [0] {i})) := by
    intro i
    rw [getMetrics_eq]
    have hs : Core.gtSet ⟨2, [[i]], []⟩ 0 = {i} := rfl
    have hne : ({i} : Finset Nat) ≠ ∅ := Finset.singleton_ne_empty i
    simp only [Core.checkArgs, Core.nUsers, List.length_singleton]
    norm_num [Except.map, Finset.sum_range_one, rowContribution, hs, Core.recommendableFor, htop]
  refine ⟨[[0]], [[1]], [fun _ => 0], fun i => 1 - i, ⟨2, [[0]], []⟩, ⟨2, [[1]], []⟩, _, _, rfl, rfl, rfl, rfl, rfl,
    ⟨?_, ?_⟩, ?_, ?_, key 0, key 1, ?_, ?_⟩
  · intro i hi; show 1 - i < 2; omega
  · intro i j hi hj h; have : 1 - i = 1 - j := h; omega
  · intro i hi; interval_cases i <;> simp
  · intro i hi; rfl
  · have : Spec.hit [0] ({0} : Finset Nat) = 1 := by
      unfold Spec.hit; rw [if_pos ⟨0, 0, rfl, by simp⟩]
    simp [Metrics.asDict, contribution, oneUser, Metrics.empty, this]
  · have : Spec.hit [0] ({1} : Finset Nat) = 0 := by
      unfold Spec.hit; rw [if_neg]
      rintro ⟨j, i, h, h'⟩
      have h1 := List.mem_of_getElem? h
      simp at h1 h'; omega
    simp [Metrics.asDict, contribution, oneUser, Metrics.empty, this]

end Irspack.Evaluation

namespace Irspack.Split
open Spec

section
variable {U I T : Type} [LinearOrder U] [LinearOrder I]

/-- C87. The interaction matrix made of a log, with its lists of users and items, or the error, does not depend on
the order of the rows of the log, whether or not lists of users and items and a rating column are given. -/
theorem C87_log_order (df df' : List (Row U I T)) (h : df.Perm df') (userIds : Option (List U))
    (itemIds : Option (List I)) (useRating : Bool) :
    dfToSparse df' userIds itemIds useRating = dfToSparse df userIds itemIds useRating := by
  have hk : ∀ {A : Type} [DecidableEq A] (get : Row U I T → A) (ids : Option (List A)) (a b : List (Row U I T)),
      a.Perm b → (keepIn get ids a).Perm (keepIn get ids b) := by
    intro A _ get ids a b hab
    cases ids with
    | none => exact hab
    | some l => exact hab.filter _
  have hsort : ∀ {A : Type} [LinearOrder A] (a b : List A), a.Perm b →
      a.dedup.insertionSort (· ≤ ·) = b.dedup.insertionSort (· ≤ ·) := by
    intro A _ a b hab
    refine List.Perm.eq_of_pairwise (le := (· ≤ ·)) (fun x y _ _ h1 h2 => le_antisymm h1 h2)
      (List.pairwise_insertionSort _ _) (List.pairwise_insertionSort _ _) ?_
    exact ((List.perm_insertionSort _ _).trans hab.dedup).trans (List.perm_insertionSort _ _).symm
  have hcat : ∀ {A : Type} [LinearOrder A] (a b : List A) (ids : Option (List A)), a.Perm b →
      categories a ids = categories b ids := by
    intro A _ a b ids hab
    cases ids with
    | none => unfold categories; simp only [hsort a b hab]
    | some l => rfl
  have hp := hk Row.item itemIds _ _ (hk Row.user userIds _ _ h)
  unfold dfToSparse
  simp only
  rw [hcat _ _ userIds (hp.map Row.user), hcat _ _ itemIds (hp.map Row.item)]
  cases categories ((keepIn Row.item itemIds (keepIn Row.user userIds df')).map Row.user) userIds with
  | error e => rfl
  | ok us =>
    simp only
    cases categories ((keepIn Row.item itemIds (keepIn Row.user userIds df')).map Row.item) itemIds with
    | error e => rfl
    | ok is =>
      simp only
      congr 2
      unfold cooToCsr
      congr 1
      apply List.map_congr_left
      intro u _
      have hq := ((hp.map (fun r => (us.idxOf r.user, is.idxOf r.item, valueOf useRating r))).filter
        (fun t => decide (t.1 = u))).map Prod.snd
      unfold collapse
      rw [hsort _ _ (hq.map Prod.fst)]
      apply List.map_congr_left
      intro c _
      unfold rowEntry
      rw [((hq.filter _).map Prod.snd).sum_eq]

/-- A log with a repeated pair and its reversal; the matrix has an entry made of both rows. -/
example : ∃ X : Csr ℝ, dfToSparse [⟨7, 1, 0, 2⟩, ⟨3, 1, 0, 5⟩, (⟨7, 1, 1, 4⟩ : Row Nat Nat Nat)] none none true =
      .ok (X, [3, 7], [1]) ∧
    dfToSparse [⟨7, 1, 1, 4⟩, ⟨3, 1, 0, 5⟩, (⟨7, 1, 0, 2⟩ : Row Nat Nat Nat)] none none true = .ok (X, [3, 7], [1]) ∧
    entry X 1 0 = 6 := by
  obtain ⟨r, hr⟩ := dfToSparse_total [⟨7, 1, 0, 2⟩, ⟨3, 1, 0, 5⟩, (⟨7, 1, 1, 4⟩ : Row Nat Nat Nat)] none none true
    (by simp) (by simp)
  obtain ⟨X, us, is⟩ := r
  have h1 : us = [3, 7] ∧ is = [1] := by
    unfold dfToSparse at hr
    simp only [keepIn, categories] at hr
    injection hr with hr
    injection hr with hX hr
    injection hr with hu hi
    exact ⟨hu ▸ by decide, hi ▸ by decide⟩
  obtain ⟨rfl, rfl⟩ := h1
  refine ⟨X, hr, ?_, ?_⟩
  · rw [← hr]
    exact C87_log_order _ _ (by
      refine List.Perm.symm ?_
      exact List.reverse_perm [⟨7, 1, 0, 2⟩, ⟨3, 1, 0, 5⟩, (⟨7, 1, 1, 4⟩ : Row Nat Nat Nat)]) _ _ _
  · obtain ⟨-, -, -, -, -, -, -, -, -, h, -⟩ := dfToSparse_ok hr
    rw [h 1 (by decide) 0 (by decide)]
    simp [totalWeight, eventsOf, valueOf]
    norm_num

end

end Irspack.Split
