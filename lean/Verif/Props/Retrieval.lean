import Verif.Proofs.Profile
import Verif.Proofs.WorkQueue
import Verif.Props.Concurrency
import Mathlib.Data.List.Sort

/-!
# C18 – C21: recommending items by ID

`S` is the type of the caller's scores (`⊥ = -inf`, `⊤ = +inf`), `F` the single-precision type the
C++ routine works with and `cast : S → F` the conversion.  `IsPSort psort` and `IsASort argsort` say
that the library's `std::partial_sort` and `ndarray.argsort` meet their documented contract; the order
of equal scores is whatever the library makes it.
-/

namespace Irspack.Props
open Irspack Spec Retrieval WorkQueue

variable {I U S F : Type} [DecidableEq I] [DecidableEq U] [LinearOrder S] [BoundedOrder S]
  [LinearOrder F] [OrderBot F]

/-! ## C18 -/

/-- C18. With well-shaped arguments the batch method returns one list per user.  Whatever `sc x` is
the (single-precision) score of item ID `x` in row `u`, the list of user `u` pairs IDs with their own
scores, and the IDs are the `cutoff` best of those that are allowed to `u`, known, not forbidden to `u`
and not scored `-inf`. -/
theorem C18_batch_is_top_cutoff (ids : List I) (m : ItemIDMapper I)
    (hm : ItemIDMapper.make ids = .ok m) {psort : Nat → List (Nat × F) → List (Nat × F)}
    (hps : IsPSort psort) (cast : S → F) (hcast : cast ⊥ = ⊥) (score : List (List S))
    (hrows : ∀ row ∈ score, row.length = ids.length) (cutoff : Nat) (allowed : Option (List I))
    (perUser forbidden : Option (List (List I)))
    (hpu : ∀ ls, perUser = some ls → ls.length = score.length)
    (hf : ∀ ls, forbidden = some ls → ls.length = score.length)
    (nThreads : Nat) (ht : 0 < nThreads) :
    ∃ res, m.scoreToItemsBatch psort cast ids.length score cutoff allowed perUser forbidden nThreads
        = .ok res ∧ res.length = score.length ∧
      ∀ u (hu : u < score.length) (hu' : u < res.length) (sc : I → F),
        (∀ k (h : k < ids.length) (h' : k < score[u].length), sc ids[k] = cast score[u][k]) →
        ∃ out : List I, res[u] = out.map (fun x => (x, sc x)) ∧
          IsTopScores (eligible ids (allowedTo allowed perUser u) ((forbidden.getD []).getD u []) sc)
            sc cutoff out := by
  obtain ⟨hn, rfl⟩ := make_ok hm
  have hchk : checkRetrieve (m.blankForbidden score forbidden).length
      (m.allowedIndices allowed perUser).length nThreads = .ok () := by
    unfold checkRetrieve
    rw [if_neg (by omega), if_neg]
    rw [not_not, blankForbidden_length]
    unfold ItemIDMapper.allowedIndices
    cases perUser with
    | none => cases allowed <;> simp
    | some ls => left; simp [hpu ls rfl]
  refine ⟨(List.range score.length).map (fun u => m.toIds (retrieveRow psort cast ⊥ m.itemIds.length
        (m.blankForbidden score forbidden) (m.allowedIndices allowed perUser) cutoff u)), ?_, by simp, ?_⟩
  · unfold ItemIDMapper.scoreToItemsBatch retrieve
    rw [if_neg (by simp), if_neg, if_neg, hchk]
    · simp only [List.map_map, blankForbidden_length]; rfl
    · rintro ⟨ls, h1, h2⟩; exact h2 (hpu ls h1)
    · rintro ⟨ls, h1, h2⟩; exact h2 (hf ls h1)
  · intro u hu hu' sc hsc
    rw [List.getElem_map, List.getElem_range]
    exact batch_row m hn hps cast hcast score hrows cutoff allowed perUser forbidden hpu u hu sc hsc

/-- C18: rejected arguments.  A wrong number of columns, restriction lists of the wrong length and a
thread count of zero are errors, never a silently wrong answer. -/
theorem C18_rejects_bad_arguments (m : ItemIDMapper I) (psort : Nat → List (Nat × F) → List (Nat × F))
    (cast : S → F) (nCols : Nat) (score : List (List S)) (cutoff : Nat) (allowed : Option (List I))
    (perUser forbidden : Option (List (List I))) (nThreads : Nat)
    (h : nCols ≠ m.itemIds.length ∨ (∃ ls, perUser = some ls ∧ ls.length ≠ score.length) ∨
      (∃ ls, forbidden = some ls ∧ ls.length ≠ score.length) ∨ nThreads = 0) :
    ∃ e, m.scoreToItemsBatch psort cast nCols score cutoff allowed perUser forbidden nThreads
      = .error e := by
  unfold ItemIDMapper.scoreToItemsBatch
  by_cases h1 : nCols ≠ m.itemIds.length
  · exact ⟨_, by rw [if_pos h1]⟩
  rw [if_neg h1]
  by_cases h2 : ∃ fs, forbidden = some fs ∧ fs.length ≠ score.length
  · exact ⟨_, by rw [if_pos h2]⟩
  rw [if_neg h2]
  by_cases h3 : ∃ fs, perUser = some fs ∧ fs.length ≠ score.length
  · exact ⟨_, by rw [if_pos h3]⟩
  rw [if_neg h3]
  rcases h with h | h | h | rfl
  · exact absurd h h1
  · exact absurd h h3
  · exact absurd h h2
  · refine ⟨.invalidArgument, ?_⟩
    unfold retrieve checkRetrieve
    simp

/-- C18 (threads). If at least one worker runs and no started worker is abandoned, the parallel
routine leaves in row `u` exactly what the sequential reading of the code computes for user `u`. -/
theorem C18_threads_partial (psort : Nat → List (Nat × F) → List (Nat × F)) (cast : S → F)
    (dflt : S) (nItems : Nat) (score : List (List S)) (allowed : List (List Int))
    (cutoff nThreads : Nat) (sched : List (Fin (min nThreads score.length)))
    (s : State (min nThreads score.length) Unit (Nat → List (Nat × F)))
    (hs : retrieveRegion psort cast dflt nItems score allowed cutoff nThreads sched = .ok s)
    (hq : ∀ t, s.pc t = .stopped ∨ t ∉ sched) (h1 : ∃ t, s.pc t = .stopped)
    (res : List (List (Nat × F)))
    (hres : retrieve psort cast dflt nItems score allowed cutoff nThreads = .ok res)
    (u : Nat) (hu : u < score.length) : res[u]? = some (s.mem u) := by
  unfold retrieve at hres
  unfold retrieveRegion at hs
  cases hc : checkRetrieve score.length allowed.length nThreads with
  | error e => rw [hc] at hs; cases hs
  | ok x =>
    rw [hc] at hs hres
    injection hs with hs
    injection hres with hres
    subst hs hres
    rw [List.getElem?_map, List.getElem?_range hu, Option.map_some]
    congr 1
    set g := retrieveRow psort cast dflt nItems score allowed cutoff with hg
    have hp := C01_each_row_once_if_one_worker_runs _ _ _ _ _ sched hq h1
    have hm := mem_run (T := min nThreads score.length) (L := Unit) (n := score.length) (c := 1)
      (fun u X => Function.update X u (g u)) sched (init () (fun _ => [])) (fun _ => []) rfl
    rw [hm]
    have key : ∀ (l : List Nat) (X : Nat → List (Nat × F)), (u ∈ l ∨ X u = g u) →
        l.foldl (fun X u => Function.update X u (g u)) X u = g u := by
      intro l
      induction l with
      | nil => intro X h; simpa using h
      | cons a l ih =>
        intro X h
        rw [List.foldl_cons]
        apply ih
        by_cases hau : a = u
        · right; subst hau; simp
        · rcases h with h | h
          · rcases List.mem_cons.mp h with h | h
            · exact absurd h.symm hau
            · exact Or.inl h
          · right; rw [Function.update_of_ne (fun e => hau e.symm)]; exact h
    symm
    apply key
    left
    rw [hp.mem_iff]
    simpa using hu

/-- C18 (the compiled entry point).  `retrieve_recommend_from_score` rejects its arguments exactly if no
thread is allowed or the number of allowed lists is neither 0, nor 1, nor the number of rows. -/
theorem C18_compiled_argument_check (psort : Nat → List (Nat × F) → List (Nat × F)) (cast : S → F)
    (dflt : S) (nItems : Nat) (score : List (List S)) (allowed : List (List Int))
    (cutoff nThreads : Nat) :
    retrieve psort cast dflt nItems score allowed cutoff nThreads = .error .invalidArgument ↔
      nThreads = 0 ∨
        (allowed.length ≠ 0 ∧ allowed.length ≠ 1 ∧ allowed.length ≠ score.length) := by
  unfold retrieve checkRetrieve
  by_cases h0 : nThreads > 0
  · rw [if_neg (by omega)]
    by_cases h1 : score.length = allowed.length ∨ allowed.length = 1 ∨ allowed.length = 0
    · rw [if_neg (not_not.mpr h1)]
      simp only [reduceCtorEq, false_iff]
      omega
    · rw [if_pos h1]
      simp only [true_iff]
      omega
  · rw [if_pos h0]
    simp only [true_iff]
    omega

/-- C18: what is missing above.  `std::async` without a launch policy may defer every worker and the
futures are dropped, so the routine may return an empty list although an item is eligible. -/
theorem C18_threads_counterexample :
    ∃ (s : State 1 Unit (Nat → List (Nat × Fin 3))) (res : List (List (Nat × Fin 3))),
      retrieveRegion (fun _ l => l) (id : Fin 3 → Fin 3) ⊥ 1 [[1]] [] 5 4 [] = .ok s ∧
      retrieve (fun _ l => l) (id : Fin 3 → Fin 3) ⊥ 1 [[1]] [] 5 4 = .ok res ∧
      res = [[(0, 1)]] ∧ s.mem 0 = [] :=
  ⟨_, _, rfl, rfl, by decide, rfl⟩

/-- A partial sort for the examples: insertion sort. -/
def insSort (_ : Nat) (l : List (Nat × F)) : List (Nat × F) :=
  l.insertionSort (fun a b => b.2 ≤ a.2)

omit [OrderBot F] in
theorem insSort_ok : IsPSort (insSort (F := F)) := by
  intro k l hk
  have : Std.Total (α := Nat × F) (fun a b => b.2 ≤ a.2) := ⟨fun a b => le_total _ _⟩
  have : IsTrans (Nat × F) (fun a b => b.2 ≤ a.2) := ⟨fun a b c h1 h2 => le_trans h2 h1⟩
  have hs : (insSort k l).Pairwise (fun a b => b.2 ≤ a.2) := List.pairwise_insertionSort _ l
  refine ⟨List.perm_insertionSort _ l, hs.sublist (List.take_sublist _ _), ?_⟩
  rw [← List.take_append_drop k (insSort k l), List.pairwise_append] at hs
  exact hs.2.2

/-- C18: the comparison is made in single precision.  Two different double-precision scores (here 1
and 2) that round to the same single-precision number may come back in the wrong order: item `"a"` is
returned although the eligible item `"b"` has a larger score. -/
theorem C18_single_precision_counterexample :
    ∃ (m : ItemIDMapper String) (cast : Fin 4 → Fin 3), Monotone cast ∧ cast ⊥ = ⊥ ∧
      ItemIDMapper.make ["a", "b"] = .ok m ∧
      m.scoreToItemsBatch insSort cast 2 [[1, 2]] 1 none none none 1 = .ok [[("a", 1)]] :=
  ⟨⟨["a", "b"]⟩, ![0, 1, 1, 2], by decide, by decide, by decide, by decide⟩

/-- Non-vacuity of C18: two users, per-user allowed lists with an unknown ID, a forbidden item, a
score of `-inf`. -/
example : ∃ m : ItemIDMapper String, ItemIDMapper.make ["a", "b", "c"] = .ok m ∧
    m.scoreToItemsBatch insSort (id : Fin 9 → Fin 9) 3 [[1, 3, 2], [4, 0, 5]] 2 none
      (some [["c", "zz", "a", "b"], ["b", "a"]]) (some [["b"], []]) 7
      = .ok [[("c", 2), ("a", 1)], [("a", 4)]] :=
  ⟨⟨["a", "b", "c"]⟩, by decide, by decide⟩

/-! ## C19 -/

/-- C19. For every user of a batch, the single-user method on that user's row and restrictions gives
the same scores (after rounding to single precision) in the same order, for every cutoff ≥ 1 and rows
without `+inf`; and the same items if their rounded scores are distinct. -/
theorem C19_single_agrees_with_batch (ids : List I) (m : ItemIDMapper I)
    (hm : ItemIDMapper.make ids = .ok m) {psort : Nat → List (Nat × F) → List (Nat × F)}
    (hps : IsPSort psort) {argsort : List S → List Nat} (has : IsASort argsort)
    (cast : S → F) (hmono : Monotone cast) (hcast : ∀ s, cast s = ⊥ ↔ s = ⊥) (score : List (List S))
    (hrows : ∀ row ∈ score, row.length = ids.length) (hfin : ∀ row ∈ score, ⊤ ∉ row)
    (cutoff : Nat) (hc : 1 ≤ cutoff) (allowed : Option (List I))
    (perUser forbidden : Option (List (List I)))
    (hpu : ∀ ls, perUser = some ls → ls.length = score.length)
    (hf : ∀ ls, forbidden = some ls → ls.length = score.length)
    (nThreads : Nat) (ht : 0 < nThreads) (u : Nat) (hu : u < score.length) :
    ∃ res one, m.scoreToItemsBatch psort cast ids.length score cutoff allowed perUser forbidden
        nThreads = .ok res ∧
      m.scoreToItems argsort score[u] cutoff (allowedTo allowed perUser u)
        (forbidden.map (fun fs => fs.getD u [])) = .ok one ∧
      ∃ hu' : u < res.length, res[u].map Prod.snd = one.map (fun p => cast p.2) ∧
        ((∀ s ∈ score[u], ∀ t ∈ score[u], cast s = cast t → s = t) → score[u].Nodup →
          res[u].map Prod.fst = one.map Prod.fst) := by
  obtain ⟨hn, rfl⟩ := make_ok hm
  obtain ⟨res, hres, hlen, hrow⟩ := C18_batch_is_top_cutoff m.itemIds m hm hps cast
    ((hcast ⊥).mpr rfl) score hrows cutoff allowed perUser forbidden hpu hf nThreads ht
  have hul : score[u].length = m.itemIds.length := hrows _ (List.getElem_mem hu)
  let sc : I → S := fun x => score[u].getD (m.itemIds.idxOf x) ⊥
  have hsc : ∀ k (h : k < m.itemIds.length) (h' : k < score[u].length),
      sc m.itemIds[k] = score[u][k] := by
    intro k h h'
    simp only [sc]
    rw [hn.idxOf_getElem, List.getD_eq_getElem?_getD, List.getElem?_eq_getElem h', Option.getD_some]
  have hscmem : ∀ x ∈ m.itemIds, sc x ∈ score[u] := by
    intro x hx
    have hlt : m.itemIds.idxOf x < score[u].length := by
      rw [hul]; exact List.idxOf_lt_length_of_mem hx
    simp only [sc]
    rw [List.getD_eq_getElem?_getD, List.getElem?_eq_getElem hlt, Option.getD_some]
    exact List.getElem_mem hlt
  obtain ⟨o1, h1, t1⟩ := single_spec m hn has score[u] hul cutoff (by omega)
    (allowedTo allowed perUser u) (forbidden.map (fun fs => fs.getD u [])) sc hsc
  have hu' : u < res.length := by omega
  obtain ⟨o2, h2, t2⟩ := hrow u hu hu' (fun x => cast (sc x)) (fun k h h' => by
    rw [hsc k h h'])
  have hforb : (forbidden.map (fun fs => fs.getD u [])).getD [] = (forbidden.getD []).getD u [] := by
    cases forbidden <;> simp
  have helig : (eligible m.itemIds (allowedTo allowed perUser u)
      ((forbidden.map (fun fs => fs.getD u [])).getD []) sc).filter (fun x => decide (sc x ≠ ⊤)) =
      eligible m.itemIds (allowedTo allowed perUser u) ((forbidden.getD []).getD u [])
        (fun x => cast (sc x)) := by
    rw [hforb]
    have h3 : eligible m.itemIds (allowedTo allowed perUser u) ((forbidden.getD []).getD u [])
        (fun x => cast (sc x)) = eligible m.itemIds (allowedTo allowed perUser u)
          ((forbidden.getD []).getD u []) sc := by
      unfold eligible
      apply List.filter_congr
      intro x _
      simp only [ne_eq, hcast]
    rw [h3, List.filter_eq_self]
    intro x hx
    have hx' : x ∈ m.itemIds := by
      unfold eligible at hx
      have := (List.mem_filter.mp hx).2
      simp only [decide_eq_true_eq] at this
      exact this.1
    simp only [decide_eq_true_eq]
    intro htop
    exact hfin _ (List.getElem_mem hu) (htop ▸ hscmem x hx')
  rw [helig] at t1
  have t1' := t1.mono hmono
  refine ⟨res, _, hres, h1, hu', ?_, ?_⟩
  · rw [h2, List.map_map, List.map_map]
    exact t2.scores_unique t1'
  · intro hinj hnd
    rw [h2, List.map_map, List.map_map]
    have heq : o2 = o1 := by
      refine t2.unique t1' ?_
      intro a ha b hb hab
      have hk : ∀ x ∈ eligible m.itemIds (allowedTo allowed perUser u)
          ((forbidden.getD []).getD u []) (fun x => cast (sc x)), x ∈ m.itemIds := by
        intro x hx
        unfold eligible at hx
        have := (List.mem_filter.mp hx).2
        simp only [decide_eq_true_eq] at this
        exact this.1
      have ha' := hk a ha
      have hb' := hk b hb
      have hs := hinj _ (hscmem a ha') _ (hscmem b hb') hab
      have hla : m.itemIds.idxOf a < score[u].length := by
        rw [hul]; exact List.idxOf_lt_length_of_mem ha'
      have hlb : m.itemIds.idxOf b < score[u].length := by
        rw [hul]; exact List.idxOf_lt_length_of_mem hb'
      simp only [sc] at hs
      rw [List.getD_eq_getElem?_getD, List.getElem?_eq_getElem hla, Option.getD_some,
        List.getD_eq_getElem?_getD, List.getElem?_eq_getElem hlb, Option.getD_some] at hs
      have := (List.Nodup.getElem_inj_iff hnd).mp hs
      exact (List.idxOf_inj ha').mp this
    rw [heq]
    rfl

/-- An argsort for the examples. -/
def insArgsort (a : List S) : List Nat :=
  (List.range a.length).insertionSort (fun i j => a.getD i ⊥ ≤ a.getD j ⊥)

theorem insArgsort_ok : IsASort (insArgsort (S := S)) := by
  intro a
  have : Std.Total (α := Nat) (fun i j => a.getD i ⊥ ≤ a.getD j ⊥) := ⟨fun _ _ => le_total _ _⟩
  have : IsTrans Nat (fun i j => a.getD i ⊥ ≤ a.getD j ⊥) := ⟨fun _ _ _ h1 h2 => le_trans h1 h2⟩
  refine ⟨List.perm_insertionSort _ _, ?_⟩
  rw [List.pairwise_map]
  refine (List.pairwise_insertionSort (fun i j => a.getD i ⊥ ≤ a.getD j ⊥) (List.range a.length)).imp ?_
  intro i j hij s t hs ht
  rw [List.getD_eq_getElem?_getD, List.getD_eq_getElem?_getD, hs, ht] at hij
  exact hij

/-- C19: outside the stated range the two methods disagree.  With cutoff 0 the single-user method
still returns an item; an item scored `+inf` is returned by the batch method only. -/
theorem C19_cutoff_zero_and_infinite_scores_counterexample :
    ∃ m : ItemIDMapper String, ItemIDMapper.make ["a", "b"] = .ok m ∧
      m.scoreToItems insArgsort ([1, 2] : List (Fin 4)) 0 none none = .ok [("b", 2)] ∧
      m.scoreToItemsBatch insSort (id : Fin 4 → Fin 4) 2 [[1, 2]] 0 none none none 1 = .ok [[]] ∧
      m.scoreToItems insArgsort ([1, 3] : List (Fin 4)) 2 none none = .ok [("a", 1)] ∧
      m.scoreToItemsBatch insSort (id : Fin 4 → Fin 4) 2 [[1, 3]] 2 none none none 1
        = .ok [[("b", 3), ("a", 1)]] :=
  ⟨⟨["a", "b"]⟩, by decide, by decide, by decide, by decide, by decide⟩

/-- Non-vacuity of C19: the hypotheses hold of a batch of two users with a forbidden item. -/
example : ∃ m : ItemIDMapper String, ItemIDMapper.make ["a", "b", "c"] = .ok m ∧
    (∀ row ∈ ([[1, 3, 2], [4, 0, 5]] : List (List (Fin 9))), (⊤ : Fin 9) ∉ row) ∧
    m.scoreToItems insArgsort ([1, 3, 2] : List (Fin 9)) 2 none (some ["b"])
      = .ok [("c", 2), ("a", 1)] :=
  ⟨⟨["a", "b", "c"]⟩, by decide, by decide, by decide⟩

/-! ## C20 -/

theorem seen_mask_get (row : List S) (nz : Nat → Prop) [DecidablePred nz] (k : Nat)
    (h : k < (maskRow row nz).length) (hz : nz k) : (maskRow row nz)[k] = ⊥ := by
  simp only [maskRow, List.getElem_mapIdx, if_pos hz]

/-- what the single-user loop returns comes from the candidate indices -/
theorem seen_pick_mem (m : ItemIDMapper I) (score : List S) (cutoff : Nat)
    (forbidden : Option (List I)) : ∀ (inds : List Nat) (n : Nat) (l : List (I × S)),
    m.pick score cutoff forbidden n inds = .ok l → ∀ p ∈ l, ∃ i ∈ inds, score[i]? = some p.2 ∧
      m.itemIds[i]? = some p.1 ∧ p.2 ≠ ⊥ ∧ p.1 ∉ forbidden.getD [] := by
  intro inds
  induction inds with
  | nil =>
    intro n l h p hp
    unfold ItemIDMapper.pick at h
    injection h with h
    subst h
    simp at hp
  | cons i inds ih =>
    intro n l h p hp
    have lift : (∃ i' ∈ inds, score[i']? = some p.2 ∧ m.itemIds[i']? = some p.1 ∧ p.2 ≠ ⊥ ∧
        p.1 ∉ forbidden.getD []) → ∃ i' ∈ i :: inds, score[i']? = some p.2 ∧
        m.itemIds[i']? = some p.1 ∧ p.2 ≠ ⊥ ∧ p.1 ∉ forbidden.getD [] := by
      rintro ⟨i', h1, h2⟩; exact ⟨i', List.mem_cons_of_mem _ h1, h2⟩
    unfold ItemIDMapper.pick at h
    cases hs : score[i]? with
    | none => rw [hs] at h; cases h
    | some s =>
      cases hid : m.itemIds[i]? with
      | none => rw [hs, hid] at h; cases h
      | some x =>
        rw [hs, hid] at h
        simp only at h
        by_cases h1 : s = ⊥ ∨ s = ⊤
        · rw [if_pos h1] at h; exact lift (ih n l h p hp)
        rw [if_neg h1] at h
        by_cases h2 : ∃ f, forbidden = some f ∧ x ∈ f
        · rw [if_pos h2] at h; exact lift (ih n l h p hp)
        rw [if_neg h2] at h
        have hx : x ∉ forbidden.getD [] := by
          intro hx
          cases forbidden with
          | none => simp at hx
          | some f => exact h2 ⟨f, rfl, hx⟩
        have here : p = (x, s) → ∃ i' ∈ i :: inds, score[i']? = some p.2 ∧
            m.itemIds[i']? = some p.1 ∧ p.2 ≠ ⊥ ∧ p.1 ∉ forbidden.getD [] := by
          rintro rfl
          exact ⟨i, by simp, hs, hid, fun e => h1 (Or.inl e), hx⟩
        by_cases h3 : n + 1 ≥ cutoff
        · rw [if_pos h3] at h
          injection h with h
          subst h
          exact here (by simpa using hp)
        · rw [if_neg h3] at h
          cases h4 : m.pick score cutoff forbidden (n + 1) inds with
          | error e => rw [h4] at h; cases h
          | ok l' =>
            rw [h4] at h
            injection h with h
            subst h
            rcases List.mem_cons.mp hp with hp | hp
            · exact here hp
            · exact lift (ih (n + 1) l' h4 p hp)

/-- one masked row through the single-user method -/
theorem seen_single (m : ItemIDMapper I) (hn : m.itemIds.Nodup) {argsort : List S → List Nat}
    (has : IsASort argsort) (row : List S) (nz : Nat → Prop) [DecidablePred nz] (cutoff : Nat)
    (allowed forbidden : Option (List I)) (l : List (I × S))
    (h : m.scoreToItems argsort (maskRow row nz) cutoff allowed forbidden = .ok l) :
    ∀ p ∈ l, p.1 ∈ m.itemIds ∧ p.1 ∈ allowed.getD m.itemIds ∧ p.1 ∉ forbidden.getD [] ∧
      ¬ nz (m.itemIds.idxOf p.1) := by
  unfold ItemIDMapper.scoreToItems at h
  split at h
  · cases h
  · rename_i hlen
    rw [not_not] at hlen
    obtain ⟨L, hp, hh, -⟩ := high_spec m hn has _ hlen allowed
    intro p hpl
    obtain ⟨i, hi, hs, hid, hb, hf⟩ := seen_pick_mem m _ cutoff forbidden _ 0 l h p hpl
    have hh' : m.highScoreInds argsort (maskRow row nz) allowed =
      L.map (fun x => m.itemIds.idxOf x) := hh
    rw [hh'] at hi
    obtain ⟨x, hx, rfl⟩ := List.mem_map.mp hi
    have hx' := hp.mem_iff.mp hx
    rw [List.mem_filter, decide_eq_true_eq] at hx'
    rw [getElem_idxOf hx'.2] at hid
    injection hid with hid
    subst hid
    refine ⟨hx'.2, hx'.1, hf, ?_⟩
    intro hz
    obtain ⟨hk, hk'⟩ := List.getElem?_eq_some_iff.mp hs
    rw [seen_mask_get row nz _ hk hz] at hk'
    exact hb hk'.symm

/-- one masked row through the batch method -/
theorem seen_batch (m : ItemIDMapper I) (hn : m.itemIds.Nodup)
    {psort : Nat → List (Nat × F) → List (Nat × F)} (hps : IsPSort psort) (cast : S → F)
    (hcast : cast ⊥ = ⊥) (nCols : Nat) (score : List (List S)) (hrows : ∀ row ∈ score, row.length = nCols)
    (cutoff : Nat) (allowed : Option (List I))
    (perUser forbidden : Option (List (List I))) (nThreads : Nat) (res : List (List (I × F)))
    (h : m.scoreToItemsBatch psort cast nCols score cutoff allowed perUser forbidden nThreads = .ok res) :
    res.length = score.length ∧ ∀ u (hu : u < score.length) (hu' : u < res.length), ∀ p ∈ res[u],
      p.1 ∈ m.itemIds ∧ p.1 ∈ (allowedTo allowed perUser u).getD m.itemIds ∧
      p.1 ∉ (forbidden.getD []).getD u [] ∧ score[u].getD (m.itemIds.idxOf p.1) ⊥ ≠ ⊥ := by
  have hbad := C18_rejects_bad_arguments m psort cast nCols score cutoff allowed perUser forbidden nThreads
  rw [h] at hbad
  have hgood : ¬ (nCols ≠ m.itemIds.length ∨ (∃ ls, perUser = some ls ∧ ls.length ≠ score.length) ∨
      (∃ ls, forbidden = some ls ∧ ls.length ≠ score.length) ∨ nThreads = 0) := by
    intro hb; obtain ⟨e, he⟩ := hbad hb; cases he
  push Not at hgood
  obtain ⟨g1, g2, g3, g4⟩ := hgood
  have hmake : ItemIDMapper.make m.itemIds = .ok m := by
    unfold ItemIDMapper.make; rw [if_neg (by rw [hn.dedup]; simp)]
  subst g1
  obtain ⟨res', hres', hlen, hrow⟩ := C18_batch_is_top_cutoff m.itemIds m hmake hps cast hcast score
    hrows cutoff allowed perUser forbidden g2 g3 nThreads (by omega)
  rw [h] at hres'
  injection hres' with hres'
  subst hres'
  refine ⟨hlen, ?_⟩
  intro u hu hu' p hp
  have hul : score[u].length = m.itemIds.length := hrows _ (List.getElem_mem hu)
  obtain ⟨out, ho, ht⟩ := hrow u hu hu' (fun x => cast (score[u].getD (m.itemIds.idxOf x) ⊥)) (by
    intro k hk hk'
    rw [hn.idxOf_getElem, List.getD_eq_getElem?_getD, List.getElem?_eq_getElem hk', Option.getD_some])
  rw [ho] at hp
  obtain ⟨x, hx, rfl⟩ := List.mem_map.mp hp
  have hx' := ht.subset x hx
  unfold eligible at hx'
  rw [List.mem_filter, decide_eq_true_eq] at hx'
  refine ⟨hx'.2.1, hx'.1, hx'.2.2.1, ?_⟩
  intro hb
  exact hx'.2.2.2 ((congrArg cast hb).trans hcast)

/-- C20 (known user). Whatever scores the recommender returns, the items returned for a known user
are known, allowed, not forbidden, and have no non-zero entry in that user's training row. -/
theorem C20_known_user (userIds : List U) (itemIds : List I) (m : IDMapper U I)
    (hm : IDMapper.make userIds itemIds = .ok m) {argsort : List S → List Nat} (has : IsASort argsort)
    (r : Rec S) (user : U) (cutoff : Nat) (allowed forbidden : Option (List I)) (l : List (I × S))
    (h : m.recommendKnownUser argsort r user cutoff allowed forbidden = .ok l) :
    user ∈ userIds ∧ ∀ p ∈ l, p.1 ∈ itemIds ∧ p.1 ∈ allowed.getD itemIds ∧ p.1 ∉ forbidden.getD [] ∧
      r.trainNz (userIds.idxOf user) (itemIds.idxOf p.1) = false := by
  obtain ⟨rfl, rfl, hn⟩ := idmapper_make_ok hm
  unfold IDMapper.recommendKnownUser at h
  split at h
  · cases h
  · split at h
    · cases h
    · rename_i _ hmem
      rw [not_not] at hmem
      refine ⟨hmem, ?_⟩
      unfold Rec.getScoreRemoveSeen at h
      cases hs : r.getScore [m.userIds.idxOf user] with
      | error e => rw [hs] at h; cases h
      | ok sc =>
        rw [hs] at h
        cases sc with
        | nil => cases h
        | cons row rest =>
          simp only [List.mapIdx_cons] at h
          intro p hp
          have := seen_single m.items hn has row _ cutoff allowed forbidden l h p hp
          exact ⟨this.1, this.2.1, this.2.2.1, by simpa using this.2.2.2⟩

/-- C20 (known users, batch).  The recommender returns one row of `n_items` scores per requested
user; the scores are arbitrary. -/
theorem C20_known_users_batch (userIds : List U) (itemIds : List I) (m : IDMapper U I)
    (hm : IDMapper.make userIds itemIds = .ok m) {psort : Nat → List (Nat × F) → List (Nat × F)}
    (hps : IsPSort psort) (cast : S → F) (hcast : cast ⊥ = ⊥) (r : Rec S)
    (hshape : ∀ us sc, r.getScore us = .ok sc → sc.length = us.length ∧ ∀ row ∈ sc, row.length = r.nItems)
    (users : List U) (cutoff : Nat) (allowed : Option (List I))
    (perUser forbidden : Option (List (List I))) (nThreads : Nat) (res : List (List (I × F)))
    (h : m.recommendKnownUserBatch psort cast r users cutoff allowed perUser forbidden nThreads
      = .ok res) :
    (∀ u ∈ users, u ∈ userIds) ∧ res.length = users.length ∧
    ∀ j (hj : j < users.length) (hj' : j < res.length), ∀ p ∈ res[j],
      p.1 ∈ itemIds ∧ p.1 ∈ (allowedTo allowed perUser j).getD itemIds ∧
      p.1 ∉ (forbidden.getD []).getD j [] ∧
      r.trainNz (userIds.idxOf users[j]) (itemIds.idxOf p.1) = false := by
  obtain ⟨rfl, rfl, hn⟩ := idmapper_make_ok hm
  unfold IDMapper.recommendKnownUserBatch at h
  split at h
  · cases h
  · split at h
    · cases h
    · rename_i _ hmem
      rw [not_not] at hmem
      refine ⟨hmem, ?_⟩
      unfold Rec.getScoreRemoveSeen at h
      cases hs : r.getScore (users.map (fun u => m.userIds.idxOf u)) with
      | error e => rw [hs] at h; cases h
      | ok sc =>
        rw [hs] at h
        simp only at h
        obtain ⟨hl, hr⟩ := hshape _ _ hs
        rw [List.length_map] at hl
        have hb := seen_batch m.items hn hps cast hcast r.nItems _ (by
          intro row hrow
          obtain ⟨k, hk, rfl⟩ := List.mem_iff_getElem.mp hrow
          rw [List.getElem_mapIdx]
          simp only [maskRow, List.length_mapIdx]
          exact hr _ (List.getElem_mem _)) cutoff allowed perUser forbidden nThreads res h
        refine ⟨by rw [hb.1, List.length_mapIdx, hl], ?_⟩
        intro j hj hj' p hp
        obtain ⟨b1, b2, b3, b4⟩ := hb.2 j (by rw [List.length_mapIdx, hl]; exact hj) hj' p hp
        refine ⟨b1, b2, b3, ?_⟩
        rw [List.getElem_mapIdx] at b4
        by_contra hz
        rw [Bool.not_eq_false] at hz
        apply b4
        have hget : (users.map (fun u => m.userIds.idxOf u)).getD j 0 = m.userIds.idxOf users[j] := by
          rw [List.getD_eq_getElem?_getD, List.getElem?_map, List.getElem?_eq_getElem hj]; rfl
        rw [hget]
        by_cases hk : m.items.itemIds.idxOf p.1 < (maskRow sc[j] (fun i =>
            r.trainNz (m.userIds.idxOf users[j]) i = true)).length
        · rw [List.getD_eq_getElem?_getD, List.getElem?_eq_getElem hk, Option.getD_some]
          exact seen_mask_get _ _ _ hk hz
        · rw [List.getD_eq_getElem?_getD, List.getElem?_eq_none (by omega), Option.getD_none]

/-- The profile gives a non-zero weight to the item. -/
def inProfile (p : Profile I) (x : I) : Prop :=
  match p with
  | .ids l => x ∈ l
  | .weights l => ∃ w, (x, w) ∈ l ∧ w ≠ 0

theorem seen_profile (m : ItemIDMapper I) (hn : m.itemIds.Nodup) (p : Profile I) (x : I)
    (hx : x ∈ m.itemIds) (hp : inProfile p x) :
    colNonzero (m.profileDataCol p) (m.itemIds.idxOf x) := by
  obtain ⟨L, hL, hL'⟩ := dataCol_pairs m p
  have hidx : m.index? x = some (m.itemIds.idxOf x) := by
    unfold ItemIDMapper.index?; rw [if_pos hx]
  have hq : ∃ w : ℝ, w ≠ 0 ∧ (w, m.itemIds.idxOf x) ∈ L := by
    cases p with
    | ids l =>
      refine ⟨1, one_ne_zero, ?_⟩
      rw [hL']
      exact List.mem_filterMap.mpr ⟨x, hp, by rw [hidx]; rfl⟩
    | weights l =>
      obtain ⟨w, hw, hne⟩ := hp
      refine ⟨w, hne, ?_⟩
      rw [hL']
      exact List.mem_filterMap.mpr ⟨(x, w), hw, by simp only [hidx]; rfl⟩
  obtain ⟨w, hw, hmem⟩ := hq
  obtain ⟨t, ht, hte⟩ := List.mem_iff_getElem.mp hmem
  rw [hL]
  refine ⟨t, by simpa using ht, ?_, ?_⟩
  · rw [List.getElem?_map, List.getElem?_eq_getElem ht, hte]; rfl
  · rw [List.getD_eq_getElem?_getD, List.getElem?_map, List.getElem?_eq_getElem ht, hte]
    exact hw

/-- C20 (new user). Whatever the recommender returns, no item of the supplied profile with a non-zero
weight is returned. -/
theorem C20_new_user (ids : List I) (m : ItemIDMapper I) (hm : ItemIDMapper.make ids = .ok m)
    {argsort : List S → List Nat} (has : IsASort argsort) (r : Rec S) (profile : Profile I)
    (cutoff : Nat) (allowed forbidden : Option (List I)) (l : List (I × S))
    (h : m.recommendNewUser argsort r profile cutoff allowed forbidden = .ok l) :
    ∀ p ∈ l, p.1 ∈ ids ∧ p.1 ∈ allowed.getD ids ∧ p.1 ∉ forbidden.getD [] ∧
      ¬ inProfile profile p.1 := by
  classical
  obtain ⟨hn, rfl⟩ := make_ok hm
  unfold ItemIDMapper.recommendNewUser at h
  split at h
  · cases h
  · simp only at h
    unfold Rec.getScoreColdRemoveSeen at h
    cases hs : r.getScoreCold ⟨(m.profileDataCol profile).1, (m.profileDataCol profile).2,
        [0, (m.profileDataCol profile).2.length], 1, m.itemIds.length⟩ with
    | error e => rw [hs] at h; cases h
    | ok sc =>
      rw [hs] at h
      cases sc with
      | nil => cases h
      | cons row rest =>
        simp only [List.mapIdx_cons] at h
        intro p hp
        have := seen_single m hn has row _ cutoff allowed forbidden l h p hp
        refine ⟨this.1, this.2.1, this.2.2.1, ?_⟩
        intro hprof
        apply this.2.2.2
        exact (single_nonzero _ _ _).mpr (seen_profile m hn profile p.1 this.1 hprof)

/-- C20 (new users, batch). -/
theorem C20_new_users_batch (ids : List I) (m : ItemIDMapper I) (hm : ItemIDMapper.make ids = .ok m)
    {psort : Nat → List (Nat × F) → List (Nat × F)}
    (hps : IsPSort psort) (cast : S → F) (hcast : cast ⊥ = ⊥) (r : Rec S)
    (hshape : ∀ X sc, r.getScoreCold X = .ok sc → sc.length = X.nRows ∧
      ∀ row ∈ sc, row.length = r.nItems)
    (profiles : List (Profile I)) (cutoff : Nat) (allowed : Option (List I))
    (perUser forbidden : Option (List (List I))) (nThreads : Nat) (res : List (List (I × F)))
    (h : m.recommendNewUserBatch psort cast r profiles cutoff allowed perUser forbidden nThreads
      = .ok res) :
    res.length = profiles.length ∧
    ∀ j (hj : j < profiles.length) (hj' : j < res.length), ∀ p ∈ res[j],
      p.1 ∈ ids ∧ p.1 ∈ (allowedTo allowed perUser j).getD ids ∧
      p.1 ∉ (forbidden.getD []).getD j [] ∧ ¬ inProfile profiles[j] p.1 := by
  classical
  obtain ⟨hn, rfl⟩ := make_ok hm
  unfold ItemIDMapper.recommendNewUserBatch at h
  split at h
  · cases h
  · unfold Rec.getScoreColdRemoveSeen at h
    cases hs : r.getScoreCold (m.profilesToMatrix profiles) with
    | error e => rw [hs] at h; cases h
    | ok sc =>
      rw [hs] at h
      simp only at h
      obtain ⟨hl, hr⟩ := hshape _ _ hs
      have hl' : sc.length = profiles.length := hl
      have hb := seen_batch m hn hps cast hcast r.nItems _ (by
        intro row hrow
        obtain ⟨k, hk, rfl⟩ := List.mem_iff_getElem.mp hrow
        rw [List.getElem_mapIdx]
        simp only [maskRow, List.length_mapIdx]
        exact hr _ (List.getElem_mem _)) cutoff allowed perUser forbidden nThreads res h
      refine ⟨by rw [hb.1, List.length_mapIdx, hl'], ?_⟩
      intro j hj hj' p hp
      obtain ⟨b1, b2, b3, b4⟩ := hb.2 j (by rw [List.length_mapIdx, hl']; exact hj) hj' p hp
      refine ⟨b1, b2, b3, ?_⟩
      rw [List.getElem_mapIdx] at b4
      intro hprof
      apply b4
      have hz := (nonzero_row m profiles j hj _).mpr (seen_profile m hn profiles[j] p.1 b1 hprof)
      set mr := maskRow sc[j] (fun i => (m.profilesToMatrix profiles).nonzero j i) with hmr
      by_cases hk : m.itemIds.idxOf p.1 < mr.length
      · rw [List.getD_eq_getElem?_getD, List.getElem?_eq_getElem hk, Option.getD_some]
        exact seen_mask_get _ _ _ hk hz
      · rw [List.getD_eq_getElem?_getD, List.getElem?_eq_none (by omega), Option.getD_none]

/-- Non-vacuity of C20: a recommender that would rank the seen item first; the call succeeds and
returns the best unseen allowed item. -/
example : ∃ m : IDMapper String String, IDMapper.make ["u", "v"] ["a", "b", "c"] = .ok m ∧
    m.recommendKnownUser insArgsort
      (⟨2, 3, fun u i => decide (u = 1 ∧ i = 0), fun us => .ok (us.map (fun _ => [3, 2, 1])),
        fun _ => .error .notImplemented⟩ : Rec (Fin 5)) "v" 1 (some ["c", "a", "b", "zz"]) (some ["b"])
      = .ok [("c", 1)] :=
  ⟨⟨⟨["a", "b", "c"]⟩, ["u", "v"]⟩, by decide, by decide⟩

/-! ## C21 -/

/-- C21. A mapper is created exactly for pairwise distinct IDs. -/
theorem C21_created_iff_distinct (userIds : List U) (itemIds : List I) :
    (∃ m, IDMapper.make userIds itemIds = .ok m) ↔ userIds.Nodup ∧ itemIds.Nodup := by
  have key : ∀ {A : Type} [DecidableEq A] (l : List A), l.length = l.dedup.length ↔ l.Nodup := by
    intro A _ l
    constructor
    · intro h
      have : l.dedup = l := (List.dedup_sublist l).eq_of_length h.symm
      rw [← this]; exact List.nodup_dedup l
    · intro h; rw [h.dedup]
  unfold IDMapper.make ItemIDMapper.make
  by_cases h1 : itemIds.Nodup
  · by_cases h2 : userIds.Nodup
    · refine ⟨fun _ => ⟨h2, h1⟩, fun _ => ⟨_, by
        rw [if_neg (not_not.mpr ((key itemIds).mpr h1))]
        simp only
        rw [if_neg (not_not.mpr ((key userIds).mpr h2))]⟩⟩
    · refine ⟨?_, fun h => absurd h.1 h2⟩
      rintro ⟨m, hm⟩
      rw [if_neg (not_not.mpr ((key itemIds).mpr h1))] at hm
      simp only at hm
      rw [if_pos (fun h => h2 ((key userIds).mp h))] at hm
      cases hm
  · refine ⟨?_, fun h => absurd h.2 h1⟩
    rintro ⟨m, hm⟩
    rw [if_pos (fun h => h1 ((key itemIds).mp h))] at hm
    cases hm

/-- C21. Index ↔ ID conversion is a bijection between positions and known IDs. -/
theorem C21_index_round_trip (ids : List I) (m : ItemIDMapper I) (hm : ItemIDMapper.make ids = .ok m)
    (x : I) (k : Nat) : m.index? x = some k ↔ ids[k]? = some x := by
  obtain ⟨hn, rfl⟩ := make_ok hm
  exact index?_eq_some m hn x k

/-- The weight a profile gives to an item: the number of occurrences in a list; in a dict (distinct
keys) the value, or 0 for an absent key. -/
noncomputable def weightIn (p : Profile I) (x : I) : ℝ :=
  match p with
  | .ids l => (l.count x : ℝ)
  | .weights l => (((l.find? (fun q => decide (q.1 = x))).map Prod.snd).getD 0)

/-- A profile given as a dict has distinct keys. -/
def ProfileOk (p : Profile I) : Prop :=
  match p with
  | .ids _ => True
  | .weights l => (l.map Prod.fst).Nodup

theorem profile_weight (ids : List I) (m : ItemIDMapper I) (hm : ItemIDMapper.make ids = .ok m)
    (p : Profile I) (hp : ProfileOk p) (k : Nat) (hk : k < ids.length) :
    colWeight (m.profileDataCol p) k = weightIn p ids[k] := by
  obtain ⟨hn, rfl⟩ := make_ok hm
  obtain ⟨L, hL, rfl⟩ := dataCol_pairs m p
  rw [hL, colWeight_pairs]
  have hidx : ∀ x, m.index? x = some k ↔ x = m.itemIds[k] := by
    intro x
    rw [index?_eq_some m hn, List.getElem?_eq_getElem hk]
    constructor
    · intro h; injection h with h; exact h.symm
    · rintro rfl; rfl
  cases p with
  | ids l =>
    simp only [weightIn]
    clear hL hp
    induction l with
    | nil => simp
    | cons a l ih =>
      rw [List.filterMap_cons, List.count_cons]
      cases h : m.index? a with
      | none =>
        have : ¬ a = m.itemIds[k] := fun e => by rw [(hidx a).mpr e] at h; cases h
        simp only [Option.map_none]
        rw [ih]
        simp [this]
      | some i =>
        simp only [Option.map_some, List.filter_cons]
        by_cases hi : i = k
        · subst hi
          have := (hidx a).mp h
          simp only [decide_true, if_true, List.map_cons, List.sum_cons, ih]
          simp [this, add_comm]
        · have : ¬ a = m.itemIds[k] := fun e => by
            rw [(hidx a).mpr e] at h; injection h with h; exact hi h.symm
          simp only [hi, decide_false, Bool.false_eq_true, if_false, ih]
          simp [this]
  | weights l =>
    simp only [weightIn, ProfileOk] at hp ⊢
    clear hL
    induction l with
    | nil => simp
    | cons a l ih =>
      rw [List.map_cons, List.nodup_cons] at hp
      rw [List.filterMap_cons, List.find?_cons]
      by_cases ha : a.1 = m.itemIds[k]
      · have h := (hidx a.1).mpr ha
        rw [h]
        simp only [Option.map_some, List.filter_cons, decide_true, if_true, List.map_cons,
          List.sum_cons, ha]
        have hzero : ((l.filterMap (fun q => (m.index? q.1).map (fun i => (q.2, i)))).filter
            (fun q => decide (q.2 = k))) = [] := by
          rw [List.filter_eq_nil_iff]
          intro q hq
          obtain ⟨q', hq', hq2⟩ := List.mem_filterMap.mp hq
          simp only [decide_eq_true_eq]
          rintro rfl
          cases hx : m.index? q'.1 with
          | none => rw [hx] at hq2; cases hq2
          | some i =>
            rw [hx] at hq2
            injection hq2 with hq2
            subst hq2
            have := (hidx q'.1).mp hx
            exact hp.1 (List.mem_map.mpr ⟨q', hq', by rw [this, ha]⟩)
        rw [hzero]
        simp
      · simp only [ha, decide_false]
        rw [← ih hp.2]
        cases h : m.index? a.1 with
        | none => simp
        | some i =>
          have hi : ¬ i = k := fun e => by
            subst e; exact ha ((hidx a.1).mp h)
          simp only [Option.map_some, List.filter_cons, hi, decide_false, Bool.false_eq_true, if_false]

/-- C21. Entry `(u, k)` of the matrix built from a list of profiles is the weight profile `u` gives to
the item with index `k`; unknown IDs have no effect. -/
theorem C21_profile_matrix (ids : List I) (m : ItemIDMapper I) (hm : ItemIDMapper.make ids = .ok m)
    (ps : List (Profile I)) (hps : ∀ p ∈ ps, ProfileOk p) :
    (m.profilesToMatrix ps).nRows = ps.length ∧ (m.profilesToMatrix ps).nCols = ids.length ∧
    ∀ u (hu : u < ps.length) k (hk : k < ids.length),
      (m.profilesToMatrix ps).get u k = weightIn ps[u] ids[k] := by
  refine ⟨rfl, by rw [← (make_ok hm).2]; rfl, ?_⟩
  intro u hu k hk
  rw [get_row m ps u hu]
  exact profile_weight ids m hm _ (hps _ (List.getElem_mem hu)) k hk

/-- C21. Row `u` of the batch matrix is the one-row matrix of profile `u`. -/
theorem C21_batch_rows (m : ItemIDMapper I) (ps : List (Profile I)) (u : Nat) (hu : u < ps.length)
    (k : Nat) :
    (m.profilesToMatrix ps).get u k = (m.profilesToMatrix [ps[u]]).get 0 k ∧
    ((m.profilesToMatrix ps).nonzero u k ↔ (m.profilesToMatrix [ps[u]]).nonzero 0 k) := by
  constructor
  · rw [get_row m ps u hu, get_row m [ps[u]] 0 (by simp)]; rfl
  · rw [nonzero_row m ps u hu, nonzero_row m [ps[u]] 0 (by simp)]; rfl

/-- Non-vacuity of C21: a list profile with a repeated and an unknown ID, and a dict profile. -/
example : ∃ m : ItemIDMapper String, ItemIDMapper.make ["a", "b"] = .ok m ∧
    (∀ p ∈ [Profile.ids ["b", "zz", "b"], Profile.weights [("b", (5 : ℝ)), ("a", 3)]], ProfileOk p) ∧
    (m.profilesToMatrix [.ids ["b", "zz", "b"], .weights [("b", 5), ("a", 3)]]).get 0 1 = 2 := by
  refine ⟨⟨["a", "b"]⟩, by decide, by simp [ProfileOk], ?_⟩
  rw [(C21_profile_matrix ["a", "b"] ⟨["a", "b"]⟩ (by decide) _ (by simp [ProfileOk])).2.2 0 (by simp)
    1 (by simp)]
  simp [weightIn]

end Irspack.Props
