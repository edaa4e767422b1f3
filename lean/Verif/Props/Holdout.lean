import Verif.Proofs.Holdout

/-!
# C25 – C29: user hold-out, specified hold-out, frames and pairs
-/

namespace Irspack.Props
open Irspack Spec Split

variable {U I T : Type} [LinearOrder U] [LinearOrder I] [LinearOrder T]

/-! ## C28 -/

/-- C28. In the matrix of `df_to_sparse` the entry of user `us[k]` and item `is[j]` is the sum of the
ratings (or the number) of the frame's rows with that user and item.  Given ids are used as they are;
otherwise the ids are the sorted distinct values (of the rows that are not dropped because of the other
list).  No position is stored twice. -/
theorem C28_frame_to_matrix (df : List (Row U I T)) (userIds : Option (List U))
    (itemIds : Option (List I)) (useRating : Bool) (X : Csr ℝ) (us : List U) (is : List I)
    (h : dfToSparse df userIds itemIds useRating = .ok (X, us, is)) :
    us.Nodup ∧ is.Nodup ∧ X.rows.length = us.length ∧ X.nCols = is.length ∧ Canonical X ∧
    (∀ l, userIds = some l → us = l) ∧ (∀ l, itemIds = some l → is = l) ∧
    (userIds = none → us.Pairwise (· ≤ ·) ∧ ∀ u, u ∈ us ↔ ∃ r ∈ df, r.user = u ∧
      ∀ l, itemIds = some l → r.item ∈ l) ∧
    (itemIds = none → is.Pairwise (· ≤ ·) ∧ ∀ i, i ∈ is ↔ ∃ r ∈ df, r.item = i ∧
      ∀ l, userIds = some l → r.user ∈ l) ∧
    (∀ k (hk : k < us.length) j (hj : j < is.length),
      entry X k j = totalWeight useRating df us[k] is[j]) ∧
    ∀ k (hk : k < us.length) j, (j ∈ storedCols X k ↔
      ∃ hj : j < is.length, ∃ r ∈ df, r.user = us[k] ∧ r.item = is[j]) := by
  obtain ⟨a1, a2, a3, a4, a5, a6, a7, a8, a9, a10, a11⟩ := dfToSparse_ok h
  refine ⟨a1, a2, a3, a4, a5, a6, a7, a8, a9, a10, ?_⟩
  intro k hk j
  unfold storedCols
  rw [a11 k hk j]
  constructor
  · rintro ⟨hj, h⟩; exact ⟨hj, (events_ne_nil _ _ _).mp h⟩
  · rintro ⟨hj, h⟩; exact ⟨hj, (events_ne_nil _ _ _).mpr h⟩

/-- C28. The conversion succeeds exactly when given id lists have no repetitions (for the user list,
whatever the item list; for the item list, provided the user list is fine). -/
theorem C28_succeeds_iff (df : List (Row U I T)) (userIds : Option (List U))
    (itemIds : Option (List I)) (useRating : Bool) :
    (∃ r, dfToSparse df userIds itemIds useRating = .ok r) ↔
      (∀ l, userIds = some l → l.Nodup) ∧ (∀ l, itemIds = some l → l.Nodup) := by
  constructor
  · rintro ⟨⟨X, us, is⟩, h⟩
    obtain ⟨a1, a2, -, -, -, a6, a7, -⟩ := dfToSparse_ok h
    exact ⟨fun l hl => a6 l hl ▸ a1, fun l hl => a7 l hl ▸ a2⟩
  · rintro ⟨h1, h2⟩
    exact dfToSparse_total df userIds itemIds useRating h1 h2

/-- C28 (nothing lost). Without id lists the sum of all entries is the total of the frame. -/
theorem C28_total_weight (df : List (Row U I T)) (useRating : Bool) (X : Csr ℝ) (us : List U)
    (is : List I) (h : dfToSparse df none none useRating = .ok (X, us, is)) :
    (∑ k : Fin us.length, ∑ j : Fin is.length, entry X k j) =
      (df.map (fun r => if useRating then r.rating else 1)).sum := by
  obtain ⟨nu, ni, -, -, -, -, -, hus, his, he, -⟩ := dfToSparse_ok h
  have hu : ∀ r ∈ df, r.user ∈ us := fun r hr => ((hus rfl).2 _).mpr ⟨r, hr, rfl, by simp⟩
  have hi : ∀ r ∈ df, r.item ∈ is := fun r hr => ((his rfl).2 _).mpr ⟨r, hr, rfl, by simp⟩
  have h1 : (∑ k : Fin us.length, ∑ j : Fin is.length, entry X k j) =
      ∑ k : Fin us.length, ∑ j : Fin is.length, totalWeight useRating df us[k] is[j] := by
    apply Finset.sum_congr rfl; intro k _
    apply Finset.sum_congr rfl; intro j _
    exact he k k.2 j j.2
  rw [h1]
  clear h1 he hus his h
  induction df with
  | nil => simp [totalWeight, eventsOf]
  | cons r df ih =>
    rw [List.map_cons, List.sum_cons,
      ← ih (fun q hq => hu q (by simp [hq])) (fun q hq => hi q (by simp [hq]))]
    have hstep : ∀ u i, totalWeight useRating (r :: df) u i =
        (if r.user = u ∧ r.item = i then (if useRating then r.rating else 1) else 0) +
          totalWeight useRating df u i := by
      intro u i
      unfold totalWeight eventsOf
      rw [List.filter_cons]
      by_cases h : r.user = u ∧ r.item = i
      · rw [if_pos (decide_eq_true h), if_pos h, List.map_cons, List.sum_cons]
      · rw [if_neg (by simpa using h), if_neg h, zero_add]
    simp only [hstep, Finset.sum_add_distrib]
    congr 1
    obtain ⟨k, hk, hku⟩ := List.mem_iff_getElem.mp (hu r (by simp))
    obtain ⟨j, hj, hji⟩ := List.mem_iff_getElem.mp (hi r (by simp))
    rw [Finset.sum_eq_single ⟨k, hk⟩, Finset.sum_eq_single ⟨j, hj⟩]
    · simp only [Fin.getElem_fin]
      rw [if_pos ⟨hku.symm, hji.symm⟩]
    · intro j' _ hne
      rw [if_neg]
      rintro ⟨-, h⟩
      apply hne
      simp only [Fin.getElem_fin] at h
      rw [← hji] at h
      exact Fin.ext ((ni.getElem_inj_iff).mp h.symm)
    · simp
    · intro k' _ hne
      apply Finset.sum_eq_zero
      intro j' _
      rw [if_neg]
      rintro ⟨h, -⟩
      apply hne
      simp only [Fin.getElem_fin] at h
      rw [← hku] at h
      exact Fin.ext ((nu.getElem_inj_iff).mp h.symm)
    · simp

/-- Non-vacuity of C28: a repeated pair; item 9 is not listed and its row is dropped. -/
example : ∃ X, dfToSparse [⟨7, 1, 0, 2⟩, ⟨3, 1, 0, 5⟩, ⟨7, 1, 0, 4⟩, ⟨8, 9, 0, 1⟩]
      none (some [2, 1]) true = .ok (X, [3, 7], [2, 1]) ∧
    totalWeight true [⟨7, 1, 0, 2⟩, ⟨3, 1, 0, 5⟩, ⟨7, 1, 0, 4⟩, ⟨8, 9, 0, 1⟩] 7 1 = 6 ∧
    entry X 1 1 = 6 := by
  have h : ∃ X, dfToSparse ([⟨7, 1, 0, 2⟩, ⟨3, 1, 0, 5⟩, ⟨7, 1, 0, 4⟩, ⟨8, 9, 0, 1⟩] : List (Row Nat Nat Nat))
      none (some [2, 1]) true = .ok (X, [3, 7], [2, 1]) := ⟨_, rfl⟩
  obtain ⟨X, h⟩ := h
  have hw : totalWeight true ([⟨7, 1, 0, 2⟩, ⟨3, 1, 0, 5⟩, ⟨7, 1, 0, 4⟩, ⟨8, 9, 0, 1⟩] :
      List (Row Nat Nat Nat)) 7 1 = 6 := by
    simp [totalWeight, eventsOf]; norm_num
  refine ⟨X, h, hw, ?_⟩
  rw [(C28_frame_to_matrix _ _ _ _ _ _ _ h).2.2.2.2.2.2.2.2.2.1 1 (by simp) 1 (by simp)]
  exact hw

/-! ## C29 -/

/-- C29. The constructor accepts exactly consistent shapes. -/
theorem C29_accepts_iff (userIds : List U) (xTrain : Csr ℝ) (xTest : Option (Csr ℝ))
    (itemIds : Option (List I)) :
    (∃ p, UserPair.make userIds xTrain xTest itemIds = .ok p) ↔
      userIds.length = xTrain.rows.length ∧
      (∀ xt, xTest = some xt → xt.rows.length = xTrain.rows.length ∧ xt.nCols = xTrain.nCols) ∧
      (∀ l, itemIds = some l → l.length = xTrain.nCols) := by
  constructor
  · rintro ⟨p, h⟩
    obtain ⟨h1, h2, h3, -⟩ := make_ok h
    refine ⟨h1, ?_, h3⟩
    intro xt hx
    have := h2 xt hx
    unfold Csr.shape at this
    injection this with a b
    exact ⟨a.symm, b.symm⟩
  · rintro ⟨h1, h2, h3⟩
    unfold UserPair.make
    rw [if_neg (not_not.mpr h1), if_neg]
    · simp only
      rw [if_neg]
      · exact ⟨_, rfl⟩
      · rintro ⟨l, hl, hne⟩
        apply hne
        rw [h3 l hl]
        cases hx : xTest with
        | none => rfl
        | some xt => exact (h2 xt hx).2.symm
    · rintro ⟨xt, hx, hne⟩
      apply hne
      obtain ⟨a, b⟩ := h2 xt hx
      unfold Csr.shape
      rw [a, b]

/-- C29 (rejection). Inconsistent shapes are a `ValueError`, and nothing else is ever raised. -/
theorem C29_rejects_with_value_error (userIds : List U) (xTrain : Csr ℝ) (xTest : Option (Csr ℝ))
    (itemIds : Option (List I)) (e : Err)
    (h : UserPair.make userIds xTrain xTest itemIds = .error e) : e = .valueError := by
  unfold UserPair.make at h
  split at h
  · cases h; rfl
  · split at h
    · cases h; rfl
    · simp only at h
      split at h
      · cases h; rfl
      · cases h

/-- the hypothesis of the previous theorem is met, e.g. by one user ID for no rows -/
example : UserPair.make ["u"] ⟨2, []⟩ none (none : Option (List Nat)) = .error .valueError := by
  unfold UserPair.make
  rw [if_pos (by decide)]

/-- C29. `X_all` is the sum of the two parts, entry by entry, and stores no zeros. -/
theorem C29_all_is_sum (userIds : List U) (xTrain : Csr ℝ) (xTest : Option (Csr ℝ))
    (itemIds : Option (List I)) (p : UserPair U I)
    (h : UserPair.make userIds xTrain xTest itemIds = .ok p) (k j : Nat) :
    entry p.xAll k j = entry p.xTrain k j + entry p.xTest k j ∧
    (xTest = none → entry p.xAll k j = entry xTrain k j) := by
  classical
  obtain ⟨h1, h2, h3, rfl⟩ := make_ok h
  have hnz : ∀ row : List (Nat × ℝ), (row.map Prod.fst).Nodup → ∀ i,
      rowEntry (row.filter (fun p => decide (p.2 ≠ 0))) i = rowEntry row i := by
    intro row _ i
    induction row with
    | nil => rfl
    | cons q row ih =>
      rw [List.filter_cons, rowEntry_cons]
      have hn' : (row.map Prod.fst).Nodup := by
        rename_i hn; rw [List.map_cons, List.nodup_cons] at hn; exact hn.2
      by_cases hq : q.2 = 0
      · rw [if_neg (by simpa using hq), ih hn', hq]; simp
      · rw [if_pos (by simpa using hq), rowEntry_cons, ih hn']
  have hlen : (xTest.getD (Csr.empty xTrain.shape)).rows.length = xTrain.rows.length := by
    cases hx : xTest with
    | none => simp [Csr.empty, Csr.shape]
    | some xt =>
      have := h2 xt hx
      unfold Csr.shape at this
      injection this with a b
      exact a.symm
  have hsum : entry (UserPair.xAll ⟨userIds, xTrain, xTest.getD (Csr.empty xTrain.shape), itemIds⟩) k j =
      entry xTrain k j + entry (xTest.getD (Csr.empty xTrain.shape)) k j := by
    unfold UserPair.xAll Csr.add
    rw [entry_eq, entry_eq, entry_eq]
    simp only [List.getD_eq_getElem?_getD, List.getElem?_zipWith]
    by_cases hk : k < xTrain.rows.length
    · rw [List.getElem?_eq_getElem hk, List.getElem?_eq_getElem (by omega)]
      simp only [Option.getD_some]
      rw [hnz _ (collapse_nodup _), rowEntry_collapse, rowEntry_append]
    · rw [List.getElem?_eq_none (by omega), List.getElem?_eq_none (by omega)]
      simp [rowEntry]
  refine ⟨hsum, ?_⟩
  rintro rfl
  rw [hsum]
  have : entry (Option.getD none (Csr.empty xTrain.shape)) k j = 0 := by
    rw [entry_eq, Option.getD_none]
    unfold Csr.empty
    simp only [List.getD_eq_getElem?_getD]
    by_cases hk : k < xTrain.shape.1
    · rw [List.getElem?_replicate, if_pos hk]; rfl
    · rw [List.getElem?_eq_none (by simpa using hk)]; rfl
  rw [this, add_zero]

/-- C29. `concat` rejects different item counts; otherwise it stacks the users of the second pair
below those of the first. -/
theorem C29_concat (p q : UserPair U I) (hp : p.userIds.length = p.xTrain.rows.length)
    (hp' : p.xTrain.shape = p.xTest.shape) (hq : q.userIds.length = q.xTrain.rows.length)
    (hq' : q.xTrain.shape = q.xTest.shape) :
    (p.xTrain.nCols ≠ q.xTrain.nCols → p.concat q = .error .valueError) ∧
    (p.xTrain.nCols = q.xTrain.nCols → ∃ r, p.concat q = .ok r ∧ r.userIds = p.userIds ++ q.userIds ∧
      r.xTrain.nCols = p.xTrain.nCols ∧
      (∀ k < p.userIds.length, ∀ j, entry r.xTrain k j = entry p.xTrain k j ∧
        entry r.xTest k j = entry p.xTest k j) ∧
      ∀ k j, entry r.xTrain (p.userIds.length + k) j = entry q.xTrain k j ∧
        entry r.xTest (p.userIds.length + k) j = entry q.xTest k j) := by
  unfold Csr.shape at hp' hq'
  injection hp' with hp1 hp2
  injection hq' with hq1 hq2
  constructor
  · intro h; unfold UserPair.concat; rw [if_pos h]
  · intro h
    obtain ⟨r, hr⟩ := (C29_accepts_iff (p.userIds ++ q.userIds)
      ⟨p.xTrain.nCols, p.xTrain.rows ++ q.xTrain.rows⟩
      (some ⟨p.xTest.nCols, p.xTest.rows ++ q.xTest.rows⟩) (none : Option (List I))).mpr
      ⟨by simp [hp, hq], by
        rintro xt ⟨⟩
        exact ⟨by simp [hp1, hq1], hp2.symm⟩, by simp⟩
    refine ⟨r, by unfold UserPair.concat; rw [if_neg (not_not.mpr h)]; exact hr, ?_⟩
    obtain ⟨-, -, -, rfl⟩ := make_ok hr
    refine ⟨rfl, rfl, ?_, ?_⟩
    · intro k hk j
      simp only [entry_eq, Option.getD_some, List.getD_eq_getElem?_getD]
      rw [List.getElem?_append_left (by omega), List.getElem?_append_left (by omega)]
      exact ⟨rfl, rfl⟩
    · intro k j
      simp only [entry_eq, Option.getD_some, List.getD_eq_getElem?_getD]
      rw [List.getElem?_append_right (by omega), List.getElem?_append_right (by omega), hp,
        Nat.add_sub_cancel_left, ← hp1, Nat.add_sub_cancel_left]
      exact ⟨rfl, rfl⟩

/-- C29, a restriction of `concat`: the item ids are not kept, so that `df_train` and `df_test` of the
result raise `RuntimeError` even if both pairs had the same item ids. -/
theorem C29_concat_item_ids_counterexample (p q r : UserPair U I) (h : p.concat q = .ok r) :
    r.itemIds = none ∧ r.toDf r.xTrain = .error .runtimeError ∧
    r.toDf r.xTest = .error .runtimeError := by
  have hn : r.itemIds = none := by
    unfold UserPair.concat at h
    split at h
    · cases h
    · obtain ⟨-, -, -, rfl⟩ := make_ok h
      rfl
  refine ⟨hn, ?_, ?_⟩ <;> unfold UserPair.toDf <;> rw [hn]

/-- C29 (missing: matrices with explicit zeros, see the counterexample). With item ids and no explicit zeros, `df_train`/`df_test` list each stored entry exactly once,
with its user, item and value. -/
theorem C29_frame_partial (p : UserPair U I) (ids : List I) (hids : p.itemIds = some ids) (X : Csr ℝ)
    (hrows : X.rows.length = p.userIds.length) (hcols : ∀ row ∈ X.rows, ∀ q ∈ row, q.1 < ids.length)
    (hnz : ∀ row ∈ X.rows, ∀ q ∈ row, q.2 ≠ 0) :
    ∃ out, p.toDf X = .ok out ∧ out.Perm ((List.range X.rows.length).flatMap (fun k =>
      (X.rows.getD k []).filterMap (fun q =>
        (p.userIds[k]?).bind (fun u => (ids[q.1]?).map (fun i => (u, i, q.2)))))) ∧
      out.length = (X.rows.map List.length).sum := by
  classical
  set f : Nat × Nat × ℝ → Option (U × I × ℝ) := fun t =>
    (p.userIds[t.1]?).bind (fun u => (ids[t.2.1]?).map (fun i => (u, i, t.2.2))) with hf
  set entries := (X.rows.mapIdx (fun u row => (row.insertionSort (fun a b => a.1 ≤ b.1)).map
      (fun q => (u, q.1, q.2)))).flatten with hent
  have hperm : entries.Perm ((List.range X.rows.length).flatMap (fun k =>
      (X.rows.getD k []).map (fun q => (k, q.1, q.2)))) := by
    rw [hent, List.mapIdx_eq_zipIdx_map, List.zipIdx_eq_zip_range', ← List.flatMap_def]
    have : X.rows.zip (List.range' 0 X.rows.length) =
        (List.range X.rows.length).map (fun k => (X.rows.getD k [], k)) := by
      apply List.ext_getElem
      · simp
      · intro k hk hk'
        simp only [List.getElem_zip, List.getElem_map, List.getElem_range, List.getElem_range',
          Nat.zero_add, Nat.one_mul]
        have : k < X.rows.length := by simpa using hk'
        rw [List.getD_eq_getElem?_getD, List.getElem?_eq_getElem this, Option.getD_some]
    rw [this, List.flatMap_map]
    apply List.Perm.flatMap_left
    intro k _
    exact (List.perm_insertionSort _ _).map _
  have hmem : ∀ t ∈ entries, ∃ k, ∃ hk : k < X.rows.length, ∃ q ∈ X.rows[k], t = (k, q.1, q.2) := by
    intro t ht
    have := hperm.mem_iff.mp ht
    obtain ⟨k, hk, h⟩ := List.mem_flatMap.mp this
    obtain ⟨q, hq, rfl⟩ := List.mem_map.mp h
    have hk' : k < X.rows.length := by simpa using hk
    rw [List.getD_eq_getElem?_getD, List.getElem?_eq_getElem hk', Option.getD_some] at hq
    exact ⟨k, hk', q, hq, rfl⟩
  have hfil : entries.filter (fun t => decide (t.2.2 ≠ 0)) = entries := by
    rw [List.filter_eq_self]
    intro t ht
    obtain ⟨k, hk, q, hq, rfl⟩ := hmem t ht
    simpa using hnz _ (List.getElem_mem hk) q hq
  refine ⟨entries.filterMap f, ?_, ?_, ?_⟩
  · unfold UserPair.toDf
    rw [hids]
    simp only
    rw [← hent, if_neg]
    · rw [hfil]
    · rw [hfil]; simp
  · refine (hperm.filterMap f).trans ?_
    rw [List.filterMap_flatMap]
    apply List.Perm.of_eq
    congr 1
    funext k
    rw [List.filterMap_map]
    rfl
  · have hl : (entries.filterMap f).length = entries.length := by
      have : ∀ l : List (Nat × Nat × ℝ), (∀ t ∈ l, (f t).isSome) → (l.filterMap f).length = l.length := by
        intro l
        induction l with
        | nil => intro _; rfl
        | cons t l ih =>
          intro h
          obtain ⟨y, hy⟩ := Option.isSome_iff_exists.mp (h t (by simp))
          rw [List.filterMap_cons, hy]
          simp [ih (fun t' ht' => h t' (by simp [ht']))]
      apply this
      intro t ht
      obtain ⟨k, hk, q, hq, rfl⟩ := hmem t ht
      have h1 : k < p.userIds.length := by omega
      have h2 := hcols _ (List.getElem_mem hk) q hq
      simp only [hf, List.getElem?_eq_getElem h1, List.getElem?_eq_getElem h2, Option.bind_some,
        Option.map_some, Option.isSome_some]
    rw [hl, hent, List.length_flatten]
    congr 1
    apply List.ext_getElem
    · simp
    · intro k hk hk'
      simp [List.length_insertionSort]

/-- C29: an explicitly stored zero makes `df_train`/`df_test` fail instead. -/
theorem C29_explicit_zero_counterexample :
    ∃ p : UserPair Nat Nat, UserPair.make [5] ⟨1, [[(0, 0)]]⟩ none (some [7]) = .ok p ∧
      p.toDf p.xTrain = .error .valueError := by
  obtain ⟨p, hp⟩ := (C29_accepts_iff [(5 : Nat)] ⟨1, [[(0, (0 : ℝ))]]⟩ none (some [(7 : Nat)])).mpr
    ⟨rfl, by simp, by simp⟩
  refine ⟨p, hp, ?_⟩
  obtain ⟨-, -, -, rfl⟩ := make_ok hp
  unfold UserPair.toDf
  simp

end Irspack.Props
