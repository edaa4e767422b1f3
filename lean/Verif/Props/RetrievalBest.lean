import Verif.Props.Retrieval

/-!
# C20: what the recommendation calls return

`C20_known_user`, … say what is never returned.  The theorems of this file say what is returned: the
best of the items that are left.  `raw` is whatever the recommender computed.
-/

namespace Irspack.Props
open Irspack Spec Retrieval

variable {I U S F : Type} [DecidableEq I] [DecidableEq U] [LinearOrder S] [BoundedOrder S]
  [LinearOrder F] [OrderBot F]

theorem profile_seen_iff (m : ItemIDMapper I) (hn : m.itemIds.Nodup) (p : Profile I) (k : Nat)
    (hk : k < m.itemIds.length) :
    colNonzero (m.profileDataCol p) k ↔ inProfile p m.itemIds[k] := by
  constructor
  · rintro ⟨t, ht, h1, h2⟩
    obtain ⟨L, hL, hL'⟩ := dataCol_pairs m p
    rw [hL] at ht h1 h2
    simp only [List.length_map] at ht
    rw [List.getElem?_map, List.getElem?_eq_getElem ht, Option.map_some, Option.some.injEq] at h1
    rw [List.getD_eq_getElem?_getD, List.getElem?_map, List.getElem?_eq_getElem ht, Option.map_some,
      Option.getD_some] at h2
    have hmem : L[t] ∈ L := List.getElem_mem ht
    generalize L[t] = q at h1 h2 hmem
    rw [hL'] at hmem
    have hidx : ∀ x i, m.index? x = some i → ∃ h : i < m.itemIds.length, m.itemIds[i] = x := by
      intro x i hi
      unfold ItemIDMapper.index? at hi
      split at hi
      · rename_i hx
        rw [Option.some.injEq] at hi
        subst hi
        exact ⟨List.idxOf_lt_length_of_mem hx, List.getElem_idxOf _⟩
      · cases hi
    cases p with
    | ids l =>
      obtain ⟨x, hx, he⟩ := List.mem_filterMap.mp hmem
      cases hi : m.index? x with
      | none => rw [hi] at he; cases he
      | some i =>
        rw [hi, Option.map_some, Option.some.injEq] at he
        subst he
        simp only at h1
        subst h1
        obtain ⟨h', e⟩ := hidx x i hi
        show m.itemIds[i] ∈ l
        rw [e]; exact hx
    | weights l =>
      obtain ⟨x, hx, he⟩ := List.mem_filterMap.mp hmem
      cases hi : m.index? x.1 with
      | none => simp only [hi] at he; cases he
      | some i =>
        simp only [hi] at he
        rw [Option.map_some, Option.some.injEq] at he
        subst he
        simp only at h1 h2
        subst h1
        obtain ⟨h', e⟩ := hidx x.1 i hi
        exact ⟨x.2, by rw [e]; exact hx, h2⟩
  · intro h
    have := seen_profile m hn p m.itemIds[k] (List.getElem_mem hk) h
    rwa [hn.idxOf_getElem] at this

/-- C20 (known users, batch, what is returned). For known users and well-shaped restriction lists the
call succeeds, and the list of the `j`-th user holds the `cutoff` best of the items that are
allowed, not forbidden, not scored `-inf` and without an entry in that user's training row, in order
and with their own scores. -/
theorem C20_known_users_best (userIds : List U) (itemIds : List I) (m : IDMapper U I)
    (hm : IDMapper.make userIds itemIds = .ok m) {psort : Nat → List (Nat × F) → List (Nat × F)}
    (hps : IsPSort psort) (cast : S → F) (hcast : cast ⊥ = ⊥) (r : Rec S)
    (hru : r.nUsers = userIds.length) (hri : r.nItems = itemIds.length)
    (users : List U) (hu : ∀ u ∈ users, u ∈ userIds) (raw : List (List S))
    (hraw : r.getScore (users.map (fun u => userIds.idxOf u)) = .ok raw)
    (hlen : raw.length = users.length) (hrow : ∀ row ∈ raw, row.length = itemIds.length)
    (cutoff : Nat) (allowed : Option (List I)) (perUser forbidden : Option (List (List I)))
    (hpu : ∀ ls, perUser = some ls → ls.length = users.length)
    (hf : ∀ ls, forbidden = some ls → ls.length = users.length) (nThreads : Nat) (ht : 0 < nThreads) :
    ∃ res, m.recommendKnownUserBatch psort cast r users cutoff allowed perUser forbidden nThreads
        = .ok res ∧ res.length = users.length ∧
      ∀ j (hj : j < users.length) (hj' : j < res.length) (hr : j < raw.length) (sc : I → F),
        (∀ k (h : k < itemIds.length) (h' : k < raw[j].length), sc itemIds[k] =
          if r.trainNz (userIds.idxOf users[j]) k = true then ⊥ else cast raw[j][k]) →
        ∃ out : List I, res[j] = out.map (fun x => (x, sc x)) ∧
          IsTopScores (eligible itemIds (allowedTo allowed perUser j) ((forbidden.getD []).getD j []) sc)
            sc cutoff out := by
  obtain ⟨rfl, rfl, hn⟩ := idmapper_make_ok hm
  have hmake : ItemIDMapper.make m.items.itemIds = .ok m.items := by
    unfold ItemIDMapper.make; rw [if_neg (by rw [hn.dedup]; simp)]
  set masked := raw.mapIdx (fun k row => maskRow row (fun i =>
    r.trainNz ((users.map (fun u => m.userIds.idxOf u)).getD k 0) i = true)) with hmasked
  have hml : masked.length = users.length := by rw [hmasked, List.length_mapIdx, hlen]
  obtain ⟨res, hres, hrl, hbest⟩ := C18_batch_is_top_cutoff m.items.itemIds m.items hmake hps cast hcast masked
    (by
      intro row hrow'
      obtain ⟨k, hk, rfl⟩ := List.mem_iff_getElem.mp hrow'
      simp only [hmasked, List.getElem_mapIdx, maskRow, List.length_mapIdx]
      exact hrow _ (List.getElem_mem _))
    cutoff allowed perUser forbidden (fun ls h => by rw [hml]; exact hpu ls h)
    (fun ls h => by rw [hml]; exact hf ls h) nThreads ht
  refine ⟨res, ?_, by rw [hrl, hml], ?_⟩
  · unfold IDMapper.recommendKnownUserBatch
    rw [if_neg (by simp [hru]), if_neg (by simpa using hu)]
    unfold Rec.getScoreRemoveSeen
    rw [hraw]
    simp only
    rw [hri]
    exact hres
  · intro j hj hj' hr sc hsc
    refine hbest j (by omega) hj' sc ?_
    intro k h h'
    simp only [hmasked, List.getElem_mapIdx, maskRow] at h' ⊢
    have hget : (users.map (fun u => m.userIds.idxOf u)).getD j 0 = m.userIds.idxOf users[j] := by
      rw [List.getD_eq_getElem?_getD, List.getElem?_map, List.getElem?_eq_getElem hj]; rfl
    have hk : k < raw[j].length := by simpa using h'
    rw [hsc k h hk, ← hget]
    split
    · exact hcast.symm
    · rfl

open Classical in
/-- C20 (new users, batch, what is returned). As for known users, with the items of the supplied
profile in place of the training row. -/
theorem C20_new_users_best (ids : List I) (m : ItemIDMapper I) (hm : ItemIDMapper.make ids = .ok m)
    {psort : Nat → List (Nat × F) → List (Nat × F)} (hps : IsPSort psort) (cast : S → F)
    (hcast : cast ⊥ = ⊥) (r : Rec S) (hri : r.nItems = ids.length)
    (profiles : List (Profile I)) (raw : List (List S))
    (hraw : r.getScoreCold (m.profilesToMatrix profiles) = .ok raw)
    (hlen : raw.length = profiles.length) (hrow : ∀ row ∈ raw, row.length = ids.length)
    (cutoff : Nat) (allowed : Option (List I)) (perUser forbidden : Option (List (List I)))
    (hpu : ∀ ls, perUser = some ls → ls.length = profiles.length)
    (hf : ∀ ls, forbidden = some ls → ls.length = profiles.length) (nThreads : Nat) (ht : 0 < nThreads) :
    ∃ res, m.recommendNewUserBatch psort cast r profiles cutoff allowed perUser forbidden nThreads
        = .ok res ∧ res.length = profiles.length ∧
      ∀ j (hj : j < profiles.length) (hj' : j < res.length) (hr : j < raw.length) (sc : I → F),
        (∀ k (h : k < ids.length) (h' : k < raw[j].length), sc ids[k] =
          if inProfile profiles[j] ids[k] then ⊥ else cast raw[j][k]) →
        ∃ out : List I, res[j] = out.map (fun x => (x, sc x)) ∧
          IsTopScores (eligible ids (allowedTo allowed perUser j) ((forbidden.getD []).getD j []) sc)
            sc cutoff out := by
  obtain ⟨hn, rfl⟩ := make_ok hm
  set masked := raw.mapIdx (fun k row => maskRow row (fun i =>
    (m.profilesToMatrix profiles).nonzero k i)) with hmasked
  have hml : masked.length = profiles.length := by rw [hmasked, List.length_mapIdx, hlen]
  obtain ⟨res, hres, hrl, hbest⟩ := C18_batch_is_top_cutoff m.itemIds m hm hps cast hcast masked
    (by
      intro row hrow'
      obtain ⟨k, hk, rfl⟩ := List.mem_iff_getElem.mp hrow'
      simp only [hmasked, List.getElem_mapIdx, maskRow, List.length_mapIdx]
      exact hrow _ (List.getElem_mem _))
    cutoff allowed perUser forbidden (fun ls h => by rw [hml]; exact hpu ls h)
    (fun ls h => by rw [hml]; exact hf ls h) nThreads ht
  refine ⟨res, ?_, by rw [hrl, hml], ?_⟩
  · unfold ItemIDMapper.recommendNewUserBatch
    rw [if_neg (by simp [hri])]
    unfold Rec.getScoreColdRemoveSeen
    rw [hraw]
    simp only
    rw [hri]
    exact hres
  · intro j hj hj' hr sc hsc
    refine hbest j (by omega) hj' sc ?_
    intro k h h'
    simp only [hmasked, List.getElem_mapIdx, maskRow] at h' ⊢
    have hk : k < raw[j].length := by simpa using h'
    rw [hsc k h hk]
    have he : (m.profilesToMatrix profiles).nonzero j k ↔ inProfile profiles[j] m.itemIds[k] :=
      (nonzero_row m profiles j hj k).trans (profile_seen_iff m hn profiles[j] k h)
    by_cases hs : inProfile profiles[j] m.itemIds[k]
    · rw [if_pos hs, if_pos (he.mpr hs), hcast]
    · rw [if_neg hs, if_neg (fun h => hs (he.mp h))]

/-- C20 (known user, what is returned). For a known user the call succeeds and returns the `cutoff`
best of the allowed, not forbidden and unseen items with a finite score, in order and with their own
scores. -/
theorem C20_known_user_best (userIds : List U) (itemIds : List I) (m : IDMapper U I)
    (hm : IDMapper.make userIds itemIds = .ok m) {argsort : List S → List Nat} (has : IsASort argsort)
    (r : Rec S) (hru : r.nUsers = userIds.length) (user : U) (hu : user ∈ userIds) (row : List S)
    (hraw : r.getScore [userIds.idxOf user] = .ok [row]) (hrow : row.length = itemIds.length)
    (cutoff : Nat) (hc : 1 ≤ cutoff) (allowed forbidden : Option (List I)) (sc : I → S)
    (hsc : ∀ k (h : k < itemIds.length) (h' : k < row.length), sc itemIds[k] =
      if r.trainNz (userIds.idxOf user) k = true then ⊥ else row[k]) :
    ∃ out : List I, m.recommendKnownUser argsort r user cutoff allowed forbidden
        = .ok (out.map (fun x => (x, sc x))) ∧
      IsTopScores ((eligible itemIds allowed (forbidden.getD []) sc).filter (fun x => decide (sc x ≠ ⊤)))
        sc cutoff out := by
  obtain ⟨rfl, rfl, hn⟩ := idmapper_make_ok hm
  obtain ⟨out, h1, h2⟩ := single_spec m.items hn has
    (maskRow row (fun i => r.trainNz (m.userIds.idxOf user) i = true))
    (by simp only [maskRow, List.length_mapIdx]; exact hrow) cutoff (by omega) allowed forbidden sc
    (by
      intro k h h'
      simp only [maskRow, List.getElem_mapIdx]
      exact hsc k h (by rw [hrow]; exact h))
  refine ⟨out, ?_, h2⟩
  unfold IDMapper.recommendKnownUser
  rw [if_neg (by simp [hru]), if_neg (by simpa using hu)]
  unfold Rec.getScoreRemoveSeen
  rw [hraw]
  exact h1

open Classical in
/-- C20 (new user, what is returned). -/
theorem C20_new_user_best (ids : List I) (m : ItemIDMapper I) (hm : ItemIDMapper.make ids = .ok m)
    {argsort : List S → List Nat} (has : IsASort argsort) (r : Rec S) (hri : r.nItems = ids.length)
    (profile : Profile I) (row : List S)
    (hraw : r.getScoreCold (m.profilesToMatrix [profile]) = .ok [row])
    (hrow : row.length = ids.length)
    (cutoff : Nat) (hc : 1 ≤ cutoff) (allowed forbidden : Option (List I)) (sc : I → S)
    (hsc : ∀ k (h : k < ids.length) (h' : k < row.length), sc ids[k] =
      if inProfile profile ids[k] then ⊥ else row[k]) :
    ∃ out : List I, m.recommendNewUser argsort r profile cutoff allowed forbidden
        = .ok (out.map (fun x => (x, sc x))) ∧
      IsTopScores ((eligible ids allowed (forbidden.getD []) sc).filter (fun x => decide (sc x ≠ ⊤)))
        sc cutoff out := by
  obtain ⟨hn, rfl⟩ := make_ok hm
  set X : CsrArrays := ⟨(m.profileDataCol profile).1, (m.profileDataCol profile).2,
    [0, (m.profileDataCol profile).2.length], 1, m.itemIds.length⟩ with hX
  obtain ⟨out, h1, h2⟩ := single_spec m hn has (maskRow row (fun i => X.nonzero 0 i))
    (by simp only [maskRow, List.length_mapIdx]; exact hrow) cutoff (by omega) allowed forbidden sc
    (by
      intro k h h'
      simp only [maskRow, List.getElem_mapIdx]
      rw [hsc k h (by rw [hrow]; exact h)]
      have he : X.nonzero 0 k ↔ inProfile profile m.itemIds[k] :=
        (single_nonzero _ _ k).trans (profile_seen_iff m hn profile k h)
      by_cases hs : inProfile profile m.itemIds[k]
      · rw [if_pos hs, if_pos (he.mpr hs)]
      · rw [if_neg hs, if_neg (fun h => hs (he.mp h))])
  refine ⟨out, ?_, h2⟩
  unfold ItemIDMapper.recommendNewUser
  rw [if_neg (by simp [hri])]
  simp only
  unfold Rec.getScoreColdRemoveSeen
  have hXm : m.profilesToMatrix [profile] = X := by
    rw [hX]; simp [ItemIDMapper.profilesToMatrix, ItemIDMapper.matrixLoop]
  rw [← hX, ← hXm, hraw, hXm]
  exact h1

/-- C20 (rejected calls). A recommender with another number of users or items than there are IDs is
a `ValueError`; an unknown user is a `RuntimeError` for one user and a `KeyError` in a batch; an error of
the recommender is passed on. -/
theorem C20_rejected (m : IDMapper U I) (argsort : List S → List Nat)
    (psort : Nat → List (Nat × F) → List (Nat × F)) (cast : S → F) (r : Rec S) (user : U)
    (users : List U) (profile : Profile I) (profiles : List (Profile I)) (cutoff : Nat)
    (allowed forbidden : Option (List I)) (perUser forbiddens : Option (List (List I))) (nThreads : Nat) :
    (r.nUsers ≠ m.userIds.length →
      m.recommendKnownUser argsort r user cutoff allowed forbidden = .error .valueError ∧
      m.recommendKnownUserBatch psort cast r users cutoff allowed perUser forbiddens nThreads
        = .error .valueError) ∧
    (r.nItems ≠ m.items.itemIds.length →
      m.items.recommendNewUser argsort r profile cutoff allowed forbidden = .error .valueError ∧
      m.items.recommendNewUserBatch psort cast r profiles cutoff allowed perUser forbiddens nThreads
        = .error .valueError) ∧
    (r.nUsers = m.userIds.length → user ∉ m.userIds →
      m.recommendKnownUser argsort r user cutoff allowed forbidden = .error .runtimeError) ∧
    (r.nUsers = m.userIds.length → (∃ u ∈ users, u ∉ m.userIds) →
      m.recommendKnownUserBatch psort cast r users cutoff allowed perUser forbiddens nThreads
        = .error .keyError) ∧
    (∀ e, r.nUsers = m.userIds.length → user ∈ m.userIds →
      r.getScore [m.userIds.idxOf user] = .error e →
      m.recommendKnownUser argsort r user cutoff allowed forbidden = .error e) := by
  refine ⟨fun h => ⟨?_, ?_⟩, fun h => ⟨?_, ?_⟩, fun h hu => ?_, fun h hu => ?_, fun e h hu he => ?_⟩
  · unfold IDMapper.recommendKnownUser; rw [if_pos h]
  · unfold IDMapper.recommendKnownUserBatch; rw [if_pos h]
  · unfold ItemIDMapper.recommendNewUser; rw [if_pos h]
  · unfold ItemIDMapper.recommendNewUserBatch; rw [if_pos h]
  · unfold IDMapper.recommendKnownUser; rw [if_neg (by simp [h]), if_pos hu]
  · unfold IDMapper.recommendKnownUserBatch
    rw [if_neg (by simp [h]), if_pos (by push Not; exact hu)]
  · unfold IDMapper.recommendKnownUser
    rw [if_neg (by simp [h]), if_neg (by simpa using hu)]
    unfold Rec.getScoreRemoveSeen
    rw [he]

/-- Non-vacuity: two users asked for in the order "v", "u"; each has seen one item, one item is
forbidden to "u". -/
example : ∃ m : IDMapper String String, IDMapper.make ["u", "v"] ["a", "b", "c"] = .ok m ∧
    m.recommendKnownUserBatch insSort (id : Fin 5 → Fin 5)
      ⟨2, 3, fun u i => decide (u = i), fun us => .ok (us.map (fun u => if u = 0 then [4, 3, 2] else [1, 4, 2])),
        fun _ => .error .notImplemented⟩ ["v", "u"] 2 none none (some [[], ["b"]]) 3
      = .ok [[("c", 2), ("a", 1)], [("c", 2)]] :=
  ⟨⟨⟨["a", "b", "c"]⟩, ["u", "v"]⟩, by decide, by decide⟩

end Irspack.Props
