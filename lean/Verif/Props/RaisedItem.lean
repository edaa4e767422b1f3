import Verif.Props.PagingForbid

/-!
# C120: an item whose score rises
-/

namespace Irspack.Props
open Irspack Spec Retrieval

variable {I U S F : Type} [DecidableEq I] [DecidableEq U] [LinearOrder S] [BoundedOrder S]
  [LinearOrder F] [OrderBot F]

theorem map_fst_pair {A B : Type} (p : List A) (f : A → B) : (p.map (fun x => (x, f x))).map Prod.fst = p := by
  rw [List.map_map]
  exact List.map_id p

/-- helper: elements with a better score come earlier -/
theorem idxOf_lt_of_score {A : Type} [DecidableEq A] {s : A → F} {w : List A}
    (h : w.Pairwise (fun a b => s b ≤ s a)) {x y : A} (hx : x ∈ w) (hy : y ∈ w) (hxy : s x < s y) :
    w.idxOf y < w.idxOf x := by
  by_contra hc
  rw [not_lt] at hc
  have h1 := List.idxOf_lt_length_of_mem hx
  have h2 := List.idxOf_lt_length_of_mem hy
  rcases hc.lt_or_eq with h3 | h3
  · have := List.pairwise_iff_getElem.mp h _ _ h1 h2 h3
    rw [List.getElem_idxOf, List.getElem_idxOf] at this
    exact absurd this (not_le.mpr hxy)
  · have : x = y := (List.idxOf_inj hx).mp h3
    rw [this] at hxy
    exact lt_irrefl _ hxy

/-- helper: the list after one score rises and no other does -/
theorem topScores_raise {A : Type} [DecidableEq A] {elig elig' : List A} {s s' : A → F} {k : Nat} {w w' : List A}
    (h : IsTopScores elig s k w) (h' : IsTopScores elig' s' k w') (hn' : elig'.Nodup) {x : A}
    (hx : x ∈ w) (hx' : x ∈ elig') (hup : s x < s' x) (ho : ∀ y ∈ elig', y ≠ x → y ∈ elig ∧ s' y ≤ s y) :
    x ∈ w' ∧ w'.idxOf x ≤ w.idxOf x := by
  obtain ⟨rest, hp, hl, hs, hr⟩ := h
  obtain ⟨rest', hp', hl', hs', hr'⟩ := h'
  have hnw' : (w' ++ rest').Nodup := hp'.nodup_iff.mpr hn'
  -- elements that still beat `x` come before it in the old list
  have hbefore : ∀ y ∈ w', y ≠ x → s' x ≤ s' y → y ∈ w ∧ w.idxOf y < w.idxOf x := by
    intro y hy hne hle
    obtain ⟨h1, h2⟩ := ho y (hp'.mem_iff.mp (List.mem_append_left _ hy)) hne
    have hlt : s x < s y := hup.trans_le (hle.trans h2)
    have hyw : y ∈ w := by
      rcases List.mem_append.mp (hp.mem_iff.mpr h1) with h3 | h3
      · exact h3
      · exact absurd (hr x hx y h3) (not_le.mpr hlt)
    exact ⟨hyw, idxOf_lt_of_score hs hx hyw hlt⟩
  -- so there are at most as many as places before `x`
  have hcount : ∀ v : List A, v.Nodup → (∀ y ∈ v, y ∈ w ∧ w.idxOf y < w.idxOf x) → v.length ≤ w.idxOf x := by
    intro v hv hb
    rw [← List.toFinset_card_of_nodup hv, ← Finset.card_range (w.idxOf x)]
    refine Finset.card_le_card_of_injOn (fun y => w.idxOf y) ?_ ?_
    · intro y hy
      simpa using (hb y (by simpa using hy)).2
    · intro y hy z hz hyz
      exact (List.idxOf_inj (hb y (by simpa using hy)).1).mp hyz
  have hmem : x ∈ w' := by
    by_contra hc
    have hxr : x ∈ rest' := by
      rcases List.mem_append.mp (hp'.mem_iff.mpr hx') with h3 | h3
      · exact absurd h3 hc
      · exact h3
    have h1 := hcount w' (List.nodup_append.mp hnw').1
      (fun y hy => hbefore y hy (fun he => hc (he ▸ hy)) (hr' y hy x hxr))
    have h2 := List.idxOf_lt_length_of_mem hx
    have h3 := hp'.length_eq
    have h4 := List.length_pos_of_mem hxr
    rw [List.length_append] at h3
    omega
  refine ⟨hmem, ?_⟩
  have hi := List.idxOf_lt_length_of_mem hmem
  have h1 := hcount (w'.take (w'.idxOf x)) ((List.nodup_append.mp hnw').1.sublist (List.take_sublist _ _)) (by
    intro y hy
    obtain ⟨i, hi1, rfl⟩ := List.mem_iff_getElem.mp hy
    rw [List.length_take] at hi1
    have hlt : i < w'.idxOf x := by omega
    rw [List.getElem_take]
    have hle := List.pairwise_iff_getElem.mp hs' i _ (by omega) hi hlt
    rw [List.getElem_idxOf] at hle
    refine hbefore _ (List.getElem_mem _) ?_ hle
    intro he
    have := (List.nodup_append.mp hnw').1.idxOf_getElem i (by omega)
    rw [he] at this
    omega)
  rw [List.length_take] at h1
  omega

/-- C120.  Two models over the same users, items and histories.  If item `x` is on the list that the first serves to user
`j`, the second scores it higher for this user, and scores no other item higher, then `x` is on the list that the second
serves, at the same place or earlier. -/
theorem C120_raised_item (userIds : List U) (itemIds : List I) (m : IDMapper U I)
    (hm : IDMapper.make userIds itemIds = .ok m) {psort : Nat → List (Nat × F) → List (Nat × F)}
    (hps : IsPSort psort) (cast : S → F) (hcast : cast ⊥ = ⊥) (r r' : Rec S)
    (hru : r.nUsers = userIds.length) (hri : r.nItems = itemIds.length)
    (hru' : r'.nUsers = userIds.length) (hri' : r'.nItems = itemIds.length) (hnz : r'.trainNz = r.trainNz)
    (users : List U) (hu : ∀ u ∈ users, u ∈ userIds) (raw raw' : List (List S))
    (hraw : r.getScore (users.map (fun u => userIds.idxOf u)) = .ok raw)
    (hraw' : r'.getScore (users.map (fun u => userIds.idxOf u)) = .ok raw')
    (hlen : raw.length = users.length) (hrow : ∀ row ∈ raw, row.length = itemIds.length)
    (hlen' : raw'.length = users.length) (hrow' : ∀ row ∈ raw', row.length = itemIds.length)
    (k : Nat) (allowed : Option (List I)) (perUser forbidden : Option (List (List I)))
    (hpu : ∀ ls, perUser = some ls → ls.length = users.length)
    (hf : ∀ ls, forbidden = some ls → ls.length = users.length)
    (hal : ∀ j l, allowedTo allowed perUser j = some l → l.Nodup) (t t' : Nat) (ht : 0 < t) (ht' : 0 < t') :
    ∃ res res',
      m.recommendKnownUserBatch psort cast r users k allowed perUser forbidden t = .ok res ∧
      m.recommendKnownUserBatch psort cast r' users k allowed perUser forbidden t' = .ok res' ∧
      res.length = users.length ∧ res'.length = users.length ∧
      ∀ j (_ : j < users.length) (h1 : j < res.length) (h2 : j < res'.length), ∀ x ∈ res[j].map Prod.fst,
        cast ((raw.getD j []).getD (itemIds.idxOf x) ⊥) < cast ((raw'.getD j []).getD (itemIds.idxOf x) ⊥) →
        (∀ y ∈ itemIds, y ≠ x →
          cast ((raw'.getD j []).getD (itemIds.idxOf y) ⊥) ≤ cast ((raw.getD j []).getD (itemIds.idxOf y) ⊥)) →
        x ∈ res'[j].map Prod.fst ∧ (res'[j].map Prod.fst).idxOf x ≤ (res[j].map Prod.fst).idxOf x := by
  obtain ⟨res, hp, hpl, hpb⟩ := C20_known_users_best userIds itemIds m hm hps cast hcast r hru hri users hu
    raw hraw hlen hrow k allowed perUser forbidden hpu hf t ht
  obtain ⟨res', hp', hpl', hpb'⟩ := C20_known_users_best userIds itemIds m hm hps cast hcast r' hru' hri' users hu
    raw' hraw' hlen' hrow' k allowed perUser forbidden hpu hf t' ht'
  refine ⟨res, res', hp, hp', hpl, hpl', ?_⟩
  intro j hj h1 h2 x hx hup hoth
  have hnd : itemIds.Nodup := by
    obtain ⟨-, h2, h3⟩ := idmapper_make_ok hm
    exact h2 ▸ h3
  have hjr : j < raw.length := by omega
  have hjr' : j < raw'.length := by omega
  have hval : ∀ (rw' : List (List S)) (hj : j < rw'.length) k (h : k < itemIds.length) (h' : k < rw'[j].length),
      (if r.trainNz (userIds.idxOf users[j]) (itemIds.idxOf itemIds[k]) = true then ⊥
        else cast ((rw'.getD j []).getD (itemIds.idxOf itemIds[k]) ⊥)) =
      if r.trainNz (userIds.idxOf users[j]) k = true then ⊥ else cast rw'[j][k] := by
    intro rw' hj k h h'
    simp only [hnd.idxOf_getElem]
    rw [List.getD_eq_getElem?_getD (l := rw'), List.getElem?_eq_getElem hj, Option.getD_some,
      List.getD_eq_getElem?_getD, List.getElem?_eq_getElem h', Option.getD_some]
  obtain ⟨p, e1, t1⟩ := hpb j hj h1 hjr (fun x => if r.trainNz (userIds.idxOf users[j]) (itemIds.idxOf x) = true then ⊥
    else cast ((raw.getD j []).getD (itemIds.idxOf x) ⊥)) (hval raw hjr)
  obtain ⟨p', e2, t2⟩ := hpb' j hj h2 hjr' (fun x => if r.trainNz (userIds.idxOf users[j]) (itemIds.idxOf x) = true then ⊥
    else cast ((raw'.getD j []).getD (itemIds.idxOf x) ⊥)) (by rw [hnz]; exact hval raw' hjr')
  have m1 : res[j].map Prod.fst = p := by rw [e1, List.map_map]; exact List.map_id p
  have m2 : res'[j].map Prod.fst = p' := by rw [e2, List.map_map]; exact List.map_id p'
  rw [m1] at hx
  rw [m1, m2]
  have hxe : x ∈ eligible itemIds (allowedTo allowed perUser j) ((forbidden.getD []).getD j [])
      (fun x => if r.trainNz (userIds.idxOf users[j]) (itemIds.idxOf x) = true then ⊥
        else cast ((raw.getD j []).getD (itemIds.idxOf x) ⊥)) := by
    obtain ⟨rest, hperm, -⟩ := t1
    exact hperm.mem_iff.mp (List.mem_append_left _ hx)
  unfold eligible at hxe
  rw [List.mem_filter, decide_eq_true_eq] at hxe
  have hxt : r.trainNz (userIds.idxOf users[j]) (itemIds.idxOf x) = false := by
    by_contra hc
    rw [Bool.not_eq_false] at hc
    exact hxe.2.2.2 (if_pos hc)
  refine topScores_raise t1 t2 (nodup_eligible hnd (hal j) _ _) hx ?_ ?_ ?_
  · unfold eligible
    rw [List.mem_filter, decide_eq_true_eq]
    refine ⟨hxe.1, hxe.2.1, hxe.2.2.1, ?_⟩
    simp only [hxt, Bool.false_eq_true, if_false]
    exact (bot_le.trans_lt hup).ne'
  · simp only [hxt, Bool.false_eq_true, if_false]
    exact hup
  · intro y hy hne
    unfold eligible at hy ⊢
    rw [List.mem_filter, decide_eq_true_eq] at hy ⊢
    have hle := hoth y hy.2.1 hne
    have hyt : r.trainNz (userIds.idxOf users[j]) (itemIds.idxOf y) = false := by
      by_contra hc
      rw [Bool.not_eq_false] at hc
      exact hy.2.2.2 (if_pos hc)
    have hb := hy.2.2.2
    simp only [hyt, Bool.false_eq_true, if_false] at hb ⊢
    exact ⟨⟨hy.1, hy.2.1, hy.2.2.1, (bot_lt_iff_ne_bot.mpr hb |>.trans_le hle).ne'⟩, hle⟩

open Classical in
/-- C120 (new users).  The same for users who are only known by their profile. -/
theorem C120_raised_item_new_users (ids : List I) (m : ItemIDMapper I) (hm : ItemIDMapper.make ids = .ok m)
    {psort : Nat → List (Nat × F) → List (Nat × F)} (hps : IsPSort psort) (cast : S → F)
    (hcast : cast ⊥ = ⊥) (r r' : Rec S) (hri : r.nItems = ids.length) (hri' : r'.nItems = ids.length)
    (profiles : List (Profile I)) (raw raw' : List (List S))
    (hraw : r.getScoreCold (m.profilesToMatrix profiles) = .ok raw)
    (hraw' : r'.getScoreCold (m.profilesToMatrix profiles) = .ok raw')
    (hlen : raw.length = profiles.length) (hrow : ∀ row ∈ raw, row.length = ids.length)
    (hlen' : raw'.length = profiles.length) (hrow' : ∀ row ∈ raw', row.length = ids.length)
    (k : Nat) (allowed : Option (List I)) (perUser forbidden : Option (List (List I)))
    (hpu : ∀ ls, perUser = some ls → ls.length = profiles.length)
    (hf : ∀ ls, forbidden = some ls → ls.length = profiles.length)
    (hal : ∀ j l, allowedTo allowed perUser j = some l → l.Nodup) (t t' : Nat) (ht : 0 < t) (ht' : 0 < t') :
    ∃ res res',
      m.recommendNewUserBatch psort cast r profiles k allowed perUser forbidden t = .ok res ∧
      m.recommendNewUserBatch psort cast r' profiles k allowed perUser forbidden t' = .ok res' ∧
      res.length = profiles.length ∧ res'.length = profiles.length ∧
      ∀ j (_ : j < profiles.length) (h1 : j < res.length) (h2 : j < res'.length), ∀ x ∈ res[j].map Prod.fst,
        cast ((raw.getD j []).getD (ids.idxOf x) ⊥) < cast ((raw'.getD j []).getD (ids.idxOf x) ⊥) →
        (∀ y ∈ ids, y ≠ x →
          cast ((raw'.getD j []).getD (ids.idxOf y) ⊥) ≤ cast ((raw.getD j []).getD (ids.idxOf y) ⊥)) →
        x ∈ res'[j].map Prod.fst ∧ (res'[j].map Prod.fst).idxOf x ≤ (res[j].map Prod.fst).idxOf x := by
  obtain ⟨res, hp, hpl, hpb⟩ := C20_new_users_best ids m hm hps cast hcast r hri profiles
    raw hraw hlen hrow k allowed perUser forbidden hpu hf t ht
  obtain ⟨res', hp', hpl', hpb'⟩ := C20_new_users_best ids m hm hps cast hcast r' hri' profiles
    raw' hraw' hlen' hrow' k allowed perUser forbidden hpu hf t' ht'
  refine ⟨res, res', hp, hp', hpl, hpl', ?_⟩
  intro j hj h1 h2 x hx hup hoth
  have hnd : ids.Nodup := by
    obtain ⟨hn, rfl⟩ := make_ok hm
    exact hn
  have hjr : j < raw.length := by omega
  have hjr' : j < raw'.length := by omega
  have hval : ∀ (rw' : List (List S)) (hj' : j < rw'.length) k (h : k < ids.length) (h' : k < rw'[j].length),
      (if inProfile profiles[j] ids[k] then ⊥ else cast ((rw'.getD j []).getD (ids.idxOf ids[k]) ⊥)) =
      if inProfile profiles[j] ids[k] then ⊥ else cast rw'[j][k] := by
    intro rw' hj' k h h'
    simp only [hnd.idxOf_getElem]
    rw [List.getD_eq_getElem?_getD (l := rw'), List.getElem?_eq_getElem hj', Option.getD_some,
      List.getD_eq_getElem?_getD, List.getElem?_eq_getElem h', Option.getD_some]
  obtain ⟨p, e1, t1⟩ := hpb j hj h1 hjr (fun x => if inProfile profiles[j] x then ⊥
    else cast ((raw.getD j []).getD (ids.idxOf x) ⊥)) (hval raw hjr)
  obtain ⟨p', e2, t2⟩ := hpb' j hj h2 hjr' (fun x => if inProfile profiles[j] x then ⊥
    else cast ((raw'.getD j []).getD (ids.idxOf x) ⊥)) (hval raw' hjr')
  have m1 : res[j].map Prod.fst = p := by rw [e1, List.map_map]; exact List.map_id p
  have m2 : res'[j].map Prod.fst = p' := by rw [e2, List.map_map]; exact List.map_id p'
  rw [m1] at hx
  rw [m1, m2]
  have hxe : x ∈ eligible ids (allowedTo allowed perUser j) ((forbidden.getD []).getD j [])
      (fun x => if inProfile profiles[j] x then ⊥ else cast ((raw.getD j []).getD (ids.idxOf x) ⊥)) := by
    obtain ⟨rest, hperm, -⟩ := t1
    exact hperm.mem_iff.mp (List.mem_append_left _ hx)
  unfold eligible at hxe
  rw [List.mem_filter, decide_eq_true_eq] at hxe
  have hxt : ¬ inProfile profiles[j] x := fun hc => hxe.2.2.2 (if_pos hc)
  refine topScores_raise t1 t2 (nodup_eligible hnd (hal j) _ _) hx ?_ ?_ ?_
  · unfold eligible
    rw [List.mem_filter, decide_eq_true_eq]
    refine ⟨hxe.1, hxe.2.1, hxe.2.2.1, ?_⟩
    simp only [hxt, if_false]
    exact (bot_le.trans_lt hup).ne'
  · simp only [hxt, if_false]
    exact hup
  · intro y hy hne
    unfold eligible at hy ⊢
    rw [List.mem_filter, decide_eq_true_eq] at hy ⊢
    have hle := hoth y hy.2.1 hne
    have hyt : ¬ inProfile profiles[j] y := fun hc => hy.2.2.2 (if_pos hc)
    have hb := hy.2.2.2
    simp only [hyt, if_false] at hb ⊢
    exact ⟨⟨hy.1, hy.2.1, hy.2.2.1, (bot_lt_iff_ne_bot.mpr hb |>.trans_le hle).ne'⟩, hle⟩

/-- C120 (single calls).  The same for the call for one user, as long as the new score is not +inf. -/
theorem C120_raised_item_single (userIds : List U) (itemIds : List I) (m : IDMapper U I)
    (hm : IDMapper.make userIds itemIds = .ok m) {argsort : List S → List Nat} (has : IsASort argsort)
    (r r' : Rec S) (hru : r.nUsers = userIds.length) (hru' : r'.nUsers = userIds.length) (hnz : r'.trainNz = r.trainNz)
    (user : U) (hu : user ∈ userIds) (row row' : List S)
    (hraw : r.getScore [userIds.idxOf user] = .ok [row]) (hraw' : r'.getScore [userIds.idxOf user] = .ok [row'])
    (hrow : row.length = itemIds.length) (hrow' : row'.length = itemIds.length)
    (k : Nat) (hk : 1 ≤ k) (allowed forbidden : Option (List I)) (hal : ∀ l, allowed = some l → l.Nodup)
    (hfin : ∀ i, row.getD i ⊥ ≠ ⊤) :
    ∃ res res',
      m.recommendKnownUser argsort r user k allowed forbidden = .ok res ∧
      m.recommendKnownUser argsort r' user k allowed forbidden = .ok res' ∧
      ∀ x ∈ res.map Prod.fst,
        row.getD (itemIds.idxOf x) ⊥ < row'.getD (itemIds.idxOf x) ⊥ → row'.getD (itemIds.idxOf x) ⊥ ≠ ⊤ →
        (∀ y ∈ itemIds, y ≠ x → row'.getD (itemIds.idxOf y) ⊥ ≤ row.getD (itemIds.idxOf y) ⊥) →
        x ∈ res'.map Prod.fst ∧ (res'.map Prod.fst).idxOf x ≤ (res.map Prod.fst).idxOf x := by
  have hnd : itemIds.Nodup := by
    obtain ⟨-, h2, h3⟩ := idmapper_make_ok hm
    exact h2 ▸ h3
  have hval : ∀ (w : List S) k (h : k < itemIds.length) (h' : k < w.length),
      (if r.trainNz (userIds.idxOf user) (itemIds.idxOf itemIds[k]) = true then ⊥
        else w.getD (itemIds.idxOf itemIds[k]) ⊥) =
      if r.trainNz (userIds.idxOf user) k = true then ⊥ else w[k] := by
    intro w k h h'
    simp only [hnd.idxOf_getElem]
    rw [List.getD_eq_getElem?_getD, List.getElem?_eq_getElem h', Option.getD_some]
  obtain ⟨p, e1, t1⟩ := C20_known_user_best userIds itemIds m hm has r hru user hu row hraw hrow k hk allowed forbidden
    (fun x => if r.trainNz (userIds.idxOf user) (itemIds.idxOf x) = true then ⊥ else row.getD (itemIds.idxOf x) ⊥)
    (hval row)
  obtain ⟨p', e2, t2⟩ := C20_known_user_best userIds itemIds m hm has r' hru' user hu row' hraw' hrow' k hk allowed
    forbidden
    (fun x => if r.trainNz (userIds.idxOf user) (itemIds.idxOf x) = true then ⊥ else row'.getD (itemIds.idxOf x) ⊥)
    (by rw [hnz]; exact hval row')
  refine ⟨_, _, e1, e2, ?_⟩
  intro x hx hup htop hoth
  rw [map_fst_pair] at hx
  rw [map_fst_pair, map_fst_pair]
  have hxe : x ∈ (eligible itemIds allowed (forbidden.getD []) (fun x =>
      if r.trainNz (userIds.idxOf user) (itemIds.idxOf x) = true then ⊥ else row.getD (itemIds.idxOf x) ⊥)) := by
    obtain ⟨rest, hperm, -⟩ := t1
    exact List.mem_of_mem_filter (hperm.mem_iff.mp (List.mem_append_left _ hx))
  unfold eligible at hxe
  rw [List.mem_filter, decide_eq_true_eq] at hxe
  have hxt : r.trainNz (userIds.idxOf user) (itemIds.idxOf x) = false := by
    by_contra hc
    rw [Bool.not_eq_false] at hc
    exact hxe.2.2.2 (if_pos hc)
  refine topScores_raise t1 t2 ((nodup_eligible hnd hal _ _).filter _) hx ?_ ?_ ?_
  · unfold eligible
    rw [List.mem_filter, List.mem_filter, decide_eq_true_eq, decide_eq_true_eq]
    simp only [hxt, Bool.false_eq_true, if_false]
    exact ⟨⟨hxe.1, hxe.2.1, hxe.2.2.1, (bot_le.trans_lt hup).ne'⟩, htop⟩
  · simp only [hxt, Bool.false_eq_true, if_false]
    exact hup
  · intro y hy hne
    unfold eligible at hy ⊢
    rw [List.mem_filter, List.mem_filter, decide_eq_true_eq, decide_eq_true_eq] at hy ⊢
    have hle := hoth y hy.1.2.1 hne
    have hyt : r.trainNz (userIds.idxOf user) (itemIds.idxOf y) = false := by
      by_contra hc
      rw [Bool.not_eq_false] at hc
      exact hy.1.2.2.2 (if_pos hc)
    have hb := hy.1.2.2.2
    simp only [hyt, Bool.false_eq_true, if_false] at hb ⊢
    exact ⟨⟨⟨hy.1.1, hy.1.2.1, hy.1.2.2.1, (bot_lt_iff_ne_bot.mpr hb |>.trans_le hle).ne'⟩, hfin _⟩, hle⟩

/-- the first user's score of `a` raised from 2 to 4 -/
def threeRaised : Rec (Fin 5) :=
  ⟨2, 3, fun u i => u == 1 && i == 0, fun idx => .ok (idx.map (fun u => if u = 0 then [4, 1, 3] else [3, 2, 1])),
    fun X => .ok (List.replicate X.nRows [4, 1, 3])⟩

/-- C120 (single calls).  The call for one user drops an item whose score rises to +inf (here 4, the largest score): `a` is
listed second, and not at all once its score is +inf.  The batch call then lists it first. -/
theorem C120_inf_counterexample :
    IDMapper.make ["u", "v"] ["a", "b", "c"] = .ok threeMapper ∧ IsASort (insArgsort (S := Fin 5)) ∧
    threeMapper.recommendKnownUser insArgsort threeItems "u" 2 none none = .ok [("c", 3), ("a", 2)] ∧
    threeMapper.recommendKnownUser insArgsort threeRaised "u" 2 none none = .ok [("c", 3), ("b", 1)] ∧
    threeMapper.recommendKnownUserBatch insSort id threeRaised ["u"] 2 none none none 1 = .ok [[("a", 4), ("c", 3)]] := by
  refine ⟨by decide, insArgsort_ok, by decide, by decide, by decide⟩

-- `a` moves from the second place to the first
example :
    threeMapper.recommendKnownUserBatch insSort id threeItems ["u"] 2 none none none 1 = .ok [[("c", 3), ("a", 2)]] ∧
    threeMapper.recommendKnownUserBatch insSort id threeRaised ["u"] 2 none none none 1 = .ok [[("a", 4), ("c", 3)]] := by
  decide

-- these two models meet the hypotheses
example := C120_raised_item ["u", "v"] ["a", "b", "c"] threeMapper (by decide) insSort_ok (id : Fin 5 → Fin 5) rfl threeItems
  threeRaised rfl rfl rfl rfl rfl ["u"] (by simp) [[2, 1, 3]] [[4, 1, 3]] (by decide) (by decide) rfl (by simp) rfl (by simp)
  2 none none none (by simp) (by simp) (by intro j l h; cases h) 1 1 (by decide) (by decide)

-- a new user with an empty profile
example := C120_raised_item_new_users ["a", "b", "c"] threeMapper.items (by decide) insSort_ok (id : Fin 5 → Fin 5) rfl
  threeItems threeRaised rfl rfl [.ids []] [[2, 1, 3]] [[4, 1, 3]] (by decide) (by decide) rfl (by simp) rfl (by simp)
  2 none none none (by simp) (by simp) (by intro j l h; cases h) 1 1 (by decide) (by decide)

/-- the first user's score of `b` raised from 1 to 3 -/
def threeRaisedB : Rec (Fin 5) :=
  ⟨2, 3, fun u i => u == 1 && i == 0, fun idx => .ok (idx.map (fun u => if u = 0 then [2, 3, 3] else [3, 2, 1])),
    fun X => .ok (List.replicate X.nRows [2, 3, 3])⟩

-- the call for one user, with a finite new score
example := C120_raised_item_single ["u", "v"] ["a", "b", "c"] threeMapper (by decide) insArgsort_ok threeItems threeRaisedB
  rfl rfl rfl "u" (by simp) [2, 1, 3] [2, 3, 3] (by decide) (by decide) rfl rfl 3 (by decide) none none
  (by intro l h; cases h) (by
    intro i
    rcases i with _ | _ | _ | i
    · decide
    · decide
    · decide
    · simp)

example : (2 : Fin 5) < 4 ∧ ∀ y ∈ ["a", "b", "c"], y ≠ "a" →
    ([[4, 1, 3]].getD 0 []).getD (["a", "b", "c"].idxOf y) (⊥ : Fin 5) ≤
      ([[2, 1, 3]].getD 0 []).getD (["a", "b", "c"].idxOf y) ⊥ := by decide

end Irspack.Props
