import Verif.Proofs.Frame

namespace Irspack.Split
open Irspack Spec

section
variable {U I T : Type} [LinearOrder U] [LinearOrder I] [LinearOrder T]

/-! ### Repetitions -/

/-- events after `drop_duplicates` -/
theorem dropDuplicates_events (df : List (Row U I T)) (u : U) (i : I) :
    eventsOf (dropDuplicates df) u i = (eventsOf df u i).take 1 := by
  induction df with
  | nil => rfl
  | cons r rs ih =>
    unfold dropDuplicates
    unfold eventsOf at ih ⊢
    rw [List.filter_cons, List.filter_cons]
    by_cases h : r.user = u ∧ r.item = i
    · simp only [h, and_self, decide_true, if_true, List.take_succ_cons, List.take_zero]
      congr 1
      rw [List.filter_filter, List.filter_eq_nil_iff]
      intro q _
      simp
    · simp only [h, decide_false, Bool.false_eq_true, if_false]
      rw [← ih, List.filter_filter]
      apply List.filter_congr
      intro q _
      by_cases hq : q.user = u ∧ q.item = i
      · have : ¬ (u = r.user ∧ i = r.item) := fun e => h ⟨e.1.symm, e.2.symm⟩
        simp only [hq, and_self, decide_true, Bool.true_and, this, not_false_eq_true]
      · simp [hq]

theorem dropDuplicates_sublist (df : List (Row U I T)) : (dropDuplicates df).Sublist df := by
  induction df with
  | nil => exact List.Sublist.refl _
  | cons r rs ih =>
    unfold dropDuplicates
    exact List.Sublist.cons_cons _ (List.filter_sublist.trans ih)

theorem events_ne_nil (df : List (Row U I T)) (u : U) (i : I) :
    eventsOf df u i ≠ [] ↔ ∃ r ∈ df, r.user = u ∧ r.item = i := by
  unfold eventsOf
  constructor
  · intro h
    obtain ⟨r, hr⟩ := List.exists_mem_of_ne_nil _ h
    rw [List.mem_filter, decide_eq_true_eq] at hr
    exact ⟨r, hr.1, hr.2⟩
  · rintro ⟨r, h1, h2⟩
    exact List.ne_nil_of_mem (a := r) (by rw [List.mem_filter, decide_eq_true_eq]; exact ⟨h1, h2⟩)

theorem dropDuplicates_mem (df : List (Row U I T)) (u : U) (i : I) :
    (∃ r ∈ dropDuplicates df, r.user = u ∧ r.item = i) ↔ ∃ r ∈ df, r.user = u ∧ r.item = i := by
  rw [← events_ne_nil, ← events_ne_nil, dropDuplicates_events]
  cases eventsOf df u i <;> simp

theorem dropDuplicates_users (df : List (Row U I T)) (u : U) :
    (∃ r ∈ dropDuplicates df, r.user = u) ↔ ∃ r ∈ df, r.user = u := by
  constructor
  · rintro ⟨r, hr, h⟩; exact ⟨r, (dropDuplicates_sublist df).subset hr, h⟩
  · rintro ⟨r, hr, h⟩
    obtain ⟨q, hq, h1, _⟩ := (dropDuplicates_mem df u r.item).mpr ⟨r, hr, h, rfl⟩
    exact ⟨q, hq, h1⟩

theorem dropDuplicates_items (df : List (Row U I T)) (i : I) :
    (∃ r ∈ dropDuplicates df, r.item = i) ↔ ∃ r ∈ df, r.item = i := by
  constructor
  · rintro ⟨r, hr, h⟩; exact ⟨r, (dropDuplicates_sublist df).subset hr, h⟩
  · rintro ⟨r, hr, h⟩
    obtain ⟨q, hq, _, h1⟩ := (dropDuplicates_mem df r.user i).mpr ⟨r, hr, rfl, h⟩
    exact ⟨q, hq, h1⟩

theorem dropDuplicates_weight (useRating : Bool) (df : List (Row U I T)) (u : U) (i : I) :
    totalWeight useRating (dropDuplicates df) u i = firstWeight useRating df u i := by
  unfold totalWeight firstWeight
  rw [dropDuplicates_events]
  cases eventsOf df u i <;> simp

/-- selecting users -/
theorem sel_events (df : List (Row U I T)) (ids : List U) (u : U) (i : I) (hu : u ∈ ids) :
    eventsOf (df.filter (fun r => decide (r.user ∈ ids))) u i = eventsOf df u i := by
  unfold eventsOf
  rw [List.filter_filter]
  apply List.filter_congr
  intro r _
  by_cases h : r.user = u
  · subst h; simp [hu]
  · simp [h]

theorem totalWeight_congr {useRating : Bool} {a b : List (Row U I T)} {u : U} {i : I}
    (h : eventsOf a u i = eventsOf b u i) : totalWeight useRating a u i = totalWeight useRating b u i := by
  unfold totalWeight; rw [h]

theorem totalWeight_append (useRating : Bool) (a b : List (Row U I T)) (u : U) (i : I) :
    totalWeight useRating (a ++ b) u i = totalWeight useRating a u i + totalWeight useRating b u i := by
  unfold totalWeight eventsOf
  rw [List.filter_append, List.map_append, List.sum_append]

theorem totalWeight_perm (useRating : Bool) {a b : List (Row U I T)} (h : a.Perm b) (u : U) (i : I) :
    totalWeight useRating a u i = totalWeight useRating b u i := by
  unfold totalWeight eventsOf
  exact ((h.filter _).map _).sum_eq

theorem totalWeight_int (df : List (Row U I T)) (useRating : Bool)
    (hr : useRating = true → ∀ r ∈ df, ∃ z : ℤ, r.rating = z) (u : U) (i : I) :
    ∃ z : ℤ, totalWeight useRating df u i = z := by
  unfold totalWeight eventsOf
  induction df with
  | nil => exact ⟨0, by simp⟩
  | cons r df ih =>
    obtain ⟨z, hz⟩ := ih (fun h q hq => hr h q (List.mem_cons_of_mem _ hq))
    rw [List.filter_cons]
    by_cases hc : r.user = u ∧ r.item = i
    · rw [if_pos (decide_eq_true hc), List.map_cons, List.sum_cons, hz]
      cases useRating with
      | false => exact ⟨1 + z, by push_cast; rfl⟩
      | true =>
        obtain ⟨w, hw⟩ := hr rfl r (by simp)
        exact ⟨w + z, by rw [if_pos rfl, hw]; push_cast; rfl⟩
    · rw [if_neg (by simpa using hc)]; exact ⟨z, hz⟩

/-! ### Pairs -/

theorem make_ok {userIds : List U} {xTrain : Csr ℝ} {xTest : Option (Csr ℝ)} {itemIds : Option (List I)}
    {p : UserPair U I} (h : UserPair.make userIds xTrain xTest itemIds = .ok p) :
    userIds.length = xTrain.rows.length ∧ (∀ xt, xTest = some xt → xTrain.shape = xt.shape) ∧
    (∀ l, itemIds = some l → l.length = xTrain.nCols) ∧
    p = ⟨userIds, xTrain, xTest.getD (Csr.empty xTrain.shape), itemIds⟩ := by
  unfold UserPair.make at h
  split at h
  · cases h
  · rename_i h1
    rw [not_not] at h1
    split at h
    · cases h
    · rename_i h2
      simp only at h
      split at h
      · cases h
      · rename_i h3
        injection h with h
        have h2' : ∀ xt, xTest = some xt → xTrain.shape = xt.shape := by
          intro xt hx
          by_contra hne
          exact h2 ⟨xt, hx, hne⟩
        have hc : (xTest.getD (Csr.empty xTrain.shape)).nCols = xTrain.nCols := by
          cases hx : xTest with
          | none => rfl
          | some xt =>
            have := h2' xt hx
            unfold Csr.shape at this
            injection this with _ h4
            exact h4.symm
        refine ⟨h1, h2', ?_, h.symm⟩
        intro l hl
        by_contra hne
        exact h3 ⟨l, hl, by rw [hc]; exact hne⟩

/-- What a split of the rows of a frame should be, before renaming to the specification. -/
structure GoodPair (useRating : Bool) (df : List (Row U I T)) (items : List I) (p : UserPair U I) :
    Prop where
  nodup : p.userIds.Nodup
  users : ∀ u, u ∈ p.userIds ↔ ∃ r ∈ df, r.user = u
  rowsTrain : p.xTrain.rows.length = p.userIds.length
  rowsTest : p.xTest.rows.length = p.userIds.length
  colsTrain : p.xTrain.nCols = items.length
  colsTest : p.xTest.nCols = items.length
  weight : ∀ k (hk : k < p.userIds.length) j (hj : j < items.length),
    entry p.xTrain k j + entry p.xTest k j = totalWeight useRating df p.userIds[k] items[j]
  stored : ∀ k (hk : k < p.userIds.length) j (hj : j < items.length),
    (j ∈ storedCols p.xTrain k ∨ j ∈ storedCols p.xTest k) ↔
      eventsOf df p.userIds[k] items[j] ≠ []
  disjoint : ∀ k j, ¬ (j ∈ storedCols p.xTrain k ∧ j ∈ storedCols p.xTest k)
  inRange : ∀ k j, j ∈ storedCols p.xTrain k ∨ j ∈ storedCols p.xTest k → j < items.length

theorem dfToSparse_integral {df : List (Row U I T)} {userIds : Option (List U)} {itemIds : Option (List I)}
    {useRating : Bool} {X : Csr ℝ} {us : List U} {is : List I}
    (h : dfToSparse df userIds itemIds useRating = .ok (X, us, is))
    (hr : useRating = true → ∀ r ∈ df, ∃ z : ℤ, r.rating = z) : Integral X := by
  obtain ⟨-, -, hl, -, hc, -, -, -, -, he, hst⟩ := dfToSparse_ok h
  intro row hrow p hp
  obtain ⟨k, hk, rfl⟩ := List.mem_iff_getElem.mp hrow
  have hk' : k < us.length := by omega
  have hg : X.rows.getD k [] = X.rows[k] := by
    rw [List.getD_eq_getElem?_getD, List.getElem?_eq_getElem hk, Option.getD_some]
  obtain ⟨hj, -⟩ := (hst k hk' p.1).mp (by rw [hg]; exact List.mem_map.mpr ⟨p, hp, rfl⟩)
  have := he k hk' p.1 hj
  rw [entry_eq, hg, rowEntry_mem _ (hc _ hrow) p hp] at this
  rw [this]
  exact totalWeight_int df useRating hr _ _

theorem userwiseRandom_good {fl : ℝ → ℝ} {rowShuffle : Nat → Nat → List Nat}
    (hsh : ∀ r n, (rowShuffle r n).Perm (List.range n)) {df : List (Row U I T)} {items : List I}
    {ratio : ℝ} {n : Option Int} {useRating ceil : Bool}
    (hr : useRating = true → ∀ r ∈ df, ∃ z : ℤ, r.rating = z) (hin : ∀ r ∈ df, r.item ∈ items)
    {p : UserPair U I} (h : userwiseRandom fl rowShuffle df items ratio n useRating ceil = .ok p) :
    GoodPair useRating df items p ∧ p.itemIds = some items := by
  unfold userwiseRandom at h
  cases hd : dfToSparse df none (some items) useRating with
  | error e => rw [hd] at h; cases h
  | ok t =>
    obtain ⟨X, us, is⟩ := t
    rw [hd] at h
    simp only at h
    obtain ⟨nu, ni, hl, hcol, hc, -, eis, hus, -, he, hst⟩ := dfToSparse_ok hd
    have his := (eis items rfl).symm
    subst his
    cases hs : rowwiseSplit fl X ratio n ceil (fun r => rowShuffle r (X.rows.getD r []).length) with
    | error e => rw [hs] at h; cases h
    | ok ab =>
      obtain ⟨a, b⟩ := ab
      rw [hs] at h
      simp only at h
      obtain ⟨h1, h2, h3, rfl⟩ := make_ok h
      have hint := dfToSparse_integral hd hr
      have hshuf : IsRowShuffle X (fun r => rowShuffle r (X.rows.getD r []).length) := by
        intro r hr'
        have : X.rows.getD r [] = X.rows[r] := by
          rw [List.getD_eq_getElem?_getD, List.getElem?_eq_getElem hr', Option.getD_some]
        simp only [this]
        exact hsh r _
      have hsplit : ∃ nTest : Nat → Nat, splitImple nTest
          (fun r => rowShuffle r (X.rows.getD r []).length) X = (a, b) := by
        unfold rowwiseSplit at hs
        cases n with
        | none =>
          simp only at hs
          split at hs
          · cases hs
          · injection hs with hs; exact ⟨_, hs⟩
        | some k =>
          simp only at hs
          split at hs
          · cases hs
          · injection hs with hs; exact ⟨_, hs⟩
      obtain ⟨nTest, hab⟩ := hsplit
      unfold splitImple at hab
      injection hab with hA hB
      have hal : a.rows.length = us.length := by rw [← hA]; simp [hl]
      have hbl : b.rows.length = us.length := by rw [← hB]; simp [hl]
      have hperm : ∀ k (hk : k < X.rows.length), (a.rows.getD k [] ++ b.rows.getD k []).Perm X.rows[k] := by
        intro k hk
        rw [← hA, ← hB]
        simp only [List.getD_eq_getElem?_getD, List.getElem?_mapIdx, List.getElem?_eq_getElem hk,
          Option.map_some, Option.getD_some]
        have hsk := hshuf k hk
        simp only [List.getD_eq_getElem?_getD, List.getElem?_eq_getElem hk, Option.getD_some] at hsk
        have := (splitRow_perm nTest _ _ hsk (hc _ (List.getElem_mem hk))).1.map
          (fun p : Nat × ℤ => (p.1, (p.2 : ℝ)))
        rw [List.map_append, List.map_map] at this
        refine this.trans ?_
        have he : X.rows[k].map ((fun p : Nat × ℤ => (p.1, (p.2 : ℝ))) ∘ fun p => (p.1, truncZ p.2)) =
            X.rows[k] := by
          conv_rhs => rw [← List.map_id X.rows[k]]
          apply List.map_congr_left
          intro p hp
          obtain ⟨z, hz⟩ := hint _ (List.getElem_mem hk) p hp
          simp only [Function.comp, id, hz, truncZ_int]
          rw [← hz]
        rw [he]
      have hXg : ∀ k (hk : k < X.rows.length), X.rows.getD k [] = X.rows[k] := by
        intro k hk
        rw [List.getD_eq_getElem?_getD, List.getElem?_eq_getElem hk, Option.getD_some]
      refine ⟨⟨nu, ?_, hal, hbl, by rw [← hA]; exact hcol, by rw [Option.getD_some, ← hB]; exact hcol,
        ?_, ?_, ?_, ?_⟩, rfl⟩
      · intro u
        rw [(hus rfl).2]
        constructor
        · rintro ⟨r, hr', h4, -⟩; exact ⟨r, hr', h4⟩
        · rintro ⟨r, hr', h4⟩
          exact ⟨r, hr', h4, by rintro l ⟨⟩; exact hin r hr'⟩
      · intro k hk j hj
        simp only at hk
        have hkX : k < X.rows.length := by omega
        rw [← he k hk j hj, entry_eq, entry_eq, entry_eq, Option.getD_some, ← rowEntry_append, hXg k hkX]
        exact rowEntry_perm (hperm k hkX) j
      · intro k hk j hj
        simp only at hk
        have hkX : k < X.rows.length := by omega
        have h5 := hst k hk j
        rw [hXg k hkX, ← ((hperm k hkX).map Prod.fst).mem_iff, List.map_append, List.mem_append] at h5
        unfold storedCols
        rw [Option.getD_some]
        simp only
        rw [h5]
        constructor
        · rintro ⟨_, h6⟩; exact h6
        · intro h6; exact ⟨hj, h6⟩
      · intro k j
        unfold storedCols
        rw [Option.getD_some]
        by_cases hkX : k < X.rows.length
        · rintro ⟨h5, h6⟩
          have h7 := (((hperm k hkX).map Prod.fst).nodup_iff).mpr (hc _ (List.getElem_mem hkX))
          rw [List.map_append, List.nodup_append] at h7
          exact h7.2.2 j h5 j h6 rfl
        · rintro ⟨h5, -⟩
          simp only [List.getD_eq_getElem?_getD] at h5
          rw [List.getElem?_eq_none (by omega)] at h5
          simp at h5
      · intro k j h5
        unfold storedCols at h5
        rw [Option.getD_some] at h5
        by_cases hkX : k < X.rows.length
        · rw [← List.mem_append, ← List.map_append, ((hperm k hkX).map Prod.fst).mem_iff,
            ← hXg k hkX] at h5
          exact ((hst k (by omega) j).mp h5).1
        · simp only [List.getD_eq_getElem?_getD] at h5
          rw [List.getElem?_eq_none (by omega), List.getElem?_eq_none (by omega)] at h5
          simp at h5

theorem splitLastN_perm {fl : ℝ → ℝ} {srt : List (Row U I T) → List (Row U I T)} (hsrt : IsSorted srt)
    (df : List (Row U I T)) (n : Option Int) (ratio : ℝ) (ceil : Bool) :
    ((splitLastN fl srt df n ratio ceil).1 ++ (splitLastN fl srt df n ratio ceil).2).Perm df := by
  obtain ⟨hperm, -⟩ := hsrt df
  unfold splitLastN
  simp only
  rw [← List.map_append]
  have := (List.filter_append_perm (fun p : Row U I T × Nat => decide ((p.2 : Int) <
    heldOut fl n ratio ceil ((srt df).countP (fun q => decide (q.user = p.1.user)))))
      (withLater (srt df))).map Prod.fst
  rw [withLater_fst, List.map_append] at this
  rw [List.map_append]
  exact (List.perm_append_comm.trans this).trans hperm

theorem userwiseTime_good {fl : ℝ → ℝ} {o : Oracle U I T} (hso : ∀ l, (o.setOrderU l).Perm l)
    (hsrt : IsSorted o.sortValues) {df : List (Row U I T)} {items : List I}
    {ratio : ℝ} {n : Option Int} {useRating ceil : Bool}
    (huniq : ∀ u i, (eventsOf df u i).length ≤ 1)
    {p : UserPair U I} (h : userwiseTime fl o df items ratio n useRating ceil = .ok p) :
    GoodPair useRating df items p ∧ p.itemIds = some items := by
  unfold userwiseTime at h
  simp only at h
  split at h
  · cases h
  · rename_i hur
    have hur' : useRating = false := by simpa using hur
    subst hur'
    have hperm := splitLastN_perm (fl := fl) hsrt df n ratio ceil
    set s := splitLastN fl o.sortValues df n ratio ceil
    set us := o.setOrderU (df.map Row.user).dedup with hus
    have husp : us.Perm (df.map Row.user).dedup := hso _
    cases hd : dfToSparse s.1 (some us) (some items) false with
    | error e => rw [hd] at h; cases h
    | ok t =>
      obtain ⟨a, us1, is1⟩ := t
      rw [hd] at h
      simp only at h
      cases hd2 : dfToSparse s.2 (some us) (some items) false with
      | error e => rw [hd2] at h; cases h
      | ok t2 =>
        obtain ⟨b, us2, is2⟩ := t2
        rw [hd2] at h
        simp only at h
        obtain ⟨nu, ni, hl, hcol, hc, eu, ei, -, -, he, hst⟩ := dfToSparse_ok hd
        obtain ⟨nu2, ni2, hl2, hcol2, hc2, eu2, ei2, -, -, he2, hst2⟩ := dfToSparse_ok hd2
        have q1 := (eu us rfl).symm
        have q2 := (ei items rfl).symm
        have q3 := (eu2 us rfl).symm
        have q4 := (ei2 items rfl).symm
        subst q2 q4
        rw [← q1] at hl nu
        rw [← q3] at hl2
        simp only [← q1] at he hst
        simp only [← q3] at he2 hst2
        obtain ⟨h1, h2, h3, rfl⟩ := make_ok h
        have hev : ∀ u i, eventsOf s.1 u i ++ eventsOf s.2 u i = [] ↔ eventsOf df u i = [] := by
          intro u i
          have : (eventsOf s.1 u i ++ eventsOf s.2 u i).Perm (eventsOf df u i) := by
            unfold eventsOf; rw [← List.filter_append]; exact hperm.filter _
          constructor
          · intro h; rw [h] at this; exact (List.nil_perm.mp this)
          · intro h; rw [h] at this; exact (List.perm_nil.mp this)
        refine ⟨⟨nu, ?_, hl, hl2, hcol, hcol2, ?_, ?_, ?_, ?_⟩, rfl⟩
        · intro u
          simp only
          rw [husp.mem_iff, List.mem_dedup, List.mem_map]
        · intro k hk j hj
          rw [Option.getD_some, he k hk j hj, he2 k hk j hj, ← totalWeight_append]
          exact totalWeight_perm false hperm _ _
        · intro k hk j hj
          have h5 := hst k hk j
          have h6 := hst2 k hk j
          have e5 : j ∈ storedCols a k ↔ eventsOf s.1 us[k] items[j] ≠ [] := by
            unfold storedCols; rw [h5]
            exact ⟨fun ⟨_, h⟩ => h, fun h => ⟨hj, h⟩⟩
          have e6 : j ∈ storedCols b k ↔ eventsOf s.2 us[k] items[j] ≠ [] := by
            unfold storedCols; rw [h6]
            exact ⟨fun ⟨_, h⟩ => h, fun h => ⟨hj, h⟩⟩
          rw [Option.getD_some]
          simp only
          rw [e5, e6, ne_eq, ne_eq, ne_eq, ← hev, List.append_eq_nil_iff]
          tauto
        · intro k j
          rw [Option.getD_some]
          rintro ⟨h5, h6⟩
          by_cases hk : k < us.length
          · obtain ⟨hj, h7⟩ := (hst k hk j).mp h5
            obtain ⟨_, h8⟩ := (hst2 k hk j).mp h6
            have hp : (eventsOf s.1 us[k] items[j] ++ eventsOf s.2 us[k] items[j]).Perm
                (eventsOf df us[k] items[j]) := by
              unfold eventsOf; rw [← List.filter_append]; exact hperm.filter _
            have hlen := hp.length_eq
            rw [List.length_append] at hlen
            have := huniq us[k] items[j]
            have := List.length_pos_of_ne_nil h7
            have := List.length_pos_of_ne_nil h8
            omega
          · unfold storedCols at h5
            simp only at h5
            rw [List.getD_eq_getElem?_getD, List.getElem?_eq_none (by omega)] at h5
            simp at h5
        · intro k j h5
          rw [Option.getD_some] at h5
          by_cases hk : k < us.length
          · rcases h5 with h5 | h5
            · exact ((hst k hk j).mp h5).1
            · exact ((hst2 k hk j).mp h5).1
          · unfold storedCols at h5
            simp only [List.getD_eq_getElem?_getD] at h5
            rw [List.getElem?_eq_none (by omega), List.getElem?_eq_none (by omega)] at h5
            simp at h5

/-! ### Users -/

theorem pySplit_perm {A : Type} (l : List A) (t : Int) : ((pySplit l t).1 ++ (pySplit l t).2).Perm l := by
  unfold pySplit
  simp only
  refine List.perm_append_comm.trans ?_
  rw [List.take_append_drop]

theorem holdoutUsers_perm {fl : ℝ → ℝ} {o : Oracle U I T} (hso : ∀ k l, (o.shuffle k l).Perm l)
    (uids : List U) (nVal nTest : Int) (ratio : ℝ) :
    let s := holdoutUsers fl o uids nVal nTest ratio
    (s.1 ++ s.2.1 ++ s.2.2).Perm uids := by
  intro s
  have h0 : ((splitList (o.shuffle 0) uids (nVal + nTest)).1 ++
      (splitList (o.shuffle 0) uids (nVal + nTest)).2).Perm uids :=
    (pySplit_perm _ _).trans (hso 0 uids)
  have hs : s = holdoutUsers fl o uids nVal nTest ratio := rfl
  unfold holdoutUsers at hs
  simp only at hs
  split at hs
  · rw [hs]
    simp only
    rw [List.append_assoc]
    exact ((((pySplit_perm _ _).trans (hso 1 _)).append_left _)).trans h0
  · rw [hs]
    simp only [List.append_nil]
    exact h0

/-! ### Success -/

theorem make_total (userIds : List U) (xTrain : Csr ℝ) (xTest : Option (Csr ℝ))
    (itemIds : Option (List I)) (h1 : userIds.length = xTrain.rows.length)
    (h2 : ∀ xt, xTest = some xt → xTrain.shape = xt.shape)
    (h3 : ∀ l, itemIds = some l → l.length = xTrain.nCols) :
    ∃ p, UserPair.make userIds xTrain xTest itemIds = .ok p := by
  unfold UserPair.make
  rw [if_neg (not_not.mpr h1), if_neg]
  · simp only
    rw [if_neg]
    · exact ⟨_, rfl⟩
    · rintro ⟨l, hl, hne⟩
      apply hne
      rw [h3 l hl]
      cases hx : xTest with
      | none => rfl
      | some xt => exact congrArg Prod.snd (h2 xt hx)
  · rintro ⟨xt, hx, hne⟩
    exact hne (h2 xt hx)

theorem userwise_total {fl : ℝ → ℝ} {o : Oracle U I T} (ho : ValidOracle o) {p : HoldoutParams} (k : Nat)
    (df : List (Row U I T)) (items : List I) (hitems : items.Nodup) (ratio : ℝ) (n : Option Int)
    (ht : p.timeBased = true → p.useRating = false)
    (hr : p.timeBased = false → (n = none → 0 ≤ ratio ∧ ratio ≤ 1) ∧ ∀ m, n = some m → 0 ≤ m) :
    ∃ q, userwise fl o p k df items ratio n = .ok q := by
  unfold userwise
  cases htb : p.timeBased with
  | true =>
    simp only [if_true]
    unfold userwiseTime
    simp only [ht htb, Bool.false_eq_true, if_false]
    have hnd : (o.setOrderU (df.map Row.user).dedup).Nodup :=
      (ho.setOrderU _).nodup_iff.mpr (List.nodup_dedup _)
    obtain ⟨⟨a, ua, ia⟩, ha⟩ := dfToSparse_total (splitLastN fl o.sortValues df n ratio p.ceil).1
      (some (o.setOrderU (df.map Row.user).dedup)) (some items) false (by rintro l ⟨⟩; exact hnd)
      (by rintro l ⟨⟩; exact hitems)
    obtain ⟨⟨b, ub, ib⟩, hb⟩ := dfToSparse_total (splitLastN fl o.sortValues df n ratio p.ceil).2
      (some (o.setOrderU (df.map Row.user).dedup)) (some items) false (by rintro l ⟨⟩; exact hnd)
      (by rintro l ⟨⟩; exact hitems)
    rw [ha, hb]
    simp only
    obtain ⟨-, -, a3, a4, -, a6, a7, -⟩ := dfToSparse_ok ha
    obtain ⟨-, -, b3, b4, -, b6, b7, -⟩ := dfToSparse_ok hb
    apply make_total
    · rw [a3, a6 _ rfl]
    · rintro xt ⟨⟩
      unfold Csr.shape
      rw [a3, a4, b3, b4, a6 _ rfl, a7 _ rfl, b6 _ rfl, b7 _ rfl]
    · rintro l ⟨⟩
      rw [a4, a7 _ rfl]
  | false =>
    simp only [Bool.false_eq_true, if_false]
    obtain ⟨hr1, hr2⟩ := hr htb
    unfold userwiseRandom
    obtain ⟨⟨X, us, is⟩, hX⟩ := dfToSparse_total df none (some items) p.useRating (by simp)
      (by rintro l ⟨⟩; exact hitems)
    rw [hX]
    simp only
    obtain ⟨-, -, a3, a4, -, -, a7, -⟩ := dfToSparse_ok hX
    have hs : ∃ nTest : Nat → Nat, rowwiseSplit fl X ratio n p.ceil
        (fun r => o.rowShuffle k r (X.rows.getD r []).length) =
        .ok (splitImple nTest (fun r => o.rowShuffle k r (X.rows.getD r []).length) X) := by
      unfold rowwiseSplit
      cases n with
      | none =>
        obtain ⟨h0, h1⟩ := hr1 rfl
        simp only
        rw [if_neg (not_not.mpr ⟨h1, h0⟩)]
        exact ⟨_, rfl⟩
      | some m =>
        simp only
        rw [if_neg (by have := hr2 m rfl; omega)]
        exact ⟨_, rfl⟩
    obtain ⟨nTest, hs⟩ := hs
    rw [hs]
    simp only [splitImple]
    apply make_total
    · simp [a3]
    · rintro xt ⟨⟩
      simp [Csr.shape]
    · rintro l ⟨⟩
      simp only
      rw [a4, a7 _ rfl]

/-! ### Nearest rounding -/

theorem nearest_sub_le {fl : ℝ → ℝ} (h : IsNearest fl) (x : ℝ) (n : ℤ) (hn : |n| ≤ 2 ^ 53) :
    |x - fl x| ≤ |x - n| := by
  have := (h x).2 n 0 hn
  simpa using this

end

end Irspack.Split
