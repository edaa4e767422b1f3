import Verif.Proofs.Holdout

/-!
# C25 – C26: `split_dataframe_partial_user_holdout`
-/

namespace Irspack.Props
open Irspack Spec Split

variable {U I T : Type} [LinearOrder U] [LinearOrder I] [LinearOrder T]

/-! ## C25 -/

theorem userwise_good {fl : ℝ → ℝ} {o : Oracle U I T} (ho : ValidOracle o) {p : HoldoutParams} {k : Nat}
    {df : List (Row U I T)} {items : List I} {ratio : ℝ} {n : Option Int}
    (hr : p.useRating = true → ∀ r ∈ df, ∃ z : ℤ, r.rating = z) (hin : ∀ r ∈ df, r.item ∈ items)
    (huniq : ∀ u i, (eventsOf df u i).length ≤ 1) {q : UserPair U I}
    (h : userwise fl o p k df items ratio n = .ok q) :
    GoodPair p.useRating df items q ∧ q.itemIds = some items := by
  unfold userwise at h
  cases ht : p.timeBased with
  | true =>
    simp only [ht, if_true] at h
    exact userwiseTime_good ho.setOrderU ho.sortValues huniq h
  | false =>
    simp only [ht, Bool.false_eq_true, if_false] at h
    exact userwiseRandom_good (ho.rowShuffle k) hr hin h

/-- Everything about a successful call. -/
theorem partialUserHoldout_ok {fl : ℝ → ℝ} {o : Oracle U I T} (ho : ValidOracle o) {p : HoldoutParams}
    {df : List (Row U I T)} (hr : p.useRating = true → ∀ r ∈ df, ∃ z : ℤ, r.rating = z)
    {H : Holdout U I} (h : partialUserHoldout fl o p df = .ok H) :
    ∃ nVal nTest ratio, holdoutSizes fl p (userCount df) = .ok (nVal, nTest, ratio) ∧
    ∃ s : List U × List U × List U,
      s = holdoutUsers fl o (df.map Row.user).dedup nVal nTest ratio ∧
      H.train.userIds = s.1 ∧ H.train.xTrain.rows.length = s.1.length ∧
      (∀ k (hk : k < s.1.length) j (hj : j < H.items.length),
        entry H.train.xTrain k j = firstWeight false df s.1[k] H.items[j]) ∧
      (∀ k j, entry H.train.xTest k j = 0) ∧
      GoodPair p.useRating ((dropDuplicates df).filter (fun r => decide (r.user ∈ s.2.1))) H.items H.val ∧
      GoodPair p.useRating ((dropDuplicates df).filter (fun r => decide (r.user ∈ s.2.2))) H.items H.test ∧
      H.items.Nodup ∧ (∀ i, i ∈ H.items ↔ ∃ r ∈ df, r.item = i) ∧
      H.val.itemIds = some H.items ∧ H.test.itemIds = some H.items ∧
      H.train.xTrain.nCols = H.items.length ∧ H.train.xTest = Csr.empty H.train.xTrain.shape := by
  unfold partialUserHoldout at h
  simp only at h
  cases hs : holdoutSizes fl p (df.map Row.user).dedup.length with
  | error e => rw [hs] at h; cases h
  | ok t =>
    obtain ⟨nVal, nTest, ratio⟩ := t
    rw [hs] at h
    simp only at h
    refine ⟨nVal, nTest, ratio, hs, ?_⟩
    set s := holdoutUsers fl o (df.map Row.user).dedup nVal nTest ratio with hsdef
    refine ⟨s, rfl, ?_⟩
    set df' := dropDuplicates df with hdf'
    set items := o.setOrderI (df'.map Row.item).dedup with hitems
    have hiperm : items.Perm (df'.map Row.item).dedup := ho.setOrderI _
    have himem : ∀ i, i ∈ items ↔ ∃ r ∈ df, r.item = i := by
      intro i
      rw [hiperm.mem_iff, List.mem_dedup, List.mem_map]
      exact dropDuplicates_items df i
    have hmem' : ∀ r ∈ df', r ∈ df := fun r hr' => (dropDuplicates_sublist df).subset hr'
    have huniq : ∀ (ids : List U) u i,
        (eventsOf (df'.filter (fun r => decide (r.user ∈ ids))) u i).length ≤ 1 := by
      intro ids u i
      have h1 : (eventsOf df' u i).length ≤ 1 := by
        rw [hdf', dropDuplicates_events]; simp
      have h2 : (eventsOf (df'.filter (fun r => decide (r.user ∈ ids))) u i).Sublist (eventsOf df' u i) := by
        unfold eventsOf; exact List.filter_sublist.filter _
      exact le_trans h2.length_le h1
    cases hd : dfToSparse (df'.filter (fun r => decide (r.user ∈ s.1))) (some s.1) (some items) false with
    | error e => rw [hd] at h; cases h
    | ok t =>
      obtain ⟨X, us, is⟩ := t
      rw [hd] at h
      simp only at h
      obtain ⟨-, -, a3, a4, -, a6, a7, -, -, a10, -⟩ := dfToSparse_ok hd
      have q1 := (a6 _ rfl).symm
      have q2 := (a7 _ rfl).symm
      cases hm : UserPair.make s.1 X none (none : Option (List I)) with
      | error e => rw [hm] at h; cases h
      | ok tr =>
        rw [hm] at h
        simp only at h
        cases hv : userwise fl o p 0 (df'.filter (fun r => decide (r.user ∈ s.2.1))) items
            p.heldoutRatioVal p.nHeldoutVal with
        | error e => rw [hv] at h; cases h
        | ok va =>
          rw [hv] at h
          simp only at h
          cases hte : userwise fl o p 1 (df'.filter (fun r => decide (r.user ∈ s.2.2))) items
              p.heldoutRatioTest p.nHeldoutTest with
          | error e => rw [hte] at h; cases h
          | ok te =>
            rw [hte] at h
            simp only at h
            injection h with h
            subst h
            obtain ⟨-, -, -, htr⟩ := make_ok hm
            have hgv := userwise_good ho (fun hu r hr' => hr hu r (hmem' r (List.mem_filter.mp hr').1))
              (fun r hr' => (himem _).mpr ⟨r, hmem' r (List.mem_filter.mp hr').1, rfl⟩) (huniq s.2.1) hv
            have hgt := userwise_good ho (fun hu r hr' => hr hu r (hmem' r (List.mem_filter.mp hr').1))
              (fun r hr' => (himem _).mpr ⟨r, hmem' r (List.mem_filter.mp hr').1, rfl⟩) (huniq s.2.2) hte
            refine ⟨by rw [htr], by rw [htr]; rw [a3, q1], ?_, ?_, hgv.1, hgt.1,
              hiperm.nodup_iff.mpr (List.nodup_dedup _), himem, hgv.2, hgt.2,
              by rw [htr]; rw [a4, q2], by rw [htr]; rfl⟩
            · intro k hk j hj
              rw [htr]
              have hk' : k < us.length := by rw [← q1]; exact hk
              have hj' : j < is.length := by rw [← q2]; exact hj
              rw [a10 k hk' j hj']
              simp only [← q1, ← q2]
              rw [totalWeight_congr (sel_events df' s.1 _ _ (List.getElem_mem hk))]
              exact dropDuplicates_weight false df _ _
            · intro k j
              rw [htr, entry_eq, Option.getD_none]
              unfold Csr.empty
              simp only [List.getD_eq_getElem?_getD]
              by_cases hk : k < X.shape.1
              · rw [List.getElem?_replicate, if_pos hk]; rfl
              · rw [List.getElem?_eq_none (by simpa using hk)]; rfl

/-- C25. Every user of the frame is in exactly one of the three datasets and no other user occurs.
The train dataset holds the (deduplicated) interactions of the train users and nothing held out.  For a
validation or test user, each distinct interaction is stored in exactly one of the two parts, no other
position is stored, and the parts add up to the weight of the interaction (its first rating, or 1).
Ratings, if used, must be integers (see C22). -/
theorem C25_partition_without_leakage (fl : ℝ → ℝ) (o : Oracle U I T) (ho : ValidOracle o)
    (p : HoldoutParams) (df : List (Row U I T))
    (hr : p.useRating = true → ∀ r ∈ df, ∃ z : ℤ, r.rating = z) (H : Holdout U I)
    (h : partialUserHoldout fl o p df = .ok H) :
    (H.train.userIds ++ H.val.userIds ++ H.test.userIds).Nodup ∧
    (∀ u, u ∈ H.train.userIds ++ H.val.userIds ++ H.test.userIds ↔ ∃ r ∈ df, r.user = u) ∧
    H.items.Nodup ∧ (∀ i, i ∈ H.items ↔ ∃ r ∈ df, r.item = i) ∧
    (∀ k (hk : k < H.train.userIds.length) j (hj : j < H.items.length),
      entry H.train.xTrain k j = firstWeight false df H.train.userIds[k] H.items[j] ∧
      entry H.train.xTest k j = 0) ∧
    ∀ P, P = H.val ∨ P = H.test →
      ∀ k (hk : k < P.userIds.length) j (hj : j < H.items.length),
        entry P.xTrain k j + entry P.xTest k j =
          firstWeight p.useRating df P.userIds[k] H.items[j] ∧
        ((j ∈ storedCols P.xTrain k ∨ j ∈ storedCols P.xTest k) ↔
          ∃ r ∈ df, r.user = P.userIds[k] ∧ r.item = H.items[j]) ∧
        ¬ (j ∈ storedCols P.xTrain k ∧ j ∈ storedCols P.xTest k) := by
  obtain ⟨nVal, nTest, ratio, hsz, s, hs, h1, h2, h3, h4, gv, gt, h5, h6, -, -⟩ :=
    partialUserHoldout_ok ho hr h
  have hperm := holdoutUsers_perm (fl := fl) (o := o) ho.shuffle (df.map Row.user).dedup nVal nTest ratio
  simp only at hperm
  rw [← hs] at hperm
  have hnd : (s.1 ++ s.2.1 ++ s.2.2).Nodup := hperm.nodup_iff.mpr (List.nodup_dedup _)
  have husers : ∀ u, u ∈ s.1 ++ s.2.1 ++ s.2.2 ↔ ∃ r ∈ df, r.user = u := by
    intro u; rw [hperm.mem_iff, List.mem_dedup, List.mem_map]
  have key : ∀ (ids : List U) (P : UserPair U I), (∀ u ∈ ids, ∃ r ∈ df, r.user = u) →
      GoodPair p.useRating ((dropDuplicates df).filter (fun r => decide (r.user ∈ ids))) H.items P →
      (∀ u, u ∈ P.userIds ↔ u ∈ ids) ∧
      ∀ k (hk : k < P.userIds.length) j (hj : j < H.items.length),
        entry P.xTrain k j + entry P.xTest k j =
          firstWeight p.useRating df P.userIds[k] H.items[j] ∧
        ((j ∈ storedCols P.xTrain k ∨ j ∈ storedCols P.xTest k) ↔
          ∃ r ∈ df, r.user = P.userIds[k] ∧ r.item = H.items[j]) ∧
        ¬ (j ∈ storedCols P.xTrain k ∧ j ∈ storedCols P.xTest k) := by
    intro ids P hids g
    have hmem : ∀ u, u ∈ P.userIds ↔ u ∈ ids := by
      intro u
      rw [g.users]
      constructor
      · rintro ⟨r, hr', rfl⟩
        have := (List.mem_filter.mp hr').2
        simpa using this
      · intro hu
        obtain ⟨r, hr', hru⟩ := (dropDuplicates_users df u).mpr (hids u hu)
        exact ⟨r, List.mem_filter.mpr ⟨hr', by simp [hru, hu]⟩, hru⟩
    refine ⟨hmem, ?_⟩
    intro k hk j hj
    have hin : P.userIds[k] ∈ ids := (hmem _).mp (List.getElem_mem hk)
    refine ⟨?_, ?_, g.disjoint k j⟩
    · rw [g.weight k hk j hj, totalWeight_congr (sel_events _ ids _ _ hin)]
      exact dropDuplicates_weight _ df _ _
    · rw [g.stored k hk j hj, sel_events _ ids _ _ hin, events_ne_nil]
      exact dropDuplicates_mem df _ _
  have hsubv : ∀ u ∈ s.2.1, ∃ r ∈ df, r.user = u := fun u hu => (husers u).mp (by simp [hu])
  have hsubt : ∀ u ∈ s.2.2, ∃ r ∈ df, r.user = u := fun u hu => (husers u).mp (by simp [hu])
  obtain ⟨kv1, kv2⟩ := key s.2.1 H.val hsubv gv
  obtain ⟨kt1, kt2⟩ := key s.2.2 H.test hsubt gt
  refine ⟨?_, ?_, h5, h6, ?_, ?_⟩
  · rw [List.nodup_append, List.nodup_append] at hnd ⊢
    obtain ⟨⟨n1, n2, n3⟩, n4, n5⟩ := hnd
    refine ⟨⟨h1 ▸ n1, gv.nodup, ?_⟩, gt.nodup, ?_⟩
    · intro a ha b hb
      rw [h1] at ha
      exact n3 a ha b ((kv1 b).mp hb)
    · intro a ha b hb
      refine n5 a ?_ b ((kt1 b).mp hb)
      rw [List.mem_append] at ha ⊢
      rcases ha with ha | ha
      · left; rw [← h1]; exact ha
      · right; exact (kv1 a).mp ha
  · intro u
    rw [← husers u]
    simp only [List.mem_append, kv1, kt1, h1]
  · intro k hk j hj
    refine ⟨?_, h4 k j⟩
    simp only [h1]
    exact h3 k (by rw [← h1]; exact hk) j hj
  · rintro P (rfl | rfl)
    · exact kv2
    · exact kt2

/-- C25. When the call succeeds: whenever the sizes are accepted, the time-based split is not asked
for ratings, and the hold-out ratios are in range. -/
theorem C25_succeeds (fl : ℝ → ℝ) (o : Oracle U I T) (ho : ValidOracle o)
    (p : HoldoutParams) (df : List (Row U I T))
    (hsz : ∃ r, holdoutSizes fl p (userCount df) = .ok r)
    (ht : p.timeBased = true → p.useRating = false)
    (hv : p.timeBased = false → (p.nHeldoutVal = none → 0 ≤ p.heldoutRatioVal ∧ p.heldoutRatioVal ≤ 1) ∧
      ∀ m, p.nHeldoutVal = some m → 0 ≤ m)
    (hte : p.timeBased = false → (p.nHeldoutTest = none → 0 ≤ p.heldoutRatioTest ∧ p.heldoutRatioTest ≤ 1) ∧
      ∀ m, p.nHeldoutTest = some m → 0 ≤ m) :
    ∃ H, partialUserHoldout fl o p df = .ok H := by
  obtain ⟨⟨nVal, nTest, ratio⟩, hsz⟩ := hsz
  unfold partialUserHoldout
  simp only
  unfold userCount at hsz
  rw [hsz]
  simp only
  set s := holdoutUsers fl o (df.map Row.user).dedup nVal nTest ratio with hs
  have hperm := holdoutUsers_perm (fl := fl) (o := o) ho.shuffle (df.map Row.user).dedup nVal nTest ratio
  simp only at hperm
  rw [← hs] at hperm
  have hnd : (s.1 ++ s.2.1 ++ s.2.2).Nodup := hperm.nodup_iff.mpr (List.nodup_dedup _)
  have hn1 : s.1.Nodup := (List.nodup_append.mp (List.nodup_append.mp hnd).1).1
  set items := o.setOrderI ((dropDuplicates df).map Row.item).dedup with hitems
  have hni : items.Nodup := (ho.setOrderI _).nodup_iff.mpr (List.nodup_dedup _)
  obtain ⟨⟨X, us, is⟩, hX⟩ := dfToSparse_total
    ((dropDuplicates df).filter (fun r => decide (r.user ∈ s.1))) (some s.1) (some items) false
    (by rintro l ⟨⟩; exact hn1) (by rintro l ⟨⟩; exact hni)
  rw [hX]
  simp only
  obtain ⟨-, -, a3, -, -, a6, -⟩ := dfToSparse_ok hX
  obtain ⟨tr, htr⟩ := make_total s.1 X none (none : Option (List I)) (by rw [a3, a6 _ rfl])
    (by simp) (by simp)
  rw [htr]
  simp only
  obtain ⟨va, hva⟩ := userwise_total (fl := fl) ho 0
    ((dropDuplicates df).filter (fun r => decide (r.user ∈ s.2.1))) items hni p.heldoutRatioVal
    p.nHeldoutVal ht hv
  rw [hva]
  simp only
  obtain ⟨te, hte'⟩ := userwise_total (fl := fl) ho 1
    ((dropDuplicates df).filter (fun r => decide (r.user ∈ s.2.2))) items hni p.heldoutRatioTest
    p.nHeldoutTest ht hte
  rw [hte']
  exact ⟨_, rfl⟩

/-- An oracle for the examples: nothing is shuffled, frames are merge-sorted. -/
def plainOracle : Oracle Nat Nat Nat where
  shuffle := fun _ l => l
  rowShuffle := fun _ _ n => List.range n
  setOrderU := id
  setOrderI := id
  sortValues := fun l => l.mergeSort
    (fun a b => decide (a.user < b.user ∨ (a.user = b.user ∧ a.time ≤ b.time)))

theorem plainOracle_valid : ValidOracle plainOracle := by
  refine ⟨fun _ _ => List.Perm.refl _, fun _ _ _ => List.Perm.refl _, fun _ => List.Perm.refl _,
    fun _ => List.Perm.refl _, fun df => ⟨List.mergeSort_perm _ _, ?_⟩⟩
  have := List.pairwise_mergeSort (le := fun a b : Row Nat Nat Nat =>
      decide (a.user < b.user ∨ (a.user = b.user ∧ a.time ≤ b.time))) (by
    intro a b c h1 h2
    simp only [decide_eq_true_eq] at *
    omega) (by
    intro a b
    simp only [Bool.or_eq_true, decide_eq_true_eq]
    omega) df
  simpa [plainOracle] using this

/-- Defaults of the function, with explicit user counts. -/
noncomputable def exampleParams (v t : Option Int) (rt : ℝ) : HoldoutParams :=
  { timeBased := false, useRating := false, nValUser := v, nTestUser := t, valUserRatio := 1 / 10,
    testUserRatio := rt, heldoutRatioVal := 1 / 2, nHeldoutVal := none, heldoutRatioTest := 1 / 2,
    nHeldoutTest := none, ceil := false }

/-- A frame with `n` users who each have one interaction. -/
def exampleFrame (n : Nat) : List (Row Nat Nat Nat) := (List.range n).map (fun u => ⟨u, 0, 0, 1⟩)

theorem exampleFrame_users (n : Nat) : userCount (exampleFrame n) = n ∧
    ((exampleFrame n).map Row.user).dedup = List.range n := by
  have : ((exampleFrame n).map Row.user) = List.range n := by
    unfold exampleFrame
    rw [List.map_map]
    exact List.map_id _
  unfold userCount
  rw [this, (List.nodup_range).dedup]
  simp

/-- Non-vacuity of C25: a successful call with 12 users, one validation and two test users. -/
example : ∃ H, partialUserHoldout id plainOracle (exampleParams (some 1) (some 2) (1 / 10))
    (exampleFrame 12) = .ok H := by
  apply C25_succeeds id plainOracle plainOracle_valid
  · rw [(exampleFrame_users 12).1]
    unfold holdoutSizes exampleParams
    simp only
    rw [if_neg (by norm_num), if_neg (by norm_num), if_neg (by norm_num), if_neg (by norm_num)]
    exact ⟨_, rfl⟩
  · simp [exampleParams]
  · intro _; unfold exampleParams; exact ⟨fun _ => by norm_num, fun m hm => by simp at hm⟩
  · intro _; unfold exampleParams; exact ⟨fun _ => by norm_num, fun m hm => by simp at hm⟩

/-! ## C26 -/

theorem pySplit_len {A : Type} (l : List A) (k : Nat) (hk : k ≤ l.length) :
    (pySplit l (k : Int)).1.length = l.length - k ∧ (pySplit l (k : Int)).2.length = k := by
  unfold pySplit
  simp only
  rw [if_pos (by omega)]
  simp [hk]

theorem datasets_sizes {fl : ℝ → ℝ} {o : Oracle U I T} (ho : ValidOracle o) {p : HoldoutParams}
    {df : List (Row U I T)} (hr : p.useRating = true → ∀ r ∈ df, ∃ z : ℤ, r.rating = z)
    {H : Holdout U I} (h : partialUserHoldout fl o p df = .ok H) :
    ∃ nVal nTest ratio, holdoutSizes fl p (userCount df) = .ok (nVal, nTest, ratio) ∧
    ∃ s : List U × List U × List U,
      s = holdoutUsers fl o (df.map Row.user).dedup nVal nTest ratio ∧
      H.train.userIds.length = s.1.length ∧ H.val.userIds.length = s.2.1.length ∧
      H.test.userIds.length = s.2.2.length := by
  obtain ⟨nVal, nTest, ratio, hsz, s, hs, h1, -, -, -, gv, gt, -⟩ := partialUserHoldout_ok ho hr h
  refine ⟨nVal, nTest, ratio, hsz, s, hs, by rw [h1], ?_, ?_⟩
  all_goals
    have hperm := holdoutUsers_perm (fl := fl) (o := o) ho.shuffle (df.map Row.user).dedup nVal nTest ratio
    simp only at hperm
    rw [← hs] at hperm
    have hnd : (s.1 ++ s.2.1 ++ s.2.2).Nodup := hperm.nodup_iff.mpr (List.nodup_dedup _)
    have husers : ∀ u, u ∈ s.1 ++ s.2.1 ++ s.2.2 ↔ ∃ r ∈ df, r.user = u := by
      intro u; rw [hperm.mem_iff, List.mem_dedup, List.mem_map]
    have key : ∀ (ids : List U) (P : UserPair U I), ids.Nodup → (∀ u ∈ ids, ∃ r ∈ df, r.user = u) →
        GoodPair p.useRating ((dropDuplicates df).filter (fun r => decide (r.user ∈ ids))) H.items P →
        P.userIds.length = ids.length := by
      intro ids P hn hids g
      apply List.Perm.length_eq
      rw [List.perm_ext_iff_of_nodup g.nodup hn]
      intro u
      rw [g.users]
      constructor
      · rintro ⟨r, hr', rfl⟩
        have := (List.mem_filter.mp hr').2
        simpa using this
      · intro hu
        obtain ⟨r, hr', hru⟩ := (dropDuplicates_users df u).mpr (hids u hu)
        exact ⟨r, List.mem_filter.mpr ⟨hr', by simp [hru, hu]⟩, hru⟩
  · exact key s.2.1 H.val (List.nodup_append.mp (List.nodup_append.mp hnd).1).2.1
      (fun u hu => (husers u).mp (by simp [hu])) gv
  · exact key s.2.2 H.test (List.nodup_append.mp hnd).2.1
      (fun u hu => (husers u).mp (by simp [hu])) gt

/-- C26 (as far as it holds). Let `nV` be `n_val_user`, or `int(n · val_user_ratio)` if that is not
given, and `nT` likewise.  In exact arithmetic a successful call gives exactly `nV` validation, `nT`
test and `n - nV - nT` train users, provided `nV + nT ≤ n` and an explicit `n_test_user` comes with
`test_user_ratio · n ≥ 1`.  Missing: the cases shown in the counterexamples below. -/
theorem C26_sizes_partial (o : Oracle U I T) (ho : ValidOracle o)
    (p : HoldoutParams) (df : List (Row U I T))
    (hr : p.useRating = true → ∀ r ∈ df, ∃ z : ℤ, r.rating = z) (H : Holdout U I)
    (h : partialUserHoldout id o p df = .ok H) (nV nT : Nat)
    (hV : match p.nValUser with
      | some v => v = nV
      | none => nV = ⌊(userCount df : ℝ) * p.valUserRatio⌋₊)
    (hT : match p.nTestUser with
      | some t => t = nT ∧ p.testUserRatio * userCount df ≥ 1
      | none => nT = ⌊(userCount df : ℝ) * p.testUserRatio⌋₊)
    (hsum : nV + nT ≤ userCount df) :
    H.val.userIds.length = nV ∧ H.test.userIds.length = nT ∧
      H.train.userIds.length = userCount df - nV - nT := by
  obtain ⟨nVal, nTest, ratio, hsz, s, hs, l1, l2, l3⟩ := datasets_sizes ho hr h
  rw [l1, l2, l3]
  set n := userCount df with hn
  have htrunc : ∀ x : ℝ, 0 ≤ x → truncZ x = (⌊x⌋₊ : ℤ) := by
    intro x hx
    unfold truncZ
    rw [if_pos hx, Int.natCast_floor_eq_floor hx]
  have hkey : nVal = nV ∧ nTest = nT ∧ (ratio * n ≥ 1 ∨ nT = 0) := by
    unfold holdoutSizes at hsz
    split at hsz
    · cases hsz
    rename_i ht
    rw [not_not] at ht
    split at hsz
    · cases hsz
    rename_i hv
    rw [not_not] at hv
    have hn0 : (0 : ℝ) ≤ n := Nat.cast_nonneg n
    have e1 := htrunc _ (mul_nonneg hn0 hv.2)
    have e2 := htrunc _ (mul_nonneg hn0 ht.2)
    have hdiv : ∀ k : Nat, n ≠ 0 → ((k : ℝ) / n * n ≥ 1 ∨ k = 0) := by
      intro k hk
      rcases Nat.eq_zero_or_pos k with h0 | h0
      · exact Or.inr h0
      · left
        rw [div_mul_cancel₀ _ (by exact_mod_cast hk)]
        exact_mod_cast h0
    cases hc1 : p.nValUser with
    | none =>
      rw [hc1] at hV hsz
      cases hc2 : p.nTestUser with
      | none =>
        rw [hc2] at hT hsz
        simp only [id, e1, e2] at hsz hV hT
        split at hsz
        · cases hsz
        · rename_i h0
          injection hsz with hsz
          injection hsz with a b
          injection b with b c
          subst a b c hV hT
          exact ⟨rfl, rfl, by rw [Int.cast_natCast]; exact hdiv _ h0⟩
      | some t =>
        rw [hc2] at hT hsz
        simp only [id, e1] at hsz hV hT
        split at hsz
        · cases hsz
        · split at hsz
          · cases hsz
          · injection hsz with hsz
            injection hsz with a b
            injection b with b c
            subst a b c hV
            exact ⟨rfl, hT.1, Or.inl hT.2⟩
    | some v =>
      rw [hc1] at hV hsz
      cases hc2 : p.nTestUser with
      | none =>
        rw [hc2] at hT hsz
        simp only [id, e2] at hsz hV hT
        split at hsz
        · cases hsz
        · split at hsz
          · cases hsz
          · rename_i h0
            injection hsz with hsz
            injection hsz with a b
            injection b with b c
            subst a b c hT
            exact ⟨hV, rfl, by rw [Int.cast_natCast]; exact hdiv _ h0⟩
      | some t =>
        rw [hc2] at hT hsz
        simp only [id] at hsz hV hT
        split at hsz
        · cases hsz
        · split at hsz
          · cases hsz
          · injection hsz with hsz
            injection hsz with a b
            injection b with b c
            subst a b c
            exact ⟨hV, hT.1, Or.inl hT.2⟩
  obtain ⟨rfl, rfl, hrat⟩ := hkey
  have hlen0 : ((o.shuffle 0) (df.map Row.user).dedup).length = n := (ho.shuffle 0 _).length_eq
  have hsplit := pySplit_len (o.shuffle 0 (df.map Row.user).dedup) (nV + nT) (by omega)
  rw [hs]
  unfold holdoutUsers splitList
  simp only [id]
  have hcast : ((nV : Int) + (nT : Int)) = ((nV + nT : Nat) : Int) := by push_cast; rfl
  rw [hcast]
  have hlenU : (df.map Row.user).dedup.length = n := rfl
  by_cases hc : ratio * ((df.map Row.user).dedup.length : ℝ) ≥ 1
  · rw [if_pos hc]
    simp only
    have hl2 : (o.shuffle 1 (pySplit (o.shuffle 0 (df.map Row.user).dedup) ((nV + nT : Nat) : Int)).2).length
        = nV + nT := by rw [(ho.shuffle 1 _).length_eq]; exact hsplit.2
    have h2 := pySplit_len _ nT (by rw [hl2]; omega : nT ≤ (o.shuffle 1 (pySplit (o.shuffle 0
      (df.map Row.user).dedup) ((nV + nT : Nat) : Int)).2).length)
    rw [h2.1, h2.2, hl2, hsplit.1, hlen0]
    omega
  · rw [if_neg hc]
    simp only
    rcases hrat with h | h
    · exact absurd h hc
    · subst h
      rw [hsplit.1, hsplit.2, hlen0]
      simp

/-- C26. Explicit sizes that do not fit are rejected with `ValueError`. -/
theorem C26_rejects_oversized (fl : ℝ → ℝ) (o : Oracle U I T) (p : HoldoutParams)
    (df : List (Row U I T)) (hv : 0 ≤ p.valUserRatio ∧ p.valUserRatio ≤ 1)
    (ht : 0 ≤ p.testUserRatio ∧ p.testUserRatio ≤ 1) (hne : df ≠ [])
    (h : (∃ v, p.nValUser = some v ∧ v > userCount df) ∨
      (∃ v t, p.nValUser = some v ∧ p.nTestUser = some t ∧ t + v > userCount df) ∨
      (∃ t, p.nValUser = none ∧ p.nTestUser = some t ∧
        t + truncZ (fl (userCount df * p.valUserRatio)) > userCount df)) :
    partialUserHoldout fl o p df = .error .valueError := by
  have hn0 : (df.map Row.user).dedup.length ≠ 0 := by
    intro h0
    have := List.eq_nil_of_length_eq_zero h0
    cases df with
    | nil => exact hne rfl
    | cons r df =>
      have hm : r.user ∈ ((r :: df).map Row.user).dedup := by simp
      rw [this] at hm
      simp at hm
  have hsz : holdoutSizes fl p (df.map Row.user).dedup.length = .error .valueError := by
    unfold userCount at h
    unfold holdoutSizes
    rw [if_neg (not_not.mpr ⟨ht.2, ht.1⟩), if_neg (not_not.mpr ⟨hv.2, hv.1⟩)]
    rcases h with ⟨v, h1, h2⟩ | ⟨v, t, h1, h2, h3⟩ | ⟨t, h1, h2, h3⟩
    · rw [h1]
      cases p.nTestUser with
      | none => simp only; rw [if_pos h2]
      | some t => simp only; rw [if_pos h2]
    · rw [h1, h2]
      simp only
      by_cases h4 : v > ((df.map Row.user).dedup.length : Int)
      · rw [if_pos h4]
      · rw [if_neg h4, if_pos h3]
    · rw [h1, h2]
      simp only
      rw [if_neg hn0, if_pos h3]
  unfold partialUserHoldout
  simp only
  rw [hsz]

theorem example_sizes (fl : ℝ → ℝ) (p : HoldoutParams) (n : Nat) (H : Holdout Nat Nat)
    (hp : p.useRating = false)
    (h : partialUserHoldout fl plainOracle p (exampleFrame n) = .ok H) (nVal nTest : Nat) (ratio : ℝ)
    (hsz : holdoutSizes fl p n = .ok ((nVal : Int), (nTest : Int), ratio)) :
    (fl (ratio * n) < 1 → H.val.userIds.length = min (nVal + nTest) n ∧ H.test.userIds = []) ∧
    (fl (ratio * n) ≥ 1 → H.val.userIds.length = min (nVal + nTest) n - nTest ∧
      H.test.userIds.length = min nTest n) := by
  obtain ⟨hcnt, hus⟩ := exampleFrame_users n
  obtain ⟨a, b, c, hsz', s, hs, l1, l2, l3⟩ := datasets_sizes plainOracle_valid
    (by rw [hp]; simp) h
  rw [hcnt, hsz] at hsz'
  injection hsz' with e
  injection e with e1 e
  injection e with e2 e3
  subst e1 e2 e3
  rw [hus] at hs
  have hcast : ((nVal : Int) + (nTest : Int)) = ((nVal + nTest : Nat) : Int) := by push_cast; rfl
  have hp1 : ∀ (l : List Nat) (k : Nat), pySplit l (k : Int) = (l.drop k, l.take k) := by
    intro l k
    unfold pySplit
    simp only
    rw [if_pos (by omega)]
    simp
  unfold holdoutUsers splitList at hs
  simp only [plainOracle, List.length_range, hcast, hp1] at hs
  constructor
  · intro hlt
    rw [if_neg (by rw [ge_iff_le, not_le]; exact hlt)] at hs
    rw [l2]
    refine ⟨by rw [hs]; simp, ?_⟩
    apply List.eq_nil_of_length_eq_zero
    rw [l3, hs]
    rfl
  · intro hge
    rw [if_pos hge] at hs
    rw [l2, l3, hs]
    simp
    omega

/-- C26: an explicit `n_test_user` is silently ignored when `test_user_ratio · n < 1`.  With 9 users
and `n_val_user = 1`, `n_test_user = 2` (other parameters at their defaults) the test set is empty and
there are 3 validation users. -/
theorem C26_explicit_test_users_ignored_counterexample :
    ∃ H, partialUserHoldout id plainOracle (exampleParams (some 1) (some 2) (1 / 10)) (exampleFrame 9)
        = .ok H ∧ H.test.userIds = [] ∧ H.val.userIds.length = 3 := by
  have hsz : holdoutSizes id (exampleParams (some 1) (some 2) (1 / 10)) 9 =
      .ok (((1 : Nat) : Int), ((2 : Nat) : Int), 1 / 10) := by
    unfold holdoutSizes exampleParams
    simp only
    rw [if_neg (by norm_num), if_neg (by norm_num), if_neg (by norm_num), if_neg (by norm_num)]
    rfl
  obtain ⟨H, hH⟩ := C25_succeeds id plainOracle plainOracle_valid
    (exampleParams (some 1) (some 2) (1 / 10)) (exampleFrame 9)
    ⟨_, by rw [(exampleFrame_users 9).1]; exact hsz⟩ (by simp [exampleParams])
    (by intro _; unfold exampleParams; exact ⟨fun _ => by norm_num, fun m hm => by simp at hm⟩) (by intro _; unfold exampleParams; exact ⟨fun _ => by norm_num, fun m hm => by simp at hm⟩)
  obtain ⟨h1, -⟩ := example_sizes id _ 9 H rfl hH 1 2 (1 / 10) hsz
  obtain ⟨h2, h3⟩ := h1 (by norm_num)
  exact ⟨H, hH, h3, h2⟩

/-- C26: sizes computed from ratios are not checked against the number of users.  With 10 users,
`n_val_user = 8` and `test_user_ratio = 0.8` the call succeeds with 2 validation users. -/
theorem C26_ratio_overflow_counterexample :
    ∃ H, partialUserHoldout id plainOracle (exampleParams (some 8) none (8 / 10)) (exampleFrame 10)
        = .ok H ∧ H.val.userIds.length = 2 := by
  have hfl : truncZ ((10 : ℝ) * (8 / 10)) = 8 := by
    have : (10 : ℝ) * (8 / 10) = ((8 : ℤ) : ℝ) := by norm_num
    rw [this, truncZ_int]
  have hsz : holdoutSizes id (exampleParams (some 8) none (8 / 10)) 10 =
      .ok (((8 : Nat) : Int), ((8 : Nat) : Int), 8 / 10) := by
    unfold holdoutSizes exampleParams
    simp only
    rw [if_neg (by norm_num), if_neg (by norm_num), if_neg (by norm_num), if_neg (by norm_num)]
    simp only [id]
    push_cast
    rw [hfl]
    norm_num
  obtain ⟨H, hH⟩ := C25_succeeds id plainOracle plainOracle_valid
    (exampleParams (some 8) none (8 / 10)) (exampleFrame 10)
    ⟨_, by rw [(exampleFrame_users 10).1]; exact hsz⟩ (by simp [exampleParams])
    (by intro _; unfold exampleParams; exact ⟨fun _ => by norm_num, fun m hm => by simp at hm⟩) (by intro _; unfold exampleParams; exact ⟨fun _ => by norm_num, fun m hm => by simp at hm⟩)
  obtain ⟨-, h1⟩ := example_sizes id _ 10 H rfl hH 8 8 (8 / 10) hsz
  obtain ⟨h2, h3⟩ := h1 (by norm_num)
  exact ⟨H, hH, by rw [h2]; rfl⟩

/-- One divided by 49 and multiplied by 49 is less than one in double precision. -/
theorem nearest_49 {fl : ℝ → ℝ} (h : IsNearest fl) : fl (fl (1 / 49) * 49) < 1 := by
  obtain ⟨⟨m, e, hm, hy⟩, hnear⟩ := h (1 / 49)
  have h1 := hnear 5882252574524729 (-58) (by norm_num)
  set y := fl (1 / 49) with hydef
  have e58 : (2 : ℝ) ^ (-58 : ℤ) = 1 / 288230376151711744 := by norm_num
  have h1' : |1 / 49 - y| ≤ 23 / (49 * 288230376151711744) := by
    refine le_trans h1 ?_
    rw [e58]
    norm_num [abs_of_pos]
  rw [abs_le] at h1'
  have hval : y = 5882252574524729 * (1 / 288230376151711744) := by
    by_cases he : e ≥ -58
    · obtain ⟨k, hk⟩ : ∃ k : Nat, e = (k : ℤ) + -58 := ⟨(e + 58).toNat, by omega⟩
      have hM : y = ((m * 2 ^ k : ℤ) : ℝ) * (1 / 288230376151711744) := by
        rw [hy, hk, zpow_add₀ (by norm_num), e58, zpow_natCast]
        push_cast
        ring
      generalize m * 2 ^ k = M at hM
      have hb1 : (M : ℝ) < 5882252574524730 := by
        rw [hM] at h1'
        by_contra hc
        rw [not_lt] at hc
        have := h1'.1
        nlinarith
      have hb2 : (M : ℝ) > 5882252574524728 := by
        rw [hM] at h1'
        by_contra hc
        rw [not_lt] at hc
        have := h1'.2
        nlinarith
      have hb1' : M < 5882252574524730 := by exact_mod_cast hb1
      have hb2' : 5882252574524728 < M := by exact_mod_cast hb2
      have : M = 5882252574524729 := by omega
      rw [hM, this]
      norm_num
    · exfalso
      have he' : e ≤ -59 := by omega
      have hp : (2 : ℝ) ^ e ≤ 2 ^ (-59 : ℤ) := zpow_le_zpow_right₀ (by norm_num) he'
      have e59 : (2 : ℝ) ^ (-59 : ℤ) = 1 / 576460752303423488 := by norm_num
      rw [e59] at hp
      have hp0 : (0 : ℝ) < 2 ^ e := zpow_pos (by norm_num) e
      have hm' : (m : ℝ) ≤ 2 ^ 53 := by exact_mod_cast le_trans (le_abs_self m) hm
      have hle : y ≤ 1 / 64 := by
        rw [hy]
        calc (m : ℝ) * 2 ^ e ≤ 2 ^ 53 * 2 ^ e := by nlinarith
          _ ≤ 2 ^ 53 * (1 / 576460752303423488) := by nlinarith
          _ = 1 / 64 := by norm_num
      have := h1'.2
      norm_num at this hle
      linarith
  rw [hval]
  have h2 := (h (5882252574524729 * (1 / 288230376151711744) * 49)).2 9007199254740991 (-53) (by norm_num)
  have e53 : (2 : ℝ) ^ (-53 : ℤ) = 1 / 9007199254740992 := by norm_num
  rw [e53] at h2
  have h3 : |(5882252574524729 : ℝ) * (1 / 288230376151711744) * 49 -
      ((9007199254740991 : ℤ) : ℝ) * (1 / 9007199254740992)| = 9 / 288230376151711744 := by
    rw [abs_of_pos (by norm_num)]
    norm_num
  rw [h3, abs_le] at h2
  have := h2.1
  norm_num at this ⊢
  linarith

/-- C26: double rounding can lose the whole test set.  With 49 users, `n_val_user = 1` and
`test_user_ratio = 1/32`, `int(49/32) = 1` test user is due, but `1 / 49 * 49 < 1` in double precision, so
there are 2 validation users and no test user. -/
theorem C26_double_rounding_counterexample (fl : ℝ → ℝ) (hfl : IsNearest fl) :
    ∃ H, partialUserHoldout fl plainOracle (exampleParams (some 1) none (1 / 32)) (exampleFrame 49)
        = .ok H ∧ ⌊(49 : ℝ) * (1 / 32)⌋₊ = 1 ∧ H.test.userIds = [] ∧ H.val.userIds.length = 2 := by
  have hx : fl ((49 : ℝ) * (1 / 32)) = 49 * (1 / 32) := by
    have := (hfl (49 * (1 / 32))).2 49 (-5) (by norm_num)
    have e5 : (2 : ℝ) ^ (-5 : ℤ) = 1 / 32 := by norm_num
    rw [e5] at this
    have h0 : |(49 : ℝ) * (1 / 32) - fl (49 * (1 / 32))| = 0 :=
      le_antisymm (le_trans this (by norm_num)) (abs_nonneg _)
    rw [abs_eq_zero] at h0
    linarith
  have htr : truncZ ((49 : ℝ) * (1 / 32)) = 1 := by
    unfold truncZ
    rw [if_pos (by norm_num), Int.floor_eq_iff]
    norm_num
  have hsz : holdoutSizes fl (exampleParams (some 1) none (1 / 32)) 49 =
      .ok (((1 : Nat) : Int), ((1 : Nat) : Int), fl (1 / 49)) := by
    unfold holdoutSizes exampleParams
    simp only
    rw [if_neg (by norm_num), if_neg (by norm_num), if_neg (by norm_num), if_neg (by norm_num)]
    push_cast
    rw [hx, htr]
    norm_num
  obtain ⟨H, hH⟩ := C25_succeeds fl plainOracle plainOracle_valid
    (exampleParams (some 1) none (1 / 32)) (exampleFrame 49)
    ⟨_, by rw [(exampleFrame_users 49).1]; exact hsz⟩ (by simp [exampleParams])
    (by intro _; unfold exampleParams; exact ⟨fun _ => by norm_num, fun m hm => by simp at hm⟩) (by intro _; unfold exampleParams; exact ⟨fun _ => by norm_num, fun m hm => by simp at hm⟩)
  obtain ⟨h1, -⟩ := example_sizes fl _ 49 H rfl hH 1 1 (fl (1 / 49)) hsz
  obtain ⟨h2, h3⟩ := h1 (by exact_mod_cast nearest_49 hfl)
  refine ⟨H, hH, ?_, h3, h2⟩
  rw [Nat.floor_eq_iff (by norm_num)]
  norm_num

end Irspack.Props
