import Verif.Props.UserHoldout

/-!
# C27: `holdout_specific_interactions`
-/

namespace Irspack.Props
open Irspack Spec Split

variable {U I T : Type} [LinearOrder U] [LinearOrder I] [LinearOrder T]

omit [LinearOrder T] in
/-- One matrix of `df_to_dataset` counts the rows. -/
theorem flag_matrix (q : Bool → Bool) (df : List (Row U I T × Bool)) (us : List U) (items : List I)
    (hu : ∀ r ∈ df, r.1.user ∈ us) (hi : ∀ r ∈ df, r.1.item ∈ items) (hun : us.Nodup) (hin : items.Nodup)
    (k : Nat) (hk : k < us.length) (j : Nat) (hj : j < items.length) :
    entry (cooToCsr us.length items.length ((df.filter (fun r => q r.2)).map
      (fun r => (us.idxOf r.1.user, items.idxOf r.1.item, (1 : ℝ))))) k j =
      countFlagged q df us[k] items[j] := by
  rw [coo_entry _ _ _ _ _ hk, List.filter_map, List.map_map, List.filter_filter]
  unfold countFlagged
  rw [List.countP_eq_length_filter]
  have hfun : ((fun t : Nat × Nat × ℝ => t.2.2) ∘
      fun r : Row U I T × Bool => (us.idxOf r.1.user, items.idxOf r.1.item, (1 : ℝ))) = fun _ => 1 := rfl
  rw [hfun, List.map_const', List.sum_replicate, nsmul_eq_mul, mul_one]
  congr 2
  apply List.filter_congr
  intro r hr
  have h1 : us.idxOf r.1.user = k ↔ r.1.user = us[k] := by
    constructor
    · intro h; subst h; exact (List.getElem_idxOf _).symm
    · intro h; rw [h]; exact hun.idxOf_getElem k hk
  have h2 : items.idxOf r.1.item = j ↔ r.1.item = items[j] := by
    constructor
    · intro h; subst h; exact (List.getElem_idxOf _).symm
    · intro h; rw [h]; exact hin.idxOf_getElem j hj
  simp only [Function.comp_apply, h1, h2]
  rw [Bool.and_comm]

omit [LinearOrder U] [LinearOrder I] [LinearOrder T] in
theorem sorted_dedup {A : Type} [LinearOrder A] (l : List A) :
    (l.dedup.insertionSort (· ≤ ·)).Nodup ∧ ∀ a, a ∈ l.dedup.insertionSort (· ≤ ·) ↔ a ∈ l := by
  have hp := List.perm_insertionSort (· ≤ ·) l.dedup
  refine ⟨hp.nodup_iff.mpr (List.nodup_dedup _), fun a => ?_⟩
  rw [hp.mem_iff, List.mem_dedup]

omit [LinearOrder T] in
theorem specificDataset_ok {df : List (Row U I T × Bool)} {items : List I} (hin : items.Nodup)
    (hi : ∀ r ∈ df, r.1.item ∈ items) {train : Bool} {P : UserPair U I}
    (h : specificDataset df items train = .ok P) :
    P.userIds.Nodup ∧ (∀ u, u ∈ P.userIds ↔ ∃ r ∈ df, r.1.user = u) ∧
    ∀ k (hk : k < P.userIds.length) j (hj : j < items.length),
      entry P.xTrain k j = countFlagged (fun b => train || !b) df P.userIds[k] items[j] ∧
      entry P.xTest k j = countFlagged (fun b => !train && b) df P.userIds[k] items[j] := by
  unfold specificDataset at h
  obtain ⟨hn, hm⟩ := sorted_dedup (df.map (fun r => r.1.user))
  have hu : ∀ r ∈ df, r.1.user ∈ (df.map (fun r => r.1.user)).dedup.insertionSort (· ≤ ·) :=
    fun r hr => (hm _).mpr (List.mem_map.mpr ⟨r, hr, rfl⟩)
  cases train with
  | true =>
    simp only [if_true] at h
    obtain ⟨-, -, -, hP⟩ := make_ok h
    subst hP
    refine ⟨hn, fun u => by rw [hm, List.mem_map], ?_⟩
    intro k hk j hj
    constructor
    · have := flag_matrix (fun _ => true) df _ items hu hi hn hin k hk j hj
      rw [List.filter_true] at this
      simpa using this
    · simp only [Option.getD_none, Bool.not_true, Bool.false_and]
      rw [entry_eq]
      unfold Csr.empty
      have : countFlagged (fun _ => false) df
        (((df.map (fun r => r.1.user)).dedup.insertionSort (· ≤ ·))[k]) items[j] = 0 := by
        unfold countFlagged; simp
      rw [this]
      simp only [List.getD_eq_getElem?_getD]
      rw [List.getElem?_replicate]
      split <;> simp [rowEntry]
  | false =>
    simp only [Bool.false_eq_true, if_false] at h
    obtain ⟨-, -, -, hP⟩ := make_ok h
    subst hP
    refine ⟨hn, fun u => by rw [hm, List.mem_map], ?_⟩
    intro k hk j hj
    exact ⟨flag_matrix (fun b => !b) df _ items hu hi hn hin k hk j hj,
      flag_matrix (fun b => b) df _ items hu hi hn hin k hk j hj⟩

omit [LinearOrder T] in
theorem specificDataset_total (df : List (Row U I T × Bool)) (items : List I) (train : Bool) :
    ∃ P, specificDataset df items train = .ok P := by
  unfold specificDataset
  cases train with
  | true =>
    simp only [if_true]
    exact make_total _ _ _ _ (by simp [cooToCsr]) (by simp) (by simp)
  | false =>
    simp only [Bool.false_eq_true, if_false]
    refine make_total _ _ _ _ (by simp [cooToCsr]) ?_ (by simp)
    rintro xt ⟨⟩
    simp [Csr.shape, cooToCsr]

theorem specificUsers_perm {fl : ℝ → ℝ} {o : Oracle U I T} (ho : ValidOracle o) {users : List U}
    {rv rt : ℝ} {s : List U × List U × List U} (h : specificUsers fl o users rv rt = .ok s) :
    (s.1 ++ s.2.1 ++ s.2.2).Perm users := by
  unfold specificUsers at h
  simp only at h
  split at h
  · cases h
  split at h
  · cases h
  injection h with h
  subst h
  simp only
  have h1 : ∀ (k : Nat) (l : List U) (t : Int), ((splitList (o.shuffle k) l t).1 ++
      (splitList (o.shuffle k) l t).2).Perm l := fun k l t => (pySplit_perm _ t).trans (ho.shuffle k l)
  have h2 : ∀ s : List U × List U, (s.1 ++ s.2).Perm users → ∀ t : Int,
      (s.2 ++ (splitList (o.shuffle 1) s.1 t).2 ++ (splitList (o.shuffle 1) s.1 t).1).Perm users := by
    intro s hs t
    refine List.Perm.trans ?_ hs
    rw [List.append_assoc]
    refine List.perm_append_comm.trans (List.Perm.append_right _ ?_)
    exact List.perm_append_comm.trans (h1 1 s.1 t)
  split
  · exact h2 (users, []) (by simp) _
  · exact h2 _ (h1 0 users _) _

omit [LinearOrder T] in
theorem countFlagged_sel (q : Bool → Bool) (df : List (Row U I T × Bool)) (p : U → Bool) (u : U) (i : I)
    (hu : p u = true) :
    countFlagged q (df.filter (fun r => p r.1.user)) u i = countFlagged q df u i := by
  unfold countFlagged
  rw [List.countP_filter]
  apply List.countP_congr
  intro r hr
  simp only [Bool.and_eq_true, decide_eq_true_eq]
  constructor
  · rintro ⟨h, -⟩; exact h
  · rintro ⟨h1, h2, h3⟩; exact ⟨⟨h1, h2, h3⟩, by rw [h2]; exact hu⟩

omit [LinearOrder T] in
theorem countFlagged_not_sel (q : Bool → Bool) (df : List (Row U I T × Bool)) (p : U → Bool) (u : U) (i : I)
    (hu : p u = false) :
    countFlagged q (df.filter (fun r => p r.1.user)) u i = 0 := by
  unfold countFlagged
  rw [List.countP_eq_zero]
  intro r hr
  rw [List.mem_filter] at hr
  simp only [Bool.and_eq_true, decide_eq_true_eq, not_and]
  rintro - h2
  rw [h2, hu] at hr
  simp at hr

/-- C27. A successful call partitions the users of the frame.  Users without a flagged interaction are
train users.  Train users keep everything: their rows count all their interactions.  For a validation or
test user the train part counts the unflagged interactions and the test part the flagged ones. -/
theorem C27_partition_by_flag (fl : ℝ → ℝ) (o : Oracle U I T) (ho : ValidOracle o)
    (df : List (Row U I T × Bool)) (rv rt : ℝ) (H : Holdout U I)
    (h : holdoutSpecific fl o df rv rt = .ok H) :
    (H.train.userIds ++ H.val.userIds ++ H.test.userIds).Nodup ∧
    (∀ u, u ∈ H.train.userIds ++ H.val.userIds ++ H.test.userIds ↔ ∃ r ∈ df, r.1.user = u) ∧
    (∀ r ∈ df, (∀ r' ∈ df, r'.1.user = r.1.user → r'.2 = false) → r.1.user ∈ H.train.userIds) ∧
    H.items.Pairwise (· < ·) ∧ (∀ i, i ∈ H.items ↔ ∃ r ∈ df, r.1.item = i) ∧
    (∀ k (hk : k < H.train.userIds.length) j (hj : j < H.items.length),
      entry H.train.xTrain k j = countFlagged (fun _ => true) df H.train.userIds[k] H.items[j] ∧
      entry H.train.xTest k j = 0) ∧
    ∀ P, P = H.val ∨ P = H.test →
      (∀ u ∈ P.userIds, ∃ r ∈ df, r.1.user = u ∧ r.2 = true) ∧
      ∀ k (hk : k < P.userIds.length) j (hj : j < H.items.length),
        entry P.xTrain k j = countFlagged (fun b => !b) df P.userIds[k] H.items[j] ∧
        entry P.xTest k j = countFlagged (fun b => b) df P.userIds[k] H.items[j] := by
  unfold holdoutSpecific at h
  simp only at h
  set items := (df.map (fun r => r.1.item)).dedup.insertionSort (· ≤ ·) with hitems
  set vus := ((df.filter (fun r => r.2)).map (fun r => r.1.user)).dedup.insertionSort (· ≤ ·) with hvus
  cases hsu : specificUsers fl o vus rv rt with
  | error e => rw [hsu] at h; cases h
  | ok s =>
    obtain ⟨tr, va, te⟩ := s
    rw [hsu] at h
    simp only at h
    have hperm := specificUsers_perm ho hsu
    simp only at hperm
    obtain ⟨hvn, hvm⟩ := sorted_dedup ((df.filter (fun r => r.2)).map (fun r => r.1.user))
    obtain ⟨hinn, him⟩ := sorted_dedup (df.map (fun r => r.1.item))
    rw [← hvus] at hvn hvm
    rw [← hitems] at hinn him
    have hnd : (tr ++ va ++ te).Nodup := hperm.nodup_iff.mpr hvn
    have hmemv : ∀ u, u ∈ vus ↔ ∃ r ∈ df, r.1.user = u ∧ r.2 = true := by
      intro u
      rw [hvm, List.mem_map]
      constructor
      · rintro ⟨r, hr, rfl⟩
        exact ⟨r, (List.mem_filter.mp hr).1, rfl, (List.mem_filter.mp hr).2⟩
      · rintro ⟨r, hr, rfl, hf⟩
        exact ⟨r, List.mem_filter.mpr ⟨hr, hf⟩, rfl⟩
    have hmemi : ∀ i, i ∈ items ↔ ∃ r ∈ df, r.1.item = i := by
      intro i; rw [him, List.mem_map]
    have hsub : ∀ u, u ∈ tr ++ va ++ te → u ∈ vus := fun u hu => hperm.mem_iff.mp hu
    set dfT := df.filter (fun r => decide (r.1.user ∈ tr)) ++
      df.filter (fun r => !decide (r.1.user ∈ vus)) with hdfT
    have hdfTi : ∀ r ∈ dfT, r.1.item ∈ items := by
      intro r hr
      rw [hdfT, List.mem_append] at hr
      refine (hmemi _).mpr ⟨r, ?_, rfl⟩
      rcases hr with hr | hr <;> exact (List.mem_filter.mp hr).1
    cases ha : specificDataset dfT items true with
    | error e => rw [ha] at h; cases h
    | ok a =>
      rw [ha] at h
      simp only at h
      cases hb : specificDataset (df.filter (fun r => decide (r.1.user ∈ va))) items false with
      | error e => rw [hb] at h; cases h
      | ok b =>
        rw [hb] at h
        simp only at h
        cases hc : specificDataset (df.filter (fun r => decide (r.1.user ∈ te))) items false with
        | error e => rw [hc] at h; cases h
        | ok c =>
          rw [hc] at h
          simp only at h
          injection h with h
          subst h
          simp only
          obtain ⟨a1, a2, a3⟩ := specificDataset_ok hinn hdfTi ha
          have key : ∀ (ids : List U) (P : UserPair U I), (∀ u ∈ ids, u ∈ vus) →
              specificDataset (df.filter (fun r => decide (r.1.user ∈ ids))) items false = .ok P →
              P.userIds.Nodup ∧ (∀ u, u ∈ P.userIds ↔ u ∈ ids) ∧
              ∀ k (hk : k < P.userIds.length) j (hj : j < items.length),
                entry P.xTrain k j = countFlagged (fun b => !b) df P.userIds[k] items[j] ∧
                entry P.xTest k j = countFlagged (fun b => b) df P.userIds[k] items[j] := by
            intro ids P hids hP
            obtain ⟨b1, b2, b3⟩ := specificDataset_ok hinn
              (fun r hr => (hmemi _).mpr ⟨r, (List.mem_filter.mp hr).1, rfl⟩) hP
            have hm : ∀ u, u ∈ P.userIds ↔ u ∈ ids := by
              intro u
              rw [b2]
              constructor
              · rintro ⟨r, hr, rfl⟩
                simpa using (List.mem_filter.mp hr).2
              · intro hu
                obtain ⟨r, hr, hru, -⟩ := (hmemv u).mp (hids u hu)
                exact ⟨r, List.mem_filter.mpr ⟨hr, by simp [hru, hu]⟩, hru⟩
            refine ⟨b1, hm, ?_⟩
            intro k hk j hj
            obtain ⟨c1, c2⟩ := b3 k hk j hj
            have hin : decide (P.userIds[k] ∈ ids) = true := by
              simpa using (hm _).mp (List.getElem_mem hk)
            rw [c1, c2]
            rw [countFlagged_sel _ df (fun u => decide (u ∈ ids)) _ _ hin,
              countFlagged_sel _ df (fun u => decide (u ∈ ids)) _ _ hin]
            simp
          obtain ⟨b1, b2, b3⟩ := key va b (fun u hu => hsub u (by simp [hu])) hb
          obtain ⟨c1, c2, c3⟩ := key te c (fun u hu => hsub u (by simp [hu])) hc
          have a2' : ∀ u, u ∈ a.userIds ↔ u ∈ tr ∨ (u ∉ vus ∧ ∃ r ∈ df, r.1.user = u) := by
            intro u
            rw [a2]
            constructor
            · rintro ⟨r, hr, rfl⟩
              rw [hdfT, List.mem_append] at hr
              rcases hr with hr | hr
              · left; simpa using (List.mem_filter.mp hr).2
              · right
                refine ⟨by simpa using (List.mem_filter.mp hr).2, r, (List.mem_filter.mp hr).1, rfl⟩
            · rintro (hu | ⟨hu, r, hr, rfl⟩)
              · obtain ⟨r, hr, hru, -⟩ := (hmemv u).mp (hsub u (by simp [hu]))
                exact ⟨r, List.mem_append_left _ (List.mem_filter.mpr ⟨hr, by simp [hru, hu]⟩), hru⟩
              · exact ⟨r, List.mem_append_right _ (List.mem_filter.mpr ⟨hr, by simp [hu]⟩), rfl⟩
          rw [List.nodup_append, List.nodup_append] at hnd
          obtain ⟨⟨n1, n2, n3⟩, n4, n5⟩ := hnd
          refine ⟨?_, ?_, ?_, ?_, hmemi, ?_, ?_⟩
          · rw [List.nodup_append, List.nodup_append]
            refine ⟨⟨a1, b1, ?_⟩, c1, ?_⟩
            · intro x hx y hy
              rw [b2] at hy
              rcases (a2' x).mp hx with hx | ⟨hx, -⟩
              · exact n3 x hx y hy
              · rintro rfl; exact hx (hsub x (by simp [hy]))
            · intro x hx y hy
              rw [c2] at hy
              rw [List.mem_append, b2, a2'] at hx
              rcases hx with (hx | ⟨hx, -⟩) | hx
              · exact n5 x (by simp [hx]) y hy
              · rintro rfl; exact hx (hsub x (by simp [hy]))
              · exact n5 x (by simp [hx]) y hy
          · intro u
            rw [List.mem_append, List.mem_append, a2', b2, c2]
            constructor
            · rintro (((hu | ⟨-, hu⟩) | hu) | hu)
              · obtain ⟨r, hr, hru, -⟩ := (hmemv u).mp (hsub u (by simp [hu])); exact ⟨r, hr, hru⟩
              · exact hu
              · obtain ⟨r, hr, hru, -⟩ := (hmemv u).mp (hsub u (by simp [hu])); exact ⟨r, hr, hru⟩
              · obtain ⟨r, hr, hru, -⟩ := (hmemv u).mp (hsub u (by simp [hu])); exact ⟨r, hr, hru⟩
            · intro hu
              by_cases hv : u ∈ vus
              · have := hperm.mem_iff.mpr hv
                rw [List.mem_append, List.mem_append] at this
                rcases this with (h1 | h1) | h1
                · exact Or.inl (Or.inl (Or.inl h1))
                · exact Or.inl (Or.inr h1)
                · exact Or.inr h1
              · exact Or.inl (Or.inl (Or.inr ⟨hv, hu⟩))
          · intro r hr hf
            rw [a2']
            right
            refine ⟨?_, r, hr, rfl⟩
            rw [hmemv]
            rintro ⟨r', hr', h1, h2⟩
            rw [hf r' hr' h1] at h2
            cases h2
          · have hs : items.Pairwise (· ≤ ·) := List.pairwise_insertionSort _ _
            exact (hs.and hinn).imp (fun ⟨h1, h2⟩ => lt_of_le_of_ne h1 h2)
          · intro k hk j hj
            obtain ⟨d1, d2⟩ := a3 k hk j hj
            have hsplit : ∀ q : Bool → Bool, countFlagged q dfT a.userIds[k] items[j] =
                countFlagged q df a.userIds[k] items[j] := by
              intro q
              rw [hdfT]
              have happ : ∀ d e : List (Row U I T × Bool), ∀ u i, countFlagged q (d ++ e) u i =
                  countFlagged q d u i + countFlagged q e u i := by
                intro d e u i; unfold countFlagged; rw [List.countP_append]
              rw [happ]
              rcases (a2' _).mp (List.getElem_mem hk) with hu | ⟨hu, -⟩
              · rw [countFlagged_sel q df (fun u => decide (u ∈ tr)) _ _ (by simpa using hu),
                  countFlagged_not_sel q df (fun u => !decide (u ∈ vus)) _ _
                    (by simpa using hsub _ (by simp [hu])), Nat.add_zero]
              · rw [countFlagged_not_sel q df (fun u => decide (u ∈ tr)) _ _
                    (by simpa using fun h => hu (hsub _ (by simp [h]))),
                  countFlagged_sel q df (fun u => !decide (u ∈ vus)) _ _ (by simpa using hu), Nat.zero_add]
            rw [d1, d2, hsplit, hsplit]
            refine ⟨by simp, ?_⟩
            unfold countFlagged
            simp
          · rintro P (rfl | rfl)
            · exact ⟨fun u hu => (hmemv u).mp (hsub u (by simp [(b2 u).mp hu])), b3⟩
            · exact ⟨fun u hu => (hmemv u).mp (hsub u (by simp [(c2 u).mp hu])), c3⟩

/-- C27. Which calls succeed: the ratios must not exceed 1 (up to `1e-10`), and must not both vanish. -/
theorem C27_succeeds_iff (fl : ℝ → ℝ) (o : Oracle U I T) (df : List (Row U I T × Bool)) (rv rt : ℝ) :
    (∃ H, holdoutSpecific fl o df rv rt = .ok H) ↔
      -1e-10 ≤ fl (fl (1 - rv) - rt) ∧ fl (1 - fl (fl (1 - rv) - rt)) ≠ 0 := by
  classical
  unfold holdoutSpecific
  simp only
  generalize ((df.filter (fun r => r.2)).map (fun r => r.1.user)).dedup.insertionSort (· ≤ ·) = vus
  generalize (df.map (fun r => r.1.item)).dedup.insertionSort (· ≤ ·) = items
  constructor
  · rintro ⟨H, hH⟩
    cases hs : specificUsers fl o vus rv rt with
    | error e => rw [hs] at hH; cases hH
    | ok s =>
      unfold specificUsers at hs
      simp only at hs
      split at hs
      · cases hs
      rename_i h1
      split at hs
      · cases hs
      rename_i h2
      exact ⟨not_lt.mp h1, h2⟩
  · rintro ⟨h1, h2⟩
    have hs : ∃ s, specificUsers fl o vus rv rt = .ok s := by
      unfold specificUsers
      simp only
      rw [if_neg (not_lt.mpr h1), if_neg h2]
      exact ⟨_, rfl⟩
    obtain ⟨⟨tr, va, te⟩, hs⟩ := hs
    rw [hs]
    simp only
    obtain ⟨a, ha⟩ := specificDataset_total (df.filter (fun r => decide (r.1.user ∈ tr)) ++
      df.filter (fun r => !decide (r.1.user ∈ vus))) items true
    rw [ha]
    simp only
    obtain ⟨b, hb⟩ := specificDataset_total (df.filter (fun r => decide (r.1.user ∈ va))) items false
    rw [hb]
    simp only
    obtain ⟨c, hc⟩ := specificDataset_total (df.filter (fun r => decide (r.1.user ∈ te))) items false
    rw [hc]
    exact ⟨_, rfl⟩

/-- C27. In exact arithmetic, with `m` users that have a flagged interaction and ratios summing to `0 <
rv + rt ≤ 1`: `⌊(1 - rv - rt) m⌋` of them join the train users, and of the rest (`w` users)
`⌊w · rv / (rv + rt)⌋` become validation users. -/
theorem C27_sizes (o : Oracle U I T) (ho : ValidOracle o)
    (df : List (Row U I T × Bool)) (rv rt : ℝ) (h0v : 0 ≤ rv) (h0t : 0 ≤ rt) (h1 : rv + rt ≤ 1)
    (H : Holdout U I) (h : holdoutSpecific id o df rv rt = .ok H) (m w : Nat)
    (hm : m = ((df.filter (fun r => r.2)).map (fun r => r.1.user)).dedup.length)
    (hw : w = m - ⌊(1 - rv - rt) * m⌋₊) :
    H.val.userIds.length = ⌊(w * rv) / (rv + rt)⌋₊ ∧
    H.test.userIds.length = w - ⌊(w * rv) / (rv + rt)⌋₊ := by
  classical
  unfold holdoutSpecific at h
  simp only at h
  set items := (df.map (fun r => r.1.item)).dedup.insertionSort (· ≤ ·) with hitems
  set vus := ((df.filter (fun r => r.2)).map (fun r => r.1.user)).dedup.insertionSort (· ≤ ·) with hvus
  have hvl : vus.length = m := by rw [hvus, List.length_insertionSort, hm]
  cases hsu : specificUsers id o vus rv rt with
  | error e => rw [hsu] at h; cases h
  | ok s =>
    obtain ⟨tr, va, te⟩ := s
    rw [hsu] at h
    simp only at h
    have hperm := specificUsers_perm ho hsu
    simp only at hperm
    obtain ⟨hvn, hvm⟩ := sorted_dedup ((df.filter (fun r => r.2)).map (fun r => r.1.user))
    obtain ⟨hinn, him⟩ := sorted_dedup (df.map (fun r => r.1.item))
    rw [← hvus] at hvn hvm
    rw [← hitems] at hinn him
    have hnd : (tr ++ va ++ te).Nodup := hperm.nodup_iff.mpr hvn
    have hlens : va.length = ⌊(w * rv) / (rv + rt)⌋₊ ∧ te.length = w - ⌊(w * rv) / (rv + rt)⌋₊ := by
      unfold specificUsers at hsu
      simp only [id] at hsu
      split at hsu
      · cases hsu
      split at hsu
      · cases hsu
      rename_i hne
      have e1 : (1 : ℝ) - (1 - rv - rt) = rv + rt := by ring
      rw [e1] at hsu hne
      have hpos : 0 < rv + rt := lt_of_le_of_ne (by linarith) (Ne.symm hne)
      have htrunc : ∀ x : ℝ, 0 ≤ x → truncZ x = (⌊x⌋₊ : ℤ) := by
        intro x hx
        unfold truncZ
        rw [if_pos hx, Int.natCast_floor_eq_floor hx]
      have key : ∀ s : List U × List U, s.1.length = w →
          (s.2, (splitList (o.shuffle 1) s.1 (truncZ ((s.1.length : ℝ) * rv / (rv + rt)))).2,
            (splitList (o.shuffle 1) s.1 (truncZ ((s.1.length : ℝ) * rv / (rv + rt)))).1) = (tr, va, te) →
          va.length = ⌊(w * rv) / (rv + rt)⌋₊ ∧ te.length = w - ⌊(w * rv) / (rv + rt)⌋₊ := by
        intro s hs heq
        rw [htrunc _ (by positivity), hs] at heq
        have hle : ⌊(w * rv) / (rv + rt)⌋₊ ≤ w := by
          apply Nat.floor_le_of_le
          rw [div_le_iff₀ hpos]
          have : (0 : ℝ) ≤ w := Nat.cast_nonneg w
          nlinarith
        have hl : (o.shuffle 1 s.1).length = w := by rw [(ho.shuffle 1 _).length_eq, hs]
        have := pySplit_len (o.shuffle 1 s.1) ⌊(w * rv) / (rv + rt)⌋₊ (by rw [hl]; exact hle)
        injection heq with _ heq
        injection heq with h1 h2
        rw [← h1, ← h2]
        unfold splitList
        rw [this.1, this.2, hl]
        exact ⟨rfl, rfl⟩
      injection hsu with hsu
      by_cases hc : rv + rt ≥ 1
      · rw [if_pos hc] at hsu
        refine key (vus, []) ?_ hsu
        have : (1 : ℝ) - rv - rt = 0 := by linarith
        rw [hw, this, zero_mul, Nat.floor_zero]
        simpa using hvl
      · rw [if_neg hc] at hsu
        refine key _ ?_ hsu
        have hx : 0 ≤ (1 - rv - rt) * (m : ℝ) := by
          have : (0 : ℝ) ≤ m := Nat.cast_nonneg m
          apply mul_nonneg <;> linarith
        rw [hvl, htrunc _ hx]
        have hle : ⌊(1 - rv - rt) * (m : ℝ)⌋₊ ≤ m := by
          apply Nat.floor_le_of_le
          have : (0 : ℝ) ≤ m := Nat.cast_nonneg m
          nlinarith
        have hl : (o.shuffle 0 vus).length = m := by rw [(ho.shuffle 0 _).length_eq, hvl]
        unfold splitList
        rw [(pySplit_len (o.shuffle 0 vus) _ (by rw [hl]; exact hle)).1, hl, hw]
    have hmemv : ∀ u, u ∈ vus → ∃ r ∈ df, r.1.user = u := by
      intro u hu
      rw [hvm, List.mem_map] at hu
      obtain ⟨r, hr, rfl⟩ := hu
      exact ⟨r, (List.mem_filter.mp hr).1, rfl⟩
    have hsub : ∀ u, u ∈ tr ++ va ++ te → u ∈ vus := fun u hu => hperm.mem_iff.mp hu
    rw [List.nodup_append, List.nodup_append] at hnd
    obtain ⟨⟨n1, n2, n3⟩, n4, n5⟩ := hnd
    have key : ∀ (ids : List U) (P : UserPair U I), ids.Nodup → (∀ u ∈ ids, u ∈ vus) →
        specificDataset (df.filter (fun r => decide (r.1.user ∈ ids))) items false = .ok P →
        P.userIds.length = ids.length := by
      intro ids P hn hids hP
      obtain ⟨b1, b2, -⟩ := specificDataset_ok hinn
        (fun r hr => (him _).mpr (List.mem_map.mpr ⟨r, (List.mem_filter.mp hr).1, rfl⟩)) hP
      apply List.Perm.length_eq
      rw [List.perm_ext_iff_of_nodup b1 hn]
      intro u
      rw [b2]
      constructor
      · rintro ⟨r, hr, rfl⟩
        simpa using (List.mem_filter.mp hr).2
      · intro hu
        obtain ⟨r, hr, hru⟩ := hmemv u (hids u hu)
        exact ⟨r, List.mem_filter.mpr ⟨hr, by simp [hru, hu]⟩, hru⟩
    cases ha : specificDataset (df.filter (fun r => decide (r.1.user ∈ tr)) ++
      df.filter (fun r => !decide (r.1.user ∈ vus))) items true with
    | error e => rw [ha] at h; cases h
    | ok a =>
      rw [ha] at h
      simp only at h
      cases hb : specificDataset (df.filter (fun r => decide (r.1.user ∈ va))) items false with
      | error e => rw [hb] at h; cases h
      | ok b =>
        rw [hb] at h
        simp only at h
        cases hc : specificDataset (df.filter (fun r => decide (r.1.user ∈ te))) items false with
        | error e => rw [hc] at h; cases h
        | ok c =>
          rw [hc] at h
          simp only at h
          injection h with h
          subst h
          simp only
          rw [key va b n2 (fun u hu => hsub u (by simp [hu])) hb,
            key te c n4 (fun u hu => hsub u (by simp [hu])) hc]
          exact hlens

/-- C27: with both ratios 0 ("hold nothing out") the call fails with `ZeroDivisionError`. -/
theorem C27_no_holdout_fails (o : Oracle U I T) (df : List (Row U I T × Bool)) :
    holdoutSpecific id o df 0 0 = .error .zeroDivisionError := by
  classical
  unfold holdoutSpecific specificUsers
  simp only [id]
  rw [if_neg (by norm_num), if_pos (by norm_num)]

/-- Non-vacuity of C27: the defaults succeed on every frame. -/
example (o : Oracle U I T) (df : List (Row U I T × Bool)) :
    ∃ H, holdoutSpecific id o df (2 / 10) (2 / 10) = .ok H := by
  rw [C27_succeeds_iff]
  norm_num

end Irspack.Props
