import Verif.Proofs.Split

namespace Irspack.Split
open Irspack Spec

/-! ### COO → CSR -/

theorem coo_entry (nRows nCols : Nat) (ts : List (Nat × Nat × ℝ)) (u i : Nat) (hu : u < nRows) :
    entry (cooToCsr nRows nCols ts) u i =
      ((ts.filter (fun t => decide (t.1 = u ∧ t.2.1 = i))).map (fun t => t.2.2)).sum := by
  rw [entry_eq]
  unfold cooToCsr
  simp only [List.getD_eq_getElem?_getD, List.getElem?_map, List.getElem?_range hu, Option.map_some,
    Option.getD_some]
  rw [rowEntry_collapse]
  unfold rowEntry
  rw [List.filter_map, List.map_map, List.filter_filter]
  congr 1
  congr 1
  apply List.filter_congr
  intro t _
  simp only [Function.comp]
  by_cases h1 : t.1 = u <;> by_cases h2 : t.2.1 = i <;> simp [h1, h2]

theorem coo_canonical (nRows nCols : Nat) (ts : List (Nat × Nat × ℝ)) :
    Canonical (cooToCsr nRows nCols ts) := by
  intro row hrow
  unfold cooToCsr at hrow
  obtain ⟨u, -, rfl⟩ := List.mem_map.mp hrow
  exact collapse_nodup _

theorem coo_stored (nRows nCols : Nat) (ts : List (Nat × Nat × ℝ)) (u : Nat) (hu : u < nRows) (i : Nat) :
    i ∈ ((cooToCsr nRows nCols ts).rows.getD u []).map Prod.fst ↔ ∃ t ∈ ts, t.1 = u ∧ t.2.1 = i := by
  unfold cooToCsr
  simp only [List.getD_eq_getElem?_getD, List.getElem?_map, List.getElem?_range hu, Option.map_some,
    Option.getD_some]
  rw [mem_collapse_cols]
  simp only [List.mem_map, List.mem_filter, decide_eq_true_eq]
  constructor
  · rintro ⟨p, ⟨t, ⟨h1, h2⟩, rfl⟩, h3⟩; exact ⟨t, h1, h2, h3⟩
  · rintro ⟨t, h1, h2, h3⟩; exact ⟨t.2, ⟨t, ⟨h1, h2⟩, rfl⟩, h3⟩

section frames
variable {U I T : Type} [LinearOrder U] [LinearOrder I] [LinearOrder T]

theorem categories_ok {A : Type} [LinearOrder A] {values : List A} {ids : Option (List A)} {l : List A}
    (h : categories values ids = .ok l) : l.Nodup ∧ (∀ l', ids = some l' → l = l') ∧
      (ids = none → l.Pairwise (· ≤ ·) ∧ ∀ x, x ∈ l ↔ x ∈ values) := by
  unfold categories at h
  cases ids with
  | some l' =>
    simp only at h
    split at h
    · rename_i hn
      injection h with h
      subst h
      refine ⟨hn, fun _ e => by injection e, by simp⟩
    · cases h
  | none =>
    simp only at h
    injection h with h
    subst h
    refine ⟨(List.perm_insertionSort _ _).nodup_iff.mpr (List.nodup_dedup _), by simp, fun _ => ?_⟩
    refine ⟨List.pairwise_insertionSort _ _, fun x => ?_⟩
    rw [(List.perm_insertionSort _ _).mem_iff, List.mem_dedup]

theorem keepIn_mem {A R : Type} [DecidableEq A] (get : R → A) (ids : Option (List A)) (df : List R)
    (r : R) : r ∈ keepIn get ids df ↔ r ∈ df ∧ ∀ l, ids = some l → get r ∈ l := by
  unfold keepIn
  cases ids with
  | none => simp
  | some l => simp

/-- selection does not change the events of listed users and items -/
theorem keepIn_events (userIds : Option (List U)) (itemIds : Option (List I)) (df : List (Row U I T))
    (u : U) (i : I) (hu : ∀ l, userIds = some l → u ∈ l) (hi : ∀ l, itemIds = some l → i ∈ l) :
    eventsOf (keepIn Row.item itemIds (keepIn Row.user userIds df)) u i = eventsOf df u i := by
  have h1 : ∀ d : List (Row U I T), eventsOf (keepIn Row.user userIds d) u i = eventsOf d u i := by
    intro d
    unfold keepIn eventsOf
    cases userIds with
    | none => rfl
    | some l =>
      simp only
      rw [List.filter_filter]
      apply List.filter_congr
      intro r _
      have := hu l rfl
      by_cases hr : r.user = u
      · subst hr; simp [this]
      · simp [hr]
  have h2 : ∀ d : List (Row U I T), eventsOf (keepIn Row.item itemIds d) u i = eventsOf d u i := by
    intro d
    unfold keepIn eventsOf
    cases itemIds with
    | none => rfl
    | some l =>
      simp only
      rw [List.filter_filter]
      apply List.filter_congr
      intro r _
      have := hi l rfl
      by_cases hr : r.item = i
      · subst hr; simp [this]
      · simp [hr]
  rw [h2, h1]

/-- The matrix of `df_to_sparse`. -/
theorem dfToSparse_ok {df : List (Row U I T)} {userIds : Option (List U)} {itemIds : Option (List I)}
    {useRating : Bool} {X : Csr ℝ} {us : List U} {is : List I}
    (h : dfToSparse df userIds itemIds useRating = .ok (X, us, is)) :
    us.Nodup ∧ is.Nodup ∧ X.rows.length = us.length ∧ X.nCols = is.length ∧ Canonical X ∧
    (∀ l, userIds = some l → us = l) ∧ (∀ l, itemIds = some l → is = l) ∧
    (userIds = none → us.Pairwise (· ≤ ·) ∧ ∀ u, u ∈ us ↔ ∃ r ∈ df, r.user = u ∧
      ∀ l, itemIds = some l → r.item ∈ l) ∧
    (itemIds = none → is.Pairwise (· ≤ ·) ∧ ∀ i, i ∈ is ↔ ∃ r ∈ df, r.item = i ∧
      ∀ l, userIds = some l → r.user ∈ l) ∧
    (∀ k (hk : k < us.length) j (hj : j < is.length),
      entry X k j = totalWeight useRating df us[k] is[j]) ∧
    ∀ k (hk : k < us.length) j, (j ∈ (X.rows.getD k []).map Prod.fst ↔
      ∃ hj : j < is.length, eventsOf df us[k] is[j] ≠ []) := by
  unfold dfToSparse at h
  simp only at h
  set df' := keepIn Row.item itemIds (keepIn Row.user userIds df) with hdf'
  cases h1 : categories (df'.map Row.user) userIds with
  | error e => rw [h1] at h; cases h
  | ok us' =>
    rw [h1] at h
    simp only at h
    cases h2 : categories (df'.map Row.item) itemIds with
    | error e => rw [h2] at h; cases h
    | ok is' =>
      rw [h2] at h
      simp only at h
      injection h with h
      injection h with hX h
      injection h with hus his
      subst hus his
      obtain ⟨nu, eu, fu⟩ := categories_ok h1
      obtain ⟨ni, ei, fi⟩ := categories_ok h2
      have hmem : ∀ r, r ∈ df' ↔ r ∈ df ∧ (∀ l, userIds = some l → r.user ∈ l) ∧
          (∀ l, itemIds = some l → r.item ∈ l) := by
        intro r
        rw [hdf', keepIn_mem, keepIn_mem]
        constructor
        · rintro ⟨⟨a, b⟩, c⟩; exact ⟨a, b, c⟩
        · rintro ⟨a, b, c⟩; exact ⟨⟨a, b⟩, c⟩
      have hinu : ∀ r ∈ df', r.user ∈ us' := by
        intro r hr
        cases hc : userIds with
        | none => exact ((fu hc).2 _).mpr (List.mem_map.mpr ⟨r, hr, rfl⟩)
        | some l => rw [eu l hc]; exact ((hmem r).mp hr).2.1 l hc
      have hini : ∀ r ∈ df', r.item ∈ is' := by
        intro r hr
        cases hc : itemIds with
        | none => exact ((fi hc).2 _).mpr (List.mem_map.mpr ⟨r, hr, rfl⟩)
        | some l => rw [ei l hc]; exact ((hmem r).mp hr).2.2 l hc
      have hev : ∀ k (hk : k < us'.length) j (hj : j < is'.length),
          eventsOf df' us'[k] is'[j] = eventsOf df us'[k] is'[j] := by
        intro k hk j hj
        rw [hdf']
        apply keepIn_events
        · intro l hl; rw [← eu l hl]; exact List.getElem_mem hk
        · intro l hl; rw [← ei l hl]; exact List.getElem_mem hj
      have hcode : ∀ r ∈ df', ∀ k (hk : k < us'.length), us'.idxOf r.user = k ↔ r.user = us'[k] := by
        intro r hr k hk
        constructor
        · rintro rfl; rw [List.getElem_idxOf]
        · rintro h; rw [h, nu.idxOf_getElem]
      have hcodei : ∀ r ∈ df', ∀ j (hj : j < is'.length), is'.idxOf r.item = j ↔ r.item = is'[j] := by
        intro r hr k hk
        constructor
        · rintro rfl; rw [List.getElem_idxOf]
        · rintro h; rw [h, ni.idxOf_getElem]
      refine ⟨nu, ni, by rw [← hX]; simp [cooToCsr], by rw [← hX]; rfl,
        by rw [← hX]; exact coo_canonical _ _ _, eu, ei, ?_, ?_, ?_, ?_⟩
      · intro hn
        refine ⟨(fu hn).1, fun u => ?_⟩
        rw [(fu hn).2, List.mem_map]
        constructor
        · rintro ⟨r, hr, rfl⟩
          have := (hmem r).mp hr
          exact ⟨r, this.1, rfl, this.2.2⟩
        · rintro ⟨r, hr, rfl, h3⟩
          exact ⟨r, (hmem r).mpr ⟨hr, by simp [hn], h3⟩, rfl⟩
      · intro hn
        refine ⟨(fi hn).1, fun u => ?_⟩
        rw [(fi hn).2, List.mem_map]
        constructor
        · rintro ⟨r, hr, rfl⟩
          have := (hmem r).mp hr
          exact ⟨r, this.1, rfl, this.2.1⟩
        · rintro ⟨r, hr, rfl, h3⟩
          exact ⟨r, (hmem r).mpr ⟨hr, h3, by simp [hn]⟩, rfl⟩
      · intro k hk j hj
        rw [← hX, coo_entry _ _ _ _ _ hk]
        unfold totalWeight
        rw [← hev k hk j hj, List.filter_map, List.map_map]
        unfold eventsOf
        have hf : df'.filter ((fun t : Nat × Nat × ℝ => decide (t.1 = k ∧ t.2.1 = j)) ∘ fun r =>
            (us'.idxOf r.user, is'.idxOf r.item, valueOf useRating r)) =
            df'.filter (fun r => decide (r.user = us'[k] ∧ r.item = is'[j])) := by
          apply List.filter_congr
          intro r hr
          simp only [Function.comp, hcode r hr k hk, hcodei r hr j hj]
        rw [hf]
        rfl
      · intro k hk j
        rw [← hX, coo_stored _ _ _ _ hk]
        constructor
        · rintro ⟨t, ht, h3, h4⟩
          obtain ⟨r, hr, rfl⟩ := List.mem_map.mp ht
          simp only at h3 h4
          have hj : j < is'.length := by rw [← h4]; exact List.idxOf_lt_length_of_mem (hini r hr)
          refine ⟨hj, ?_⟩
          rw [← hev k hk j hj]
          apply List.ne_nil_of_mem (a := r)
          unfold eventsOf
          rw [List.mem_filter, decide_eq_true_eq]
          exact ⟨hr, (hcode r hr k hk).mp h3, (hcodei r hr j hj).mp h4⟩
        · rintro ⟨hj, hne⟩
          rw [← hev k hk j hj] at hne
          obtain ⟨r, hr⟩ := List.exists_mem_of_ne_nil _ hne
          unfold eventsOf at hr
          rw [List.mem_filter, decide_eq_true_eq] at hr
          exact ⟨_, List.mem_map.mpr ⟨r, hr.1, rfl⟩, (hcode r hr.1 k hk).mpr hr.2.1,
            (hcodei r hr.1 j hj).mpr hr.2.2⟩

/-- `df_to_sparse` fails only on repeated given ids. -/
theorem dfToSparse_total (df : List (Row U I T)) (userIds : Option (List U)) (itemIds : Option (List I))
    (useRating : Bool) (hu : ∀ l, userIds = some l → l.Nodup) (hi : ∀ l, itemIds = some l → l.Nodup) :
    ∃ r, dfToSparse df userIds itemIds useRating = .ok r := by
  have hc : ∀ {A : Type} [LinearOrder A] (v : List A) (ids : Option (List A)),
      (∀ l, ids = some l → l.Nodup) → ∃ l, categories v ids = .ok l := by
    intro A _ v ids h
    unfold categories
    cases ids with
    | none => exact ⟨_, rfl⟩
    | some l => exact ⟨l, by simp only; rw [if_pos (h l rfl)]⟩
  unfold dfToSparse
  simp only
  obtain ⟨us, h1⟩ := hc ((keepIn Row.item itemIds (keepIn Row.user userIds df)).map Row.user) userIds hu
  obtain ⟨is, h2⟩ := hc ((keepIn Row.item itemIds (keepIn Row.user userIds df)).map Row.item) itemIds hi
  rw [h1, h2]
  exact ⟨_, rfl⟩

end frames

end Irspack.Split
