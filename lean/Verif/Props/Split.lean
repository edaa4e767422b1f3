import Verif.Proofs.Split

/-!
# C22 – C24: row-wise and time-based splits
-/

namespace Irspack.Props
open Irspack Spec Split

/-! ## C22 -/

theorem rowwiseSplit_ok {fl : ℝ → ℝ} {X : Csr ℝ} {ratio : ℝ} {n : Option Int} {ceil : Bool}
    {shuf : Nat → List Nat} {a b : Csr ℝ} (h : rowwiseSplit fl X ratio n ceil shuf = .ok (a, b)) :
    ∃ nTest : Nat → Nat, splitImple nTest shuf X = (a, b) ∧
      (n = none → nTest = nTestRatio fl ratio ceil ∧ 0 ≤ ratio ∧ ratio ≤ 1) ∧
      (∀ k, n = some k → 0 ≤ k ∧ nTest = nTestFixed k.toNat) := by
  unfold rowwiseSplit at h
  cases n with
  | none =>
    simp only at h
    split at h
    · cases h
    · rename_i hr
      rw [not_not] at hr
      injection h with h
      exact ⟨_, h, fun _ => ⟨rfl, hr.2, hr.1⟩, by simp⟩
  | some k =>
    simp only at h
    split at h
    · cases h
    · rename_i hk
      injection h with h
      refine ⟨_, h, by simp, ?_⟩
      rintro k' ⟨⟩
      exact ⟨by omega, rfl⟩

/-- C22. If no position is stored twice and all values are integers, the stored entries of each row
are distributed over train and test: each goes, unchanged, to exactly one of them; in particular the
supports are disjoint and the two matrices, of the source's shape, add up to the source. -/
theorem C22_conserves (fl : ℝ → ℝ) (X : Csr ℝ) (hc : Canonical X) (hi : Integral X) (ratio : ℝ)
    (n : Option Int) (ceil : Bool) (shuf : Nat → List Nat) (hs : IsRowShuffle X shuf) (a b : Csr ℝ)
    (h : rowwiseSplit fl X ratio n ceil shuf = .ok (a, b)) :
    a.nCols = X.nCols ∧ b.nCols = X.nCols ∧ a.rows.length = X.rows.length ∧
    b.rows.length = X.rows.length ∧
    ∀ u (hu : u < X.rows.length) (ha : u < a.rows.length) (hb : u < b.rows.length),
      (a.rows[u] ++ b.rows[u]).Perm X.rows[u] ∧
      (∀ i, ¬ (i ∈ a.rows[u].map Prod.fst ∧ i ∈ b.rows[u].map Prod.fst)) ∧
      ∀ i, entry a u i + entry b u i = entry X u i := by
  obtain ⟨nTest, hab, -, -⟩ := rowwiseSplit_ok h
  unfold splitImple at hab
  injection hab with ha hb
  subst ha hb
  refine ⟨rfl, rfl, by simp, by simp, ?_⟩
  intro u hu ha hb
  simp only [List.getElem_mapIdx]
  have hnd := hc _ (List.getElem_mem hu)
  have hp : ((splitRow nTest X.rows[u] (shuf u)).1.map (fun p => (p.1, (p.2 : ℝ))) ++
      (splitRow nTest X.rows[u] (shuf u)).2.map (fun p => (p.1, (p.2 : ℝ)))).Perm X.rows[u] := by
    have := (splitRow_perm nTest _ _ (hs u hu) hnd).1.map (fun p : Nat × ℤ => (p.1, (p.2 : ℝ)))
    rw [List.map_append, List.map_map] at this
    refine this.trans ?_
    have he : X.rows[u].map ((fun p : Nat × ℤ => (p.1, (p.2 : ℝ))) ∘ fun p => (p.1, truncZ p.2)) =
        X.rows[u] := by
      conv_rhs => rw [← List.map_id X.rows[u]]
      apply List.map_congr_left
      intro p hp
      obtain ⟨z, hz⟩ := hi _ (List.getElem_mem hu) p hp
      simp only [Function.comp, id, hz, truncZ_int]
      rw [← hz]
    rw [he]
  refine ⟨hp, ?_, ?_⟩
  · rintro i ⟨h1, h2⟩
    have h3 := ((hp.map Prod.fst).nodup_iff).mpr hnd
    rw [List.map_append, List.nodup_append] at h3
    exact h3.2.2 i h1 i h2 rfl
  · intro i
    rw [entry_eq, entry_eq, entry_eq]
    simp only [List.getD_eq_getElem?_getD, List.getElem?_mapIdx, List.getElem?_eq_getElem hu,
      Option.map_some, Option.getD_some]
    rw [← rowEntry_append]
    exact rowEntry_perm hp i

theorem split_sum_trunc {nTest : Nat → Nat} {X a b : Csr ℝ} {shuf : Nat → List Nat}
    (hs : IsRowShuffle X shuf) (hab : splitImple nTest shuf X = (a, b)) (u i : Nat) :
    entry a u i + entry b u i =
      rowEntry ((X.rows.getD u []).map (fun p => (p.1, ((truncZ p.2 : ℤ) : ℝ)))) i := by
  unfold splitImple at hab
  injection hab with ha hb
  subst ha hb
  rw [entry_eq, entry_eq]
  simp only [List.getD_eq_getElem?_getD, List.getElem?_mapIdx]
  by_cases hu : u < X.rows.length
  · rw [List.getElem?_eq_getElem hu]
    simp only [Option.map_some, Option.getD_some]
    rw [rowEntry_toReal, rowEntry_toReal, ← Int.cast_add, splitRow_entry nTest _ _ (hs u hu),
      ← rowEntry_toReal, List.map_map]
    rfl
  · rw [List.getElem?_eq_none (by omega)]
    simp [rowEntry]

/-- C22. The sum property holds for every integer-valued matrix, stored positions repeated or not. -/
theorem C22_sums_back (fl : ℝ → ℝ) (X : Csr ℝ) (hi : Integral X) (ratio : ℝ)
    (n : Option Int) (ceil : Bool) (shuf : Nat → List Nat) (hs : IsRowShuffle X shuf) (a b : Csr ℝ)
    (h : rowwiseSplit fl X ratio n ceil shuf = .ok (a, b)) (u i : Nat) :
    entry a u i + entry b u i = entry X u i := by
  obtain ⟨nTest, hab, -, -⟩ := rowwiseSplit_ok h
  rw [split_sum_trunc hs hab, entry_eq]
  congr 1
  conv_rhs => rw [← List.map_id (X.rows.getD u [])]
  apply List.map_congr_left
  intro p hp
  by_cases hu : u < X.rows.length
  · rw [List.getD_eq_getElem?_getD, List.getElem?_eq_getElem hu, Option.getD_some] at hp
    obtain ⟨z, hz⟩ := hi _ (List.getElem_mem hu) p hp
    simp only [id, hz, truncZ_int]
    rw [← hz]
  · rw [List.getD_eq_getElem?_getD, List.getElem?_eq_none (by omega)] at hp
    simp at hp

/-- C22: the documentation promises a split that sums back to the original matrix without restriction.
It does not hold for fractional values: the C++ code passes them through `int64_t`. -/
theorem C22_fractional_values_counterexample :
    ∃ (X a b : Csr ℝ), Canonical X ∧ IsRowShuffle X (fun _ => [0]) ∧
      rowwiseSplit id X 0 none false (fun _ => [0]) = .ok (a, b) ∧
      entry X 0 0 = 1 / 2 ∧ entry a 0 0 + entry b 0 0 = 0 := by
  have hs : IsRowShuffle ⟨1, [[(0, 1 / 2)]]⟩ (fun _ => [0]) := by
    intro r hr
    obtain rfl : r = 0 := by simpa using hr
    exact List.Perm.refl _
  have hok : rowwiseSplit id ⟨1, [[(0, 1 / 2)]]⟩ 0 none false (fun _ => [0]) =
      .ok (splitImple (nTestRatio id 0 false) (fun _ => [0]) ⟨1, [[(0, 1 / 2)]]⟩) := by
    unfold rowwiseSplit
    simp only
    rw [if_neg (by norm_num)]
  refine ⟨⟨1, [[(0, 1 / 2)]]⟩, _, _, by simp [Canonical], hs, hok, by simp [entry], ?_⟩
  rw [split_sum_trunc hs rfl]
  have : truncZ (2⁻¹ : ℝ) = 0 := by
    unfold truncZ
    rw [if_pos (by norm_num), Int.floor_eq_iff]
    norm_num
  simp [rowEntry, this]

/-! ## C23 -/

/-- C23 (ratio). Each row gives exactly floor (or ceil) of the double-precision product
`nnz · ratio` entries to test and keeps the others; this never exceeds the row. -/
theorem C23_ratio_sizes (fl : ℝ → ℝ) (hfl : IsRounding fl) (X : Csr ℝ) (hc : Canonical X) (ratio : ℝ)
    (ceil : Bool) (shuf : Nat → List Nat) (hs : IsRowShuffle X shuf) (a b : Csr ℝ)
    (h : rowwiseSplit fl X ratio none ceil shuf = .ok (a, b)) (u : Nat) (hu : u < X.rows.length)
    (hbig : X.rows[u].length ≤ 2 ^ 53) (k : Nat)
    (hk : k = if ceil then ⌈fl (X.rows[u].length * ratio)⌉₊ else ⌊fl (X.rows[u].length * ratio)⌋₊) :
    k ≤ X.rows[u].length ∧ (b.rows.getD u []).length = k ∧
      (a.rows.getD u []).length = X.rows[u].length - k := by
  obtain ⟨nTest, hab, hr, -⟩ := rowwiseSplit_ok h
  obtain ⟨hn, h0, h1⟩ := hr rfl
  have hk' : k = nTest X.rows[u].length := by rw [hk, hn]; rfl
  have hle : k ≤ X.rows[u].length := by
    rw [hk', hn]; exact nTestRatio_le hfl h0 h1 ceil _ hbig
  unfold splitImple at hab
  injection hab with ha hb
  subst ha hb
  obtain ⟨-, hl1, hl2⟩ := splitRow_perm nTest _ _ (hs u hu) (hc _ (List.getElem_mem hu))
  simp only [List.getD_eq_getElem?_getD, List.getElem?_mapIdx, List.getElem?_eq_getElem hu,
    Option.map_some, Option.getD_some, List.length_map]
  rw [hl1, hl2, ← hk']
  exact ⟨hle, Nat.min_eq_left hle, rfl⟩

/-- C23 (fixed number). Each row gives exactly `min n nnz` entries to test. -/
theorem C23_fixed_sizes (fl : ℝ → ℝ) (X : Csr ℝ) (hc : Canonical X) (ratio : ℝ) (n : Nat)
    (ceil : Bool) (shuf : Nat → List Nat) (hs : IsRowShuffle X shuf) :
    ∃ a b, rowwiseSplit fl X ratio (some n) ceil shuf = .ok (a, b) ∧
      ∀ u (hu : u < X.rows.length), (b.rows.getD u []).length = min n X.rows[u].length ∧
        (a.rows.getD u []).length = X.rows[u].length - n := by
  have hok : rowwiseSplit fl X ratio (some n) ceil shuf = .ok (splitImple (nTestFixed n) shuf X) := by
    unfold rowwiseSplit
    simp only
    rw [if_neg (by omega), Int.toNat_natCast]
  refine ⟨_, _, hok, ?_⟩
  intro u hu
  obtain ⟨-, hl1, hl2⟩ := splitRow_perm (nTestFixed n) _ _ (hs u hu) (hc _ (List.getElem_mem hu))
  simp only [List.getD_eq_getElem?_getD, List.getElem?_mapIdx, List.getElem?_eq_getElem hu,
    Option.map_some, Option.getD_some, List.length_map]
  rw [hl1, hl2]
  unfold nTestFixed
  omega

/-- C23. A ratio is accepted exactly within [0, 1]; a negative number of entries is refused. -/
theorem C23_accepts_iff (fl : ℝ → ℝ) (X : Csr ℝ) (ratio : ℝ) (n : Option Int) (ceil : Bool)
    (shuf : Nat → List Nat) :
    (∃ r, rowwiseSplit fl X ratio n ceil shuf = .ok r) ↔
      match n with
      | none => 0 ≤ ratio ∧ ratio ≤ 1
      | some k => 0 ≤ k := by
  unfold rowwiseSplit
  cases n with
  | none =>
    simp only
    by_cases h : ratio ≤ 1 ∧ ratio ≥ 0
    · rw [if_neg (not_not.mpr h)]; exact ⟨fun _ => ⟨h.2, h.1⟩, fun _ => ⟨_, rfl⟩⟩
    · rw [if_pos h]
      exact ⟨fun ⟨_, hr⟩ => (by cases hr), fun h' => absurd ⟨h'.2, h'.1⟩ h⟩
  | some k =>
    simp only
    by_cases h : k < 0
    · rw [if_pos h]; exact ⟨fun ⟨_, hr⟩ => (by cases hr), fun h' => by omega⟩
    · rw [if_neg h]; exact ⟨fun _ => by omega, fun _ => ⟨_, rfl⟩⟩

/-- C23. Ratio 0 holds out nothing, ratio 1 everything. -/
theorem C23_extreme_ratios (fl : ℝ → ℝ) (hfl : IsRounding fl) (X : Csr ℝ) (hc : Canonical X)
    (ceil : Bool) (shuf : Nat → List Nat) (hs : IsRowShuffle X shuf)
    (hbig : ∀ row ∈ X.rows, row.length ≤ 2 ^ 53) :
    (∀ a b, rowwiseSplit fl X 0 none ceil shuf = .ok (a, b) → ∀ u, b.rows.getD u [] = []) ∧
    (∀ a b, rowwiseSplit fl X 1 none ceil shuf = .ok (a, b) → ∀ u, a.rows.getD u [] = []) := by
  have h00 : fl 0 = 0 := by simpa using hfl.nat 0 (by norm_num)
  have hout : ∀ ratio a b, rowwiseSplit fl X ratio none ceil shuf = .ok (a, b) → ∀ u,
      ¬ u < X.rows.length → a.rows.getD u [] = [] ∧ b.rows.getD u [] = [] := by
    intro ratio a b h u hu
    obtain ⟨nTest, hab, -, -⟩ := rowwiseSplit_ok h
    unfold splitImple at hab
    injection hab with ha hb
    subst ha hb
    simp only [List.getD_eq_getElem?_getD, List.getElem?_mapIdx, List.getElem?_eq_none (by omega :
      X.rows.length ≤ u), Option.map_none, Option.getD_none, and_self]
  constructor
  · intro a b h u
    by_cases hu : u < X.rows.length
    · have := (C23_ratio_sizes fl hfl X hc 0 ceil shuf hs a b h u hu (hbig _ (List.getElem_mem hu)) _
        rfl).2.1
      apply List.eq_nil_of_length_eq_zero
      rw [this]
      cases ceil <;> simp [h00]
    · exact (hout 0 a b h u hu).2
  · intro a b h u
    by_cases hu : u < X.rows.length
    · have := (C23_ratio_sizes fl hfl X hc 1 ceil shuf hs a b h u hu (hbig _ (List.getElem_mem hu)) _
        rfl).2.2
      apply List.eq_nil_of_length_eq_zero
      rw [this]
      cases ceil <;> simp [hfl.nat _ (hbig _ (List.getElem_mem hu))]
    · exact (hout 1 a b h u hu).1

/-- Non-vacuity of C22 and C23: a canonical integer matrix with two rows, exact arithmetic, and
reversing shuffles. -/
example : ∃ X : Csr ℝ, Canonical X ∧ Integral X ∧ IsRowShuffle X (fun r => if r = 0 then [2, 0, 1] else [0]) ∧
    IsRounding id ∧ X.rows.map List.length = [3, 1] := by
  refine ⟨⟨5, [[(4, 2), (0, 1), (3, 7)], [(1, 1)]]⟩, ?_, ?_, ?_, ⟨monotone_id, fun _ _ => rfl⟩, rfl⟩
  · intro row hrow
    simp only [List.mem_cons, List.not_mem_nil, or_false] at hrow
    rcases hrow with rfl | rfl <;> simp
  · intro row hrow p hp
    simp only [List.mem_cons, List.not_mem_nil, or_false] at hrow
    rcases hrow with rfl | rfl
    · simp only [List.mem_cons, List.not_mem_nil, or_false] at hp
      rcases hp with rfl | rfl | rfl
      · exact ⟨2, by norm_num⟩
      · exact ⟨1, by norm_num⟩
      · exact ⟨7, by norm_num⟩
    · simp only [List.mem_cons, List.not_mem_nil, or_false] at hp
      subst hp
      exact ⟨1, by norm_num⟩
  · intro r hr
    have : r = 0 ∨ r = 1 := by simp at hr; omega
    rcases this with rfl | rfl
    · show [2, 0, 1].Perm [0, 1, 2]; decide
    · exact List.Perm.refl _

/-! ## C24 -/

section time
variable {U I T : Type} [LinearOrder U] [LinearOrder I] [LinearOrder T]

/-- C24. The two frames together have exactly the rows of the source; user `u` has
`min N_u (max 0 k)` held-out rows, where `k` is `n_heldout` or floor/ceil of the double-precision
product `N_u · ratio`; and no held-out row is older than a kept row of the same user. -/
theorem C24_time_split (fl : ℝ → ℝ) (srt : List (Row U I T) → List (Row U I T)) (hsrt : IsSorted srt)
    (df : List (Row U I T)) (n : Option Int) (ratio : ℝ) (ceil : Bool) (train test : List (Row U I T))
    (h : splitLastN fl srt df n ratio ceil = (train, test)) :
    (train ++ test).Perm df ∧
    (∀ u (k : Int), (k = match n with
        | some k => k
        | none => if ceil then ⌈fl ((rowsOf df u).length * ratio)⌉
            else ⌊fl ((rowsOf df u).length * ratio)⌋) →
      (rowsOf test u).length = min (rowsOf df u).length k.toNat) ∧
    ∀ r ∈ train, ∀ q ∈ test, r.user = q.user → r.time ≤ q.time := by
  obtain ⟨hperm, hsort⟩ := hsrt df
  have hcount : ∀ (l : List (Row U I T)) u, (rowsOf l u).length =
      l.countP (fun q => decide (q.user = u)) := by
    intro l u; rw [rowsOf, List.countP_eq_length_filter]
  unfold splitLastN at h
  simp only at h
  injection h with h1 h2
  set held : U → Int := fun u => heldOut fl n ratio ceil
    ((srt df).countP (fun q => decide (q.user = u))) with hheld
  refine ⟨?_, ?_, ?_⟩
  · rw [← h1, ← h2, ← List.map_append]
    have := (List.filter_append_perm (fun p : Row U I T × Nat => decide ((p.2 : Int) < held p.1.user))
      (withLater (srt df))).map Prod.fst
    rw [withLater_fst, List.map_append] at this
    rw [List.map_append]
    exact (List.perm_append_comm.trans this).trans hperm
  · intro u k hk
    rw [hcount, hcount, ← h2]
    have := time_count (srt df) held u
    simp only [hheld] at this
    rw [this, hperm.countP_eq]
    congr 1
    congr 1
    rw [hk, hcount]
    unfold heldOut
    cases n <;> rfl
  · intro r hr q hq hu
    rw [← h1] at hr
    rw [← h2] at hq
    obtain ⟨p, hp, rfl⟩ := List.mem_map.mp hr
    obtain ⟨p', hp', rfl⟩ := List.mem_map.mp hq
    rw [List.mem_filter] at hp hp'
    refine time_order (srt df) hsort held p hp.1 p' hp'.1 hu ?_ ?_
    · have := hp.2
      simp only [Bool.not_eq_true', decide_eq_false_iff_not] at this
      simpa [hheld] using this
    · have := hp'.2
      simp only [decide_eq_true_eq] at this
      exact this

/-- Non-vacuity of C24: sorting with a library sort meets the contract. -/
example : ∃ srt : List (Row Nat Nat Nat) → List (Row Nat Nat Nat), IsSorted srt := by
  refine ⟨fun l => l.mergeSort (fun a b => decide (a.user < b.user ∨ (a.user = b.user ∧ a.time ≤ b.time))),
    fun df => ⟨List.mergeSort_perm _ _, ?_⟩⟩
  have := List.pairwise_mergeSort (le := fun a b : Row Nat Nat Nat =>
      decide (a.user < b.user ∨ (a.user = b.user ∧ a.time ≤ b.time))) (by
    intro a b c h1 h2
    simp only [decide_eq_true_eq] at *
    omega) (by
    intro a b
    simp only [Bool.or_eq_true, decide_eq_true_eq]
    omega) df
  simpa using this

end time

end Irspack.Props
