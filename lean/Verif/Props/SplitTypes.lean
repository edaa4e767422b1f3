import Verif.Spec.NumTypes
import Verif.Props.Split
import Mathlib.Tactic.Positivity
import Mathlib.Tactic.Linarith

/-!
# C111: splitting matrices of every number type
-/

namespace Irspack.Props
open Irspack Spec Split

/-! ## Floating-point numbers -/

theorem nearest_exact {p : Nat} {fl : ℝ → ℝ} (h : NearestTo p fl) {x : ℝ} (hx : IsFloat p x) : fl x = x := by
  have := (h x).2 x hx
  rw [sub_self, abs_zero] at this
  have := abs_nonpos_iff.mp this
  linarith

theorem isFloat_int {p : Nat} (hp : 0 < p) {z : ℤ} (hz : |z| ≤ 2 ^ p) : IsFloat p (z : ℝ) := by
  rcases lt_or_eq_of_le hz with h | h
  · exact ⟨z, 0, h, by simp⟩
  · obtain ⟨q, rfl⟩ : ∃ q, p = q + 1 := ⟨p - 1, by omega⟩
    have h2 : (2 : ℤ) ^ q < 2 ^ (q + 1) := by
      rw [pow_succ]; have : (0 : ℤ) < 2 ^ q := by positivity
      omega
    rcases abs_eq (by positivity) |>.mp h with h | h
    · refine ⟨2 ^ q, 1, by rw [abs_of_pos (by positivity)]; exact h2, ?_⟩
      rw [h]; push_cast; rw [pow_succ]; simp
    · refine ⟨-2 ^ q, 1, by rw [abs_neg, abs_of_pos (by positivity)]; exact h2, ?_⟩
      rw [h]; push_cast; rw [pow_succ]; simp

theorem isFloat_mono {p q : Nat} (h : p ≤ q) {x : ℝ} (hx : IsFloat p x) : IsFloat q x := by
  obtain ⟨m, e, hm, rfl⟩ := hx
  exact ⟨m, e, lt_of_lt_of_le hm (pow_le_pow_right₀ (by norm_num) h), rfl⟩

theorem truncZ_abs_le (x : ℝ) : |((truncZ x : ℤ) : ℝ)| ≤ |x| := by
  unfold truncZ
  split
  · rename_i h
    have h1 : (0 : ℝ) ≤ (⌊x⌋ : ℤ) := by exact_mod_cast Int.floor_nonneg.mpr h
    rw [abs_of_nonneg h1, abs_of_nonneg h]
    exact Int.floor_le x
  · rename_i h
    rw [not_le] at h
    have h1 : ((⌈x⌉ : ℤ) : ℝ) ≤ 0 := by exact_mod_cast Int.ceil_le.mpr (by simpa using h.le)
    rw [abs_of_nonpos h1, abs_of_neg h]
    linarith [Int.le_ceil x]

/-- The integer part of a floating-point number is one. -/
theorem isFloat_trunc {p : Nat} (hp : 0 < p) {x : ℝ} (hx : IsFloat p x) : IsFloat p ((truncZ x : ℤ) : ℝ) := by
  obtain ⟨m, e, hm, rfl⟩ := hx
  rcases le_or_gt 0 e with he | he
  · obtain ⟨n, rfl⟩ := Int.eq_ofNat_of_zero_le he
    have : (m : ℝ) * (2 : ℝ) ^ ((n : ℕ) : ℤ) = ((m * 2 ^ n : ℤ) : ℝ) := by
      push_cast; rw [zpow_natCast]
    rw [this, truncZ_int, ← this]
    exact ⟨m, _, hm, rfl⟩
  · apply isFloat_int hp
    have h1 := truncZ_abs_le ((m : ℝ) * (2 : ℝ) ^ e)
    have h2 : |(m : ℝ) * (2 : ℝ) ^ e| ≤ |(m : ℝ)| := by
      rw [abs_mul, abs_of_pos (zpow_pos (by norm_num) e : (0 : ℝ) < 2 ^ e)]
      have : (2 : ℝ) ^ e ≤ 1 := zpow_le_one_of_nonpos₀ (by norm_num) he.le
      nlinarith [abs_nonneg (m : ℝ)]
    have h3 : |((truncZ ((m : ℝ) * (2 : ℝ) ^ e) : ℤ) : ℝ)| ≤ ((2 ^ p : ℤ) : ℝ) := by
      refine (h1.trans h2).trans ?_
      rw [← Int.cast_abs]
      exact_mod_cast hm.le
    rw [← Int.cast_abs] at h3
    exact_mod_cast h3

/-- Rounding to nearest exists: to the nearest multiple of the unit in the last place. -/
theorem exists_nearest (p : Nat) : ∃ fl : ℝ → ℝ, NearestTo (p + 1) fl := by
  have key : ∀ x : ℝ, ∃ r, IsFloat (p + 1) r ∧ ∀ y, IsFloat (p + 1) y → |x - r| ≤ |x - y| := by
    -- positive numbers first
    have pos : ∀ x : ℝ, 0 < x → ∃ r, IsFloat (p + 1) r ∧ ∀ y, IsFloat (p + 1) y → |x - r| ≤ |x - y| := by
      intro x hx
      obtain ⟨k, hk1, hk2⟩ := exists_mem_Ico_zpow hx (by norm_num : (1 : ℝ) < 2)
      set e : ℤ := k - p with he
      set u : ℝ := (2 : ℝ) ^ e with hu
      have hu0 : 0 < u := zpow_pos (by norm_num) e
      have hup : ∀ j : ℕ, (2 : ℝ) ^ j * u = 2 ^ (e + j) := by
        intro j
        rw [hu, ← zpow_natCast, ← zpow_add₀ (by norm_num), add_comm]
      have hlo : (2 : ℝ) ^ p * u ≤ x := by rw [hup, show e + (p : ℤ) = k by omega]; exact hk1
      have hhi : x < (2 : ℝ) ^ (p + 1) * u := by rw [hup, show e + ((p + 1 : ℕ) : ℤ) = k + 1 by push_cast; omega]; exact hk2
      set z : ℤ := round (x / u) with hz
      have hzhi : z ≤ 2 ^ (p + 1) := by
        have h1 : x / u < ((2 ^ (p + 1) : ℤ) : ℝ) := by rw [div_lt_iff₀ hu0]; push_cast; exact hhi
        have h2 : round (x / u) ≤ round (((2 ^ (p + 1) : ℤ) : ℝ)) := by
          rw [round_eq, round_eq]
          exact Int.floor_mono (by linarith)
        rwa [round_intCast] at h2
      have hzlo : 0 ≤ z := by
        have h1 : (((0 : ℤ)) : ℝ) ≤ x / u := by push_cast; positivity
        have h2 : round ((((0 : ℤ)) : ℝ)) ≤ round (x / u) := by
          rw [round_eq, round_eq]
          exact Int.floor_mono (by linarith)
        rwa [round_intCast] at h2
      have hmul : ∀ n : ℤ, |x - z * u| ≤ |x - n * u| := by
        intro n
        have h1 : |x / u - z| ≤ |x / u - n| := round_le (x / u) n
        have h2 : ∀ w : ℝ, |x - w * u| = |x / u - w| * u := by
          intro w
          rw [← abs_of_pos hu0, ← abs_mul, abs_of_pos hu0, sub_mul, div_mul_cancel₀ _ hu0.ne']
        rw [h2, h2]
        exact mul_le_mul_of_nonneg_right h1 hu0.le
      refine ⟨z * u, ?_, ?_⟩
      · obtain ⟨m, f, hm, hmf⟩ := isFloat_int (p := p + 1) (by omega) (z := z)
          (by rw [abs_of_nonneg hzlo]; exact hzhi)
        refine ⟨m, f + e, hm, ?_⟩
        rw [hmf, hu, zpow_add₀ (by norm_num)]
        ring
      · rintro y ⟨m, f, hm, rfl⟩
        rcases le_or_gt e f with hf | hf
        · obtain ⟨j, rfl⟩ : ∃ j : ℕ, f = j + e := ⟨(f - e).toNat, by omega⟩
          have := hmul (m * 2 ^ j)
          push_cast at this
          rw [zpow_add₀ (by norm_num), zpow_natCast, ← hu, ← mul_assoc]
          exact this
        · have h1 := hmul (2 ^ p)
          push_cast at h1
          have h2 : (m : ℝ) * (2 : ℝ) ^ f ≤ 2 ^ p * u := by
            have h3 : (m : ℝ) ≤ 2 ^ (p + 1) := by exact_mod_cast (abs_lt.mp hm).2.le
            have h4 : (2 : ℝ) ^ f ≤ 2 ^ (e - 1) := zpow_le_zpow_right₀ (by norm_num) (by omega)
            have h5 : (2 : ℝ) ^ (e - 1) * 2 = u := by
              rw [hu, zpow_sub₀ (by norm_num)]; simp
            calc (m : ℝ) * (2 : ℝ) ^ f ≤ 2 ^ (p + 1) * 2 ^ f :=
                  mul_le_mul_of_nonneg_right h3 (zpow_pos (by norm_num) f).le
              _ ≤ 2 ^ (p + 1) * 2 ^ (e - 1) := mul_le_mul_of_nonneg_left h4 (by positivity)
              _ = 2 ^ p * u := by rw [← h5]; ring
          have h6 : |x - 2 ^ p * u| = x - 2 ^ p * u := abs_of_nonneg (by linarith)
          have h7 : x - m * (2 : ℝ) ^ f ≤ |x - m * (2 : ℝ) ^ f| := le_abs_self _
          linarith
    intro x
    have neg : ∀ {q : Nat} {y : ℝ}, IsFloat q y → IsFloat q (-y) := by
      rintro q y ⟨m, e, hm, rfl⟩
      exact ⟨-m, e, by rwa [abs_neg], by push_cast; ring⟩
    rcases lt_trichotomy x 0 with hx | rfl | hx
    · obtain ⟨r, hr, hmin⟩ := pos (-x) (by linarith)
      refine ⟨-r, neg hr, ?_⟩
      intro y hy
      have := hmin (-y) (neg hy)
      rw [← abs_neg (x - -r), ← abs_neg (x - y)]
      convert this using 2 <;> ring
    · refine ⟨0, ⟨0, 0, by simp, by simp⟩, ?_⟩
      intro y _
      simp
    · exact pos x hx
  choose fl hfl using key
  exact ⟨fl, hfl⟩

/-! ## The value that comes out -/

/-- helper: what becomes of one stored value -/
noncomputable def outValue (fl fl32 : ℝ → ℝ) (d : NumType) (v : ℝ) : ℝ :=
  d.ofDouble fl32 (fl ((truncZ (fl v) : ℤ) : ℝ))

theorem outValue_iff {fl fl32 : ℝ → ℝ} (h : NearestTo 53 fl) (h32 : NearestTo 24 fl32) (d : NumType) {v : ℝ}
    (hv : Holds d v) : outValue fl fl32 d v = v ↔ (∃ z : ℤ, v = z) ∧ IsFloat 53 v := by
  constructor
  · intro ho
    unfold outValue at ho
    cases d with
    | bool =>
      rcases hv with rfl | rfl
      · exact ⟨⟨0, by simp⟩, by simpa using isFloat_int (p := 53) (by norm_num) (z := 0) (by norm_num)⟩
      · exact ⟨⟨1, by simp⟩, by simpa using isFloat_int (p := 53) (by norm_num) (z := 1) (by norm_num)⟩
    | int b =>
      simp only [NumType.ofDouble] at ho
      rw [← ho]
      exact ⟨⟨_, rfl⟩, isFloat_trunc (by norm_num) (h _).1⟩
    | uint b =>
      simp only [NumType.ofDouble] at ho
      rw [← ho]
      exact ⟨⟨_, rfl⟩, isFloat_trunc (by norm_num) (h _).1⟩
    | float32 =>
      simp only [NumType.ofDouble] at ho
      have hv' : IsFloat 53 v := isFloat_mono (by norm_num) hv
      rw [nearest_exact h hv', nearest_exact h (isFloat_trunc (by norm_num) hv'),
        nearest_exact h32 (isFloat_trunc (by norm_num) hv)] at ho
      exact ⟨⟨_, ho.symm⟩, hv'⟩
    | float64 =>
      simp only [NumType.ofDouble] at ho
      rw [nearest_exact h hv, nearest_exact h (isFloat_trunc (by norm_num) hv)] at ho
      exact ⟨⟨_, ho.symm⟩, hv⟩
  · rintro ⟨⟨z, rfl⟩, hf⟩
    unfold outValue
    rw [nearest_exact h hf, truncZ_int, nearest_exact h hf]
    cases d with
    | bool =>
      simp only [NumType.ofDouble]
      rcases hv with hz | hz
      · rw [if_pos hz, hz]
      · rw [if_neg (by rw [hz]; norm_num), hz]
    | int b => simp only [NumType.ofDouble, truncZ_int]
    | uint b => simp only [NumType.ofDouble, truncZ_int]
    | float32 => exact nearest_exact h32 hv
    | float64 => rfl

theorem splitImple_mapValues (nTest : Nat → Nat) (shuf : Nat → List Nat) (X : Csr ℝ) (f g : ℝ → ℝ)
    (hfg : ∀ v, truncZ (f v) = truncZ (g v)) :
    splitImple nTest shuf (X.mapValues f) = splitImple nTest shuf (X.mapValues g) := by
  unfold splitImple Csr.mapValues
  simp only [Prod.mk.injEq, Csr.mk.injEq, true_and]
  have hrow : ∀ r (row : List (Nat × ℝ)), splitRow nTest (row.map (fun p => (p.1, f p.2))) (shuf r) =
      splitRow nTest (row.map (fun p => (p.1, g p.2))) (shuf r) := by
    intro r row
    unfold splitRow rowTriplets
    simp only [List.getElem?_map, Option.map_map, Function.comp_def, hfg, List.length_map]
  constructor <;>
  · apply List.ext_getElem
    · simp
    · intro k h1 h2
      simp only [List.getElem_mapIdx, List.getElem_map]
      rw [hrow]

theorem rowwiseSplit_mapValues (fl : ℝ → ℝ) (X : Csr ℝ) (f g : ℝ → ℝ)
    (hfg : ∀ v, truncZ (f v) = truncZ (g v)) (ratio : ℝ) (n : Option Int) (ceil : Bool)
    (shuf : Nat → List Nat) :
    rowwiseSplit fl (X.mapValues f) ratio n ceil shuf = rowwiseSplit fl (X.mapValues g) ratio n ceil shuf := by
  unfold rowwiseSplit
  cases n with
  | none => simp only; rw [splitImple_mapValues _ _ _ _ _ hfg]
  | some k => simp only; rw [splitImple_mapValues _ _ _ _ _ hfg]

/-- helper: the stored entries of a successful split -/
theorem typed_rows {fl fl32 : ℝ → ℝ} {d : NumType} {X : Csr ℝ} (hc : Canonical X) {ratio : ℝ}
    {n : Option Int} {ceil : Bool} {shuf : Nat → List Nat} (hs : IsRowShuffle X shuf) {a b : Csr ℝ}
    (h : rowwiseSplitTyped fl fl32 d X ratio n ceil shuf = .ok (a, b)) :
    a.nCols = X.nCols ∧ b.nCols = X.nCols ∧ a.rows.length = X.rows.length ∧ b.rows.length = X.rows.length ∧
    ∀ u (hu : u < X.rows.length) (ha : u < a.rows.length) (hb : u < b.rows.length),
      (a.rows[u] ++ b.rows[u]).Perm (X.rows[u].map (fun p => (p.1, outValue fl fl32 d p.2))) := by
  unfold rowwiseSplitTyped at h
  simp only at h
  rw [rowwiseSplit_mapValues fl X fl (fun v => ((truncZ (fl v) : ℤ) : ℝ)) (by intro v; rw [truncZ_int])] at h
  cases hsp : rowwiseSplit fl (X.mapValues (fun v => ((truncZ (fl v) : ℤ) : ℝ))) ratio n ceil shuf with
  | error e => rw [hsp] at h; cases h
  | ok ab =>
    obtain ⟨a', b'⟩ := ab
    rw [hsp] at h
    simp only at h
    split at h
    · injection h with h
      injection h with h1 h2
      obtain ⟨c1, c2, c3, c4, c5⟩ := C22_conserves fl _
        (by
          intro row hrow
          obtain ⟨row', hr', rfl⟩ := List.mem_map.mp hrow
          rw [List.map_map]
          exact hc row' hr')
        (by
          intro row hrow p hp
          obtain ⟨row', hr', rfl⟩ := List.mem_map.mp hrow
          obtain ⟨q, -, rfl⟩ := List.mem_map.mp hp
          exact ⟨_, rfl⟩) ratio n ceil shuf
        (by
          intro r hr
          simp only [Csr.mapValues, List.length_map] at hr
          simpa [Csr.mapValues] using hs r hr) a' b' hsp
      subst h1 h2
      simp only [Csr.mapValues, List.length_map] at c1 c2 c3 c4 c5 ⊢
      refine ⟨c1, c2, c3, c4, ?_⟩
      intro u hu ha hb
      have := (c5 u hu (by omega) (by omega)).1.map
        (fun p : Nat × ℝ => (p.1, d.ofDouble fl32 (fl p.2)))
      rw [List.map_append] at this
      simp only [List.getElem_map, List.map_map] at this ⊢
      exact this
    · cases h

/-! ## The theorems -/

/-- C111 (which matrices). For a matrix of any of the types in which no position is stored twice, a completed
split adds up to the source if and only if every stored value is an integer that double precision represents
exactly. -/
theorem C111_sums_back_iff {fl fl32 : ℝ → ℝ} (h53 : NearestTo 53 fl) (h24 : NearestTo 24 fl32) (d : NumType)
    (X : Csr ℝ) (hc : Canonical X) (ht : OfType d X) (ratio : ℝ) (n : Option Int) (ceil : Bool)
    (shuf : Nat → List Nat) (hs : IsRowShuffle X shuf) (a b : Csr ℝ)
    (h : rowwiseSplitTyped fl fl32 d X ratio n ceil shuf = .ok (a, b)) :
    (∀ u i, entry a u i + entry b u i = entry X u i) ↔
      ∀ row ∈ X.rows, ∀ p ∈ row, (∃ z : ℤ, p.2 = z) ∧ IsFloat 53 p.2 := by
  obtain ⟨-, -, la, lb, hrows⟩ := typed_rows hc hs h
  have hsum : ∀ u (hu : u < X.rows.length) i, entry a u i + entry b u i =
      rowEntry (X.rows[u].map (fun p => (p.1, outValue fl fl32 d p.2))) i := by
    intro u hu i
    rw [entry_eq, entry_eq, List.getD_eq_getElem?_getD, List.getD_eq_getElem?_getD,
      List.getElem?_eq_getElem (by omega : u < a.rows.length),
      List.getElem?_eq_getElem (by omega : u < b.rows.length), Option.getD_some, Option.getD_some,
      ← rowEntry_append]
    exact rowEntry_perm (hrows u hu (by omega) (by omega)) i
  have hX : ∀ u (hu : u < X.rows.length) i, entry X u i = rowEntry X.rows[u] i := by
    intro u hu i
    rw [entry_eq, List.getD_eq_getElem?_getD, List.getElem?_eq_getElem hu, Option.getD_some]
  have honly : ∀ (f : ℝ → ℝ) (row : List (Nat × ℝ)), (row.map Prod.fst).Nodup → ∀ p ∈ row,
      rowEntry (row.map (fun q => (q.1, f q.2))) p.1 = f p.2 := by
    intro f row hn p hp
    induction row with
    | nil => cases hp
    | cons q l ih =>
      rw [List.map_cons, List.nodup_cons] at hn
      rw [List.map_cons, rowEntry_cons]
      have hnone : ∀ c, c ∉ l.map Prod.fst → rowEntry (l.map (fun q => (q.1, f q.2))) c = 0 := by
        intro c hcn
        unfold rowEntry
        rw [List.filter_eq_nil_iff.mpr]
        · rfl
        · intro x hx
          obtain ⟨y, hy, rfl⟩ := List.mem_map.mp hx
          simp only [decide_eq_true_eq]
          intro hc
          exact hcn (hc ▸ List.mem_map_of_mem hy)
      rcases List.mem_cons.mp hp with rfl | hp
      · simp [hnone _ hn.1]
      · have hne : q.1 ≠ p.1 := fun he => hn.1 (he ▸ List.mem_map_of_mem hp)
        rw [ih hn.2 hp]
        simp [hne]
  constructor
  · intro hall row hrow p hp
    obtain ⟨u, hu, rfl⟩ := List.mem_iff_getElem.mp hrow
    rw [← outValue_iff h53 h24 d (ht _ hrow p hp)]
    have h1 := hall u p.1
    rw [hsum u hu, hX u hu, honly _ _ (hc _ hrow) p hp] at h1
    have h2 := honly id _ (hc _ hrow) p hp
    simp only [id, Prod.mk.eta, List.map_id'] at h2
    rw [h1, h2]
  · intro hall u i
    by_cases hu : u < X.rows.length
    · rw [hsum u hu, hX u hu]
      congr 1
      conv_rhs => rw [← List.map_id X.rows[u]]
      apply List.map_congr_left
      intro p hp
      have hrow := List.getElem_mem hu
      rw [(outValue_iff h53 h24 d (ht _ hrow p hp)).mpr (hall _ hrow p hp)]
      rfl
    · rw [entry_eq, entry_eq, entry_eq, List.getD_eq_getElem?_getD, List.getD_eq_getElem?_getD,
        List.getD_eq_getElem?_getD, List.getElem?_eq_none (by omega), List.getElem?_eq_none (by omega),
        List.getElem?_eq_none (by omega)]
      simp [rowEntry]

/-- C111 (values kept). If every stored value is an integer of absolute value at most `2^53`, the split completes
whenever the arguments are acceptable, and each stored entry goes, with its value, to exactly one part. -/
theorem C111_values_kept {fl fl32 : ℝ → ℝ} (h53 : NearestTo 53 fl) (h24 : NearestTo 24 fl32) (d : NumType)
    (X : Csr ℝ) (hc : Canonical X) (ht : OfType d X)
    (hi : ∀ row ∈ X.rows, ∀ p ∈ row, ∃ z : ℤ, p.2 = z ∧ |z| ≤ 2 ^ 53) (ratio : ℝ) (n : Option Int)
    (hr : n = none → 0 ≤ ratio ∧ ratio ≤ 1) (hn : ∀ k, n = some k → 0 ≤ k) (ceil : Bool)
    (shuf : Nat → List Nat) (hs : IsRowShuffle X shuf) :
    ∃ a b, rowwiseSplitTyped fl fl32 d X ratio n ceil shuf = .ok (a, b) ∧
      a.nCols = X.nCols ∧ b.nCols = X.nCols ∧ a.rows.length = X.rows.length ∧
      b.rows.length = X.rows.length ∧
      ∀ u (hu : u < X.rows.length) (ha : u < a.rows.length) (hb : u < b.rows.length),
        (a.rows[u] ++ b.rows[u]).Perm X.rows[u] := by
  have hok : ∃ a b, rowwiseSplitTyped fl fl32 d X ratio n ceil shuf = .ok (a, b) := by
    unfold rowwiseSplitTyped
    have hrange : ∀ row ∈ (X.mapValues fl).rows, ∀ p ∈ row, (-2 ^ 63 : ℝ) ≤ p.2 ∧ p.2 < 2 ^ 63 := by
      intro row hrow p hp
      obtain ⟨row', hr', rfl⟩ := List.mem_map.mp hrow
      obtain ⟨q, hq, rfl⟩ := List.mem_map.mp hp
      obtain ⟨z, hz, hz'⟩ := hi row' hr' q hq
      simp only [hz]
      rw [nearest_exact h53 (isFloat_int (by norm_num) hz')]
      have h1 := abs_le.mp hz'
      have h2 : ((-2 ^ 53 : ℤ) : ℝ) ≤ z := by exact_mod_cast h1.1
      have h3 : (z : ℝ) ≤ ((2 ^ 53 : ℤ) : ℝ) := by exact_mod_cast h1.2
      push_cast at h2 h3
      constructor
      · refine le_trans ?_ h2; norm_num
      · refine lt_of_le_of_lt h3 ?_; norm_num
    simp only
    cases n with
    | none =>
      obtain ⟨h0, h1⟩ := hr rfl
      unfold rowwiseSplit
      simp only
      rw [if_neg (by rw [not_not]; exact ⟨h1, h0⟩)]
      simp only
      rw [if_pos hrange]
      exact ⟨_, _, rfl⟩
    | some k =>
      have h0 := hn k rfl
      unfold rowwiseSplit
      simp only
      rw [if_neg (by omega)]
      simp only
      rw [if_pos hrange]
      exact ⟨_, _, rfl⟩
  obtain ⟨a, b, hab⟩ := hok
  obtain ⟨c1, c2, c3, c4, c5⟩ := typed_rows hc hs hab
  refine ⟨a, b, hab, c1, c2, c3, c4, ?_⟩
  intro u hu ha hb
  refine (c5 u hu ha hb).trans ?_
  have he : X.rows[u].map (fun p => (p.1, outValue fl fl32 d p.2)) = X.rows[u] := by
    conv_rhs => rw [← List.map_id X.rows[u]]
    apply List.map_congr_left
    intro p hp
    have hrow := List.getElem_mem hu
    obtain ⟨z, hz, hz'⟩ := hi _ hrow p hp
    rw [(outValue_iff h53 h24 d (ht _ hrow p hp)).mpr
      ⟨⟨z, hz⟩, by rw [hz]; exact isFloat_int (by norm_num) hz'⟩]
    rfl
  rw [he]

/-- The types all of whose values survive: booleans and integers of at most 32 bits. -/
theorem holds_small {d : NumType} (hd : d = .bool ∨ (∃ b, b ≤ 32 ∧ (d = .int b ∨ d = .uint b))) {x : ℝ}
    (hx : Holds d x) : ∃ z : ℤ, x = z ∧ |z| ≤ 2 ^ 53 := by
  rcases hd with rfl | ⟨b, hb, rfl | rfl⟩
  · rcases hx with rfl | rfl
    · exact ⟨0, by simp, by norm_num⟩
    · exact ⟨1, by simp, by norm_num⟩
  · obtain ⟨z, rfl, h1, h2⟩ := hx
    refine ⟨z, rfl, ?_⟩
    have : (2 : ℤ) ^ (b - 1) ≤ 2 ^ 53 := pow_le_pow_right₀ (by norm_num) (by omega)
    rw [abs_le]
    constructor <;> omega
  · obtain ⟨z, rfl, h1, h2⟩ := hx
    refine ⟨z, rfl, ?_⟩
    have : (2 : ℤ) ^ b ≤ 2 ^ 53 := pow_le_pow_right₀ (by norm_num) (by omega)
    rw [abs_le]
    constructor <;> omega

/-- C111 (small types). Boolean matrices and matrices of integers of at most 32 bits are split without loss,
whatever their values. -/
theorem C111_small_types {fl fl32 : ℝ → ℝ} (h53 : NearestTo 53 fl) (h24 : NearestTo 24 fl32) (d : NumType)
    (hd : d = .bool ∨ (∃ b, b ≤ 32 ∧ (d = .int b ∨ d = .uint b)))
    (X : Csr ℝ) (hc : Canonical X) (ht : OfType d X) (ratio : ℝ) (n : Option Int)
    (hr : n = none → 0 ≤ ratio ∧ ratio ≤ 1) (hn : ∀ k, n = some k → 0 ≤ k) (ceil : Bool)
    (shuf : Nat → List Nat) (hs : IsRowShuffle X shuf) :
    ∃ a b, rowwiseSplitTyped fl fl32 d X ratio n ceil shuf = .ok (a, b) ∧
      a.nCols = X.nCols ∧ b.nCols = X.nCols ∧ a.rows.length = X.rows.length ∧
      b.rows.length = X.rows.length ∧
      ∀ u (hu : u < X.rows.length) (ha : u < a.rows.length) (hb : u < b.rows.length),
        (a.rows[u] ++ b.rows[u]).Perm X.rows[u] :=
  C111_values_kept h53 h24 d X hc ht (fun row hrow p hp => holds_small hd (ht row hrow p hp)) ratio n hr hn
    ceil shuf hs

/-- C111 (the parts have the source's type). Every stored value of either part is one the source's type can
hold, if the source's values are integers of absolute value at most `2^53`. -/
theorem C111_type_kept {fl fl32 : ℝ → ℝ} (h53 : NearestTo 53 fl) (h24 : NearestTo 24 fl32) (d : NumType)
    (X : Csr ℝ) (hc : Canonical X) (ht : OfType d X)
    (hi : ∀ row ∈ X.rows, ∀ p ∈ row, ∃ z : ℤ, p.2 = z ∧ |z| ≤ 2 ^ 53) (ratio : ℝ) (n : Option Int)
    (hr : n = none → 0 ≤ ratio ∧ ratio ≤ 1) (hn : ∀ k, n = some k → 0 ≤ k) (ceil : Bool)
    (shuf : Nat → List Nat) (hs : IsRowShuffle X shuf) :
    ∃ a b, rowwiseSplitTyped fl fl32 d X ratio n ceil shuf = .ok (a, b) ∧ OfType d a ∧ OfType d b := by
  obtain ⟨a, b, hab, -, -, la, lb, hp⟩ := C111_values_kept h53 h24 d X hc ht hi ratio n hr hn ceil shuf hs
  refine ⟨a, b, hab, ?_, ?_⟩
  · intro row hrow p hpr
    obtain ⟨u, hu, rfl⟩ := List.mem_iff_getElem.mp hrow
    exact ht _ (List.getElem_mem (by omega)) p
      ((hp u (by omega) hu (by omega)).mem_iff.mp (List.mem_append_left _ hpr))
  · intro row hrow p hpr
    obtain ⟨u, hu, rfl⟩ := List.mem_iff_getElem.mp hrow
    exact ht _ (List.getElem_mem (by omega)) p
      ((hp u (by omega) (by omega) hu).mem_iff.mp (List.mem_append_right _ hpr))

theorem not_isFloat_big : ¬ IsFloat 53 ((2 ^ 53 + 1 : ℤ) : ℝ) := by
  rintro ⟨m, e, hm, he⟩
  rcases le_or_gt 1 e with h | h
  · obtain ⟨k, rfl⟩ : ∃ k : ℕ, e = k + 1 := ⟨(e - 1).toNat, by omega⟩
    have h2 : ((2 ^ 53 + 1 : ℤ) : ℝ) = ((m * 2 ^ (k + 1) : ℤ) : ℝ) := by
      rw [he]; push_cast; congr 1
    have h3 : (2 ^ 53 + 1 : ℤ) = m * 2 ^ (k + 1) := by exact_mod_cast h2
    have h4 : (2 : ℤ) ∣ 2 ^ 53 + 1 := ⟨m * 2 ^ k, by rw [h3, pow_succ]; ring⟩
    norm_num at h4
  · have h1 : (2 : ℝ) ^ e ≤ 1 := zpow_le_one_of_nonpos₀ (by norm_num) (by omega)
    have h2 : (m : ℝ) < 2 ^ 53 := by exact_mod_cast (abs_lt.mp hm).2
    have h3 : (0 : ℝ) < 2 ^ e := zpow_pos (by norm_num) e
    push_cast at he
    nlinarith

/-- C111: the documentation promises parts that sum back to the source without restriction.  A matrix of 64-bit
integers with the value `2^53 + 1` does not come back, whatever the rounding and the arguments. -/
theorem C111_wide_integers_counterexample {fl fl32 : ℝ → ℝ} (h53 : NearestTo 53 fl) (h24 : NearestTo 24 fl32) :
    ∃ X : Csr ℝ, Canonical X ∧ OfType (.int 64) X ∧ IsRowShuffle X (fun _ => [0]) ∧
      ∀ ratio n ceil a b, rowwiseSplitTyped fl fl32 (.int 64) X ratio n ceil (fun _ => [0]) = .ok (a, b) →
        ∃ u i, entry a u i + entry b u i ≠ entry X u i := by
  refine ⟨⟨1, [[(0, ((2 ^ 53 + 1 : ℤ) : ℝ))]]⟩, by simp [Canonical], ?_, ?_, ?_⟩
  · intro row hrow p hp
    rw [List.mem_singleton] at hrow
    subst hrow
    rw [List.mem_singleton] at hp
    subst hp
    exact ⟨_, rfl, by norm_num, by norm_num⟩
  · intro r hr
    obtain rfl : r = 0 := by simpa using hr
    exact List.Perm.refl _
  · intro ratio n ceil a b h
    by_contra hall
    push Not at hall
    have := (C111_sums_back_iff h53 h24 (.int 64) _ (by simp [Canonical])
      (by
        intro row hrow p hp
        rw [List.mem_singleton] at hrow
        subst hrow
        rw [List.mem_singleton] at hp
        subst hp
        exact ⟨_, rfl, by norm_num, by norm_num⟩) ratio n ceil _
      (by
        intro r hr
        obtain rfl : r = 0 := by simpa using hr
        exact List.Perm.refl _) a b h).mp hall _ (List.mem_singleton.mpr rfl) _ (List.mem_singleton.mpr rfl)
    exact not_isFloat_big this.2

/-- C111: an unsigned 64-bit value of `2^63` is converted to `int64_t`, which is undefined: no result is
guaranteed. -/
theorem C111_unsigned_counterexample {fl fl32 : ℝ → ℝ} (h53 : NearestTo 53 fl) :
    ∃ X : Csr ℝ, Canonical X ∧ OfType (.uint 64) X ∧
      rowwiseSplitTyped fl fl32 (.uint 64) X 1 none false (fun _ => [0]) = .error .notModelled := by
  have hf : fl ((2 ^ 63 : ℤ) : ℝ) = ((2 ^ 63 : ℤ) : ℝ) :=
    nearest_exact h53 ⟨1, 63, by norm_num, by push_cast; norm_num⟩
  refine ⟨⟨1, [[(0, ((2 ^ 63 : ℤ) : ℝ))]]⟩, by simp [Canonical], ?_, ?_⟩
  · intro row hrow p hp
    rw [List.mem_singleton] at hrow
    subst hrow
    rw [List.mem_singleton] at hp
    subst hp
    exact ⟨_, rfl, by norm_num, by norm_num⟩
  · unfold rowwiseSplitTyped rowwiseSplit
    simp only
    rw [if_neg (by norm_num)]
    simp only
    rw [if_neg]
    intro hall
    have := (hall _ (List.mem_singleton.mpr rfl) _ (List.mem_singleton.mpr rfl)).2
    simp only [hf] at this
    norm_num at this

-- The roundings assumed in C111 exist.
example : (∃ fl, NearestTo 53 fl) ∧ ∃ fl32, NearestTo 24 fl32 := ⟨exists_nearest 52, exists_nearest 23⟩

-- So does the one assumed in `C26_double_rounding_counterexample`.
example : ∃ fl, IsNearest fl := by
  obtain ⟨fl, h⟩ := exists_nearest 52
  refine ⟨fl, fun x => ⟨?_, ?_⟩⟩
  · obtain ⟨m, e, hm, he⟩ := (h x).1
    exact ⟨m, e, hm.le, he⟩
  · intro m e hm
    obtain ⟨m', e', hm', he'⟩ := isFloat_int (p := 53) (by norm_num) hm
    exact (h x).2 _ ⟨m', e' + e, hm', by rw [he', zpow_add₀ (by norm_num)]; ring⟩

-- An 8-bit matrix with two entries in one row meets the conditions of `C111_small_types`.
example : OfType (.int 8) ⟨2, [[(0, 5), (1, -3)]]⟩ ∧ Canonical ⟨2, [[(0, 5), (1, -3)]]⟩ ∧
    IsRowShuffle ⟨2, [[(0, 5), (1, -3)]]⟩ (fun _ => [1, 0]) := by
  refine ⟨?_, by simp [Canonical], ?_⟩
  · intro row hrow p hp
    rw [List.mem_singleton] at hrow
    subst hrow
    rcases List.mem_cons.mp hp with rfl | hp
    · exact ⟨5, by norm_num, by norm_num, by norm_num⟩
    · rw [List.mem_singleton] at hp
      subst hp
      exact ⟨-3, by norm_num, by norm_num, by norm_num⟩
  · intro r hr
    obtain rfl : r = 0 := by simpa using hr
    exact List.Perm.swap _ _ _

end Irspack.Props
