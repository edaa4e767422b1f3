import Verif.Spec.FloatSim
import Verif.Proofs.Rounding
import Verif.Proofs.Similarity
import Verif.Proofs.Walk

namespace Irspack.FloatSim

open Irspack Spec Spec.Sim Spec.FloatSim Sim Rounding

variable {u : ℝ} {d e : Nat} {x y xh yh : ℝ}

/-! ### Arithmetic -/

theorem within_mul (h0 : 0 ≤ u) (h1 : u < 1) (h : Within u d x xh) (h' : Within u e y yh) :
    Within u (d + e) (x * y) (xh * yh) := by
  have pd := (pow_bounds h0 h1 d).1.le
  have pe := (pow_bounds h0 h1 e).1.le
  have hxh := within_nonneg h0 h1 h
  have hyh := within_nonneg h0 h1 h'
  refine ⟨mul_nonneg h.1 h'.1, ?_, ?_⟩
  · calc (1 - u) ^ (d + e) * (x * y) = ((1 - u) ^ d * x) * ((1 - u) ^ e * y) := by rw [pow_add]; ring
      _ ≤ xh * yh := mul_le_mul h.2.1 h'.2.1 (mul_nonneg pe h'.1) hxh
  · calc (1 - u) ^ (d + e) * (xh * yh) = ((1 - u) ^ d * xh) * ((1 - u) ^ e * yh) := by rw [pow_add]; ring
      _ ≤ x * y := mul_le_mul h.2.2 h'.2.2 (mul_nonneg pe hyh) h.1

theorem within_rpow (h0 : 0 ≤ u) (h1 : u < 1) (h : Within u d x xh) (b : ℝ) (hb : 0 ≤ b) (k : Nat) (hk : b ≤ k) :
    Within u (d * k) (x ^ b) (xh ^ b) := by
  have p := pow_bounds h0 h1 d
  have hxh := within_nonneg h0 h1 h
  have hp : (1 - u) ^ (d * k) ≤ ((1 - u) ^ d) ^ b := by
    rw [pow_mul, ← Real.rpow_natCast]
    exact Real.rpow_le_rpow_of_exponent_ge p.1 p.2 hk
  refine ⟨Real.rpow_nonneg h.1 b, ?_, ?_⟩
  · calc (1 - u) ^ (d * k) * x ^ b ≤ ((1 - u) ^ d) ^ b * x ^ b :=
          mul_le_mul_of_nonneg_right hp (Real.rpow_nonneg h.1 b)
      _ = ((1 - u) ^ d * x) ^ b := (Real.mul_rpow p.1.le h.1).symm
      _ ≤ xh ^ b := Real.rpow_le_rpow (mul_nonneg p.1.le h.1) h.2.1 hb
  · calc (1 - u) ^ (d * k) * xh ^ b ≤ ((1 - u) ^ d) ^ b * xh ^ b :=
          mul_le_mul_of_nonneg_right hp (Real.rpow_nonneg hxh b)
      _ = ((1 - u) ^ d * xh) ^ b := (Real.mul_rpow p.1.le hxh).symm
      _ ≤ x ^ b := Real.rpow_le_rpow (mul_nonneg p.1.le hxh) h.2.2 hb

theorem within_sqrt (h0 : 0 ≤ u) (h1 : u < 1) (h : Within u d x xh) : Within u d (Real.sqrt x) (Real.sqrt xh) := by
  rw [Real.sqrt_eq_rpow, Real.sqrt_eq_rpow]
  have := within_rpow h0 h1 h (1 / 2) (by norm_num) 1 (by norm_num)
  rwa [mul_one] at this

theorem summed_within (h0 : 0 ≤ u) (h1 : u < 1) {fl : ℝ → ℝ} (hf : Rounds u fl) {s : Multiset ℝ} {r : ℝ}
    (h : SummedBy fl s r) (hs : ∀ x ∈ s, 0 ≤ x) : 1 ≤ s.card ∧ Within u s.card s.sum r := by
  induction h with
  | exact x =>
    rw [Multiset.card_singleton, Multiset.sum_singleton]
    exact ⟨le_refl _, within_refl h0 h1 (hs x (Multiset.mem_singleton_self x)) 1⟩
  | rounded x =>
    rw [Multiset.card_singleton, Multiset.sum_singleton]
    exact ⟨le_refl _, within_fl h0 h1 hf (within_refl h0 h1 (hs x (Multiset.mem_singleton_self x)) 0)⟩
  | add s t a b _ _ ihs iht =>
    obtain ⟨c1, w1⟩ := ihs (fun x hx => hs x (Multiset.mem_add.mpr (Or.inl hx)))
    obtain ⟨c2, w2⟩ := iht (fun x hx => hs x (Multiset.mem_add.mpr (Or.inr hx)))
    rw [Multiset.card_add, Multiset.sum_add]
    refine ⟨by omega, ?_⟩
    have hm := within_fl h0 h1 hf (within_add (within_mono h0 h1 (le_max_left s.card t.card) w1)
      (within_mono h0 h1 (le_max_right s.card t.card) w2))
    exact within_mono h0 h1 (by omega) hm

/-- Sums of non-negative integers up to `N` are exact, in whatever order. -/
theorem summed_exact {N : Nat} {fl : ℝ → ℝ} (hf : ExactOnIntegers N fl) {s : Multiset ℝ} {r : ℝ}
    (h : SummedBy fl s r) (hs : ∀ x ∈ s, ∃ n : Nat, x = n) (hN : s.sum ≤ N) :
    r = s.sum ∧ ∃ n : Nat, s.sum = n := by
  have key : ∀ n : Nat, (n : ℝ) ≤ N → fl n = n := by
    intro n hn
    have hn' : n ≤ N := by exact_mod_cast hn
    have := hf (n : ℤ) (by rw [abs_of_nonneg (by positivity)]; exact_mod_cast hn')
    exact_mod_cast this
  have nat_sum : ∀ s : Multiset ℝ, (∀ x ∈ s, ∃ n : Nat, x = n) → ∃ n : Nat, s.sum = n := by
    intro s
    induction s using Multiset.induction with
    | empty => intro _; exact ⟨0, by simp⟩
    | cons a s ih =>
      intro h
      obtain ⟨n, hn⟩ := h a (Multiset.mem_cons_self a s)
      obtain ⟨m, hm⟩ := ih (fun x hx => h x (Multiset.mem_cons_of_mem hx))
      exact ⟨n + m, by rw [Multiset.sum_cons, hn, hm]; push_cast; rfl⟩
  refine ⟨?_, nat_sum s hs⟩
  induction h with
  | exact x => simp
  | rounded x =>
    obtain ⟨n, rfl⟩ := hs x (Multiset.mem_singleton_self x)
    rw [Multiset.sum_singleton] at hN ⊢
    exact key n hN
  | add s t a b _ _ ihs iht =>
    have hs1 : ∀ x ∈ s, ∃ n : Nat, x = n := fun x hx => hs x (Multiset.mem_add.mpr (Or.inl hx))
    have ht1 : ∀ x ∈ t, ∃ n : Nat, x = n := fun x hx => hs x (Multiset.mem_add.mpr (Or.inr hx))
    obtain ⟨n, hn⟩ := nat_sum s hs1
    obtain ⟨m, hm⟩ := nat_sum t ht1
    rw [Multiset.sum_add, hn, hm] at hN ⊢
    have hn0 : (0 : ℝ) ≤ n := by positivity
    have hm0 : (0 : ℝ) ≤ m := by positivity
    rw [ihs hs1 (by rw [hn]; linarith), iht ht1 (by rw [hm]; linarith), hn, hm]
    have := key (n + m) (by push_cast; exact hN)
    push_cast at this
    exact this

variable {M : Float.Machine}

theorem total_within (A : Accurate u M) {T : Type} (l : List T) (f fh : T → ℝ) (d : Nat)
    (h : ∀ a ∈ l, Within u d (f a) (fh a)) (c : Nat) (hc : l.length ≤ c) :
    Within u (d + c) (l.map f).sum (M.total (l.map fh)) := by
  have h1 : Within u d (l.map f).sum (l.map fh).sum := by
    clear hc
    induction l with
    | nil => simpa using within_refl A.unit A.small (le_refl (0 : ℝ)) d
    | cons a l ih =>
      rw [List.map_cons, List.map_cons, List.sum_cons, List.sum_cons]
      exact within_add (h a (List.mem_cons_self)) (ih (fun b hb => h b (List.mem_cons_of_mem _ hb)))
  cases hl : l with
  | nil =>
    rw [List.map_nil, List.map_nil, A.empty, List.sum_nil]
    exact within_refl A.unit A.small (le_refl _) _
  | cons a l' =>
    rw [← hl]
    have hne : l.map fh ≠ [] := by rw [hl]; simp
    have h2 := (summed_within A.unit A.small A.rounds (A.total _ hne) (by
      intro x hx
      rw [Multiset.mem_coe] at hx
      obtain ⟨b, hb, rfl⟩ := List.mem_map.mp hx
      exact within_nonneg A.unit A.small (h b hb))).2
    rw [Multiset.coe_card, List.length_map, Multiset.sum_coe] at h2
    exact within_mono A.unit A.small (by omega) (within_trans A.unit A.small h1 h2)

theorem total_exact (A : Accurate u M) {N : Nat} (hf : ExactOnIntegers N M.fl) (l : List ℝ)
    (hl : ∀ x ∈ l, ∃ n : Nat, x = n) (hN : l.sum ≤ N) : M.total l = l.sum ∧ ∃ n : Nat, l.sum = n := by
  cases h : l with
  | nil => exact ⟨by rw [A.empty, List.sum_nil], 0, by simp⟩
  | cons a l' =>
    rw [← h]
    have := summed_exact hf (A.total l (by rw [h]; simp)) (by simpa using hl) (by rwa [Multiset.sum_coe])
    rwa [Multiset.sum_coe] at this

theorem pow_within (A : Accurate u M) (y : ℝ) (hx : 0 ≤ x) : Within u 1 (x ^ y) (M.pow x y) :=
  within_of_rel A.unit A.small (Real.rpow_nonneg hx y) (by
    rw [abs_of_nonneg (Real.rpow_nonneg hx y)]; exact A.pow x y hx)

theorem sqrt_within (A : Accurate u M) (hx : 0 ≤ x) : Within u 1 (Real.sqrt x) (M.sqrt x) :=
  within_of_rel A.unit A.small (Real.sqrt_nonneg x) (by
    rw [abs_of_nonneg (Real.sqrt_nonneg x)]; exact A.sqrt x hx)

/-! ### Rows of a product -/

theorem get_within (A : Accurate u M) (v : SpVec ℝ) (f fh : Nat × ℝ → ℝ) (d : Nat)
    (h : ∀ e ∈ v, Within u d (f e) (fh e)) (j : Nat) :
    Within u d (SpVec.get (v.map (fun e => (e.1, f e))) j) (SpVec.get (v.map (fun e => (e.1, fh e))) j) := by
  induction v with
  | nil => simpa [get_nil] using within_refl A.unit A.small (le_refl (0 : ℝ)) d
  | cons e v ih =>
    rw [List.map_cons, List.map_cons, get_cons, get_cons]
    refine within_add ?_ (ih (fun b hb => h b (List.mem_cons_of_mem _ hb)))
    split_ifs
    · exact h e List.mem_cons_self
    · exact within_refl A.unit A.small (le_refl _) d

theorem fproductRow_eq (t : SpVec ℝ) (X : CSR ℝ) : Float.productRow M t X =
    ((List.range X.nrows).filter (fun j => shares t (X.row j))).map
      (fun j => (j, M.total ((Float.common t (X.row j)).map (fun e => e.2 * (X.row j).get e.1)))) := by
  unfold Float.productRow
  rw [← List.filterMap_eq_map, List.filterMap_filter]
  apply List.filterMap_congr
  intro j _
  unfold shares
  rfl

theorem fget_mapped (t : SpVec ℝ) (X : CSR ℝ) (g : Nat → ℝ → ℝ) (j : Nat) (hj : j < X.nrows) :
    SpVec.get ((Float.productRow M t X).map (fun e => (e.1, g e.1 e.2))) j =
      if shares t (X.row j) then
        g j (M.total ((Float.common t (X.row j)).map (fun e => e.2 * (X.row j).get e.1))) else 0 := by
  rw [fproductRow_eq, List.map_map]
  have : ((fun e : Nat × ℝ => (e.1, g e.1 e.2)) ∘
      fun j => (j, M.total ((Float.common t (X.row j)).map (fun e => e.2 * (X.row j).get e.1)))) =
      fun j => (j, g j (M.total ((Float.common t (X.row j)).map (fun e => e.2 * (X.row j).get e.1)))) := rfl
  rw [this, get_map_fn _ (List.nodup_range.filter _)]
  simp [List.mem_filter, hj]

theorem fproductRow_sorted (t : SpVec ℝ) (X : CSR ℝ) : Sorted X.nrows (Float.productRow M t X) := by
  rw [fproductRow_eq]
  constructor
  · rw [List.map_map]
    have : (Prod.fst ∘ fun j => (j, M.total ((Float.common t (X.row j)).map (fun e => e.2 * (X.row j).get e.1)))) = id := rfl
    rw [this, List.map_id]
    exact List.pairwise_lt_range.filter _
  · intro e he
    obtain ⟨j, hj, rfl⟩ := List.mem_map.mp he
    exact List.mem_range.mp (List.mem_filter.mp hj).1

theorem fsimRow_sorted (kind : Kind) (s : ℝ) (X : CSR ℝ) (t : SpVec ℝ) :
    Sorted X.nrows (Float.simRow M kind s X t) := by
  have hb : ∀ t', Sorted X.nrows (Float.productRow M t' ⟨X.cols, X.rows.map binarize⟩) := by
    intro t'
    have := fproductRow_sorted (M := M) t' ⟨X.cols, X.rows.map binarize⟩
    simpa [CSR.nrows] using this
  unfold Float.simRow
  split
  · exact fproductRow_sorted t X
  · exact fproductRow_sorted t X
  · exact (fproductRow_sorted t X).map _
  · exact (fproductRow_sorted t X).map _
  · exact (hb _).map _
  · exact (hb _).map _

/-- Entries that are not stored in both vectors do not contribute. -/
theorem sum_common (t x : SpVec ℝ) : ((Float.common t x).map (fun e => e.2 * x.get e.1)).sum =
    (t.map (fun e => e.2 * x.get e.1)).sum := by
  induction t with
  | nil => rfl
  | cons e t ih =>
    unfold Float.common at ih ⊢
    rw [List.filter_cons]
    by_cases h : x.any (fun f => decide (f.1 = e.1)) = true
    · rw [if_pos h, List.map_cons, List.map_cons, List.sum_cons, List.sum_cons, ih]
    · rw [if_neg h, List.map_cons, List.sum_cons, ih, get_eq_zero x, mul_zero, zero_add]
      intro hm
      obtain ⟨f, hf, hfe⟩ := List.mem_map.mp hm
      exact h (List.any_eq_true.mpr ⟨f, hf, by simpa using hfe⟩)

/-- The product of two vectors, both given approximately. -/
theorem product_within (A : Accurate u M) (t x xh : SpVec ℝ) (f fh : Nat × ℝ → ℝ) (d1 d2 : Nat)
    (h1 : ∀ e ∈ t, Within u d1 (f e) (fh e)) (hc : x.map Prod.fst = xh.map Prod.fst)
    (h2 : ∀ j, Within u d2 (x.get j) (xh.get j)) :
    Within u (d1 + d2 + t.length)
      ((t.map (fun e => (e.1, f e))).map (fun e : Nat × ℝ => e.2 * x.get e.1)).sum
      (M.total ((Float.common (t.map (fun e => (e.1, fh e))) xh).map (fun e => e.2 * xh.get e.1))) := by
  have hany : ∀ c, x.any (fun f => decide (f.1 = c)) = xh.any (fun f => decide (f.1 = c)) := by
    intro c
    have e1 : ∀ v : SpVec ℝ, v.any (fun f => decide (f.1 = c)) = (v.map Prod.fst).any (fun i => decide (i = c)) := by
      intro v; rw [List.any_map]; rfl
    rw [e1, e1, hc]
  rw [← sum_common]
  unfold Float.common
  rw [List.filter_map, List.filter_map, List.map_map, List.map_map]
  have hp : ((fun e : Nat × ℝ => x.any (fun f => decide (f.1 = e.1))) ∘ fun e => (e.1, f e)) =
      ((fun e : Nat × ℝ => xh.any (fun f => decide (f.1 = e.1))) ∘ fun e : Nat × ℝ => (e.1, fh e)) := by
    funext e; exact hany e.1
  rw [hp]
  refine total_within A _ _ _ (d1 + d2) ?_ _ (List.length_filter_le _ _)
  intro e he
  exact within_mul A.unit A.small (h1 e (List.mem_of_mem_filter he)) (h2 e.1)

theorem shares_congr (t t' x x' : SpVec ℝ) (ht : t.map Prod.fst = t'.map Prod.fst)
    (hx : x.map Prod.fst = x'.map Prod.fst) : shares t x = shares t' x' := by
  have e1 : ∀ t x : SpVec ℝ, shares t x = (t.map Prod.fst).any (fun i => (x.map Prod.fst).any (fun j => decide (j = i))) := by
    intro t x; unfold shares; rw [List.any_map]; congr 1; funext e; simp only [Function.comp, List.any_map]; rfl
  rw [e1, e1, ht, hx]

/-! ### The similarities -/

/-- How many roundings an entry takes, when rows have at most `B` stored entries. -/
def errors (kind : Kind) (B : Nat) : Nat :=
  match kind with
  | .raw => B
  | .cosine false => B
  | .cosine true => 3 * B + 6
  | .asymmetric _ => 3 * B + 6
  | .jaccard => 3
  | .tversky _ _ => 6

theorem quotient_within (A : Accurate u M) {v vh n nh s : ℝ} {a b : Nat} (hv : Within u a v vh) (hn : Within u b n nh)
    (hs : 0 ≤ s) : Within u (a + (b + 2) + 1) (v / (n + s + 1e-6)) (M.fl (vh / M.fl (M.fl (nh + s) + M.fl 1e-6))) := by
  have h0 := A.unit
  have h1 := A.small
  have e1 : Within u (b + 1) (n + s) (M.fl (nh + s)) :=
    within_fl h0 h1 A.rounds (within_add hn (within_refl h0 h1 hs b))
  have e2 : Within u 1 (1e-6 : ℝ) (M.fl 1e-6) :=
    within_fl h0 h1 A.rounds (within_refl h0 h1 (by norm_num) 0)
  have e3 := within_fl h0 h1 A.rounds (within_add e1 (within_mono h0 h1 (by omega : 1 ≤ b + 1) e2))
  exact within_fl h0 h1 A.rounds (within_div h0 h1 hv e3 (by
    have := hn.1
    have h : (0 : ℝ) < 1e-6 := by norm_num
    linarith))

theorem sqNorm_within (A : Accurate u M) (v : SpVec ℝ) (B : Nat) (hB : v.length ≤ B) :
    Within u B (sqNorm v) (Float.sqNorm M v) := by
  have := total_within A v (fun e => e.2 ^ 2) (fun e => e.2 ^ 2) 0
    (fun e _ => within_refl A.unit A.small (sq_nonneg _) 0) B hB
  rwa [Nat.zero_add] at this

theorem binarize_total (A : Accurate u M) {N : Nat} (hN : ExactOnIntegers N M.fl) (v : SpVec ℝ) (h : v.length ≤ N) :
    Float.rowTotal M (binarize v) = v.length ∧ rowTotal (binarize v) = v.length := by
  have e : (binarize v).map Prod.snd = v.map (fun _ => (1 : ℝ)) := by
    unfold binarize; rw [List.map_map]; rfl
  have e2 : (v.map (fun _ => (1 : ℝ))).sum = v.length := by simp
  have := total_exact A hN (v.map (fun _ => (1 : ℝ))) (by
    intro x hx
    obtain ⟨_, _, rfl⟩ := List.mem_map.mp hx
    exact ⟨1, by simp⟩) (by rw [e2]; exact_mod_cast h)
  unfold Float.rowTotal rowTotal
  rw [e]
  exact ⟨by rw [this.1, e2], e2⟩

theorem binarize_length (v : SpVec ℝ) : (binarize v).length = v.length := by unfold binarize; simp

theorem binarize_fst (v : SpVec ℝ) : (binarize v).map Prod.fst = v.map Prod.fst := by
  unfold binarize; rw [List.map_map]; rfl

/-- Common entries of sets are counted exactly. -/
theorem binarize_product (A : Accurate u M) {N : Nat} (hN : ExactOnIntegers N M.fl) (t x : SpVec ℝ)
    (htn : (t.map Prod.fst).Nodup) (hxn : (x.map Prod.fst).Nodup) (h : t.length ≤ N) :
    ∃ c : Nat, c ≤ t.length ∧ c ≤ x.length ∧
      M.total ((Float.common (binarize t) (binarize x)).map (fun e => e.2 * (binarize x).get e.1)) = c ∧
      ((binarize t).map (fun e => e.2 * (binarize x).get e.1)).sum = c := by
  have hone : (Float.common (binarize t) (binarize x)).map (fun e => e.2 * (binarize x).get e.1) =
      (Float.common (binarize t) (binarize x)).map (fun _ => (1 : ℝ)) := by
    apply List.map_congr_left
    intro e he
    unfold Float.common at he
    obtain ⟨he1, he2⟩ := List.mem_filter.mp he
    have h1 : e.2 = 1 := by
      unfold binarize at he1
      obtain ⟨f, _, rfl⟩ := List.mem_map.mp he1
      rfl
    have h2 : e.1 ∈ x.map Prod.fst := by
      rw [← binarize_fst x]
      obtain ⟨f, hf, hfe⟩ := List.any_eq_true.mp he2
      exact List.mem_map.mpr ⟨f, hf, by simpa using hfe⟩
    rw [h1, get_binarize x hxn, if_pos h2, one_mul]
  have hsum : ((Float.common (binarize t) (binarize x)).map (fun _ => (1 : ℝ))).sum =
      (Float.common (binarize t) (binarize x)).length := by simp
  have hlt : (Float.common (binarize t) (binarize x)).length ≤ t.length := by
    unfold Float.common
    exact (List.length_filter_le _ _).trans (le_of_eq (binarize_length t))
  have hlx : (Float.common (binarize t) (binarize x)).length ≤ x.length := by
    have hnd : ((Float.common (binarize t) (binarize x)).map Prod.fst).Nodup := by
      refine List.Nodup.sublist (List.Sublist.map _ List.filter_sublist) ?_
      rw [binarize_fst]; exact htn
    have hsub : ((Float.common (binarize t) (binarize x)).map Prod.fst) ⊆ x.map Prod.fst := by
      intro c hc
      obtain ⟨e, he, rfl⟩ := List.mem_map.mp hc
      obtain ⟨_, he2⟩ := List.mem_filter.mp he
      rw [← binarize_fst x]
      obtain ⟨f, hf, hfe⟩ := List.any_eq_true.mp he2
      exact List.mem_map.mpr ⟨f, hf, by simpa using hfe⟩
    have := (List.subperm_of_subset hnd hsub).length_le
    simpa using this
  refine ⟨_, hlt, hlx, ?_, ?_⟩
  · rw [hone, (total_exact A hN _ (by
      intro y hy
      obtain ⟨_, _, rfl⟩ := List.mem_map.mp hy
      exact ⟨1, by simp⟩) (by rw [hsum]; exact_mod_cast hlt.trans h)).1, hsum]
  · rw [← sum_common, hone, hsum]

theorem exact_int {N : Nat} {fl : ℝ → ℝ} (hf : ExactOnIntegers N fl) (n : Nat) (hn : n ≤ N) : fl n = n := by
  have := hf (n : ℤ) (by rw [abs_of_nonneg (by positivity)]; exact_mod_cast hn)
  exact_mod_cast this

/-- What is needed of the arithmetic and the data, besides accuracy. -/
def Fits (kind : Kind) (M : Float.Machine) (B : Nat) (X : CSR ℝ) (t : SpVec ℝ) : Prop :=
  match kind with
  | .raw => (∀ e ∈ t, 0 ≤ e.2) ∧ NonNegative X
  | .cosine _ => (∀ e ∈ t, 0 ≤ e.2) ∧ NonNegative X
  | .asymmetric alpha => ((∀ e ∈ t, 0 ≤ e.2) ∧ NonNegative X) ∧ M.fl (1 - alpha) = 1 - alpha
  | .jaccard => ExactOnIntegers (2 * B) M.fl
  | .tversky _ _ => ExactOnIntegers (2 * B) M.fl

theorem get_nonneg (v : SpVec ℝ) (h : ∀ e ∈ v, 0 ≤ e.2) (j : Nat) : 0 ≤ v.get j := by
  induction v with
  | nil => rw [get_nil]
  | cons e v ih =>
    rw [get_cons]
    have := ih (fun b hb => h b (List.mem_cons_of_mem _ hb))
    have := h e List.mem_cons_self
    split_ifs <;> linarith

theorem simRow_within (A : Accurate u M) (kind : Kind) (hk : kind.paramsOk) (s : ℝ) (hs : 0 ≤ s) (X : CSR ℝ)
    (hX : ∀ row ∈ X.rows, (row.map Prod.fst).Nodup) (t : SpVec ℝ) (ht : (t.map Prod.fst).Nodup) (B : Nat)
    (hB : t.length ≤ B) (hBX : RowsAtMost B X) (hf : Fits kind M B X t) (j : Nat) (hj : j < X.nrows) :
    Within u (errors kind B) ((simRow kind s X t).get j) ((Float.simRow M kind s X t).get j) := by
  have h0 := A.unit
  have h1 := A.small
  have hxB : (X.row j).length ≤ B := hBX _ (row_mem X hj)
  have hxn := hX _ (row_mem X hj)
  have hprod : (∀ e ∈ t, 0 ≤ e.2) ∧ NonNegative X → Within u B (t.map (fun e => e.2 * (X.row j).get e.1)).sum
      (M.total ((Float.common t (X.row j)).map (fun e => e.2 * (X.row j).get e.1))) := by
    rintro ⟨hnt, hnX⟩
    have := product_within A t (X.row j) (X.row j) Prod.snd Prod.snd 0 0
      (fun e he => within_refl h0 h1 (hnt e he) 0) rfl
      (fun c => within_refl h0 h1 (get_nonneg _ (hnX _ (row_mem X hj)) c) 0)
    have e : t.map (fun e => (e.1, e.2)) = t := by simp
    rw [e] at this
    exact within_mono h0 h1 (by omega) this
  -- exact and rounded entries are mapped alike
  have lift : ∀ (t' : SpVec ℝ) (X' : CSR ℝ) (_ : j < X'.nrows) (g gh : Nat → ℝ → ℝ) (_ : ∀ i, g i 0 = 0) (D : Nat)
      (_ : Within u D (g j (t'.map (fun e => e.2 * (X'.row j).get e.1)).sum)
        (gh j (M.total ((Float.common t' (X'.row j)).map (fun e => e.2 * (X'.row j).get e.1))))),
      Within u D (SpVec.get ((productRow t' X').map (fun e => (e.1, g e.1 e.2))) j)
        (SpVec.get ((Float.productRow M t' X').map (fun e => (e.1, gh e.1 e.2))) j) := by
    intro t' X' hj' g gh hg D hw
    rw [get_mapped t' X' g hg j hj', fget_mapped t' X' gh j hj']
    by_cases hsh : shares t' (X'.row j) = true
    · rw [if_pos hsh]; exact hw
    · rw [if_neg hsh, not_shares _ _ (by simpa using hsh), hg]
      exact within_refl h0 h1 (le_refl _) D
  have hbj : j < (CSR.mk X.cols (X.rows.map binarize)).nrows := by simpa [CSR.nrows] using hj
  have hbrow : (CSR.mk X.cols (X.rows.map binarize)).row j = binarize (X.row j) :=
    row_map X binarize rfl _ _
  match kind, hk, hf with
  | .raw, _, hf =>
    have := lift t X hj (fun _ v => v) (fun _ v => v) (fun _ => rfl) B (hprod hf)
    simpa [simRow, Float.simRow, errors] using this
  | .cosine false, _, hf =>
    have := lift t X hj (fun _ v => v) (fun _ v => v) (fun _ => rfl) B (hprod hf)
    simpa [simRow, Float.simRow, errors] using this
  | .cosine true, _, hf =>
    unfold simRow Float.simRow errors
    simp only
    refine lift t X hj (fun i v => v / (Real.sqrt (sqNorm (X.row i)) * Real.sqrt (sqNorm t) + s + 1e-6))
      (fun i v => M.fl (v / M.fl (M.fl (M.fl (M.sqrt (Float.sqNorm M (X.row i)) * M.sqrt (Float.sqNorm M t)) + s) +
        M.fl 1e-6))) (fun _ => by simp) _ ?_
    have hsq : ∀ v : SpVec ℝ, v.length ≤ B → Within u (B + 1) (Real.sqrt (sqNorm v)) (M.sqrt (Float.sqNorm M v)) :=
      fun v hv => within_trans h0 h1 (within_sqrt h0 h1 (sqNorm_within A v B hv))
        (sqrt_within A (within_nonneg h0 h1 (sqNorm_within A v B hv)))
    have := quotient_within A (hprod hf) (within_fl h0 h1 A.rounds (within_mul h0 h1 (hsq _ hxB) (hsq _ hB))) hs
    exact within_mono h0 h1 (by omega) this
  | .asymmetric alpha, hk, hf =>
    obtain ⟨ha0, ha1⟩ := hk
    unfold simRow Float.simRow errors
    simp only
    rw [hf.2]
    refine lift t X hj (fun i v => v / ((sqNorm (X.row i)) ^ (1 - alpha) * (sqNorm t) ^ alpha + s + 1e-6))
      (fun i v => M.fl (v / M.fl (M.fl (M.fl (M.pow (Float.sqNorm M (X.row i)) (1 - alpha) * M.pow (Float.sqNorm M t) alpha) + s) +
        M.fl 1e-6))) (fun _ => by simp) _ ?_
    have hpw : ∀ (v : SpVec ℝ) (a : ℝ), 0 ≤ a → a ≤ 1 → v.length ≤ B →
        Within u (B + 1) ((sqNorm v) ^ a) (M.pow (Float.sqNorm M v) a) := by
      intro v a h2 h3 hv
      have := within_rpow h0 h1 (sqNorm_within A v B hv) a h2 1 (by simpa using h3)
      rw [mul_one] at this
      exact within_trans h0 h1 this (pow_within A a (within_nonneg h0 h1 (sqNorm_within A v B hv)))
    have := quotient_within A (hprod hf.1) (within_fl h0 h1 A.rounds (within_mul h0 h1
      (hpw _ (1 - alpha) (by linarith) (by linarith) hxB) (hpw _ alpha ha0 ha1 hB))) hs
    exact within_mono h0 h1 (by omega) this
  | .jaccard, _, hf =>
    have hf' : ExactOnIntegers (2 * B) M.fl := hf
    obtain ⟨c, hct, hcx, hc1, hc2⟩ := binarize_product A hf' t (X.row j) ht hxn (by omega)
    unfold simRow Float.simRow errors
    simp only
    refine lift (binarize t) ⟨X.cols, X.rows.map binarize⟩ hbj
      (fun i v => v / (rowTotal ((CSR.mk X.cols (X.rows.map binarize)).row i) + rowTotal (binarize t) - v + s + 1e-6))
      (fun i v => M.fl (v / M.fl (M.fl (M.fl (M.fl (Float.rowTotal M ((CSR.mk X.cols (X.rows.map binarize)).row i) +
        Float.rowTotal M (binarize t)) - v) + s) + M.fl 1e-6))) (fun _ => by simp) _ ?_
    simp only [hbrow]
    rw [hc1, hc2, (binarize_total A hf' t (by omega)).1, (binarize_total A hf' t (by omega)).2,
      (binarize_total A hf' (X.row j) (by omega)).1, (binarize_total A hf' (X.row j) (by omega)).2]
    have e1 : M.fl (((X.row j).length : ℝ) + t.length) = ((X.row j).length + t.length : Nat) := by
      rw [← Nat.cast_add]; exact exact_int hf' _ (by omega)
    have e2 : (((X.row j).length + t.length : Nat) : ℝ) - c = ((X.row j).length + t.length - c : Nat) := by
      rw [Nat.cast_sub (by omega)]
    have e3 : M.fl ((((X.row j).length + t.length : Nat) : ℝ) - c) = ((X.row j).length + t.length - c : Nat) := by
      rw [e2]; exact exact_int hf' _ (by omega)
    rw [e1, e3, ← Nat.cast_add, e2]
    have := quotient_within A (within_refl h0 h1 (Nat.cast_nonneg c) 0)
      (within_refl h0 h1 (Nat.cast_nonneg ((X.row j).length + t.length - c)) 0) hs
    exact this
  | .tversky alpha beta, hk, hf =>
    obtain ⟨ha, hb⟩ := hk
    have hf' : ExactOnIntegers (2 * B) M.fl := hf
    obtain ⟨c, hct, hcx, hc1, hc2⟩ := binarize_product A hf' t (X.row j) ht hxn (by omega)
    unfold simRow Float.simRow errors
    simp only
    refine lift (binarize t) ⟨X.cols, X.rows.map binarize⟩ hbj
      (fun i v => v / (v + beta * (rowTotal ((CSR.mk X.cols (X.rows.map binarize)).row i) - v) +
        alpha * (rowTotal (binarize t) - v) + s + 1e-6))
      (fun i v => M.fl (v / M.fl (M.fl (M.fl (M.fl (v + M.fl (beta * M.fl (Float.rowTotal M ((CSR.mk X.cols (X.rows.map binarize)).row i) - v))) +
        M.fl (alpha * M.fl (Float.rowTotal M (binarize t) - v))) + s) + M.fl 1e-6))) (fun _ => by simp) _ ?_
    simp only [hbrow]
    rw [hc1, hc2, (binarize_total A hf' t (by omega)).1, (binarize_total A hf' t (by omega)).2,
      (binarize_total A hf' (X.row j) (by omega)).1, (binarize_total A hf' (X.row j) (by omega)).2]
    have e1 : ((X.row j).length : ℝ) - c = ((X.row j).length - c : Nat) := by rw [Nat.cast_sub hcx]
    have e2 : (t.length : ℝ) - c = (t.length - c : Nat) := by rw [Nat.cast_sub hct]
    rw [e1, e2, exact_int hf' _ (by omega), exact_int hf' _ (by omega)]
    have w1 := within_fl h0 h1 A.rounds (within_refl h0 h1 (mul_nonneg hb (Nat.cast_nonneg ((X.row j).length - c))) 0)
    have w2 := within_fl h0 h1 A.rounds (within_refl h0 h1 (mul_nonneg ha (Nat.cast_nonneg (t.length - c))) 0)
    have w3 := within_fl h0 h1 A.rounds (within_add (within_refl h0 h1 (Nat.cast_nonneg c) (0 + 1)) w1)
    have w4 := within_fl h0 h1 A.rounds (within_add w3 (within_mono h0 h1 (by omega) w2))
    exact quotient_within A (within_refl h0 h1 (Nat.cast_nonneg c) 0) w4 hs

/-! ### The similarity matrix -/

theorem fcompute_eq {nth : Nat → SpVec ℝ → List Nat} (hnth : NthOk nth) (kind : Kind) (s : ℝ)
    (X target : CSR ℝ) (nThreads maxChunk topK : Nat) (h : Accepted kind s X target nThreads maxChunk) :
    Float.computeSimilarity M nth kind s X target nThreads maxChunk topK =
      .ok ⟨X.nrows, (List.range target.nrows).map
        (fun r => bestOf topK (Float.simRow M kind s X (target.row r)))⟩ := by
  obtain ⟨h1, h2, h3, h4, h5⟩ := h
  unfold Float.computeSimilarity
  rw [if_neg (by push Not; exact ⟨h1, h2, h3, h4⟩), if_neg (by simpa using h5)]
  rw [similarityRows_eq hnth _ _ (fun t => fsimRow_sorted kind s X t) target nThreads maxChunk topK h2 h3]

theorem fcompute_error (nth : Nat → SpVec ℝ → List Nat) (kind : Kind) (s : ℝ)
    (X target : CSR ℝ) (nThreads maxChunk topK : Nat) (h : ¬ Accepted kind s X target nThreads maxChunk) :
    Float.computeSimilarity M nth kind s X target nThreads maxChunk topK = .error .invalidArgument := by
  unfold Float.computeSimilarity
  by_cases hc : s < 0 ∨ nThreads < 1 ∨ maxChunk < 1 ∨ ¬ kind.paramsOk
  · rw [if_pos hc]
  · rw [if_neg hc, if_pos]
    intro h5
    push Not at hc
    exact h ⟨hc.1, hc.2.1, hc.2.2.1, hc.2.2.2, h5⟩

theorem row_length_le {B : Nat} {X : CSR ℝ} (h : RowsAtMost B X) (i : Nat) : (X.row i).length ≤ B := by
  by_cases hi : i < X.nrows
  · exact h _ (row_mem X hi)
  · rw [row_nil X hi]; exact Nat.zero_le _

theorem row_nonneg {X : CSR ℝ} (h : NonNegative X) (i : Nat) : ∀ e ∈ X.row i, 0 ≤ e.2 := by
  by_cases hi : i < X.nrows
  · exact h _ (row_mem X hi)
  · rw [row_nil X hi]; intro e he; cases he

/-! ### Transposed matrices -/

theorem pick_length (v : SpVec ℝ) (i j : Nat) :
    (v.filterMap (fun e => if e.1 = j then some (i, e.2) else none)).length = v.countP (fun e => decide (e.1 = j)) := by
  induction v with
  | nil => rfl
  | cons e v ih =>
    rw [List.filterMap_cons, List.countP_cons]
    by_cases h : e.1 = j
    · simp [h, ih]
    · simp [h, ih]

theorem sum_map_range_getD (l : List (SpVec ℝ)) (f : SpVec ℝ → Nat) :
    ((List.range l.length).map (fun i => f (l.getD i []))).sum = (l.map f).sum := by
  congr 1
  apply List.ext_getElem
  · simp
  · intro i h1 h2
    simp only [List.length_map] at h2
    simp [List.getElem?_eq_getElem h2]

theorem transpose_rowsAtMost {B : Nat} {X : CSR ℝ} (h : ColumnsAtMost B X) : RowsAtMost B (transpose X) := by
  intro row hrow
  unfold transpose at hrow
  obtain ⟨j, _, rfl⟩ := List.mem_map.mp hrow
  rw [List.length_flatMap]
  simp only [pick_length]
  have := sum_map_range_getD X.rows (fun row => row.countP (fun e => decide (e.1 = j)))
  calc _ = _ := this
    _ ≤ B := h j

theorem sum_count_le (v : SpVec ℝ) (n : Nat) :
    ((List.range n).map (fun j => v.countP (fun e => decide (e.1 = j)))).sum ≤ v.length := by
  induction v with
  | nil => simp
  | cons e v ih =>
    have h1 : ((List.range n).map (fun j => (e :: v).countP (fun e => decide (e.1 = j)))).sum =
        ((List.range n).map (fun j => v.countP (fun e => decide (e.1 = j)))).sum +
          ((List.range n).map (fun j => if e.1 = j then 1 else 0)).sum := by
      rw [← List.sum_map_add]
      congr 1
      apply List.map_congr_left
      intro j _
      rw [List.countP_cons]
      by_cases h : e.1 = j <;> simp [h]
    have h2 : ((List.range n).map (fun j => if e.1 = j then 1 else 0)).sum ≤ 1 := by
      have h3 : ((List.range n).map (fun j => if e.1 = j then 1 else 0)).sum = (List.range n).count e.1 := by
        rw [List.count_eq_countP, List.countP_eq_length_filter]
        induction List.range n with
        | nil => rfl
        | cons a l ih =>
          rw [List.map_cons, List.sum_cons, ih, List.filter_cons]
          by_cases h : e.1 = a
          · simp [h]; omega
          · have : ¬ a = e.1 := fun h' => h h'.symm
            simp [h, this]
      rw [h3]
      exact List.nodup_iff_count_le_one.mp List.nodup_range e.1
    rw [h1, List.length_cons]
    omega

theorem countP_pick (v : SpVec ℝ) (i j k : Nat) :
    (v.filterMap (fun e => if e.1 = j then some (i, e.2) else none)).countP (fun e => decide (e.1 = k)) =
      if i = k then v.countP (fun e => decide (e.1 = j)) else 0 := by
  induction v with
  | nil => simp
  | cons e v ih =>
    rw [List.filterMap_cons]
    by_cases h : e.1 = j
    · by_cases h' : i = k <;> simp [h, h', ih]
      · simpa [h'] using ih
    · by_cases h' : i = k <;> simp [h, h', ih]
      · simpa [h'] using ih

theorem transpose_columnsAtMost {A : Nat} {X : CSR ℝ} (h : RowsAtMost A X) : ColumnsAtMost A (transpose X) := by
  intro k
  unfold transpose
  rw [List.map_map]
  have h1 : ∀ j, ((fun row : SpVec ℝ => row.countP (fun e => decide (e.1 = k))) ∘ fun j => (List.range X.nrows).flatMap (fun i =>
      (X.row i).filterMap (fun e => if e.1 = j then some (i, e.2) else none))) j ≤
        (X.row k).countP (fun e => decide (e.1 = j)) := by
    intro j
    simp only [Function.comp]
    rw [List.countP_flatMap]
    have h2 : (List.map (List.countP (fun e => decide (e.1 = k)) ∘ fun i =>
        (X.row i).filterMap (fun e => if e.1 = j then some (i, e.2) else none)) (List.range X.nrows)) =
        (List.range X.nrows).map (fun i => if k = i then (X.row k).countP (fun e => decide (e.1 = j)) else 0) := by
      apply List.map_congr_left
      intro i _
      simp only [Function.comp]
      rw [countP_pick]
      by_cases hik : i = k
      · subst hik; simp
      · have : ¬ k = i := fun h' => hik h'.symm
        simp [hik, this]
    rw [h2]
    generalize (X.row k).countP (fun e => decide (e.1 = j)) = c
    have h3 : ∀ l : List Nat, l.Nodup → (l.map (fun i => if k = i then c else 0)).sum ≤ c := by
      intro l
      induction l with
      | nil => simp
      | cons a l ih =>
        intro hl
        rw [List.nodup_cons] at hl
        rw [List.map_cons, List.sum_cons]
        by_cases hka : k = a
        · subst hka
          have h4 : (l.map (fun i => if k = i then c else 0)).sum = 0 := by
            apply List.sum_eq_zero
            intro y hy
            obtain ⟨i, hi, rfl⟩ := List.mem_map.mp hy
            rw [if_neg]
            intro h'; subst h'; exact hl.1 hi
          rw [h4]; simp
        · have := ih hl.2
          simp [hka]
          simpa using this
    exact h3 _ List.nodup_range
  refine le_trans (List.sum_le_sum (fun j _ => h1 j)) ?_
  exact le_trans (sum_count_le _ _) (row_length_le h k)

theorem transpose_nonNegative {X : CSR ℝ} (h : NonNegative X) : NonNegative (transpose X) := by
  intro row hrow e he
  unfold transpose at hrow
  obtain ⟨j, _, rfl⟩ := List.mem_map.mp hrow
  obtain ⟨i, hi, he⟩ := List.mem_flatMap.mp he
  obtain ⟨f, hf, hfe⟩ := List.mem_filterMap.mp he
  split_ifs at hfe
  injection hfe with hfe
  rw [← hfe]
  exact row_nonneg h i f hf

/-! ### Walks -/

theorem powSum_within (A : Accurate u M) (alpha : ℝ) (l : SpVec ℝ) (hl : ∀ e ∈ l, 0 ≤ e.2) (B : Nat) (hB : l.length ≤ B) :
    Within u (B + 1) (l.map (fun e => e.2 ^ alpha)).sum (M.total (l.map (fun e => M.pow e.2 alpha))) := by
  have := total_within A l (fun e => e.2 ^ alpha) (fun e => M.pow e.2 alpha) 1
    (fun e he => pow_within A alpha (hl e he)) B hB
  rwa [Nat.add_comm] at this

theorem userNorm_flat (alpha : ℝ) (X : CSR ℝ) (v : Nat) : userNorm alpha X v =
    ((X.rows.flatMap (fun row => row.filter (fun e => decide (e.1 = v)))).map (fun e => e.2 ^ alpha)).sum := by
  unfold userNorm
  rw [List.map_flatMap, List.flatMap_def, List.sum_flatten, List.map_map]
  rfl

theorem userNorm_within (A : Accurate u M) (alpha : ℝ) (X : CSR ℝ) (hX : NonNegative X) (C : Nat)
    (hC : ColumnsAtMost C X) (v : Nat) : Within u (C + 1) (userNorm alpha X v) (Float.userNorm M alpha X v) := by
  rw [userNorm_flat]
  unfold Float.userNorm
  rw [← List.map_flatMap]
  refine powSum_within A alpha _ ?_ C ?_
  · intro e he
    obtain ⟨row, hrow, he⟩ := List.mem_flatMap.mp he
    exact hX row hrow e (List.mem_of_mem_filter he)
  · rw [List.length_flatMap]
    simp only [← List.countP_eq_length_filter]
    exact hC v

theorem toUser_entry (A : Accurate u M) (alpha : ℝ) (row : SpVec ℝ) (hr : ∀ e ∈ row, 0 < e.2) (B : Nat)
    (hB : row.length ≤ B) (e : Nat × ℝ) (he : e ∈ row) :
    Within u (B + 3) (e.2 ^ alpha / (row.map (fun e => e.2 ^ alpha)).sum)
      (M.fl (M.pow e.2 alpha / M.total (row.map (fun e => M.pow e.2 alpha)))) := by
  have hpos : 0 < (row.map (fun e => e.2 ^ alpha)).sum := by
    have h1 := Real.rpow_pos_of_pos (hr e he) alpha
    have h2 : e.2 ^ alpha ≤ (row.map (fun e => e.2 ^ alpha)).sum :=
      List.single_le_sum (by
        intro x hx
        obtain ⟨f, hf, rfl⟩ := List.mem_map.mp hx
        exact Real.rpow_nonneg (hr f hf).le alpha) _ (List.mem_map.mpr ⟨e, he, rfl⟩)
    linarith
  have := within_fl A.unit A.small A.rounds (within_div A.unit A.small (pow_within A alpha (hr e he).le)
    (powSum_within A alpha row (fun e he => (hr e he).le) B hB) hpos)
  exact within_mono A.unit A.small (by omega) this

/-- the matrix handed to the product by RP3beta, rounded -/
noncomputable def ftarget (M : Float.Machine) (a b : ℝ) (X : CSR ℝ) : CSR ℝ := ⟨X.cols, X.rows.map (fun row =>
  row.map (fun e => (e.1, M.fl (M.pow e.2 a / M.fl (Float.userNorm M a X e.1 * M.pow (Float.rowTotal M row) b)))))⟩

/-- the same for P3alpha -/
noncomputable def ftargetP (M : Float.Machine) (a : ℝ) (X : CSR ℝ) : CSR ℝ := ⟨X.cols, X.rows.map (fun row =>
  row.map (fun e => (e.1, M.fl (M.pow e.2 a / Float.userNorm M a X e.1))))⟩

theorem userNorm_pos (alpha : ℝ) (X : CSR ℝ) (hX : Positive X) (row : SpVec ℝ) (hrow : row ∈ X.rows) (e : Nat × ℝ)
    (he : e ∈ row) : 0 < userNorm alpha X e.1 := by
  rw [userNorm_flat]
  have h1 := Real.rpow_pos_of_pos (hX row hrow e he) alpha
  have h2 : e.2 ^ alpha ≤ ((X.rows.flatMap (fun row => row.filter (fun f => decide (f.1 = e.1)))).map (fun e => e.2 ^ alpha)).sum :=
    List.single_le_sum (by
      intro x hx
      obtain ⟨f, hf, rfl⟩ := List.mem_map.mp hx
      obtain ⟨r, hr, hf⟩ := List.mem_flatMap.mp hf
      exact Real.rpow_nonneg (hX r hr f (List.mem_of_mem_filter hf)).le alpha) _
      (List.mem_map.mpr ⟨e, List.mem_flatMap.mpr ⟨row, hrow, List.mem_filter.mpr ⟨he, by simp⟩⟩, rfl⟩)
  linarith

theorem positive_nonneg {X : CSR ℝ} (h : Positive X) : NonNegative X := fun row hrow e he => (h row hrow e he).le

theorem rowTotal_within (A : Accurate u M) (row : SpVec ℝ) (hr : ∀ e ∈ row, 0 ≤ e.2) (B : Nat) (hB : row.length ≤ B) :
    Within u B (rowTotal row) (Float.rowTotal M row) := by
  have := total_within A row Prod.snd Prod.snd 0 (fun e he => within_refl A.unit A.small (hr e he) 0) B hB
  rwa [Nat.zero_add] at this

theorem rowTotal_pos (row : SpVec ℝ) (hr : ∀ e ∈ row, 0 < e.2) (e : Nat × ℝ) (he : e ∈ row) : 0 < rowTotal row := by
  have h2 : e.2 ≤ rowTotal row := List.single_le_sum (by
    intro x hx
    obtain ⟨f, hf, rfl⟩ := List.mem_map.mp hx
    exact (hr f hf).le) _ (List.mem_map.mpr ⟨e, he, rfl⟩)
  have := hr e he
  linarith

theorem toItem_entry (A : Accurate u M) (a b : ℝ) (hb : 0 ≤ b) (k : Nat) (hk : b ≤ k) (X : CSR ℝ) (hX : Positive X) (B C : Nat)
    (hB : RowsAtMost B X) (hC : ColumnsAtMost C X) (row : SpVec ℝ) (hrow : row ∈ X.rows) (e : Nat × ℝ) (he : e ∈ row) :
    Within u (C + B * k + 5) (e.2 ^ a / (userNorm a X e.1 * (rowTotal row) ^ b))
      (M.fl (M.pow e.2 a / M.fl (Float.userNorm M a X e.1 * M.pow (Float.rowTotal M row) b))) := by
  have h0 := A.unit
  have h1 := A.small
  have hr := hX row hrow
  have wt := rowTotal_within A row (fun e he => (hr e he).le) B (hB row hrow)
  have wp := within_trans h0 h1 (within_rpow h0 h1 wt b hb k hk) (pow_within A b (within_nonneg h0 h1 wt))
  have wm := within_fl h0 h1 A.rounds (within_mul h0 h1 (userNorm_within A a X (positive_nonneg hX) C hC e.1) wp)
  have hpos : 0 < userNorm a X e.1 * (rowTotal row) ^ b :=
    mul_pos (userNorm_pos a X hX row hrow e he) (Real.rpow_pos_of_pos (rowTotal_pos row hr e he) b)
  exact within_mono h0 h1 (by omega)
    (within_fl h0 h1 A.rounds (within_div h0 h1 (pow_within A a (hr e he).le) wm hpos))

theorem toItem_entryP (A : Accurate u M) (a : ℝ) (X : CSR ℝ) (hX : Positive X) (C : Nat)
    (hC : ColumnsAtMost C X) (row : SpVec ℝ) (hrow : row ∈ X.rows) (e : Nat × ℝ) (he : e ∈ row) :
    Within u (C + 3) (e.2 ^ a / (userNorm a X e.1 * (rowTotal row) ^ (0 : ℝ)))
      (M.fl (M.pow e.2 a / Float.userNorm M a X e.1)) := by
  rw [Real.rpow_zero, mul_one]
  exact within_mono A.unit A.small (by omega)
    (within_fl A.unit A.small A.rounds (within_div A.unit A.small (pow_within A a (hX row hrow e he).le)
      (userNorm_within A a X (positive_nonneg hX) C hC e.1) (userNorm_pos a X hX row hrow e he)))

/-- The product of two approximately known matrices with the same stored positions. -/
theorem walk_within (A : Accurate u M) (X : CSR ℝ) (hX : Positive X) (a b : ℝ) (B d : Nat) (hB : RowsAtMost B X)
    (fh : SpVec ℝ → Nat × ℝ → ℝ)
    (h : ∀ row ∈ X.rows, ∀ e ∈ row, Within u d (e.2 ^ a / (userNorm a X e.1 * (rowTotal row) ^ b)) (fh row e))
    (i j : Nat) (hi : i < X.nrows) (hj : j < X.nrows) :
    Within u (d + 2 * B + 3) ((productRow ((target a b X).row i) (itemToUser a X)).get j)
      ((Float.productRow M ((CSR.mk X.cols (X.rows.map (fun row => row.map (fun e => (e.1, fh row e))))).row i)
        (Float.itemToUser M a X)).get j) := by
  have hjX : j < (itemToUser a X).nrows := by simpa [itemToUser, CSR.nrows] using hj
  have hjF : j < (Float.itemToUser M a X).nrows := by simpa [Float.itemToUser, CSR.nrows] using hj
  have r1 : (target a b X).row i = (X.row i).map (fun e => (e.1, e.2 ^ a / (userNorm a X e.1 * (rowTotal (X.row i)) ^ b))) := by
    unfold target
    rw [row_map X (fun row => row.map (fun e => (e.1, e.2 ^ a / (userNorm a X e.1 * (rowTotal row) ^ b)))) rfl]
  have r2 : (CSR.mk X.cols (X.rows.map (fun row => row.map (fun e => (e.1, fh row e))))).row i =
      (X.row i).map (fun e => (e.1, fh (X.row i) e)) := by
    rw [row_map X (fun row => row.map (fun e => (e.1, fh row e))) rfl]
  have r3 : (itemToUser a X).row j = (X.row j).map (fun e => (e.1, e.2 ^ a / ((X.row j).map (fun e => e.2 ^ a)).sum)) := by
    unfold itemToUser
    rw [row_map X (fun row => row.map (fun e => (e.1, e.2 ^ a / (row.map (fun e => e.2 ^ a)).sum))) rfl]
  have r4 : (Float.itemToUser M a X).row j =
      (X.row j).map (fun e => (e.1, M.fl (M.pow e.2 a / M.total ((X.row j).map (fun e => M.pow e.2 a))))) := by
    unfold Float.itemToUser
    rw [row_map X (fun row => row.map (fun e => (e.1, M.fl (M.pow e.2 a / M.total (row.map (fun e => M.pow e.2 a)))))) rfl]
  have g1 := get_mapped ((target a b X).row i) (itemToUser a X) (fun _ v => v) (fun _ => rfl) j hjX
  have g2 := fget_mapped (M := M) ((CSR.mk X.cols (X.rows.map (fun row => row.map (fun e => (e.1, fh row e))))).row i)
    (Float.itemToUser M a X) (fun _ v => v) j hjF
  simp only [Prod.mk.eta, List.map_id'] at g1 g2
  rw [g1, g2]
  have hfst1 : ((itemToUser a X).row j).map Prod.fst = ((Float.itemToUser M a X).row j).map Prod.fst := by
    rw [r3, r4, List.map_map, List.map_map]; rfl
  have hsh : shares ((target a b X).row i) ((itemToUser a X).row j) =
      shares ((CSR.mk X.cols (X.rows.map (fun row => row.map (fun e => (e.1, fh row e))))).row i) ((Float.itemToUser M a X).row j) :=
    shares_congr _ _ _ _ (by rw [r1, r2, List.map_map, List.map_map]; rfl) hfst1
  rw [← hsh]
  by_cases hs : shares ((target a b X).row i) ((itemToUser a X).row j) = true
  · rw [if_pos hs, r1, r2]
    have hget : ∀ c, Within u (B + 3) (((itemToUser a X).row j).get c) (((Float.itemToUser M a X).row j).get c) := by
      intro c
      rw [r3, r4]
      exact get_within A (X.row j) _ _ (B + 3)
        (fun e he => toUser_entry A a (X.row j) (hX _ (row_mem X hj)) B (hB _ (row_mem X hj)) e he) c
    have := product_within A (X.row i) _ _ _ _ d (B + 3) (fun e he => h _ (row_mem X hi) e he) hfst1 hget
    refine within_mono A.unit A.small ?_ this
    have := row_length_le hB i
    omega
  · rw [if_neg hs, not_shares _ _ (by simpa using hs)]
    exact within_refl A.unit A.small (le_refl _) _

end Irspack.FloatSim
