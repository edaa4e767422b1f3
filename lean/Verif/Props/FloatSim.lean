import Verif.Proofs.FloatSim
import Verif.Props.Walk

/-!
# C97: neighbourhood similarities and walks in double precision
-/

namespace Irspack.Props

open Irspack Spec Spec.Sim Spec.FloatSim Sim Rounding Irspack.FloatSim

variable {u : ℝ} {M : Float.Machine} {nth nth' : Nat → SpVec ℝ → List Nat}

/-! ### Reproducibility -/

/-- C97: whatever the arithmetic does, the similarity matrix is the same to the last bit for every number of
threads, every chunk size and every conforming `std::nth_element`. -/
theorem C97_threads (M : Float.Machine) (hnth : NthOk nth) (hnth' : NthOk nth') (kind : Kind) (s : ℝ) (X target : CSR ℝ)
    (T T' chunk chunk' topK : Nat) (hT : 1 ≤ T) (hT' : 1 ≤ T') (hc : 1 ≤ chunk) (hc' : 1 ≤ chunk') :
    Float.computeSimilarity M nth kind s X target T chunk topK =
      Float.computeSimilarity M nth' kind s X target T' chunk' topK := by
  by_cases h : Accepted kind s X target T chunk
  · rw [fcompute_eq hnth kind s X target T chunk topK h,
      fcompute_eq hnth' kind s X target T' chunk' topK ⟨h.1, hT', hc', h.2.2.2.1, h.2.2.2.2⟩]
  · rw [fcompute_error nth kind s X target T chunk topK h, fcompute_error nth' kind s X target T' chunk' topK
      (fun h' => h ⟨h'.1, hT, hc, h'.2.2.2.1, h'.2.2.2.2⟩)]

/-- C97: so is what the nearest-neighbour and random-walk recommenders learn. -/
theorem C97_threads_learn (M : Float.Machine) (hnth : NthOk nth) (hnth' : NthOk nth') (kind : Kind) (s a b : ℝ) (X : CSR ℝ)
    (T T' topK : Nat) (K : Option Nat) (hT : 1 ≤ T) (hT' : 1 ≤ T') :
    Float.itemKnnW M nth kind s X T topK = Float.itemKnnW M nth' kind s X T' topK ∧
    Float.userKnnU M nth kind s X T topK = Float.userKnnU M nth' kind s X T' topK ∧
    Float.p3Learn M nth a X K T = Float.p3Learn M nth' a X K T' ∧
    Float.rp3Learn M nth a b X K T = Float.rp3Learn M nth' a b X K T' := by
  have h := fun kind s X target k => C97_threads M hnth hnth' kind s X target T T' 128 128 k hT hT' (by norm_num) (by norm_num)
  refine ⟨?_, ?_, ?_, ?_⟩
  · unfold Float.itemKnnW; rw [h]
  · unfold Float.userKnnU; rw [h]
  · unfold Float.p3Learn Float.p3W; simp only [h]
  · unfold Float.rp3Learn Float.rp3W; simp only [h]

/-! ### Accuracy -/

/-- C97: `d` roundings of relative size `u` change a value by at most the fraction `d u / (1 - d u)`. -/
theorem C97_relative_error (h0 : 0 ≤ u) (d : Nat) (hd : d * u < 1) {x xh : ℝ} (h : Within u d x xh) :
    |xh - x| ≤ d * u / (1 - d * u) * x := by
  by_cases hd0 : d = 0
  · subst hd0
    have h2 := h.2.1
    have h3 := h.2.2
    simp only [pow_zero, one_mul] at h2 h3
    rw [le_antisymm h3 h2]; simp
  have h1 : u < 1 := by
    have : (1 : ℝ) ≤ d := by exact_mod_cast Nat.one_le_iff_ne_zero.mpr hd0
    nlinarith
  have hb : 1 - d * u ≤ (1 - u) ^ d := by
    have := one_add_mul_le_pow (a := -u) (by linarith) d
    calc 1 - d * u = 1 + d * -u := by ring
      _ ≤ (1 + -u) ^ d := this
      _ = (1 - u) ^ d := by ring
  have hxh := within_nonneg h0 h1 h
  have hq : 0 < 1 - d * u := by linarith
  have e1 : (1 - d * u) * x ≤ xh := le_trans (mul_le_mul_of_nonneg_right hb h.1) h.2.1
  have e2 : (1 - d * u) * xh ≤ x := le_trans (mul_le_mul_of_nonneg_right hb hxh) h.2.2
  have hdu : 0 ≤ (d : ℝ) * u := by positivity
  rw [div_mul_eq_mul_div, le_div_iff₀ hq, ← abs_of_pos hq, ← abs_mul, abs_le]
  constructor
  · nlinarith [h.1, mul_nonneg hdu h.1]
  · nlinarith [h.1]

theorem full_within (A : Accurate u M) (hnth : NthOk nth) (kind : Kind) (s : ℝ) (X target : CSR ℝ)
    (T chunk topK : Nat) (hX : Proper X) (ht : Proper target) (hz : kind.onSets → NoStoredZero X ∧ NoStoredZero target)
    (h : Accepted kind s X target T chunk) (hk : X.nrows ≤ topK) (B : Nat) (hBX : RowsAtMost B X) (hBt : RowsAtMost B target)
    (hf : ∀ r, Fits kind M B X (target.row r)) :
    ∃ R, Float.computeSimilarity M nth kind s X target T chunk topK = .ok R ∧ R.nrows = target.nrows ∧ R.cols = X.nrows ∧
      ∀ r < target.nrows, ∀ j < X.nrows,
        Within u (errors kind B) (formula kind X.cols s (target.get r) (X.get j)) (R.get r j) := by
  refine ⟨_, fcompute_eq hnth kind s X target T chunk topK h, by simp [CSR.nrows], rfl, fun r hr j hj => ?_⟩
  unfold CSR.get
  rw [row_range _ _ _ hr, bestOf_all topK _ (le_trans (fsimRow_sorted kind s X (target.row r)).length_le hk)]
  have e := simRow_get kind s X hX (target.row r) (h.2.2.2.2 ▸ row_bound ht r) (row_nodup ht r)
    (fun hk => ⟨(hz hk).1, row_nonzero (hz hk).2 r⟩) j hj
  have w := simRow_within A kind h.2.2.2.1 s h.1 X hX.2 (target.row r) (row_nodup ht r) B (row_length_le hBt r) hBX (hf r) j hj
  rw [e] at w
  exact w

theorem item_within (A : Accurate u M) (hnth : NthOk nth) (kind : Kind) (hp : kind.paramsOk) (s : ℝ) (hs : 0 ≤ s) (X : CSR ℝ)
    (T topK : Nat) (hT : 1 ≤ T) (hX : Proper X) (hz : kind.onSets → NoStoredZero X) (hk : X.cols ≤ topK) (B : Nat)
    (hB : ColumnsAtMost B X) (hf : ∀ r, Fits kind M B (transpose X) ((transpose X).row r)) :
    ∃ W, Float.itemKnnW M nth kind s X T topK = .ok W ∧ ∀ i < X.cols, ∀ j < X.cols,
      Within u (errors kind B) (if i = j then 0 else formula kind X.nrows s (fun r => X.get r i) (fun r => X.get r j)) (W.get i j) := by
  have hXt := transpose_proper X hX
  obtain ⟨S, hS, h1, h2, h3⟩ := full_within A hnth kind s (transpose X) (transpose X) T 128 topK hXt hXt
    (fun h => ⟨transpose_noZero X (hz h), transpose_noZero X (hz h)⟩) ⟨hs, hT, by norm_num, hp, rfl⟩
    (by rw [transpose_nrows]; exact hk) B (transpose_rowsAtMost hB) (transpose_rowsAtMost hB) hf
  obtain ⟨W, hW, h4, h5, h6, -⟩ := C30_remove_diagonal S (by rw [h1, h2])
  refine ⟨W, ?_, fun i hi j hj => ?_⟩
  · unfold Float.itemKnnW; rw [hS]; exact hW
  · rw [h6]
    by_cases hij : i = j
    · rw [if_pos hij, if_pos hij]; exact within_refl A.unit A.small (le_refl _) _
    · rw [if_neg hij, if_neg hij]
      have := h3 i (by rw [transpose_nrows]; exact hi) j (by rw [transpose_nrows]; exact hj)
      rw [transpose_cols, show (transpose X).get i = fun r => X.get r i from funext (fun r => transpose_get X hX i r),
        show (transpose X).get j = fun r => X.get r j from funext (fun r => transpose_get X hX j r)] at this
      exact this

/-- C97: without truncation, every similarity that a nearest-neighbour recommender learns in double precision
is within a number of roundings of the documented value, and that number depends only on `B`, the largest
number of users of an item.  (The diagonal is 0.)  Cosines need non-negative data; `1 - alpha` must be
representable; the set similarities need `2 B` not to exceed the integers that are represented exactly. -/
theorem C97_item_similarity (A : Accurate u M) (hnth : NthOk nth) (s : ℝ) (hs : 0 ≤ s) (X : CSR ℝ) (hX : Proper X)
    (T topK : Nat) (hT : 1 ≤ T) (hk : X.cols ≤ topK) (B : Nat) (hB : ColumnsAtMost B X) :
    (NonNegative X → ∃ W, Float.itemKnnW M nth (.cosine true) s X T topK = .ok W ∧ ∀ i < X.cols, ∀ j < X.cols,
      Within u (3 * B + 6) (if i = j then 0 else cosine X.nrows s (fun r => X.get r i) (fun r => X.get r j)) (W.get i j)) ∧
    (NonNegative X → ∃ W, Float.itemKnnW M nth (.cosine false) s X T topK = .ok W ∧ ∀ i < X.cols, ∀ j < X.cols,
      Within u B (if i = j then 0 else dot X.nrows (fun r => X.get r i) (fun r => X.get r j)) (W.get i j)) ∧
    (∀ alpha, 0 ≤ alpha → alpha ≤ 1 → M.fl (1 - alpha) = 1 - alpha → NonNegative X →
      ∃ W, Float.itemKnnW M nth (.asymmetric alpha) s X T topK = .ok W ∧ ∀ i < X.cols, ∀ j < X.cols,
      Within u (3 * B + 6) (if i = j then 0 else asymmetric X.nrows alpha s (fun r => X.get r i) (fun r => X.get r j))
        (W.get i j)) ∧
    (ExactOnIntegers (2 * B) M.fl → NoStoredZero X →
      ∃ W, Float.itemKnnW M nth .jaccard s X T topK = .ok W ∧ ∀ i < X.cols, ∀ j < X.cols,
      Within u 3 (if i = j then 0 else jaccard X.nrows s (fun r => X.get r i) (fun r => X.get r j)) (W.get i j)) ∧
    (∀ alpha beta, 0 ≤ alpha → 0 ≤ beta → ExactOnIntegers (2 * B) M.fl → NoStoredZero X →
      ∃ W, Float.itemKnnW M nth (.tversky alpha beta) s X T topK = .ok W ∧ ∀ i < X.cols, ∀ j < X.cols,
      Within u 6 (if i = j then 0 else tversky X.nrows alpha beta s (fun r => X.get r i) (fun r => X.get r j)) (W.get i j)) := by
  have hnn : NonNegative X → ∀ r, (∀ e ∈ (transpose X).row r, 0 ≤ e.2) ∧ NonNegative (transpose X) :=
    fun h r => ⟨row_nonneg (transpose_nonNegative h) r, transpose_nonNegative h⟩
  refine ⟨fun hn => ?_, fun hn => ?_, fun alpha h0 h1 hfl hn => ?_, fun hN hz => ?_, fun alpha beta h0 h1 hN hz => ?_⟩
  · exact item_within A hnth (.cosine true) trivial s hs X T topK hT hX (fun h => h.elim) hk B hB (hnn hn)
  · exact item_within A hnth (.cosine false) trivial s hs X T topK hT hX (fun h => h.elim) hk B hB (hnn hn)
  · exact item_within A hnth (.asymmetric alpha) ⟨h0, h1⟩ s hs X T topK hT hX (fun h => h.elim) hk B hB
      (fun r => ⟨hnn hn r, hfl⟩)
  · exact item_within A hnth .jaccard trivial s hs X T topK hT hX (fun _ => hz) hk B hB (fun _ => hN)
  · exact item_within A hnth (.tversky alpha beta) ⟨h0, h1⟩ s hs X T topK hT hX (fun _ => hz) hk B hB (fun _ => hN)

theorem user_within (A : Accurate u M) (hnth : NthOk nth) (kind : Kind) (hp : kind.paramsOk) (s : ℝ) (hs : 0 ≤ s) (X : CSR ℝ)
    (T topK : Nat) (hT : 1 ≤ T) (hX : Proper X) (hz : kind.onSets → NoStoredZero X) (hk : X.nrows ≤ topK) (B : Nat)
    (hB : RowsAtMost B X) (hf : ∀ r, Fits kind M B X (X.row r)) :
    ∃ U, Float.userKnnU M nth kind s X T topK = .ok U ∧ ∀ v < X.nrows, ∀ w < X.nrows,
      Within u (errors kind B) (if v = w then 0 else formula kind X.cols s (X.get v) (X.get w)) (U.get v w) := by
  obtain ⟨S, hS, h1, h2, h3⟩ := full_within A hnth kind s X X T 128 topK hX hX
    (fun h => ⟨hz h, hz h⟩) ⟨hs, hT, by norm_num, hp, rfl⟩ hk B hB hB hf
  obtain ⟨U, hU, h4, h5, h6, -⟩ := C30_remove_diagonal S (by rw [h1, h2])
  refine ⟨U, ?_, fun v hv w hw => ?_⟩
  · unfold Float.userKnnU; rw [hS]; exact hU
  · rw [h6]
    by_cases hij : v = w
    · rw [if_pos hij, if_pos hij]; exact within_refl A.unit A.small (le_refl _) _
    · rw [if_neg hij, if_neg hij]
      exact h3 v hv w hw

/-- C97: the same for the similarities between users, with `B` the largest number of items of a user. -/
theorem C97_user_similarity (A : Accurate u M) (hnth : NthOk nth) (s : ℝ) (hs : 0 ≤ s) (X : CSR ℝ) (hX : Proper X)
    (T topK : Nat) (hT : 1 ≤ T) (hk : X.nrows ≤ topK) (B : Nat) (hB : RowsAtMost B X) :
    (NonNegative X → ∃ U, Float.userKnnU M nth (.cosine true) s X T topK = .ok U ∧ ∀ v < X.nrows, ∀ w < X.nrows,
      Within u (3 * B + 6) (if v = w then 0 else cosine X.cols s (X.get v) (X.get w)) (U.get v w)) ∧
    (∀ alpha, 0 ≤ alpha → alpha ≤ 1 → M.fl (1 - alpha) = 1 - alpha → NonNegative X →
      ∃ U, Float.userKnnU M nth (.asymmetric alpha) s X T topK = .ok U ∧ ∀ v < X.nrows, ∀ w < X.nrows,
      Within u (3 * B + 6) (if v = w then 0 else asymmetric X.cols alpha s (X.get v) (X.get w)) (U.get v w)) := by
  have hnn : NonNegative X → ∀ r, (∀ e ∈ X.row r, 0 ≤ e.2) ∧ NonNegative X := fun h r => ⟨row_nonneg h r, h⟩
  refine ⟨fun hn => ?_, fun alpha h0 h1 hfl hn => ?_⟩
  · exact user_within A hnth (.cosine true) trivial s hs X T topK hT hX (fun h => h.elim) hk B hB (hnn hn)
  · exact user_within A hnth (.asymmetric alpha) ⟨h0, h1⟩ s hs X T topK hT hX (fun h => h.elim) hk B hB
      (fun r => ⟨hnn hn r, hfl⟩)

/-- C97: with truncation, the neighbours that are kept are the best up to rounding: a neighbour that is not
kept is at most `(1 - u)^(-2 d)` times as similar as any that is, where `d` is the number of roundings in
a normalised cosine. -/
theorem C97_top_k (A : Accurate u M) (hnth : NthOk nth) (s : ℝ) (hs : 0 ≤ s) (X target : CSR ℝ) (hX : Proper X)
    (ht : Proper target) (hc : target.cols = X.cols) (hnX : NonNegative X) (hnt : NonNegative target)
    (T chunk topK : Nat) (hT : 1 ≤ T) (hch : 1 ≤ chunk) (B : Nat) (hBX : RowsAtMost B X) (hBt : RowsAtMost B target) :
    ∃ R, Float.computeSimilarity M nth (.cosine true) s X target T chunk topK = .ok R ∧ ∀ r < target.nrows,
      (R.row r).length ≤ topK ∧
      (∀ j, j ∈ (R.row r).map Prod.fst →
        Within u (3 * B + 6) (cosine X.cols s (target.get r) (X.get j)) (R.get r j)) ∧
      ∀ j j', j ∈ (R.row r).map Prod.fst → j' ∉ (R.row r).map Prod.fst → j' < X.nrows →
        ((R.row r).length < topK → cosine X.cols s (target.get r) (X.get j') = 0) ∧
        (1 - u) ^ (2 * (3 * B + 6)) * cosine X.cols s (target.get r) (X.get j') ≤ cosine X.cols s (target.get r) (X.get j) := by
  classical
  have h : Accepted (.cosine true) s X target T chunk := ⟨hs, hT, hch, trivial, hc⟩
  refine ⟨_, fcompute_eq hnth (.cosine true) s X target T chunk topK h, fun r hr => ?_⟩
  set full := Float.simRow M (.cosine true) s X (target.row r) with hfull
  have hsort : Sorted X.nrows full := fsimRow_sorted _ s X (target.row r)
  have hrow : (CSR.mk X.nrows ((List.range target.nrows).map
      (fun r => bestOf topK (Float.simRow M (.cosine true) s X (target.row r))))).row r = bestOf topK full :=
    row_range _ _ _ hr
  have hw : ∀ j < X.nrows, Within u (3 * B + 6) (cosine X.cols s (target.get r) (X.get j)) (full.get j) := by
    intro j hj
    have e := simRow_get (.cosine true) s X hX (target.row r) (hc ▸ row_bound ht r) (row_nodup ht r)
      (fun hk => hk.elim) j hj
    have w := simRow_within A (.cosine true) trivial s hs X hX.2 (target.row r) (row_nodup ht r) B (row_length_le hBt r) hBX
      ⟨row_nonneg hnt r, hnX⟩ j hj
    rw [e] at w
    exact w
  have hsub := bestOf_sublist topK full
  have hval : ∀ e ∈ bestOf topK full, (bestOf topK full).get e.1 = e.2 ∧ full.get e.1 = e.2 ∧ e.1 < X.nrows := by
    intro e he
    exact ⟨get_of_mem _ (hsort.sublist hsub).nodup e he, get_of_mem _ hsort.nodup e (hsub.subset he), hsort.2 e (hsub.subset he)⟩
  have hget : ∀ j, (CSR.mk X.nrows ((List.range target.nrows).map
      (fun r => bestOf topK (Float.simRow M (.cosine true) s X (target.row r))))).get r j = (bestOf topK full).get j := by
    intro j
    unfold CSR.get
    rw [hrow]
  simp only [hget, hrow]
  have hlen : (bestOf topK full).length = min topK full.length := by
    rw [← truncRow_eq nth topK full hsort.nodup (fun hk => hnth topK full hk)]
    exact truncRow_length nth topK full (fun hk => hnth topK full hk)
  refine ⟨by rw [hlen]; exact min_le_left _ _, ?_, ?_⟩
  · intro j hj
    obtain ⟨e, he, rfl⟩ := List.mem_map.mp hj
    rw [(hval e he).1, ← (hval e he).2.1]
    exact hw e.1 (hval e he).2.2
  · intro j j' hj hj' hj'n
    obtain ⟨e, he, rfl⟩ := List.mem_map.mp hj
    have we := hw e.1 (hval e he).2.2
    have wj := hw j' hj'n
    have hzero : j' ∉ full.map Prod.fst → cosine X.cols s (target.get r) (X.get j') = 0 := by
      intro hf
      have h2 := wj.2.1
      rw [get_eq_zero full j' hf] at h2
      have hpos := (pow_bounds A.unit A.small (3 * B + 6)).1
      have h3 := wj.1
      have : cosine X.cols s (target.get r) (X.get j') ≤ 0 := by
        by_contra hc
        have := mul_pos hpos (not_le.mp hc)
        linarith
      exact le_antisymm this h3
    by_cases hf : j' ∈ full.map Prod.fst
    · obtain ⟨f, hff, rfl⟩ := List.mem_map.mp hf
      have hfn : f ∉ bestOf topK full := fun hc => hj' (List.mem_map.mpr ⟨f, hc, rfl⟩)
      have hfk : ¬ (full.countP (fun g => decide (better g f)) < topK) := by
        intro hc
        apply hfn
        unfold bestOf
        exact List.mem_filter.mpr ⟨hff, by simpa using hc⟩
      have hek : full.countP (fun g => decide (better g e)) < topK := by
        unfold bestOf at he
        simpa using (List.mem_filter.mp he).2
      refine ⟨fun hlt => ?_, ?_⟩
      · exfalso
        rw [hlen] at hlt
        have : full.countP (fun g => decide (better g f)) ≤ full.length := List.countP_le_length
        omega
      · have hle : f.2 ≤ e.2 := by
          by_contra hc
          have hlt := not_le.mp hc
          apply hfk
          refine lt_of_le_of_lt (List.countP_mono_left ?_) hek
          intro g _ hg
          have hg' : better g f := by simpa using hg
          have : better g e := by
            rcases hg' with hg' | ⟨hg', _⟩
            · left; linarith
            · left; rw [hg']; exact hlt
          simpa using this
        rw [(hval e he).2.1] at we
        rw [get_of_mem full hsort.nodup f hff] at wj
        have hp := (pow_bounds A.unit A.small (3 * B + 6)).1.le
        calc (1 - u) ^ (2 * (3 * B + 6)) * cosine X.cols s (target.get r) (X.get f.1)
            = (1 - u) ^ (3 * B + 6) * ((1 - u) ^ (3 * B + 6) * cosine X.cols s (target.get r) (X.get f.1)) := by
              rw [two_mul, pow_add]; ring
          _ ≤ (1 - u) ^ (3 * B + 6) * f.2 := mul_le_mul_of_nonneg_left wj.2.1 hp
          _ ≤ (1 - u) ^ (3 * B + 6) * e.2 := mul_le_mul_of_nonneg_left hle hp
          _ ≤ _ := we.2.2
    · refine ⟨fun _ => hzero hf, ?_⟩
      rw [hzero hf, mul_zero]
      exact we.1

/-! ### Walks -/

/-- the exact walk, as a product of the matrices that the code multiplies -/
theorem walk_exact (a b : ℝ) (X : CSR ℝ) (hX : Proper X) (hp : Positive X) (j i : Nat) (hj : j < X.cols) (hi : i < X.cols) :
    (productRow ((Sim.target a b (transpose X)).row i) (itemToUser a (transpose X))).get j =
      (∑ v ∈ Finset.range X.nrows, toUser a X j v * toItem a X v i) / Spec.Sim.popularity X i ^ b := by
  have hXt := transpose_proper X hX
  have hzt := transpose_noZero X (positive_noZero hp)
  have e := simRow_get .raw 0 (itemToUser a (transpose X)) (itemToUser_proper _ hXt a)
    ((Sim.target a b (transpose X)).row i) (row_bound (mapvals_proper _ hXt _) i) (row_nodup (mapvals_proper _ hXt _) i)
    (fun h => h.elim) j (by rw [itemToUser_nrows, transpose_nrows]; exact hj)
  change (productRow ((Sim.target a b (transpose X)).row i) (itemToUser a (transpose X))).get j = _ at e
  rw [e]
  change dot (transpose X).cols ((Sim.target a b (transpose X)).get i) ((itemToUser a (transpose X)).get j) = _
  unfold dot
  rw [Finset.sum_div, transpose_cols]
  apply Finset.sum_congr rfl
  intro v _
  rw [target_get _ hXt hzt, itemToUser_get _ hXt hzt]
  simp only [transpose_get X hX, transpose_nrows, transpose_cols]
  unfold toUser toItem Spec.Sim.popularity
  rw [div_mul_eq_div_div]
  ring

theorem walk_rows (hnth : NthOk nth) (a : ℝ) (X tgt : CSR ℝ) (T topK : Nat) (hT : 1 ≤ T)
    (htc : tgt.cols = X.cols) (htn : tgt.nrows = X.nrows) (hk : X.nrows ≤ topK) :
    ∃ R, Float.computeSimilarity M nth .raw 0 (Float.itemToUser M a X) tgt T 128 topK = .ok R ∧
      R.cols = X.nrows ∧ R.nrows = X.nrows ∧
      ∀ i < X.nrows, R.row i = Float.productRow M (tgt.row i) (Float.itemToUser M a X) := by
  have hn : (Float.itemToUser M a X).nrows = X.nrows := by simp [Float.itemToUser, CSR.nrows]
  refine ⟨_, fcompute_eq hnth .raw 0 _ tgt T 128 topK ⟨le_refl _, hT, by norm_num, trivial, htc⟩, hn,
    by simpa [CSR.nrows] using htn, fun i hi => ?_⟩
  rw [row_range _ _ _ (by rw [htn]; exact hi), bestOf_all]
  · rfl
  · have := (fsimRow_sorted (M := M) .raw 0 (Float.itemToUser M a X) (tgt.row i)).length_le
    rw [hn] at this
    exact this.trans hk

/-- C97: without truncation, the weights that P3alpha learns in double precision are the transition
probabilities of the walk up to `C + 2 B + 6` roundings, where no user has more than `C` items and no item
more than `B` users. -/
theorem C97_p3 (A : Accurate u M) (hnth : NthOk nth) (alpha : ℝ) (ha : 0 ≤ alpha) (X : CSR ℝ) (hX : Proper X)
    (hp : Positive X) (T : Nat) (hT : 1 ≤ T) (B C : Nat) (hB : ColumnsAtMost B X) (hC : RowsAtMost C X) :
    ∃ W, Float.p3Learn M nth alpha X none T = .ok W ∧ W.rows = X.cols ∧ W.cols.length = X.cols ∧
      ∀ j < X.cols, ∀ i < X.cols, Within u (C + 2 * B + 6)
        (∑ v ∈ Finset.range X.nrows, toUser alpha X j v * toItem alpha X v i) (W.get j i) := by
  obtain ⟨R, hR, hc, hn, hrow⟩ := walk_rows (M := M) hnth alpha (transpose X) (ftargetP M alpha (transpose X)) T X.cols hT rfl
    (by simp [ftargetP, CSR.nrows]) (by rw [transpose_nrows])
  rw [transpose_nrows] at hc hn hrow
  refine ⟨⟨R.cols, R.rows⟩, ?_, hc, hn, fun j hj i hi => ?_⟩
  · unfold Float.p3Learn Float.p3W
    rw [if_neg (not_lt.mpr ha)]
    unfold ftargetP at hR
    simp only [Option.getD_none, hR]
  · have w := walk_within A (transpose X) (transpose_positive X hp) alpha 0 B (C + 3) (transpose_rowsAtMost hB)
      (fun row e => M.fl (M.pow e.2 alpha / Float.userNorm M alpha (transpose X) e.1))
      (fun row hrow e he => toItem_entryP A alpha (transpose X) (transpose_positive X hp) C (transpose_columnsAtMost hC) row hrow e he)
      i j (by rw [transpose_nrows]; exact hi) (by rw [transpose_nrows]; exact hj)
    rw [walk_exact alpha 0 X hX hp j i hj hi, Real.rpow_zero, div_one] at w
    have e : CSC.get ⟨R.cols, R.rows⟩ j i = (R.row i).get j := rfl
    rw [e, hrow i hi]
    exact within_mono A.unit A.small (by omega) w

/-- C97: RP3beta divides by the `beta`-th power of the popularity, which takes `B ⌈beta⌉ + 2` roundings more. -/
theorem C97_rp3 (A : Accurate u M) (hnth : NthOk nth) (alpha beta : ℝ) (ha : 0 ≤ alpha) (hb : 0 ≤ beta) (X : CSR ℝ)
    (hX : Proper X) (hp : Positive X) (T : Nat) (hT : 1 ≤ T) (B C : Nat) (hB : ColumnsAtMost B X) (hC : RowsAtMost C X) :
    ∃ W, Float.rp3Learn M nth alpha beta X none T = .ok W ∧ W.rows = X.cols ∧ W.cols.length = X.cols ∧
      ∀ j < X.cols, ∀ i < X.cols, Within u (C + 2 * B + 6 + (B * ⌈beta⌉₊ + 2))
        ((∑ v ∈ Finset.range X.nrows, toUser alpha X j v * toItem alpha X v i) / Spec.Sim.popularity X i ^ beta) (W.get j i) := by
  obtain ⟨R, hR, hc, hn, hrow⟩ := walk_rows (M := M) hnth alpha (transpose X) (ftarget M alpha beta (transpose X)) T X.cols hT rfl
    (by simp [ftarget, CSR.nrows]) (by rw [transpose_nrows])
  rw [transpose_nrows] at hc hn hrow
  refine ⟨⟨R.cols, R.rows⟩, ?_, hc, hn, fun j hj i hi => ?_⟩
  · unfold Float.rp3Learn Float.rp3W
    rw [if_neg (by push Not; exact ⟨ha, hb⟩)]
    unfold ftarget at hR
    simp only [Option.getD_none, hR]
  · have w := walk_within A (transpose X) (transpose_positive X hp) alpha beta B (C + B * ⌈beta⌉₊ + 5) (transpose_rowsAtMost hB)
      (fun row e => M.fl (M.pow e.2 alpha / M.fl (Float.userNorm M alpha (transpose X) e.1 * M.pow (Float.rowTotal M row) beta)))
      (fun row hrow e he => toItem_entry A alpha beta hb ⌈beta⌉₊ (Nat.le_ceil beta) (transpose X) (transpose_positive X hp) B C
        (transpose_rowsAtMost hB) (transpose_columnsAtMost hC) row hrow e he)
      i j (by rw [transpose_nrows]; exact hi) (by rw [transpose_nrows]; exact hj)
    rw [walk_exact alpha beta X hX hp j i hj hi] at w
    have e : CSC.get ⟨R.cols, R.rows⟩ j i = (R.row i).get j := rfl
    rw [e, hrow i hi]
    exact within_mono A.unit A.small (by omega) w

/-! ### Scores -/

theorem sparseDot_within (A : Accurate u M) (row : SpVec ℝ) (hr : ∀ e ∈ row, 0 ≤ e.2) (n : Nat) (hn : ∀ e ∈ row, e.1 < n)
    (stored : Nat → Bool) (w wh : Nat → ℝ) (d : Nat) (hw : ∀ i < n, Within u d (w i) (wh i))
    (hst : ∀ i < n, stored i = false → wh i = 0) (C : Nat) (hC : row.length ≤ C) :
    Within u (d + C) (∑ i ∈ Finset.range n, row.get i * w i) (Float.sparseDot M row stored wh) := by
  rw [← sum_stored row n hn w]
  unfold Float.sparseDot
  have h1 : (row.map (fun e => e.2 * w e.1)).sum = ((row.filter (fun e => stored e.1)).map (fun e => e.2 * w e.1)).sum := by
    clear hC
    induction row with
    | nil => rfl
    | cons e row ih =>
      have ih' := ih (fun e he => hr e (List.mem_cons_of_mem _ he)) (fun e he => hn e (List.mem_cons_of_mem _ he))
      rw [List.map_cons, List.sum_cons, ih', List.filter_cons]
      by_cases hs : stored e.1 = true
      · rw [if_pos hs, List.map_cons, List.sum_cons]
      · rw [if_neg hs]
        have hen := hn e List.mem_cons_self
        have h2 := hw e.1 hen
        rw [hst e.1 hen (by simpa using hs)] at h2
        have hpos := (pow_bounds A.unit A.small d).1
        have : w e.1 = 0 := by
          refine le_antisymm ?_ h2.1
          by_contra hc
          have := mul_pos hpos (not_le.mp hc)
          linarith [h2.2.1]
        rw [this, mul_zero, zero_add]
  rw [h1]
  refine total_within A _ _ _ d ?_ C ((List.length_filter_le _ _).trans hC)
  intro e he
  have he' := List.mem_of_mem_filter he
  have := within_mul A.unit A.small (within_refl A.unit A.small (hr e he') 0) (hw e.1 (hn e he'))
  rwa [Nat.zero_add] at this

theorem not_stored (v : SpVec ℝ) (j : Nat) (h : v.any (fun f => decide (f.1 = j)) = false) : v.get j = 0 := by
  apply get_eq_zero
  intro hm
  obtain ⟨f, hf, hfe⟩ := List.mem_map.mp hm
  have := List.any_eq_false.mp h f hf
  simp [hfe] at this

/-- C97: so the scores of a cosine recommender and of P3alpha are the documented ones up to rounding: a score of
a user with at most `C` items takes `C` roundings more than the similarities. -/
theorem C97_scores (A : Accurate u M) (hnth : NthOk nth) (X : CSR ℝ) (hX : Proper X) (hp : Positive X) (T : Nat) (hT : 1 ≤ T)
    (B C : Nat) (hB : ColumnsAtMost B X) (hC : RowsAtMost C X) :
    (∀ s, 0 ≤ s → ∀ topK, X.cols ≤ topK → ∃ W, Float.itemKnnW M nth (.cosine true) s X T topK = .ok W ∧
      ∀ v < X.nrows, ∀ j < X.cols, Within u (3 * B + 6 + C)
        (∑ i ∈ Finset.range X.cols, X.get v i *
          (if i = j then 0 else cosine X.nrows s (fun r => X.get r i) (fun r => X.get r j))) (Float.itemScore M X W v j)) ∧
    (∀ alpha, 0 ≤ alpha → ∃ W, Float.p3Learn M nth alpha X none T = .ok W ∧
      ∀ v < X.nrows, ∀ j < X.cols, Within u (2 * C + 2 * B + 6)
        (∑ i ∈ Finset.range X.cols, X.get v i *
          ∑ w ∈ Finset.range X.nrows, toUser alpha X i w * toItem alpha X w j) (Float.walkScore M X W v j)) := by
  constructor
  · intro s hs topK hk
    obtain ⟨W, hW, h⟩ := (C97_item_similarity A hnth s hs X hX T topK hT hk B hB).1 (positive_nonneg hp)
    refine ⟨W, hW, fun v hv j hj => ?_⟩
    exact sparseDot_within A (X.row v) (row_nonneg (positive_nonneg hp) v) X.cols (row_bound hX v) _
      (fun i => if i = j then 0 else cosine X.nrows s (fun r => X.get r i) (fun r => X.get r j))
      (fun i => W.get i j) _ (fun i hi => h i hi j hj) (fun i _ hst => not_stored _ _ hst) C (row_length_le hC v)
  · intro alpha ha
    obtain ⟨W, hW, -, -, h⟩ := C97_p3 A hnth alpha ha X hX hp T hT B C hB hC
    refine ⟨W, hW, fun v hv j hj => ?_⟩
    have := sparseDot_within A (X.row v) (row_nonneg (positive_nonneg hp) v) X.cols (row_bound hX v)
      (fun i => (W.cols.getD j []).any (fun f => decide (f.1 = i)))
      (fun i => ∑ w ∈ Finset.range X.nrows, toUser alpha X i w * toItem alpha X w j)
      (fun i => W.get i j) _ (fun i hi => h i hi j hj) (fun i _ hst => not_stored _ _ hst) C (row_length_le hC v)
    exact within_mono A.unit A.small (by omega) this

/-- C97: counts are not rounded.  If the stored values are natural numbers and the items' totals do not exceed
the integers that are represented exactly, `TopPopRecommender` scores every item with its exact total. -/
theorem C97_toppop (A : Accurate u M) (N : Nat) (hN : ExactOnIntegers N M.fl) (X : CSR ℝ)
    (hint : ∀ row ∈ X.rows, ∀ e ∈ row, ∃ n : Nat, e.2 = n) (j : Nat) (h : Spec.Sim.popularity X j ≤ N) :
    Float.popularity M X j = Spec.Sim.popularity X j := by
  have e : (X.rows.flatMap (fun row => (row.filter (fun e => decide (e.1 = j))).map Prod.snd)).sum = Spec.Sim.popularity X j := by
    rw [List.flatMap_def, List.sum_flatten, List.map_map]
    unfold Spec.Sim.popularity CSR.get
    rw [← sum_rows_range X (fun row => row.get j)]
    congr 1
  unfold Float.popularity
  rw [(total_exact A hN _ (by
    intro x hx
    obtain ⟨row, hrow, hx⟩ := List.mem_flatMap.mp hx
    obtain ⟨f, hf, rfl⟩ := List.mem_map.mp hx
    exact hint row hrow f (List.mem_of_mem_filter hf)) (by rw [e]; exact h)).1, e]

/-! ### The hypotheses are met -/

/-- Double precision: every result is the exact one rounded to nearest, sums run from left to right. -/
noncomputable def doubleSim : Float.Machine where
  fl := toNearest 53
  sqrt := fun c => toNearest 53 (Real.sqrt c)
  pow := fun x y => toNearest 53 (x ^ y)
  total := fun l => match l with
    | [] => 0
    | x :: l => l.foldl (fun a y => toNearest 53 (a + toNearest 53 y)) (toNearest 53 x)

theorem doubleSim_fold (l : List ℝ) : ∀ (s : Multiset ℝ) (a : ℝ), SummedBy (toNearest 53) s a →
    SummedBy (toNearest 53) (s + ↑l) (l.foldl (fun a y => toNearest 53 (a + toNearest 53 y)) a) := by
  induction l with
  | nil => intro s a h; simpa using h
  | cons y l ih =>
    intro s a h
    have := ih (s + {y}) _ (SummedBy.add s {y} a (toNearest 53 y) h (SummedBy.rounded y))
    rw [add_assoc, Multiset.singleton_add, Multiset.cons_coe] at this
    exact this

theorem doubleSim_accurate : Accurate (2 ^ (-(53 : ℕ) : ℤ)) doubleSim where
  unit := by positivity
  small := by norm_num
  rounds := toNearest_rounds 53
  sqrt := fun c _ => by
    have := toNearest_rounds 53 (Real.sqrt c)
    rwa [abs_of_nonneg (Real.sqrt_nonneg c)] at this
  pow := fun x y hx => by
    have := toNearest_rounds 53 (x ^ y)
    rwa [abs_of_nonneg (Real.rpow_nonneg hx y)] at this
  empty := rfl
  total := fun l hl => by
    cases l with
    | nil => exact absurd rfl hl
    | cons x l =>
      have := doubleSim_fold l {x} (toNearest 53 x) (SummedBy.rounded x)
      rw [Multiset.singleton_add, Multiset.cons_coe] at this
      exact this

/-- Three users, three items. -/
def exampleFloat : CSR ℝ := ⟨3, [[(0, 1), (1, 2)], [(0, 3), (2, 1)], [(1, 1), (2, 5)]]⟩

theorem exampleFloat_ok : Proper exampleFloat ∧ Positive exampleFloat ∧ RowsAtMost 2 exampleFloat ∧
    ColumnsAtMost 2 exampleFloat := by
  refine ⟨⟨?_, ?_⟩, ?_, ?_, ?_⟩
  · intro row hr e he; simp [exampleFloat] at hr ⊢
    rcases hr with rfl | rfl | rfl <;> simp at he <;> rcases he with rfl | rfl <;> norm_num
  · intro row hr; simp [exampleFloat] at hr; rcases hr with rfl | rfl | rfl <;> simp
  · intro row hr e he; simp [exampleFloat] at hr
    rcases hr with rfl | rfl | rfl <;> simp at he <;> rcases he with rfl | rfl <;> norm_num
  · intro row hr; simp [exampleFloat] at hr; rcases hr with rfl | rfl | rfl <;> simp
  · intro j
    simp only [exampleFloat, List.map_cons, List.map_nil, List.countP_cons, List.countP_nil, List.sum_cons, List.sum_nil,
      decide_eq_true_eq]
    split_ifs <;> omega

/-- On three users and items, the cosine similarities computed by eight threads in double precision are off by
at most the fraction `2^-49`. -/
example : ∃ W, Float.itemKnnW doubleSim sortNth (.cosine true) 0 exampleFloat 8 3 = .ok W ∧ ∀ i < 3, ∀ j < 3, i ≠ j →
    |W.get i j - cosine 3 0 (fun r => exampleFloat.get r i) (fun r => exampleFloat.get r j)| ≤
      2 ^ (-49 : ℤ) * cosine 3 0 (fun r => exampleFloat.get r i) (fun r => exampleFloat.get r j) := by
  obtain ⟨h1, h2, -, h4⟩ := exampleFloat_ok
  obtain ⟨W, hW, h⟩ := (C97_item_similarity doubleSim_accurate sortNth_ok 0 (le_refl _) exampleFloat h1 8 3 (by norm_num)
    (le_refl _) 2 h4).1 (positive_nonneg h2)
  refine ⟨W, hW, fun i hi j hj hij => ?_⟩
  have w := h i hi j hj
  rw [if_neg hij] at w
  have := C97_relative_error (by positivity) (3 * 2 + 6) (by norm_num) w
  refine this.trans (mul_le_mul_of_nonneg_right ?_ w.1)
  norm_num

/-- The scores of the same matrix, and P3alpha. -/
example : ∃ W, Float.p3Learn doubleSim sortNth 1 exampleFloat none 8 = .ok W ∧ ∀ j < 3, ∀ i < 3,
    Within (2 ^ (-(53 : ℕ) : ℤ)) 12 (∑ v ∈ Finset.range 3, toUser 1 exampleFloat j v * toItem 1 exampleFloat v i) (W.get j i) := by
  obtain ⟨h1, h2, h3, h4⟩ := exampleFloat_ok
  obtain ⟨W, hW, -, -, h⟩ := C97_p3 doubleSim_accurate sortNth_ok 1 (by norm_num) exampleFloat h1 h2 8 (by norm_num) 2 2 h4 h3
  exact ⟨W, hW, h⟩

/-- Counts up to `2^53` are exact. -/
example : Float.popularity doubleSim exampleFloat 0 = 4 := by
  have h0 : Spec.Sim.popularity exampleFloat 0 = 4 := by
    simp [Spec.Sim.popularity, exampleFloat, CSR.nrows, CSR.get, CSR.row, SpVec.get, Finset.sum_range_succ]
    norm_num
  rw [C97_toppop doubleSim_accurate (2 ^ 53) (toNearest_exactOnIntegers 53 (by norm_num)) exampleFloat ?_ 0 ?_, h0]
  · intro row hr e he; simp [exampleFloat] at hr
    rcases hr with rfl | rfl | rfl <;> simp at he <;> rcases he with rfl | rfl
    · exact ⟨1, by norm_num⟩
    · exact ⟨2, by norm_num⟩
    · exact ⟨3, by norm_num⟩
    · exact ⟨1, by norm_num⟩
    · exact ⟨1, by norm_num⟩
    · exact ⟨5, by norm_num⟩
  · rw [h0]; norm_num

end Irspack.Props
