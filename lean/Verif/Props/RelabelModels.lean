import Verif.Props.SimRecommender
import Verif.Props.Ease
import Verif.Props.SlimConverge
import Verif.Props.Score
import Verif.Proofs.Relabel

/-!
# C87: models learnt from the same interactions under other numbers
-/

namespace Irspack.Props
open Sim Spec.Sim RecClasses Spec.Relabel

variable {nth : Nat → SpVec ℝ → List Nat}

/-! ### sums over renamed users -/

section
variable {n : Nat} {p : Nat → Nat}

theorem dot_rename (hp : Renames n p) {v w v' w' : Nat → ℝ} (hv : ∀ i, i < n → v' (p i) = v i)
    (hw : ∀ i, i < n → w' (p i) = w i) : dot n v' w' = dot n v w := by
  unfold dot
  exact (hp.sum _ _ (fun i hi => by rw [hv i hi, hw i hi])).symm

theorem l2norm_rename (hp : Renames n p) {v v' : Nat → ℝ} (hv : ∀ i, i < n → v' (p i) = v i) :
    l2norm n v' = l2norm n v := by
  unfold l2norm; rw [dot_rename hp hv hv]

theorem cosine_rename (hp : Renames n p) (s : ℝ) {v w v' w' : Nat → ℝ} (hv : ∀ i, i < n → v' (p i) = v i)
    (hw : ∀ i, i < n → w' (p i) = w i) : cosine n s v' w' = cosine n s v w := by
  unfold cosine; rw [dot_rename hp hv hw, l2norm_rename hp hv, l2norm_rename hp hw]

theorem asymmetric_rename (hp : Renames n p) (a s : ℝ) {v w v' w' : Nat → ℝ} (hv : ∀ i, i < n → v' (p i) = v i)
    (hw : ∀ i, i < n → w' (p i) = w i) : asymmetric n a s v' w' = asymmetric n a s v w := by
  unfold asymmetric; rw [dot_rename hp hv hw, l2norm_rename hp hv, l2norm_rename hp hw]

theorem support_rename (hp : Renames n p) {v v' : Nat → ℝ} (hv : ∀ i, i < n → v' (p i) = v i) :
    support n v' = (support n v).image p := by
  ext j
  simp only [support, Finset.mem_filter, Finset.mem_range, Finset.mem_image]
  constructor
  · rintro ⟨hj, h⟩
    obtain ⟨i, hi, rfl⟩ := hp.surj j hj
    exact ⟨i, ⟨hi, by rwa [hv i hi] at h⟩, rfl⟩
  · rintro ⟨i, ⟨hi, h⟩, rfl⟩
    exact ⟨hp.bound i hi, by rwa [hv i hi]⟩

theorem support_lt {v : Nat → ℝ} {i : Nat} (h : i ∈ support n v) : i < n := by
  simp only [support, Finset.mem_filter, Finset.mem_range] at h; exact h.1

theorem card_rename (hp : Renames n p) {v w v' w' : Nat → ℝ} (hv : ∀ i, i < n → v' (p i) = v i)
    (hw : ∀ i, i < n → w' (p i) = w i) :
    (support n v' ∩ support n w').card = (support n v ∩ support n w).card ∧
    (support n v' ∪ support n w').card = (support n v ∪ support n w).card ∧
    (support n v' \ support n w').card = (support n v \ support n w).card ∧
    (support n w' \ support n v').card = (support n w \ support n v).card := by
  have hinj : Set.InjOn p (support n v ∪ support n w : Finset Nat) := by
    intro a ha b hb hab
    have h1 : ∀ x, x ∈ (support n v ∪ support n w : Finset Nat) → x < n := by
      intro x hx
      rcases Finset.mem_union.mp hx with h | h
      · exact support_lt h
      · exact support_lt h
    exact hp.inj a b (h1 a ha) (h1 b hb) hab
  have sub1 : (support n v : Finset Nat) ⊆ support n v ∪ support n w := Finset.subset_union_left
  have sub2 : (support n w : Finset Nat) ⊆ support n v ∪ support n w := Finset.subset_union_right
  have e1 := support_rename hp hv
  have e2 := support_rename hp hw
  have c1 : (support n v').card = (support n v).card := by
    rw [e1]; exact Finset.card_image_of_injOn (hinj.mono (by exact_mod_cast sub1))
  have c2 : (support n w').card = (support n w).card := by
    rw [e2]; exact Finset.card_image_of_injOn (hinj.mono (by exact_mod_cast sub2))
  have c3 : (support n v' ∪ support n w').card = (support n v ∪ support n w).card := by
    rw [e1, e2, ← Finset.image_union]
    exact Finset.card_image_of_injOn hinj
  have k1 := Finset.card_union_add_card_inter (support n v') (support n w')
  have k2 := Finset.card_union_add_card_inter (support n v) (support n w)
  have k3 := Finset.card_sdiff_add_card (support n v') (support n w')
  have k4 := Finset.card_sdiff_add_card (support n v) (support n w)
  have k5 := Finset.card_sdiff_add_card (support n w') (support n v')
  have k6 := Finset.card_sdiff_add_card (support n w) (support n v)
  rw [Finset.union_comm] at k5 k6
  refine ⟨?_, c3, ?_, ?_⟩ <;> omega

theorem jaccard_rename (hp : Renames n p) (s : ℝ) {v w v' w' : Nat → ℝ} (hv : ∀ i, i < n → v' (p i) = v i)
    (hw : ∀ i, i < n → w' (p i) = w i) : jaccard n s v' w' = jaccard n s v w := by
  obtain ⟨h1, h2, -, -⟩ := card_rename hp hv hw
  unfold jaccard; rw [h1, h2]

theorem tversky_rename (hp : Renames n p) (a b s : ℝ) {v w v' w' : Nat → ℝ} (hv : ∀ i, i < n → v' (p i) = v i)
    (hw : ∀ i, i < n → w' (p i) = w i) : tversky n a b s v' w' = tversky n a b s v w := by
  obtain ⟨h1, -, h3, h4⟩ := card_rename hp hv hw
  unfold tversky; rw [h1, h3, h4]

end

/-! ### feature weights -/

section
variable {X X' : CSR ℝ} {σ π : Nat → Nat}

theorem frequency_rename (h : Renamed X X' σ π) (i : Nat) (hi : i < X.cols) :
    frequency X' (π i) = frequency X i := by
  have e : ∀ Y : CSR ℝ, ∀ j, frequency Y j = ∑ r ∈ Finset.range Y.nrows, if Y.get r j ≠ 0 then 1 else 0 := by
    intro Y j; unfold frequency; rw [Finset.card_filter]
  rw [e, e, h.users]
  exact (h.renamesUsers.sum _ _ (fun u hu => by rw [h.entries u i hu hi])).symm

theorem length_rename (h : Renamed X X' σ π) (u : Nat) (hu : u < X.nrows) :
    Spec.Sim.length X' (σ u) = Spec.Sim.length X u := by
  unfold Spec.Sim.length
  rw [h.items]
  exact (h.renamesItems.sum _ _ (fun i hi => by rw [h.entries u i hu hi])).symm

theorem apply_rename (h : Renamed X X' σ π) (hX : Proper X) (hX' : Proper X') (hp : Positive X) (hp' : Positive X')
    (w : Weighting) (u i : Nat) (hu : u < X.nrows) (hi : i < X.cols) :
    (w.apply X').get (σ u) (π i) = (w.apply X).get u i := by
  have hm : (∑ r ∈ Finset.range X'.nrows, Spec.Sim.length X' r) / (X'.nrows : ℝ) =
      (∑ r ∈ Finset.range X.nrows, Spec.Sim.length X r) / (X.nrows : ℝ) := by
    rw [h.users]
    congr 1
    exact (h.renamesUsers.sum _ _ (fun u hu => (length_rename h u hu).symm)).symm
  have hx := h.entries u i hu hi
  cases w with
  | none => exact hx
  | tfIdf =>
    rw [(C82_feature_weighting X' hX' hp' (σ u) (π i) 0 0 _ rfl).2.1,
      (C82_feature_weighting X hX hp u i 0 0 _ rfl).2.1, hx, h.users, frequency_rename h i hi]
  | bm25 k1 b =>
    obtain ⟨-, -, a1, a2⟩ := C82_feature_weighting X' hX' hp' (σ u) (π i) k1 b _ rfl
    obtain ⟨-, -, b1, b2⟩ := C82_feature_weighting X hX hp u i k1 b _ rfl
    by_cases h0 : X.get u i = 0
    · rw [b1 h0, a1 (by rw [hx, h0])]
    · rw [b2 h0, a2 (by rw [hx]; exact h0), hx, h.users, frequency_rename h i hi, length_rename h u hu, ← hm, h.users]

end

/-! ### the learnt matrices -/

/-- C87 (`CosineKNNRecommender`).  With `top_k` not smaller than the number of
items, the weights learnt from renamed interactions are the renamed weights, for every feature weighting. -/
theorem C87_cosine_items (hnth : NthOk nth) (e e' : Env) {X X' : CSR ℝ} {σ π : Nat → Nat} (h : Renamed X X' σ π)
    (hX : Proper X) (hX' : Proper X') (hp : Positive X) (hp' : Positive X')
    (given : Args) (s : ℚ) (b : Bool) (k T T' : Nat) (w : Weighting)
    (hn : Only given ["shrinkage", "normalize", "top_k", "feature_weighting", "bm25_k1", "bm25_b", "n_threads"])
    (hs : Argument given "shrinkage" (.num 0) (.num s))
    (hb : Argument given "normalize" (.bool false) (.bool b)) (hk : Argument given "top_k" (.num 100) (.num k))
    (hw : WeightingIs given w) (hT : ThreadsAre e given T) (hT' : ThreadsAre e' given T') (hs0 : 0 ≤ s) (hT1 : 1 ≤ T)
    (hT1' : 1 ≤ T') (hc : X.cols ≤ k) :
    ∃ W W', cosineKnnFit nth e X given = .ok W ∧ cosineKnnFit nth e' X' given = .ok W' ∧
      ∀ i j, i < X.cols → j < X.cols → W'.get (π i) (π j) = W.get i j := by
  obtain ⟨W, h1, -, -, -, h2⟩ := C82_cosine_items hnth e X hX (positive_noZero hp) given s b k T w hn hs hb hk hw hT hs0 hT1
  obtain ⟨W', h1', -, -, -, h2'⟩ :=
    C82_cosine_items hnth e' X' hX' (positive_noZero hp') given s b k T' w hn hs hb hk hw hT' hs0 hT1'
  refine ⟨W, W', h1, h1', fun i j hi hj => ?_⟩
  have hij : π i = π j ↔ i = j := ⟨h.renamesItems.inj i j hi hj, fun e => by rw [e]⟩
  rw [h2 hc i hi j hj, h2' (by rw [h.items]; exact hc) _ (by rw [h.items]; exact h.renamesItems.bound i hi) _
    (by rw [h.items]; exact h.renamesItems.bound j hj), h.users]
  simp only [hij]
  rw [cosine_rename h.renamesUsers s (fun u hu => h.entries u i hu hi)
      (fun u hu => apply_rename h hX hX' hp hp' w u j hu hj),
    dot_rename h.renamesUsers (fun u hu => h.entries u i hu hi)
      (fun u hu => apply_rename h hX hX' hp hp' w u j hu hj)]

/-- C87 (`AsymmetricCosineKNNRecommender`). -/
theorem C87_asymmetric_items (hnth : NthOk nth) (e e' : Env) {X X' : CSR ℝ} {σ π : Nat → Nat} (h : Renamed X X' σ π)
    (hX : Proper X) (hX' : Proper X') (hp : Positive X) (hp' : Positive X')
    (given : Args) (s a : ℚ) (k T T' : Nat) (w : Weighting)
    (hn : Only given ["shrinkage", "alpha", "top_k", "feature_weighting", "bm25_k1", "bm25_b", "n_threads"])
    (hs : Argument given "shrinkage" (.num 0) (.num s))
    (ha : Argument given "alpha" (.num (1 / 2)) (.num a)) (hk : Argument given "top_k" (.num 100) (.num k))
    (hw : WeightingIs given w) (hT : ThreadsAre e given T) (hT' : ThreadsAre e' given T') (hs0 : 0 ≤ s)
    (ha0 : 0 ≤ a) (ha1 : a ≤ 1) (hT1 : 1 ≤ T) (hT1' : 1 ≤ T') (hc : X.cols ≤ k) :
    ∃ W W', asymmetricKnnFit nth e X given = .ok W ∧ asymmetricKnnFit nth e' X' given = .ok W' ∧
      ∀ i j, i < X.cols → j < X.cols → W'.get (π i) (π j) = W.get i j := by
  obtain ⟨W, h1, -, -, -, h2⟩ :=
    C82_asymmetric_items hnth e X hX (positive_noZero hp) given s a k T w hn hs ha hk hw hT hs0 ha0 ha1 hT1
  obtain ⟨W', h1', -, -, -, h2'⟩ :=
    C82_asymmetric_items hnth e' X' hX' (positive_noZero hp') given s a k T' w hn hs ha hk hw hT' hs0 ha0 ha1 hT1'
  refine ⟨W, W', h1, h1', fun i j hi hj => ?_⟩
  have hij : π i = π j ↔ i = j := ⟨h.renamesItems.inj i j hi hj, fun e => by rw [e]⟩
  rw [h2 hc i hi j hj, h2' (by rw [h.items]; exact hc) _ (by rw [h.items]; exact h.renamesItems.bound i hi) _
    (by rw [h.items]; exact h.renamesItems.bound j hj), h.users]
  simp only [hij]
  rw [asymmetric_rename h.renamesUsers a s (fun u hu => h.entries u i hu hi)
      (fun u hu => apply_rename h hX hX' hp hp' w u j hu hj)]

/-- C87 (`JaccardKNNRecommender`).  Stored values need not be positive. -/
theorem C87_jaccard_items (hnth : NthOk nth) (e e' : Env) {X X' : CSR ℝ} {σ π : Nat → Nat} (h : Renamed X X' σ π)
    (hX : Proper X) (hX' : Proper X') (hz : NoStoredZero X) (hz' : NoStoredZero X')
    (given : Args) (s : ℚ) (k T T' : Nat) (hn : Only given ["shrinkage", "top_k", "n_threads"])
    (hs : Argument given "shrinkage" (.num 0) (.num s)) (hk : Argument given "top_k" (.num 100) (.num k))
    (hT : ThreadsAre e given T) (hT' : ThreadsAre e' given T') (hs0 : 0 ≤ s) (hT1 : 1 ≤ T) (hT1' : 1 ≤ T')
    (hc : X.cols ≤ k) :
    ∃ W W', jaccardKnnFit nth e X given = .ok W ∧ jaccardKnnFit nth e' X' given = .ok W' ∧
      ∀ i j, i < X.cols → j < X.cols → W'.get (π i) (π j) = W.get i j := by
  obtain ⟨W, h1, -, -, -, h2⟩ := C82_jaccard_items hnth e X hX hz given s k T hn hs hk hT hs0 hT1
  obtain ⟨W', h1', -, -, -, h2'⟩ := C82_jaccard_items hnth e' X' hX' hz' given s k T' hn hs hk hT' hs0 hT1'
  refine ⟨W, W', h1, h1', fun i j hi hj => ?_⟩
  have hij : π i = π j ↔ i = j := ⟨h.renamesItems.inj i j hi hj, fun e => by rw [e]⟩
  rw [h2 hc i hi j hj, h2' (by rw [h.items]; exact hc) _ (by rw [h.items]; exact h.renamesItems.bound i hi) _
    (by rw [h.items]; exact h.renamesItems.bound j hj), h.users]
  simp only [hij]
  rw [jaccard_rename h.renamesUsers s (fun u hu => h.entries u i hu hi) (fun u hu => h.entries u j hu hj)]

/-- C87 (`TverskyIndexKNNRecommender`).  Stored values need not be positive. -/
theorem C87_tversky_items (hnth : NthOk nth) (e e' : Env) {X X' : CSR ℝ} {σ π : Nat → Nat} (h : Renamed X X' σ π)
    (hX : Proper X) (hX' : Proper X') (hz : NoStoredZero X) (hz' : NoStoredZero X')
    (given : Args) (s a b : ℚ) (k T T' : Nat)
    (hn : Only given ["shrinkage", "alpha", "beta", "top_k", "n_threads"])
    (hs : Argument given "shrinkage" (.num 0) (.num s)) (ha : Argument given "alpha" (.num (1 / 2)) (.num a))
    (hb : Argument given "beta" (.num (1 / 2)) (.num b)) (hk : Argument given "top_k" (.num 100) (.num k))
    (hT : ThreadsAre e given T) (hT' : ThreadsAre e' given T') (hs0 : 0 ≤ s) (ha0 : 0 ≤ a) (hb0 : 0 ≤ b)
    (hT1 : 1 ≤ T) (hT1' : 1 ≤ T') (hc : X.cols ≤ k) :
    ∃ W W', tverskyKnnFit nth e X given = .ok W ∧ tverskyKnnFit nth e' X' given = .ok W' ∧
      ∀ i j, i < X.cols → j < X.cols → W'.get (π i) (π j) = W.get i j := by
  obtain ⟨W, h1, -, -, -, h2⟩ := C82_tversky_items hnth e X hX hz given s a b k T hn hs ha hb hk hT hs0 ha0 hb0 hT1
  obtain ⟨W', h1', -, -, -, h2'⟩ :=
    C82_tversky_items hnth e' X' hX' hz' given s a b k T' hn hs ha hb hk hT' hs0 ha0 hb0 hT1'
  refine ⟨W, W', h1, h1', fun i j hi hj => ?_⟩
  have hij : π i = π j ↔ i = j := ⟨h.renamesItems.inj i j hi hj, fun e => by rw [e]⟩
  rw [h2 hc i hi j hj, h2' (by rw [h.items]; exact hc) _ (by rw [h.items]; exact h.renamesItems.bound i hi) _
    (by rw [h.items]; exact h.renamesItems.bound j hj), h.users]
  simp only [hij]
  rw [tversky_rename h.renamesUsers a b s (fun u hu => h.entries u i hu hi) (fun u hu => h.entries u j hu hj)]

/-- C87 (`CosineUserKNNRecommender`): the learnt matrix is between users. -/
theorem C87_cosine_users (hnth : NthOk nth) (e e' : Env) {X X' : CSR ℝ} {σ π : Nat → Nat} (h : Renamed X X' σ π)
    (hX : Proper X) (hX' : Proper X') (hp : Positive X) (hp' : Positive X')
    (given : Args) (s : ℚ) (b : Bool) (k T T' : Nat) (w : Weighting)
    (hn : Only given ["shrinkage", "normalize", "top_k", "feature_weighting", "bm25_k1", "bm25_b", "n_threads"])
    (hs : Argument given "shrinkage" (.num 0) (.num s))
    (hb : Argument given "normalize" (.bool true) (.bool b)) (hk : Argument given "top_k" (.num 100) (.num k))
    (hw : WeightingIs given w) (hT : ThreadsAre e given T) (hT' : ThreadsAre e' given T') (hs0 : 0 ≤ s) (hT1 : 1 ≤ T)
    (hT1' : 1 ≤ T') (hc : X.nrows ≤ k) :
    ∃ U U', cosineUserKnnFit nth e X given = .ok U ∧ cosineUserKnnFit nth e' X' given = .ok U' ∧
      ∀ u v, u < X.nrows → v < X.nrows → U'.get (σ u) (σ v) = U.get u v := by
  obtain ⟨W, h1, -, -, -, h2⟩ := C82_cosine_users hnth e X hX given s b k T w hn hs hb hk hw hT hs0 hT1
  obtain ⟨W', h1', -, -, -, h2'⟩ := C82_cosine_users hnth e' X' hX' given s b k T' w hn hs hb hk hw hT' hs0 hT1'
  refine ⟨W, W', h1, h1', fun i j hi hj => ?_⟩
  have hij : σ i = σ j ↔ i = j := ⟨h.renamesUsers.inj i j hi hj, fun e => by rw [e]⟩
  rw [h2 hc i hi j hj, h2' (by rw [h.users]; exact hc) _ (by rw [h.users]; exact h.renamesUsers.bound i hi) _
    (by rw [h.users]; exact h.renamesUsers.bound j hj), h.items]
  simp only [hij]
  rw [cosine_rename h.renamesItems s (fun u hu => h.entries i u hi hu)
      (fun u hu => apply_rename h hX hX' hp hp' w j u hj hu),
    dot_rename h.renamesItems (fun u hu => h.entries i u hi hu)
      (fun u hu => apply_rename h hX hX' hp hp' w j u hj hu)]

/-- C87 (`AsymmetricCosineUserKNNRecommender`). -/
theorem C87_asymmetric_users (hnth : NthOk nth) (e e' : Env) {X X' : CSR ℝ} {σ π : Nat → Nat} (h : Renamed X X' σ π)
    (hX : Proper X) (hX' : Proper X') (hp : Positive X) (hp' : Positive X')
    (given : Args) (s a : ℚ) (k T T' : Nat) (w : Weighting)
    (hn : Only given ["shrinkage", "alpha", "top_k", "feature_weighting", "bm25_k1", "bm25_b", "n_threads"])
    (hs : Argument given "shrinkage" (.num 0) (.num s))
    (ha : Argument given "alpha" (.num (1 / 2)) (.num a)) (hk : Argument given "top_k" (.num 100) (.num k))
    (hw : WeightingIs given w) (hT : ThreadsAre e given T) (hT' : ThreadsAre e' given T') (hs0 : 0 ≤ s)
    (ha0 : 0 ≤ a) (ha1 : a ≤ 1) (hT1 : 1 ≤ T) (hT1' : 1 ≤ T') (hc : X.nrows ≤ k) :
    ∃ U U', asymmetricUserKnnFit nth e X given = .ok U ∧ asymmetricUserKnnFit nth e' X' given = .ok U' ∧
      ∀ u v, u < X.nrows → v < X.nrows → U'.get (σ u) (σ v) = U.get u v := by
  obtain ⟨W, h1, -, -, -, h2⟩ := C82_asymmetric_users hnth e X hX given s a k T w hn hs ha hk hw hT hs0 ha0 ha1 hT1
  obtain ⟨W', h1', -, -, -, h2'⟩ :=
    C82_asymmetric_users hnth e' X' hX' given s a k T' w hn hs ha hk hw hT' hs0 ha0 ha1 hT1'
  refine ⟨W, W', h1, h1', fun i j hi hj => ?_⟩
  have hij : σ i = σ j ↔ i = j := ⟨h.renamesUsers.inj i j hi hj, fun e => by rw [e]⟩
  rw [h2 hc i hi j hj, h2' (by rw [h.users]; exact hc) _ (by rw [h.users]; exact h.renamesUsers.bound i hi) _
    (by rw [h.users]; exact h.renamesUsers.bound j hj), h.items]
  simp only [hij]
  rw [asymmetric_rename h.renamesItems a s (fun u hu => h.entries i u hi hu)
      (fun u hu => apply_rename h hX hX' hp hp' w j u hj hu)]

/-! ### random walks -/

section
variable {X X' : CSR ℝ} {σ π : Nat → Nat}

theorem toUser_rename (h : Renamed X X' σ π) (a : ℝ) (i u : Nat) (hi : i < X.cols) (hu : u < X.nrows) :
    toUser a X' (π i) (σ u) = toUser a X i u := by
  unfold toUser
  rw [h.entries u i hu hi, h.users]
  congr 1
  exact (h.renamesUsers.sum _ _ (fun v hv => by rw [h.entries v i hv hi])).symm

theorem toItem_rename (h : Renamed X X' σ π) (a : ℝ) (u i : Nat) (hu : u < X.nrows) (hi : i < X.cols) :
    toItem a X' (σ u) (π i) = toItem a X u i := by
  unfold toItem
  rw [h.entries u i hu hi, h.items]
  congr 1
  exact (h.renamesItems.sum _ _ (fun j hj => by rw [h.entries u j hu hj])).symm

theorem popularity_rename (h : Renamed X X' σ π) (i : Nat) (hi : i < X.cols) : popularity X' (π i) = popularity X i := by
  unfold popularity
  rw [h.users]
  exact (h.renamesUsers.sum _ _ (fun v hv => by rw [h.entries v i hv hi])).symm

theorem walk_rename (h : Renamed X X' σ π) (a : ℝ) (i j : Nat) (hi : i < X.cols) (hj : j < X.cols) :
    ∑ u ∈ Finset.range X'.nrows, toUser a X' (π j) u * toItem a X' u (π i) =
      ∑ u ∈ Finset.range X.nrows, toUser a X j u * toItem a X u i := by
  rw [h.users]
  exact (h.renamesUsers.sum _ _ (fun u hu => by rw [toUser_rename h a j u hj hu, toItem_rename h a u i hu hi])).symm

/-- the last step of the random walks, without `top_k` -/
theorem walk_weights (h : Renamed X X' σ π) {full V W full' V' W' : CSC ℝ} {b : Bool}
    (hf : ∀ i j, i < X.cols → j < X.cols → full'.get (π j) (π i) = full.get j i)
    (hV : ∀ i, V.cols.getD i [] = keepBest none (full.cols.getD i []))
    (hV' : ∀ i, V'.cols.getD i [] = keepBest none (full'.cols.getD i []))
    (hW : ∀ j i, W.get j i = if b then V.get j i / ∑ i' ∈ Finset.range X.cols, V.get j i' else V.get j i)
    (hW' : ∀ j i, W'.get j i = if b then V'.get j i / ∑ i' ∈ Finset.range X'.cols, V'.get j i' else V'.get j i)
    (i j : Nat) (hi : i < X.cols) (hj : j < X.cols) : W'.get (π j) (π i) = W.get j i := by
  have e : ∀ j i, V.get j i = full.get j i := by intro j i; unfold CSC.get; rw [hV]; rfl
  have e' : ∀ j i, V'.get j i = full'.get j i := by intro j i; unfold CSC.get; rw [hV']; rfl
  rw [hW, hW']
  simp only [e, e']
  rw [hf i j hi hj, h.items, ← h.renamesItems.sum (fun i => full.get j i) (fun i => full'.get (π j) i)
    (fun k hk => (hf k j hk hj).symm)]

end

/-- C87 (`P3alphaRecommender` with `top_k=None`), with and without normalised weights. -/
theorem C87_p3 (hnth : NthOk nth) (e e' : Env) {X X' : CSR ℝ} {σ π : Nat → Nat} (h : Renamed X X' σ π)
    (hX : Proper X) (hX' : Proper X') (hp : Positive X) (hp' : Positive X') (given : Args)
    (a : ℚ) (b : Bool) (T T' : Nat)
    (hn : Only given ["alpha", "top_k", "normalize_weight", "n_threads"])
    (ha : Argument given "alpha" (.num 1) (.num a)) (hk : Argument given "top_k" .none .none)
    (hb : Argument given "normalize_weight" (.bool false) (.bool b)) (hT : ThreadsAre e given T)
    (hT' : ThreadsAre e' given T') (ha0 : 0 ≤ a) (hT1 : 1 ≤ T) (hT1' : 1 ≤ T') :
    ∃ W W', p3Fit nth e X given = .ok W ∧ p3Fit nth e' X' given = .ok W' ∧
      ∀ i j, i < X.cols → j < X.cols → W'.get (π j) (π i) = W.get j i := by
  obtain ⟨full, V, W, h1, h2, h3, -, -, h4⟩ := C82_p3 hnth e X hX hp given a b none T hn ha hk hb hT ha0 hT1
  obtain ⟨full', V', W', h1', h2', h3', -, -, h4'⟩ :=
    C82_p3 hnth e' X' hX' hp' given a b none T' hn ha hk hb hT' ha0 hT1'
  refine ⟨W, W', h3, h3', walk_weights h (fun i j hi hj => ?_) h2 h2' h4 h4'⟩
  rw [h1 j hj i hi, h1' _ (by rw [h.items]; exact h.renamesItems.bound j hj) _
    (by rw [h.items]; exact h.renamesItems.bound i hi), walk_rename h a i j hi hj]

/-- C87 (`RP3betaRecommender` with `top_k=None`), with and without normalised weights. -/
theorem C87_rp3 (hnth : NthOk nth) (e e' : Env) {X X' : CSR ℝ} {σ π : Nat → Nat} (h : Renamed X X' σ π)
    (hX : Proper X) (hX' : Proper X') (hp : Positive X) (hp' : Positive X') (given : Args)
    (a be : ℚ) (b : Bool) (T T' : Nat)
    (hn : Only given ["alpha", "beta", "top_k", "normalize_weight", "n_threads"])
    (ha : Argument given "alpha" (.num 1) (.num a)) (hbe : Argument given "beta" (.num (3 / 5)) (.num be))
    (hk : Argument given "top_k" .none .none)
    (hb : Argument given "normalize_weight" (.bool false) (.bool b)) (hT : ThreadsAre e given T)
    (hT' : ThreadsAre e' given T') (ha0 : 0 ≤ a) (hb0 : 0 ≤ be) (hT1 : 1 ≤ T) (hT1' : 1 ≤ T') :
    ∃ W W', rp3Fit nth e X given = .ok W ∧ rp3Fit nth e' X' given = .ok W' ∧
      ∀ i j, i < X.cols → j < X.cols → W'.get (π j) (π i) = W.get j i := by
  obtain ⟨full, V, W, h1, h2, h3, -, -, h4⟩ :=
    C82_rp3 hnth e X hX hp given a be b none T hn ha hbe hk hb hT ha0 hb0 hT1
  obtain ⟨full', V', W', h1', h2', h3', -, -, h4'⟩ :=
    C82_rp3 hnth e' X' hX' hp' given a be b none T' hn ha hbe hk hb hT' ha0 hb0 hT1'
  refine ⟨W, W', h3, h3', walk_weights h (fun i j hi hj => ?_) h2 h2' h4 h4'⟩
  rw [h1 j hj i hi, h1' _ (by rw [h.items]; exact h.renamesItems.bound j hj) _
    (by rw [h.items]; exact h.renamesItems.bound i hi), walk_rename h a i j hi hj, popularity_rename h i hi]

/-! ### DenseSLIM, EDLAE, SLIM -/

section
open Ease Matrix
variable {K : Type} [Field K] {U F : Nat}

theorem gram_rename (X : Matrix (Fin U) (Fin F) K) (σ : Equiv.Perm (Fin U)) (π : Equiv.Perm (Fin F)) :
    gram (X.submatrix σ π) = (gram X).submatrix π π := by
  unfold gram
  rw [transpose_submatrix, submatrix_mul_equiv]

theorem solve_rename (P : Matrix (Fin F) (Fin F) K) (lamb : Fin F → K) (π : Equiv.Perm (Fin F)) :
    Ease.solve (P.submatrix π π) (fun i => lamb (π i)) = (Ease.solve P lamb).map (fun W => W.submatrix π π) := by
  have hA : P.submatrix π π + diagonal (fun i => lamb (π i)) = (P + diagonal lamb).submatrix π π := by
    rw [submatrix_add]
    simp only [Pi.add_apply]
    congr 1
    exact (submatrix_diagonal_equiv lamb π).symm
  unfold Ease.solve
  simp only
  rw [hA, det_submatrix_equiv_self, inv_submatrix_equiv]
  have hex : (∃ j, ((P + diagonal lamb)⁻¹.submatrix π π) j j = 0) ↔ ∃ j, (P + diagonal lamb)⁻¹ j j = 0 := by
    constructor
    · rintro ⟨j, h⟩; exact ⟨π j, h⟩
    · rintro ⟨j, h⟩; exact ⟨π.symm j, by simpa using h⟩
  by_cases h1 : IsUnit (P + diagonal lamb).det
  · rw [if_pos h1, if_pos h1]
    by_cases h2 : ∃ j, (P + diagonal lamb)⁻¹ j j = 0
    · rw [if_pos (hex.mpr h2), if_pos h2]; rfl
    · rw [if_neg (fun h => h2 (hex.mp h)), if_neg h2]
      simp only [Except.map]
      congr 1
      ext i j
      show (if i = j then 0 else _) = if π i = π j then 0 else _
      simp only [submatrix_apply, π.injective.eq_iff]
  · rw [if_neg h1, if_neg h1]; rfl

/-- C87 (`DenseSLIMRecommender`).  The weights learnt from renamed interactions are the renamed weights, for every
data matrix and every `reg`; errors are the same. -/
theorem C87_dense_slim (X : Matrix (Fin U) (Fin F) K) (reg : K) (σ : Equiv.Perm (Fin U)) (π : Equiv.Perm (Fin F)) :
    Ease.denseSlim (fun u i => X (σ u) (π i)) reg = (Ease.denseSlim X reg).map (fun W i j => W (π i) (π j)) := by
  have := solve_rename (gram X) (fun _ => reg) π
  rw [← gram_rename X σ π] at this
  exact this

/-- C87 (`EDLAERecommender`). -/
theorem C87_edlae (X : Matrix (Fin U) (Fin F) K) (reg p : K) (σ : Equiv.Perm (Fin U)) (π : Equiv.Perm (Fin F)) :
    Ease.edlae (fun u i => X (σ u) (π i)) reg p = (Ease.edlae X reg p).map (fun W i j => W (π i) (π j)) := by
  have hg : gram (fun u i => X (σ u) (π i)) = (gram X).submatrix π π := gram_rename X σ π
  unfold Ease.edlae
  simp only
  by_cases h : 1 - p = 0
  · rw [if_pos h, if_pos h]; rfl
  · rw [if_neg h, if_neg h, hg]
    exact solve_rename (gram X) (fun i => p / (1 - p) * gram X i i + reg) π

end

section
open Spec.Slim

theorem documentedLoss_rename {A A' B B' : Nat → Nat → ℝ} {U F : Nat} {σ π : Nat → Nat} (hσ : Renames U σ)
    (hπ : Renames F π) (hA : ∀ u i, u < U → i < F → A' (σ u) (π i) = A u i)
    (hB : ∀ f j, f < F → j < F → B' (π f) (π j) = B f j) (α l : ℝ) :
    documentedLoss A' U F α l B' = documentedLoss A U F α l B := by
  unfold documentedLoss
  have e1 : ∑ u ∈ Finset.range U, ∑ j ∈ Finset.range F, (A' u j - ∑ f ∈ Finset.range F, A' u f * B' f j) ^ 2 =
      ∑ u ∈ Finset.range U, ∑ j ∈ Finset.range F, (A u j - ∑ f ∈ Finset.range F, A u f * B f j) ^ 2 := by
    refine (hσ.sum _ _ (fun u hu => hπ.sum _ _ (fun j hj => ?_))).symm
    rw [hA u j hu hj]
    congr 2
    exact hπ.sum _ _ (fun f hf => by rw [hA u f hu hf, hB f j hf hj])
  have e2 : ∑ f ∈ Finset.range F, ∑ j ∈ Finset.range F, B' f j ^ 2 =
      ∑ f ∈ Finset.range F, ∑ j ∈ Finset.range F, B f j ^ 2 :=
    (hπ.sum _ _ (fun f hf => hπ.sum _ _ (fun j hj => by rw [hB f j hf hj]))).symm
  have e3 : ∑ f ∈ Finset.range F, ∑ j ∈ Finset.range F, |B' f j| =
      ∑ f ∈ Finset.range F, ∑ j ∈ Finset.range F, |B f j| :=
    (hπ.sum _ _ (fun f hf => hπ.sum _ _ (fun j hj => by rw [hB f j hf hj]))).symm
  rw [e1, e2, e3]

/-- C87 (`SLIMRecommender`).  The solutions of the documented problems for interactions and renamed interactions,
which the learnt weights approach in either case (C86), are each other's renaming. -/
theorem C87_slim_solution (X X' : CSC ℝ) (hU : 0 < X.rows) (hrows : X'.rows = X.rows)
    (hcols : X'.cols.length = X.cols.length) {σ π : Nat → Nat} (hσ : Renames X.rows σ) (hπ : Renames X.cols.length π)
    (hX : ∀ u i, u < X.rows → i < X.cols.length → X'.get (σ u) (π i) = X.get u i)
    (α l1Ratio : ℝ) (hα : 0 < α) (hl0 : 0 ≤ l1Ratio) (hl1 : l1Ratio < 1) (positiveOnly : Bool)
    (B B' : Nat → Nat → ℝ) (hB : Optimal positiveOnly X.get X.rows X.cols.length α l1Ratio B)
    (hB' : Optimal positiveOnly X'.get X'.rows X'.cols.length α l1Ratio B')
    (f j : Nat) (hf : f < X.cols.length) (hj : j < X.cols.length) : B' (π f) (π j) = B f j := by
  obtain ⟨q, hq, hqp, hpq⟩ := hπ.inverse
  rw [hrows, hcols] at hB'
  refine (C86_optimum X hU α l1Ratio hα hl0 hl1 positiveOnly).2 (fun f j => B' (π f) (π j)) B ⟨?_, ?_⟩ hB f j hf hj
  · intro j hj
    obtain ⟨h1, h2⟩ := hB'.1 (π j) (hπ.bound j hj)
    exact ⟨h1, fun hp f hf => h2 hp (π f) (hπ.bound f hf)⟩
  · intro C hC
    have hle := hB'.2 (fun f j => C (q f) (q j)) (fun j hj => by
      obtain ⟨h1, h2⟩ := hC (q j) (hq.bound j hj)
      exact ⟨h1, fun hp f hf => h2 hp (q f) (hq.bound f hf)⟩)
    rw [documentedLoss_rename hσ hπ hX (B := fun f j => B' (π f) (π j)) (fun _ _ _ _ => rfl) α l1Ratio,
      documentedLoss_rename hσ hπ hX (B := C) (fun f j hf hj => by
        show C (q (π f)) (q (π j)) = C f j
        rw [hqp f hf, hqp j hj]) α l1Ratio] at hle
    exact hle

end

/-! ### scores -/

section
open Score Spec.Score

/-- C87 (scores). If the interactions and the learnt item weights are renamed, so are the scores of each user. -/
theorem C87_item_scores {X X' : CSR ℝ} {σ π : Nat → Nat} (h : Renamed X X' σ π) (hX : X.WF) (hX' : X'.WF)
    (W W' : Dense ℝ) (hW : W.rows.length = X.cols) (hW' : W'.rows.length = X.cols)
    (hWW : ∀ i j, i < X.cols → j < X.cols → W'.get (π i) (π j) = W.get i j) (u : Nat) (hu : u < X.nrows) :
    ∃ row row', (similarity X (some W)).getScore [(u : Int)] = .ok ⟨W.cols, [row]⟩ ∧
      (similarity X' (some W')).getScore [(σ u : Int)] = .ok ⟨W'.cols, [row']⟩ ∧
      ∀ j, j < X.cols → row' (π j) = row j := by
  refine ⟨_, _, C50_similarity_score X hX W hW _ [u] (.cons ⟨hu, .inl rfl⟩ .nil),
    C50_similarity_score X' hX' W' (by rw [hW', h.items]) _ [σ u]
      (.cons ⟨by rw [h.users]; exact h.renamesUsers.bound u hu, .inl rfl⟩ .nil), fun j hj => ?_⟩
  unfold itemBased
  rw [h.items]
  exact (h.renamesItems.sum _ _ (fun i hi => by rw [h.entries u i hu hi, hWW i j hi hj])).symm

/-- C87 (scores). If the interactions and the learnt user weights are renamed, so are the scores of each user. -/
theorem C87_user_scores {X X' : CSR ℝ} {σ π : Nat → Nat} (h : Renamed X X' σ π)
    (U U' : CSR ℝ) (hU : U.WF) (hU' : U'.WF) (hn : U.nrows = X.nrows) (hc : U.cols = X.nrows)
    (hn' : U'.nrows = X.nrows) (hc' : U'.cols = X.nrows)
    (hUU : ∀ u v, u < X.nrows → v < X.nrows → U'.get (σ u) (σ v) = U.get u v) (u : Nat) (hu : u < X.nrows) :
    ∃ row row', (userSimilarity X (some U)).getScore [(u : Int)] = .ok ⟨X.cols, [row]⟩ ∧
      (userSimilarity X' (some U')).getScore [(σ u : Int)] = .ok ⟨X.cols, [row']⟩ ∧
      ∀ j, j < X.cols → row' (π j) = row j := by
  obtain ⟨⟨c, rs⟩, h1, h2, h3⟩ := (C50_user_similarity X U hU hn hc).1 [(u : Int)] [u] (.cons ⟨hu, .inl rfl⟩ .nil)
  obtain ⟨⟨c', rs'⟩, h1', h2', h3'⟩ := (C50_user_similarity X' U' hU' (by rw [hn', h.users]) (by rw [hc', h.users])).1
    [(σ u : Int)] [σ u] (.cons ⟨by rw [h.users]; exact h.renamesUsers.bound u hu, .inl rfl⟩ .nil)
  simp only at h2 h3 h2' h3'
  subst h2 h3
  rw [h2', h3', h.items] at h1'
  refine ⟨_, _, h1, h1', fun j hj => ?_⟩
  unfold userBased
  rw [hc, hc']
  exact (h.renamesUsers.sum _ _ (fun v hv => by rw [hUU u v hu hv, h.entries v j hv hj])).symm

/-- C87 (`TopPopRecommender`). -/
theorem C87_top_pop {X X' : CSR ℝ} {σ π : Nat → Nat} (h : Renamed X X' σ π) (j : Nat) (hj : j < X.cols) :
    Score.popularity X' (π j) = Score.popularity X j := by
  rw [(C50_top_pop X').1, (C50_top_pop X).1, h.users]
  exact (h.renamesUsers.sum _ _ (fun u hu => by rw [h.entries u j hu hj])).symm

end

/-! ### The hypotheses are met -/

/-- `exampleWalk` with its two users and its two items exchanged, entries stored in another order -/
def exampleWalk' : CSR ℝ := ⟨2, [[(1, 1)], [(1, 1), (0, 1)]]⟩

theorem exampleWalk_renamed : Renamed exampleWalk exampleWalk' (fun u => 1 - u) (fun i => 1 - i) := by
  have hr : Renames 2 (fun u => 1 - u) :=
    ⟨fun i hi => by show 1 - i < 2; omega, fun i j hi hj e => by have : 1 - i = 1 - j := e; omega⟩
  refine ⟨rfl, rfl, hr, hr, fun u i hu hi => ?_⟩
  have hu : u < 2 := hu
  have hi : i < 2 := hi
  have hu' : u = 0 ∨ u = 1 := by omega
  have hi' : i = 0 ∨ i = 1 := by omega
  rcases hu' with rfl | rfl <;> rcases hi' with rfl | rfl <;>
    simp [exampleWalk, exampleWalk', CSR.get, CSR.row, SpVec.get]

theorem exampleWalk'_ok : Proper exampleWalk' ∧ Positive exampleWalk' := by
  refine ⟨⟨?_, ?_⟩, ?_⟩
  · intro row hr e he; simp [exampleWalk'] at hr; rcases hr with rfl | rfl <;> simp at he
    · subst he; simp [exampleWalk']
    · rcases he with rfl | rfl <;> simp [exampleWalk']
  · intro row hr; simp [exampleWalk'] at hr; rcases hr with rfl | rfl <;> simp
  · intro row hr e he; simp [exampleWalk'] at hr; rcases hr with rfl | rfl <;> simp at he
    · subst he; norm_num
    · rcases he with rfl | rfl <;> norm_num

/-- BM25 weights, a shrinkage, the other arguments left out; the two processes have different numbers of threads. -/
example : ∃ W W',
    cosineKnnFit sortNth exampleEnv2 exampleWalk [("feature_weighting", .str "BM_25"), ("shrinkage", .num 2)] = .ok W ∧
    cosineKnnFit sortNth { exampleEnv2 with cpus := some 3 } exampleWalk'
      [("feature_weighting", .str "BM_25"), ("shrinkage", .num 2)] = .ok W' ∧ W'.get 0 1 = W.get 1 0 := by
  obtain ⟨W, W', h1, h2, h3⟩ := C87_cosine_items sortNth_ok exampleEnv2 { exampleEnv2 with cpus := some 3 }
    exampleWalk_renamed exampleWalk_ok.1 exampleWalk'_ok.1 exampleWalk_ok.2 exampleWalk'_ok.2
    [("feature_weighting", .str "BM_25"), ("shrinkage", .num 2)] 2 false 100 2 3
    (.bm25 ((6 / 5 : ℚ) : ℝ) ((3 / 4 : ℚ) : ℝ))
    (by intro a ha; simp at ha; rcases ha with rfl | rfl <;> simp)
    (.inl rfl) (.inr ⟨rfl, rfl⟩) (.inr ⟨rfl, by norm_num⟩)
    (.inr (.inr ⟨.inl rfl, 6 / 5, 3 / 4, .inr ⟨rfl, rfl⟩, .inr ⟨rfl, rfl⟩, rfl⟩))
    (.inr ⟨.inr ⟨rfl, rfl⟩, rfl⟩) (.inr ⟨.inr ⟨rfl, rfl⟩, rfl⟩) (by norm_num) (by norm_num) (by norm_num)
    (by simp [exampleWalk])
  exact ⟨W, W', h1, h2, h3 1 0 (by simp [exampleWalk]) (by simp [exampleWalk])⟩

end Irspack.Props
