import Verif.Proofs.Influence
import Verif.Props.Separate

/-!
# C98: what one user can change for the others
-/

namespace Irspack.Props

open RecClasses Sim Score Spec.Sim Spec.Score Spec.Influence

variable {nth : Nat → SpVec ℝ → List Nat}

theorem get_unused {X : CSR ℝ} {v i : Nat} (h : Unused X v i) : X.get v i = 0 := get_of_not_mem _ _ h

theorem used_of_get {X : CSR ℝ} {u i : Nat} (h : X.get u i ≠ 0) : ∃ e ∈ X.row u, e.1 = i := by
  by_contra hc
  push Not at hc
  exact h (get_of_not_mem _ _ hc)

theorem differ_get {X X' : CSR ℝ} {v u : Nat} (h : DifferAt X X' v) (hu : u ≠ v) (i : Nat) : X'.get u i = X.get u i := by
  unfold CSR.get
  rw [h.others u hu]

/-! ## Item-based recommenders -/

theorem item_scores_untouched {X X' : CSR ℝ} {v u : Nat} (h : DifferAt X X' v) (hX : X.WF) (hX' : X'.WF) (W W' : Dense ℝ)
    (hW : W.rows.length = X.cols) (hW' : W'.rows.length = X.cols) (hc : W.cols = X.cols) (hc' : W'.cols = X.cols)
    (hu : u < X.nrows) (huv : u ≠ v) (seen : Nat → Prop) (h1 : Strangers X u v) (h2 : Strangers X' u v)
    (hin : ∀ i j, i < X.cols → j < X.cols → Unused X v i → Unused X' v i → seen j → W'.get i j = W.get i j) :
    SameScores (similarity X (some W)) (similarity X' (some W')) u seen := by
  refine ⟨X.cols, itemBased X W.get u, itemBased X' W'.get u, ?_, ?_, fun j hj hs => ?_⟩
  · rw [C50_similarity_score X hX W hW _ [u] (.cons ⟨hu, .inl rfl⟩ .nil), hc]; rfl
  · rw [C50_similarity_score X' hX' W' (by rw [hW', h.cols]) _ [u] (.cons ⟨by rw [h.nrows]; exact hu, .inl rfl⟩ .nil), hc']
    rfl
  · unfold itemBased
    rw [h.cols]
    refine Finset.sum_congr rfl (fun i hi => ?_)
    rw [differ_get h huv]
    by_cases h0 : X.get u i = 0
    · rw [h0, zero_mul, zero_mul]
    · obtain ⟨e, he, rfl⟩ := used_of_get h0
      rw [hin e.1 j (Finset.mem_range.mp hi) hj (h1 e he) (h2 e (by rw [h.others u huv]; exact he)) hs]

theorem csr_untouched {X X' W W' : CSR ℝ} {v u : Nat} (h : DifferAt X X' v) (hX : X.WF) (hX' : X'.WF)
    (hn : W.nrows = X.cols) (hc : W.cols = X.cols) (hn' : W'.nrows = X.cols) (hc' : W'.cols = X.cols)
    (hu : u < X.nrows) (huv : u ≠ v) (h1 : Strangers X u v) (h2 : Strangers X' u v)
    (hW : ∀ i j, Unused X v i → Unused X' v i → Unused X v j → Unused X' v j → W'.get i j = W.get i j) :
    SameScores (similarity X (some (toDense W))) (similarity X' (some (toDense W'))) u (fun j => Unused X v j ∧ Unused X' v j) := by
  refine item_scores_untouched h hX hX' _ _ (by rw [toDense_length, hn]) (by rw [toDense_length, hn']) hc hc' hu huv _ h1 h2
    (fun i j hi hj hi1 hi2 hs => ?_)
  rw [toDense_get _ _ _ (by rw [hn']; exact hi), toDense_get _ _ _ (by rw [hn]; exact hi)]
  exact hW i j hi1 hi2 hs.1 hs.2

/-- C98 (`CosineKNNRecommender`, no feature weighting or TF-IDF, with `top_k` at least the number of items): what user `v` does has no effect on the similarity of items
`v` has used neither before nor after, nor on the scores of such items for users who have no item in common with `v`. -/
theorem C98_cosine_items (hnth : NthOk nth) (e : Env) (X X' : CSR ℝ) (hX : X.WF) (hX' : X'.WF) (v : Nat) (h : DifferAt X X' v)
    (given : Args) (s : ℚ) (b : Bool) (k T : Nat) (w : Weighting)
    (hn : Only given ["shrinkage", "normalize", "top_k", "feature_weighting", "bm25_k1", "bm25_b", "n_threads"])
    (hs : Argument given "shrinkage" (.num 0) (.num s))
    (hb : Argument given "normalize" (.bool false) (.bool b)) (hk : Argument given "top_k" (.num 100) (.num k))
    (hw : WeightingIs given w) (hw2 : w = .none ∨ w = .tfIdf) (hT : ThreadsAre e given T) (hs0 : 0 ≤ s) (hT1 : 1 ≤ T)  (hbig : X.cols ≤ k) :
    ∃ W W', cosineKnnFit nth e X given = .ok W ∧ cosineKnnFit nth e X' given = .ok W' ∧
      (∀ i j, Unused X v i → Unused X' v i → Unused X v j → Unused X' v j → W'.get i j = W.get i j) ∧
      ∀ u, u < X.nrows → u ≠ v → Strangers X u v → Strangers X' u v →
        SameScores (similarity X (some (toDense W))) (similarity X' (some (toDense W'))) u (fun j => Unused X v j ∧ Unused X' v j) := by
  obtain ⟨W, W', h1, h2, h3, h4, h5, h6, h7⟩ := itemKnnW_untouched hnth w (by rcases hw2 with rfl | rfl <;> trivial) (.cosine b) s (by exact_mod_cast hs0) trivial h T k hT1 hbig
  exact ⟨W, W', by rw [cosineKnnFit_eq e X given s b k T w hn hs hb hk hw hT, h1], by rw [cosineKnnFit_eq e X' given s b k T w hn hs hb hk hw hT, h2], h7,
    fun u hu huv s1 s2 => csr_untouched h hX hX' h3 h4 h5 h6 hu huv s1 s2 h7⟩

/-- C98 (`AsymmetricCosineKNNRecommender`, no feature weighting or TF-IDF, with `top_k` at least the number of items): what user `v` does has no effect on the similarity of items
`v` has used neither before nor after, nor on the scores of such items for users who have no item in common with `v`. -/
theorem C98_asymmetric_items (hnth : NthOk nth) (e : Env) (X X' : CSR ℝ) (hX : X.WF) (hX' : X'.WF) (v : Nat) (h : DifferAt X X' v)
    (given : Args) (s a : ℚ) (k T : Nat) (w : Weighting)
    (hn : Only given ["shrinkage", "alpha", "top_k", "feature_weighting", "bm25_k1", "bm25_b", "n_threads"])
    (hs : Argument given "shrinkage" (.num 0) (.num s))
    (ha : Argument given "alpha" (.num (1 / 2)) (.num a)) (hk : Argument given "top_k" (.num 100) (.num k))
    (hw : WeightingIs given w) (hw2 : w = .none ∨ w = .tfIdf) (hT : ThreadsAre e given T) (hs0 : 0 ≤ s)
    (ha0 : 0 ≤ a) (ha1 : a ≤ 1) (hT1 : 1 ≤ T)  (hbig : X.cols ≤ k) :
    ∃ W W', asymmetricKnnFit nth e X given = .ok W ∧ asymmetricKnnFit nth e X' given = .ok W' ∧
      (∀ i j, Unused X v i → Unused X' v i → Unused X v j → Unused X' v j → W'.get i j = W.get i j) ∧
      ∀ u, u < X.nrows → u ≠ v → Strangers X u v → Strangers X' u v →
        SameScores (similarity X (some (toDense W))) (similarity X' (some (toDense W'))) u (fun j => Unused X v j ∧ Unused X' v j) := by
  obtain ⟨W, W', h1, h2, h3, h4, h5, h6, h7⟩ := itemKnnW_untouched hnth w (by rcases hw2 with rfl | rfl <;> trivial) (.asymmetric a) s (by exact_mod_cast hs0) ⟨by exact_mod_cast ha0, by exact_mod_cast ha1⟩ h T k hT1 hbig
  exact ⟨W, W', by rw [asymmetricKnnFit_eq e X given s a k T w hn hs ha hk hw hT, h1], by rw [asymmetricKnnFit_eq e X' given s a k T w hn hs ha hk hw hT, h2], h7,
    fun u hu huv s1 s2 => csr_untouched h hX hX' h3 h4 h5 h6 hu huv s1 s2 h7⟩

/-- C98 (`JaccardKNNRecommender`, with `top_k` at least the number of items): what user `v` does has no effect on the similarity of items
`v` has used neither before nor after, nor on the scores of such items for users who have no item in common with `v`. -/
theorem C98_jaccard_items (hnth : NthOk nth) (e : Env) (X X' : CSR ℝ) (hX : X.WF) (hX' : X'.WF) (v : Nat) (h : DifferAt X X' v)
    (given : Args) (s : ℚ) (k T : Nat) (hn : Only given ["shrinkage", "top_k", "n_threads"])
    (hs : Argument given "shrinkage" (.num 0) (.num s)) (hk : Argument given "top_k" (.num 100) (.num k))
    (hT : ThreadsAre e given T) (hs0 : 0 ≤ s) (hT1 : 1 ≤ T)  (hbig : X.cols ≤ k) :
    ∃ W W', jaccardKnnFit nth e X given = .ok W ∧ jaccardKnnFit nth e X' given = .ok W' ∧
      (∀ i j, Unused X v i → Unused X' v i → Unused X v j → Unused X' v j → W'.get i j = W.get i j) ∧
      ∀ u, u < X.nrows → u ≠ v → Strangers X u v → Strangers X' u v →
        SameScores (similarity X (some (toDense W))) (similarity X' (some (toDense W'))) u (fun j => Unused X v j ∧ Unused X' v j) := by
  obtain ⟨W, W', h1, h2, h3, h4, h5, h6, h7⟩ := itemKnnW_untouched hnth .none trivial .jaccard s (by exact_mod_cast hs0) trivial h T k hT1 hbig
  exact ⟨W, W', by rw [jaccardKnnFit_eq e X given s k T hn hs hk hT, h1], by rw [jaccardKnnFit_eq e X' given s k T hn hs hk hT, h2], h7,
    fun u hu huv s1 s2 => csr_untouched h hX hX' h3 h4 h5 h6 hu huv s1 s2 h7⟩

/-- C98 (`TverskyIndexKNNRecommender`, with `top_k` at least the number of items): what user `v` does has no effect on the similarity of items
`v` has used neither before nor after, nor on the scores of such items for users who have no item in common with `v`. -/
theorem C98_tversky_items (hnth : NthOk nth) (e : Env) (X X' : CSR ℝ) (hX : X.WF) (hX' : X'.WF) (v : Nat) (h : DifferAt X X' v)
    (given : Args) (s a b : ℚ) (k T : Nat)
    (hn : Only given ["shrinkage", "alpha", "beta", "top_k", "n_threads"])
    (hs : Argument given "shrinkage" (.num 0) (.num s)) (ha : Argument given "alpha" (.num (1 / 2)) (.num a))
    (hb : Argument given "beta" (.num (1 / 2)) (.num b)) (hk : Argument given "top_k" (.num 100) (.num k))
    (hT : ThreadsAre e given T) (hs0 : 0 ≤ s) (ha0 : 0 ≤ a) (hb0 : 0 ≤ b) (hT1 : 1 ≤ T)  (hbig : X.cols ≤ k) :
    ∃ W W', tverskyKnnFit nth e X given = .ok W ∧ tverskyKnnFit nth e X' given = .ok W' ∧
      (∀ i j, Unused X v i → Unused X' v i → Unused X v j → Unused X' v j → W'.get i j = W.get i j) ∧
      ∀ u, u < X.nrows → u ≠ v → Strangers X u v → Strangers X' u v →
        SameScores (similarity X (some (toDense W))) (similarity X' (some (toDense W'))) u (fun j => Unused X v j ∧ Unused X' v j) := by
  obtain ⟨W, W', h1, h2, h3, h4, h5, h6, h7⟩ := itemKnnW_untouched hnth .none trivial (.tversky a b) s (by exact_mod_cast hs0) ⟨by exact_mod_cast ha0, by exact_mod_cast hb0⟩ h T k hT1 hbig
  exact ⟨W, W', by rw [tverskyKnnFit_eq e X given s a b k T hn hs ha hb hk hT, h1], by rw [tverskyKnnFit_eq e X' given s a b k T hn hs ha hb hk hT, h2], h7,
    fun u hu huv s1 s2 => csr_untouched h hX hX' h3 h4 h5 h6 hu huv s1 s2 h7⟩

/-! ## Random walks -/

theorem toUser_untouched {X X' : CSR ℝ} {v i : Nat} (h : DifferAt X X' v) (h1 : Unused X v i) (h2 : Unused X' v i) (a : ℝ) (w : Nat) :
    toUser a X' i w = toUser a X i w := by
  have hg : ∀ w, X'.get w i = X.get w i := by
    intro w
    by_cases hw : w = v
    · rw [hw, get_unused h1, get_unused h2]
    · exact differ_get h hw i
  unfold toUser
  simp only [hg, h.nrows]

theorem popularity_untouched {X X' : CSR ℝ} {v i : Nat} (h : DifferAt X X' v) (h1 : Unused X v i) (h2 : Unused X' v i) :
    Spec.Sim.popularity X' i = Spec.Sim.popularity X i := by
  have hg : ∀ w, X'.get w i = X.get w i := by
    intro w
    by_cases hw : w = v
    · rw [hw, get_unused h1, get_unused h2]
    · exact differ_get h hw i
  unfold Spec.Sim.popularity
  simp only [hg, h.nrows]

theorem walk_untouched {X X' : CSR ℝ} {v i : Nat} (h : DifferAt X X' v) (h1 : Unused X v i) (h2 : Unused X' v i) (a : ℝ) (j : Nat) :
    ∑ u ∈ Finset.range X'.nrows, toUser a X' i u * toItem a X' u j = ∑ u ∈ Finset.range X.nrows, toUser a X i u * toItem a X u j := by
  rw [h.nrows]
  refine Finset.sum_congr rfl (fun w _ => ?_)
  rw [toUser_untouched h h1 h2]
  by_cases hw : w = v
  · have : toUser a X i w = 0 := by
      unfold toUser
      rw [hw, get_unused h1]
      simp [pw]
    rw [this, zero_mul, zero_mul]
  · have : toItem a X' w j = toItem a X w j := by
      unfold toItem
      simp only [differ_get h hw, h.cols]
    rw [this]

theorem csc_untouched {X X' : CSR ℝ} {W W' : CSC ℝ} {v u : Nat} (h : DifferAt X X' v) (hX : X.WF) (hX' : X'.WF)
    (hn : W.cols.length = X.cols) (hc : W.rows = X.cols) (hn' : W'.cols.length = X.cols) (hc' : W'.rows = X.cols)
    (hu : u < X.nrows) (huv : u ≠ v) (seen : Nat → Prop) (h1 : Strangers X u v) (h2 : Strangers X' u v)
    (hW : ∀ i j, i < X.cols → j < X.cols → Unused X v i → Unused X' v i → seen j → W'.get i j = W.get i j) :
    SameScores (similarity X (some (cscDense W))) (similarity X' (some (cscDense W'))) u seen := by
  refine item_scores_untouched h hX hX' _ _ (by simp [cscDense, hc]) (by simp [cscDense, hc']) hn hn' hu huv _ h1 h2
    (fun i j hi hj hi1 hi2 hs => ?_)
  rw [cscDense_get _ _ _ (by rw [hc']; exact hi), cscDense_get _ _ _ (by rw [hc]; exact hi)]
  exact hW i j hi hj hi1 hi2 hs

/-- C98 (`P3alphaRecommender`, no `top_k`, with or without `normalize_weight`).  The whole row of an item `v` has not used is
unaffected by what `v` does, and so are all scores of a user who has no item in common with `v`. -/
theorem C98_p3 (hnth : NthOk nth) (e : Env) (X X' : CSR ℝ) (hX : Proper X) (hX' : Proper X') (hp : Positive X) (hp' : Positive X')
    (v : Nat) (h : DifferAt X X' v) (given : Args) (a : ℚ) (b : Bool) (T : Nat)
    (hn : Only given ["alpha", "top_k", "normalize_weight", "n_threads"])
    (ha : Argument given "alpha" (.num 1) (.num a)) (hk : Argument given "top_k" .none .none)
    (hb : Argument given "normalize_weight" (.bool false) (.bool b)) (hT : ThreadsAre e given T)
    (ha0 : 0 ≤ a) (hT1 : 1 ≤ T) :
    ∃ W W', p3Fit nth e X given = .ok W ∧ p3Fit nth e X' given = .ok W' ∧
      (∀ i j, i < X.cols → j < X.cols → Unused X v i → Unused X' v i → W'.get i j = W.get i j) ∧
      ∀ u, u < X.nrows → u ≠ v → Strangers X u v → Strangers X' u v →
        SameScores (similarity X (some (cscDense W))) (similarity X' (some (cscDense W'))) u (fun _ => True) := by
  have ha0' : (0 : ℝ) ≤ (a : ℝ) := by exact_mod_cast ha0
  obtain ⟨W, hW, w1, w2, w3⟩ := C36_p3_random_walk hnth a ha0' X hX hp T hT1
  obtain ⟨W', hW', w1', w2', w3'⟩ := C36_p3_random_walk hnth a ha0' X' hX' hp' T hT1
  rw [h.cols] at w1' w2' w3'
  have hrow : ∀ i j, i < X.cols → j < X.cols → Unused X v i → Unused X' v i → W'.get i j = W.get i j := fun i j hi hj h1 h2 => by
    rw [w3' i hi j hj, w3 i hi j hj, walk_untouched h h1 h2]
  cases b with
  | false =>
    refine ⟨W, W', by rw [p3Fit_eq e X given a false none T hn ha hk hb hT, hW],
      by rw [p3Fit_eq e X' given a false none T hn ha hk hb hT, hW'], hrow, fun u hu huv s1 s2 => ?_⟩
    exact csc_untouched h hX.1 hX'.1 w2 w1 w2' w1' hu huv _ s1 s2 (fun i j hi hj h1 h2 _ => hrow i j hi hj h1 h2)
  | true =>
    have hl : ∀ (Z : CSR ℝ) (V : CSC ℝ), p3Learn nth a Z none false T = .ok V → p3Learn nth a Z none true T = .ok (l1NormalizeRow V) := by
      intro Z V hV
      unfold p3Learn at hV ⊢
      cases hr : p3W nth a (transpose Z) T 128 (Option.getD none Z.cols) with
      | error e => rw [hr] at hV; cases hV
      | ok R => rw [hr] at hV; cases hV; rfl
    have hrow2 : ∀ i j, i < X.cols → j < X.cols → Unused X v i → Unused X' v i →
        (l1NormalizeRow W').get i j = (l1NormalizeRow W).get i j := fun i j hi hj h1 h2 => by
      rw [(C32_entries W').2.2.1, (C32_entries W).2.2.1, hrow i j hi hj h1 h2, w2, w2']
      congr 1
      exact Finset.sum_congr rfl (fun k hk => hrow i k hi (Finset.mem_range.mp hk) h1 h2)
    refine ⟨_, _, by rw [p3Fit_eq e X given a true none T hn ha hk hb hT, hl X W hW],
      by rw [p3Fit_eq e X' given a true none T hn ha hk hb hT, hl X' W' hW'], hrow2, fun u hu huv s1 s2 => ?_⟩
    exact csc_untouched (W := l1NormalizeRow W) (W' := l1NormalizeRow W') h hX.1 hX'.1 (by simpa [l1NormalizeRow] using w2) w1 (by simpa [l1NormalizeRow] using w2') w1' hu huv _ s1 s2
      (fun i j hi hj h1 h2 _ => hrow2 i j hi hj h1 h2)

/-- C98 (`RP3betaRecommender`, no `top_k`, without `normalize_weight`): as for the other item similarities, because the
popularity of the recommended item counts too. -/
theorem C98_rp3 (hnth : NthOk nth) (e : Env) (X X' : CSR ℝ) (hX : Proper X) (hX' : Proper X') (hp : Positive X) (hp' : Positive X')
    (v : Nat) (h : DifferAt X X' v) (given : Args) (a be : ℚ) (T : Nat)
    (hn : Only given ["alpha", "beta", "top_k", "normalize_weight", "n_threads"])
    (ha : Argument given "alpha" (.num 1) (.num a)) (hbe : Argument given "beta" (.num (3 / 5)) (.num be))
    (hk : Argument given "top_k" .none .none)
    (hb : Argument given "normalize_weight" (.bool false) (.bool false)) (hT : ThreadsAre e given T)
    (ha0 : 0 ≤ a) (hb0 : 0 ≤ be) (hT1 : 1 ≤ T) :
    ∃ W W', rp3Fit nth e X given = .ok W ∧ rp3Fit nth e X' given = .ok W' ∧
      (∀ i j, i < X.cols → j < X.cols → Unused X v i → Unused X' v i → Unused X v j → Unused X' v j → W'.get i j = W.get i j) ∧
      ∀ u, u < X.nrows → u ≠ v → Strangers X u v → Strangers X' u v →
        SameScores (similarity X (some (cscDense W))) (similarity X' (some (cscDense W'))) u (fun j => Unused X v j ∧ Unused X' v j) := by
  have ha0' : (0 : ℝ) ≤ (a : ℝ) := by exact_mod_cast ha0
  have hb0' : (0 : ℝ) ≤ (be : ℝ) := by exact_mod_cast hb0
  obtain ⟨P, V, hP, hV, v1, v2, v3⟩ := C36_rp3_penalises_popularity hnth a be ha0' hb0' X hX hp T hT1
  obtain ⟨P', V', hP', hV', v1', v2', v3'⟩ := C36_rp3_penalises_popularity hnth a be ha0' hb0' X' hX' hp' T hT1
  obtain ⟨Q, hQ, -, -, q3⟩ := C36_p3_random_walk hnth a ha0' X hX hp T hT1
  obtain ⟨Q', hQ', -, -, q3'⟩ := C36_p3_random_walk hnth a ha0' X' hX' hp' T hT1
  rw [hP] at hQ
  cases hQ
  rw [hP'] at hQ'
  cases hQ'
  rw [h.cols] at v1' v2' v3' q3'
  have hrow : ∀ i j, i < X.cols → j < X.cols → Unused X v i → Unused X' v i → Unused X v j → Unused X' v j →
      V'.get i j = V.get i j := fun i j hi hj h1 h2 h3 h4 => by
    rw [v3' i hi j hj, v3 i hi j hj, q3' i hi j hj, q3 i hi j hj, walk_untouched h h1 h2, popularity_untouched h h3 h4]
  refine ⟨V, V', by rw [rp3Fit_eq e X given a be false none T hn ha hbe hk hb hT, hV],
    by rw [rp3Fit_eq e X' given a be false none T hn ha hbe hk hb hT, hV'], hrow, fun u hu huv s1 s2 => ?_⟩
  exact csc_untouched h hX.1 hX'.1 v2 v1 v2' v1' hu huv _ s1 s2 (fun i j hi hj h1 h2 h3 => hrow i j hi hj h1 h2 h3.1 h3.2)

/-! ## User-based recommenders -/

theorem user_untouched (hnth : NthOk nth) (kind : Kind) (s : ℝ) (hs : 0 ≤ s) (hp : kind.paramsOk) {X X' : CSR ℝ} {v : Nat}
    (h : DifferAt X X' v) (T k : Nat) (hT : 1 ≤ T) :
    ∃ U U', userKnnU nth .none kind s X T k = .ok U ∧ userKnnU nth .none kind s X' T k = .ok U' ∧
      ∀ u, u < X.nrows → u ≠ v → Strangers X u v → Strangers X' u v → U'.row u = U.row u ∧
        SameScores (userSimilarity X (some U)) (userSimilarity X' (some U')) u (fun _ => True) := by
  obtain ⟨U, U', h1, h2, n, c, n', c', h3⟩ := userKnnU_stranger hnth kind s hs hp h T k hT
  refine ⟨U, U', h1, h2, fun u hu huv s1 s2 => ⟨(h3 u huv s1 s2).1, ?_⟩⟩
  obtain ⟨hrow, h0⟩ := h3 u huv s1 s2
  obtain ⟨⟨cc, rs⟩, g1, g2, g3⟩ := (C50_user_similarity X U (userKnn_wf hnth .none kind s hs hp X T k hT U h1) n c).1
    [(u : Int)] [u] (.cons ⟨hu, .inl rfl⟩ .nil)
  obtain ⟨⟨c₂, rs₂⟩, k1, k2, k3⟩ := (C50_user_similarity X' U' (userKnn_wf hnth .none kind s hs hp X' T k hT U' h2)
    (n'.trans h.nrows.symm) (c'.trans h.nrows.symm)).1 [(u : Int)] [u] (.cons ⟨by rw [h.nrows]; exact hu, .inl rfl⟩ .nil)
  simp only at g2 g3 k2 k3
  subst g2 g3 k2 k3
  refine ⟨X.cols, userBased U X u, userBased U' X' u, g1, ?_, fun j hj _ => ?_⟩
  · rw [k1, h.cols]; rfl
  · unfold userBased
    rw [c, c']
    refine Finset.sum_congr rfl (fun w _ => ?_)
    have hU : U'.get u w = U.get u w := by unfold CSR.get; rw [hrow]
    rw [hU]
    by_cases hw : w = v
    · rw [hw, h0, zero_mul, zero_mul]
    · rw [differ_get h hw]

/-- C98 (`CosineUserKNNRecommender`, every `top_k`, no feature weighting): nothing changes for a user who has no item in
common with `v`. -/
theorem C98_cosine_users (hnth : NthOk nth) (e : Env) (X X' : CSR ℝ) (v : Nat) (h : DifferAt X X' v) (given : Args) (s : ℚ)
    (b : Bool) (k T : Nat)
    (hn : Only given ["shrinkage", "normalize", "top_k", "feature_weighting", "bm25_k1", "bm25_b", "n_threads"])
    (hs : Argument given "shrinkage" (.num 0) (.num s))
    (hb : Argument given "normalize" (.bool true) (.bool b)) (hk : Argument given "top_k" (.num 100) (.num k))
    (hw : WeightingIs given .none) (hT : ThreadsAre e given T) (hs0 : 0 ≤ s) (hT1 : 1 ≤ T) :
    ∃ U U', cosineUserKnnFit nth e X given = .ok U ∧ cosineUserKnnFit nth e X' given = .ok U' ∧
      ∀ u, u < X.nrows → u ≠ v → Strangers X u v → Strangers X' u v → U'.row u = U.row u ∧
        SameScores (userSimilarity X (some U)) (userSimilarity X' (some U')) u (fun _ => True) := by
  obtain ⟨U, U', h1, h2, h3⟩ := user_untouched hnth (.cosine b) s (by exact_mod_cast hs0) trivial h T k hT1
  exact ⟨U, U', by rw [cosineUserKnnFit_eq e X given s b k T .none hn hs hb hk hw hT, h1],
    by rw [cosineUserKnnFit_eq e X' given s b k T .none hn hs hb hk hw hT, h2], h3⟩

/-- C98 (`AsymmetricCosineUserKNNRecommender`, every `top_k`, no feature weighting). -/
theorem C98_asymmetric_users (hnth : NthOk nth) (e : Env) (X X' : CSR ℝ) (v : Nat) (h : DifferAt X X' v) (given : Args)
    (s a : ℚ) (k T : Nat)
    (hn : Only given ["shrinkage", "alpha", "top_k", "feature_weighting", "bm25_k1", "bm25_b", "n_threads"])
    (hs : Argument given "shrinkage" (.num 0) (.num s))
    (ha : Argument given "alpha" (.num (1 / 2)) (.num a)) (hk : Argument given "top_k" (.num 100) (.num k))
    (hw : WeightingIs given .none) (hT : ThreadsAre e given T) (hs0 : 0 ≤ s) (ha0 : 0 ≤ a) (ha1 : a ≤ 1) (hT1 : 1 ≤ T) :
    ∃ U U', asymmetricUserKnnFit nth e X given = .ok U ∧ asymmetricUserKnnFit nth e X' given = .ok U' ∧
      ∀ u, u < X.nrows → u ≠ v → Strangers X u v → Strangers X' u v → U'.row u = U.row u ∧
        SameScores (userSimilarity X (some U)) (userSimilarity X' (some U')) u (fun _ => True) := by
  obtain ⟨U, U', h1, h2, h3⟩ := user_untouched hnth (.asymmetric a) s (by exact_mod_cast hs0)
    ⟨by exact_mod_cast ha0, by exact_mod_cast ha1⟩ h T k hT1
  exact ⟨U, U', by rw [asymmetricUserKnnFit_eq e X given s a k T .none hn hs ha hk hw hT, h1],
    by rw [asymmetricUserKnnFit_eq e X' given s a k T .none hn hs ha hk hw hT, h2], h3⟩

/-! ## Popularity -/

/-- C98 (`TopPopRecommender`): the score of an item changes for everybody by exactly what `v` adds to it, and not at all
for an item `v` has not used. -/
theorem C98_toppop (X X' : CSR ℝ) (v : Nat) (hv : v < X.nrows) (h : DifferAt X X' v) (j : Nat) :
    Score.popularity X' j - Score.popularity X j = X'.get v j - X.get v j := by
  rw [(C50_top_pop X').1, (C50_top_pop X).1, h.nrows, ← Finset.sum_sub_distrib,
    Finset.sum_eq_single_of_mem v (Finset.mem_range.mpr hv)]
  intro w _ hw
  rw [differ_get h hw, sub_self]

/-! ## Where it fails -/

/-- users 0 and 1 share item 0, user 1 has also used items 1 and 2; what user 2 did is left open -/
def guest (row : SpVec ℝ) : CSR ℝ := ⟨3, [[(0, 1)], [(0, 1), (1, 1), (2, 1)], row]⟩

theorem guest_differ (a b : SpVec ℝ) : DifferAt (guest a) (guest b) 2 := by
  refine ⟨rfl, rfl, ?_⟩
  rintro (_ | _ | _ | u) hu
  · rfl
  · rfl
  · exact absurd rfl hu
  · rfl

theorem guest_proper {row : SpVec ℝ} (h : row = [] ∨ row = [(1, 1)]) : Proper (guest row) := by
  constructor <;> intro r hr <;> rcases h with rfl | rfl <;>
    (have : r = [(0, 1)] ∨ r = [(0, 1), (1, 1), (2, 1)] ∨ r = [] ∨ r = [(1, 1)] := by simp [guest] at hr ⊢; tauto) <;>
    rcases this with rfl | rfl | rfl | rfl <;> simp [guest]

theorem guest_positive {row : SpVec ℝ} (h : row = [] ∨ row = [(1, 1)]) : Positive (guest row) := by
  intro r hr
  rcases h with rfl | rfl <;>
    (have : r = [(0, 1)] ∨ r = [(0, 1), (1, 1), (2, 1)] ∨ r = [] ∨ r = [(1, 1)] := by simp [guest] at hr ⊢; tauto) <;>
    rcases this with rfl | rfl | rfl | rfl <;> simp

theorem guest_strangers {row : SpVec ℝ} (h : row = [] ∨ row = [(1, 1)]) : Strangers (guest row) 0 2 ∧ Unused (guest row) 2 0 ∧ Unused (guest row) 2 2 := by
  rcases h with rfl | rfl <;> refine ⟨fun e he f hf => ?_, fun f hf => ?_, fun f hf => ?_⟩ <;>
    simp [guest, CSR.row] at * <;> simp_all

theorem guest_fit (hnth : NthOk nth) (row : SpVec ℝ) : ∃ W, jaccardKnnFit nth exampleEnv2 (guest row) [("top_k", .num 2)] = .ok W ∧
    W.nrows = 3 ∧ W.cols = 3 ∧
    W.row 0 = zeroAt 0 (bestOf 2 (simRow .jaccard 0 (transpose (guest row)) ((transpose (guest row)).row 0))) := by
  have hn : (transpose (guest row)).nrows = 3 := by simp [Sim.transpose, CSR.nrows, guest]
  refine ⟨⟨3, ((List.range 3).map (fun r => bestOf 2 (simRow .jaccard ((0 : ℚ) : ℝ) (transpose (guest row))
    ((transpose (guest row)).row r)))).mapIdx zeroAt⟩, ?_, by simp [CSR.nrows], rfl, ?_⟩
  · rw [jaccardKnnFit_eq exampleEnv2 (guest row) [("top_k", .num 2)] 0 2 2
      (by intro a ha; simp at ha; rw [ha]; simp [jaccardKnn]) (.inr ⟨rfl, rfl⟩) (.inl (by simp))
      (.inr ⟨.inr ⟨rfl, rfl⟩, rfl⟩)]
    unfold itemKnnW
    simp only [Weighting.apply]
    rw [computeSimilarity_eq hnth _ _ _ _ _ _ _ (by norm_num [Accepted, Kind.paramsOk]), hn]
    simp only [removeDiagonal]
    rw [if_neg (by simp [CSR.nrows])]
  · simp [CSR.row, List.range_succ]

theorem guest_score {row : SpVec ℝ} (h : row = [] ∨ row = [(1, 1)]) (W : CSR ℝ) (hn : W.nrows = 3) (hc : W.cols = 3) :
    (similarity (guest row) (some (toDense W))).getScore [((0 : Nat) : Int)] = .ok ⟨3, [itemBased (guest row) (toDense W).get 0]⟩ ∧
    itemBased (guest row) (toDense W).get 0 2 = SpVec.get (W.row 0) 2 := by
  constructor
  · rw [C50_similarity_score (guest row) (guest_proper h).1 _ (by rw [toDense_length, hn]; rfl) _ [0] (.cons ⟨by simp [guest, CSR.nrows], .inl rfl⟩ .nil)]
    rw [show (toDense W).cols = 3 from hc]
    rfl
  · have : ∀ i, (guest row).get 0 i = if i = 0 then 1 else 0 := by
      intro i
      by_cases hi : i = 0
      · simp [guest, CSR.get, CSR.row, SpVec.get, hi]
      · have hi' : ¬ 0 = i := fun h => hi h.symm
        simp [guest, CSR.get, CSR.row, SpVec.get, hi, hi']
    unfold itemBased
    rw [show (guest row).cols = 3 from rfl]
    simp only [this, Finset.sum_range_succ, Finset.sum_range_zero]
    rw [toDense_get _ 0 2 (by rw [hn]; norm_num)]
    simp [CSR.get]

theorem productRow_three (t r s q : SpVec ℝ) (c : Nat) : productRow t ⟨c, [r, s, q]⟩ =
    (if t.any (fun e => r.any (fun f => decide (f.1 = e.1))) then [(0, (t.map (fun e => e.2 * r.get e.1)).sum)] else []) ++
    (if t.any (fun e => s.any (fun f => decide (f.1 = e.1))) then [(1, (t.map (fun e => e.2 * s.get e.1)).sum)] else []) ++
    (if t.any (fun e => q.any (fun f => decide (f.1 = e.1))) then [(2, (t.map (fun e => e.2 * q.get e.1)).sum)] else []) := by
  have h : List.range (CSR.nrows (⟨c, [r, s, q]⟩ : CSR ℝ)) = [0, 1, 2] := rfl
  unfold productRow
  rw [h]
  have h0 : (CSR.mk c [r, s, q]).row 0 = r := rfl
  have h1 : (CSR.mk c [r, s, q]).row 1 = s := rfl
  have h2 : (CSR.mk c [r, s, q]).row 2 = q := rfl
  simp only [List.filterMap_cons, List.filterMap_nil, h0, h1, h2]
  split_ifs <;> rfl

/-- C98 fails with a smaller `top_k`: a stranger who has used neither item can make room for it among the most similar
ones.  Here user 2 lowers the similarity of items 0 and 1, so that item 2 is kept in its place, and user 0 is recommended
item 2. -/
theorem C98_top_k_counterexample (hnth : NthOk nth) : ∃ (X X' W W' : CSR ℝ) (v u j : Nat), Proper X ∧ Proper X' ∧ DifferAt X X' v ∧
    u ≠ v ∧ Strangers X u v ∧ Strangers X' u v ∧ Unused X v j ∧ Unused X' v j ∧
    jaccardKnnFit nth exampleEnv2 X [("top_k", .num 2)] = .ok W ∧ jaccardKnnFit nth exampleEnv2 X' [("top_k", .num 2)] = .ok W' ∧
    ¬ SameScores (similarity X (some (toDense W))) (similarity X' (some (toDense W'))) u (· = j) := by
  obtain ⟨W, f1, f2, f3, f4⟩ := guest_fit hnth []
  obtain ⟨W', g1, g2, g3, g4⟩ := guest_fit hnth [(1, 1)]
  obtain ⟨s1, s2, s3⟩ := guest_strangers (row := []) (.inl rfl)
  obtain ⟨t1, t2, t3⟩ := guest_strangers (row := [(1, 1)]) (.inr rfl)
  refine ⟨guest [], guest [(1, 1)], W, W', 2, 0, 2, guest_proper (.inl rfl), guest_proper (.inr rfl), guest_differ _ _, by norm_num,
    s1, t1, s3, t3, f1, g1, ?_⟩
  rintro ⟨cols, row, row', h1, h2, h3⟩
  obtain ⟨a1, a2⟩ := guest_score (.inl rfl) W f2 f3
  obtain ⟨b1, b2⟩ := guest_score (.inr rfl) W' g2 g3
  rw [a1] at h1
  cases h1
  rw [b1] at h2
  cases h2
  have h3 := h3 2 (by norm_num) rfl
  rw [a2, b2, f4, g4] at h3
  have e1 : transpose (guest []) = ⟨3, [[(0, 1), (1, 1)], [(1, 1)], [(1, 1)]]⟩ := by
    simp [Sim.transpose, guest, CSR.nrows, CSR.row, List.range_succ]
  have e2 : transpose (guest [(1, 1)]) = ⟨3, [[(0, 1), (1, 1)], [(1, 1), (2, 1)], [(1, 1)]]⟩ := by
    simp [Sim.transpose, guest, CSR.nrows, CSR.row, List.range_succ]
  rw [e1, e2] at h3
  have r1 : simRow .jaccard 0 ⟨3, [[(0, 1), (1, 1)], [(1, 1)], [(1, 1)]]⟩ [(0, 1), (1, 1)] =
      [(0, 2 / (2 + 1e-6)), (1, 1 / (2 + 1e-6)), (2, 1 / (2 + 1e-6))] := by
    norm_num [simRow, productRow_three, binarize, rowTotal, CSR.row, SpVec.get]
  have r2 : simRow .jaccard 0 ⟨3, [[(0, 1), (1, 1)], [(1, 1), (2, 1)], [(1, 1)]]⟩ [(0, 1), (1, 1)] =
      [(0, 2 / (2 + 1e-6)), (1, 1 / (3 + 1e-6)), (2, 1 / (2 + 1e-6))] := by
    norm_num [simRow, productRow_three, binarize, rowTotal, CSR.row, SpVec.get]
  rw [show (CSR.mk 3 [[(0, (1 : ℝ)), (1, 1)], [(1, 1)], [(1, 1)]]).row 0 = [(0, 1), (1, 1)] from rfl,
    show (CSR.mk 3 [[(0, (1 : ℝ)), (1, 1)], [(1, 1), (2, 1)], [(1, 1)]]).row 0 = [(0, 1), (1, 1)] from rfl, r1, r2] at h3
  revert h3
  norm_num [bestOf, better, zeroAt, SpVec.get, List.filter_cons]

/-! ### The hypotheses are met -/

example : ∃ W W', jaccardKnnFit sortNth exampleEnv2 (guest []) [] = .ok W ∧ jaccardKnnFit sortNth exampleEnv2 (guest [(1, 1)]) [] = .ok W' ∧
    W'.get 0 2 = W.get 0 2 ∧
    SameScores (similarity (guest []) (some (toDense W))) (similarity (guest [(1, 1)]) (some (toDense W'))) 0
      (fun j => Unused (guest []) 2 j ∧ Unused (guest [(1, 1)]) 2 j) ∧ Unused (guest []) 2 2 ∧ Unused (guest [(1, 1)]) 2 2 := by
  obtain ⟨s1, s2, s3⟩ := guest_strangers (row := []) (.inl rfl)
  obtain ⟨t1, t2, t3⟩ := guest_strangers (row := [(1, 1)]) (.inr rfl)
  obtain ⟨W, W', h1, h2, h3, h4⟩ := C98_jaccard_items sortNth_ok exampleEnv2 (guest []) (guest [(1, 1)]) (guest_proper (.inl rfl)).1
    (guest_proper (.inr rfl)).1 2 (guest_differ _ _) [] 0 100 2 (by intro a ha; cases ha) (.inr ⟨rfl, rfl⟩) (.inr ⟨rfl, rfl⟩)
    (.inr ⟨.inr ⟨rfl, rfl⟩, rfl⟩) (le_refl _) (by norm_num) (by simp [guest])
  exact ⟨W, W', h1, h2, h3 0 2 s2 t2 s3 t3, h4 0 (by simp [guest, CSR.nrows]) (by norm_num) s1 t1, s3, t3⟩

example : ∃ W W', p3Fit sortNth exampleEnv2 (guest []) [] = .ok W ∧ p3Fit sortNth exampleEnv2 (guest [(1, 1)]) [] = .ok W' ∧
    (∀ j < 3, W'.get 0 j = W.get 0 j) := by
  obtain ⟨s1, s2, s3⟩ := guest_strangers (row := []) (.inl rfl)
  obtain ⟨t1, t2, t3⟩ := guest_strangers (row := [(1, 1)]) (.inr rfl)
  obtain ⟨W, W', h1, h2, h3, h4⟩ := C98_p3 sortNth_ok exampleEnv2 (guest []) (guest [(1, 1)]) (guest_proper (.inl rfl))
    (guest_proper (.inr rfl)) (guest_positive (.inl rfl)) (guest_positive (.inr rfl)) 2 (guest_differ _ _) [] 1 false 2
    (by intro a ha; cases ha) (.inr ⟨rfl, rfl⟩) (.inr ⟨rfl, rfl⟩) (.inr ⟨rfl, rfl⟩)
    (.inr ⟨.inr ⟨rfl, rfl⟩, rfl⟩) (by norm_num) (by norm_num)
  exact ⟨W, W', h1, h2, fun j hj => h3 0 j (by simp [guest]) hj s2 t2⟩

example : ∃ U U', cosineUserKnnFit sortNth exampleEnv2 (guest []) [("top_k", .num 1)] = .ok U ∧
    cosineUserKnnFit sortNth exampleEnv2 (guest [(1, 1)]) [("top_k", .num 1)] = .ok U' ∧ U'.row 0 = U.row 0 := by
  obtain ⟨s1, s2, s3⟩ := guest_strangers (row := []) (.inl rfl)
  obtain ⟨t1, t2, t3⟩ := guest_strangers (row := [(1, 1)]) (.inr rfl)
  obtain ⟨U, U', h1, h2, h3⟩ := C98_cosine_users sortNth_ok exampleEnv2 (guest []) (guest [(1, 1)]) 2 (guest_differ _ _)
    [("top_k", .num 1)] 0 true 1 2 (by intro a ha; simp at ha; rw [ha]; simp) (.inr ⟨rfl, rfl⟩) (.inr ⟨rfl, rfl⟩) (.inl (by simp))
    (.inl ⟨.inr ⟨rfl, rfl⟩, rfl⟩) (.inr ⟨.inr ⟨rfl, rfl⟩, rfl⟩) (le_refl _) (by norm_num)
  exact ⟨U, U', h1, h2, (h3 0 (by simp [guest, CSR.nrows]) (by norm_num) s1 t1).1⟩

end Irspack.Props
