import Verif.Proofs.Evidence
import Verif.Props.Influence
import Verif.Props.NewProfile

/-!
# C106: more evidence counts for, not against
-/

namespace Irspack.Props

open RecClasses Sim Score Spec.Sim Spec.Score Spec.Influence Spec.Evidence Evidence

variable {nth : Nat → SpVec ℝ → List Nat}

theorem change_of {X X' : CSR ℝ} {v : Nat} (hv : v < X.nrows) (h : DifferAt X X' v) (i j : Nat) :
    Change X.nrows v (fun u => X.get u i) (fun u => X.get u j) (fun u => X'.get u i) (fun u => X'.get u j) :=
  ⟨hv, fun _ hu => differ_get h hu i, fun _ hu => differ_get h hu j⟩

/-- C106 (`JaccardKNNRecommender`, with `top_k` at least the number of items).  When one more user has interacted with
both of two items, these become strictly more similar; when a user takes up only one of two items, they do not. -/
theorem C106_jaccard (hnth : NthOk nth) (e : Env) (X X' : CSR ℝ) (hX : Proper X) (hX' : Proper X') (hz : NoStoredZero X)
    (hz' : NoStoredZero X') (v : Nat) (hv : v < X.nrows) (h : DifferAt X X' v) (given : Args) (s : ℚ) (k T : Nat)
    (hn : Only given ["shrinkage", "top_k", "n_threads"])
    (hs : Argument given "shrinkage" (.num 0) (.num s)) (hk : Argument given "top_k" (.num 100) (.num k))
    (hT : ThreadsAre e given T) (hs0 : 0 ≤ s) (hT1 : 1 ≤ T) (hbig : X.cols ≤ k) :
    ∃ W W', jaccardKnnFit nth e X given = .ok W ∧ jaccardKnnFit nth e X' given = .ok W' ∧ Follows X X' v W W' := by
  have hs1 : (0 : ℝ) ≤ s := by exact_mod_cast hs0
  obtain ⟨W, hW, -, -, -, h1⟩ := C82_jaccard_items hnth e X hX hz given s k T hn hs hk hT hs0 hT1
  obtain ⟨W', hW', -, -, -, h2⟩ := C82_jaccard_items hnth e X' hX' hz' given s k T hn hs hk hT hs0 hT1
  rw [h.cols, h.nrows] at h2
  refine ⟨W, W', hW, hW', fun i hi j hj hij h3 h4 => ?_, fun i hi j hj hij h3 h4 => ?_⟩
  · rw [h1 hbig i hi j hj, h2 hbig i hi j hj, if_neg hij, if_neg hij]
    exact jaccard_closer (change_of hv h i j) hs1 h3 h4
  · rw [h1 hbig i hi j hj, h2 hbig i hi j hj, if_neg hij, if_neg hij]
    exact jaccard_apart (change_of hv h i j) hs1 h3 h4

/-- C106 (`TverskyIndexKNNRecommender`, with `top_k` at least the number of items). -/
theorem C106_tversky (hnth : NthOk nth) (e : Env) (X X' : CSR ℝ) (hX : Proper X) (hX' : Proper X') (hz : NoStoredZero X)
    (hz' : NoStoredZero X') (v : Nat) (hv : v < X.nrows) (h : DifferAt X X' v) (given : Args) (s a b : ℚ) (k T : Nat)
    (hn : Only given ["shrinkage", "alpha", "beta", "top_k", "n_threads"])
    (hs : Argument given "shrinkage" (.num 0) (.num s)) (ha : Argument given "alpha" (.num (1 / 2)) (.num a))
    (hb : Argument given "beta" (.num (1 / 2)) (.num b)) (hk : Argument given "top_k" (.num 100) (.num k))
    (hT : ThreadsAre e given T) (hs0 : 0 ≤ s) (ha0 : 0 ≤ a) (hb0 : 0 ≤ b) (hT1 : 1 ≤ T) (hbig : X.cols ≤ k) :
    ∃ W W', tverskyKnnFit nth e X given = .ok W ∧ tverskyKnnFit nth e X' given = .ok W' ∧ Follows X X' v W W' := by
  have hs1 : (0 : ℝ) ≤ s := by exact_mod_cast hs0
  have ha1 : (0 : ℝ) ≤ a := by exact_mod_cast ha0
  have hb1 : (0 : ℝ) ≤ b := by exact_mod_cast hb0
  obtain ⟨W, hW, -, -, -, h1⟩ := C82_tversky_items hnth e X hX hz given s a b k T hn hs ha hb hk hT hs0 ha0 hb0 hT1
  obtain ⟨W', hW', -, -, -, h2⟩ := C82_tversky_items hnth e X' hX' hz' given s a b k T hn hs ha hb hk hT hs0 ha0 hb0 hT1
  rw [h.cols, h.nrows] at h2
  refine ⟨W, W', hW, hW', fun i hi j hj hij h3 h4 => ?_, fun i hi j hj hij h3 h4 => ?_⟩
  · rw [h1 hbig i hi j hj, h2 hbig i hi j hj, if_neg hij, if_neg hij]
    exact tversky_closer (change_of hv h i j) hs1 ha1 hb1 h3 h4
  · rw [h1 hbig i hi j hj, h2 hbig i hi j hj, if_neg hij, if_neg hij]
    exact tversky_apart (change_of hv h i j) hs1 ha1 hb1 h3 h4

/-- C106 (`AsymmetricCosineKNNRecommender` on plain "has interacted" data, no feature weighting, with `top_k` at least
the number of items). -/
theorem C106_asymmetric_partial (hnth : NthOk nth) (e : Env) (X X' : CSR ℝ) (hX : Proper X) (hX' : Proper X')
    (hz : NoStoredZero X) (hz' : NoStoredZero X') (hbin : Binary X) (hbin' : Binary X') (v : Nat) (hv : v < X.nrows)
    (h : DifferAt X X' v) (given : Args) (s a : ℚ) (k T : Nat)
    (hn : Only given ["shrinkage", "alpha", "top_k", "feature_weighting", "bm25_k1", "bm25_b", "n_threads"])
    (hs : Argument given "shrinkage" (.num 0) (.num s))
    (ha : Argument given "alpha" (.num (1 / 2)) (.num a)) (hk : Argument given "top_k" (.num 100) (.num k))
    (hw : WeightingIs given .none) (hT : ThreadsAre e given T) (hs0 : 0 ≤ s) (ha0 : 0 ≤ a) (ha1 : a ≤ 1)
    (hT1 : 1 ≤ T) (hbig : X.cols ≤ k) :
    ∃ W W', asymmetricKnnFit nth e X given = .ok W ∧ asymmetricKnnFit nth e X' given = .ok W' ∧
      Follows X X' v W W' := by
  have hc : (0 : ℝ) < s + eps := by
    have : (0 : ℝ) ≤ s := by exact_mod_cast hs0
    have := eps0
    linarith
  have hD := denom_pow (al := (a : ℝ)) (by exact_mod_cast ha0) (by exact_mod_cast ha1)
  obtain ⟨W, hW, -, -, -, h1⟩ := C82_asymmetric_items hnth e X hX hz given s a k T .none hn hs ha hk hw hT hs0 ha0 ha1 hT1
  obtain ⟨W', hW', -, -, -, h2⟩ :=
    C82_asymmetric_items hnth e X' hX' hz' given s a k T .none hn hs ha hk hw hT hs0 ha0 ha1 hT1
  rw [h.cols, h.nrows] at h2
  have e1 : ∀ Y : CSR ℝ, (Weighting.none).apply Y = Y := fun _ => rfl
  refine ⟨W, W', hW, hW', fun i hi j hj hij h3 h4 => ?_, fun i hi j hj hij h3 h4 => ?_⟩
  · rw [h1 hbig i hi j hj, h2 hbig i hi j hj, if_neg hij, if_neg hij, e1, e1,
      asymmetric_eq (fun u => hbin u i) (fun u => hbin u j), asymmetric_eq (fun u => hbin' u i) (fun u => hbin' u j)]
    exact binary_closer hD (change_of hv h i j) hc h3 h4
  · rw [h1 hbig i hi j hj, h2 hbig i hi j hj, if_neg hij, if_neg hij, e1, e1,
      asymmetric_eq (fun u => hbin u i) (fun u => hbin u j), asymmetric_eq (fun u => hbin' u i) (fun u => hbin' u j)]
    exact binary_apart hD (change_of hv h i j) hc h3 h4

/-- C106 (`CosineKNNRecommender` on plain "has interacted" data, no feature weighting, with `top_k` at least the number
of items, with and without normalisation). -/
theorem C106_cosine_partial (hnth : NthOk nth) (e : Env) (X X' : CSR ℝ) (hX : Proper X) (hX' : Proper X')
    (hz : NoStoredZero X) (hz' : NoStoredZero X') (hbin : Binary X) (hbin' : Binary X') (v : Nat) (hv : v < X.nrows)
    (h : DifferAt X X' v) (given : Args) (s : ℚ) (b : Bool) (k T : Nat)
    (hn : Only given ["shrinkage", "normalize", "top_k", "feature_weighting", "bm25_k1", "bm25_b", "n_threads"])
    (hs : Argument given "shrinkage" (.num 0) (.num s))
    (hb : Argument given "normalize" (.bool false) (.bool b)) (hk : Argument given "top_k" (.num 100) (.num k))
    (hw : WeightingIs given .none) (hT : ThreadsAre e given T) (hs0 : 0 ≤ s) (hT1 : 1 ≤ T) (hbig : X.cols ≤ k) :
    ∃ W W', cosineKnnFit nth e X given = .ok W ∧ cosineKnnFit nth e X' given = .ok W' ∧ Follows X X' v W W' := by
  have hc : (0 : ℝ) < s + eps := by
    have : (0 : ℝ) ≤ s := by exact_mod_cast hs0
    have := eps0
    linarith
  have hD := denom_pow (al := (1 / 2 : ℝ)) (by norm_num) (by norm_num)
  obtain ⟨W, hW, -, -, -, h1⟩ := C82_cosine_items hnth e X hX hz given s b k T .none hn hs hb hk hw hT hs0 hT1
  obtain ⟨W', hW', -, -, -, h2⟩ := C82_cosine_items hnth e X' hX' hz' given s b k T .none hn hs hb hk hw hT hs0 hT1
  rw [h.cols, h.nrows] at h2
  have e1 : ∀ Y : CSR ℝ, (Weighting.none).apply Y = Y := fun _ => rfl
  have zero : Denom (fun _ _ => 0) := ⟨fun _ _ _ _ => le_refl _, fun _ _ _ _ _ _ _ _ => le_refl _, fun _ _ _ _ _ _ => by simp⟩
  refine ⟨W, W', hW, hW', fun i hi j hj hij h3 h4 => ?_, fun i hi j hj hij h3 h4 => ?_⟩
  · rw [h1 hbig i hi j hj, h2 hbig i hi j hj, if_neg hij, if_neg hij, e1, e1]
    cases b with
    | true =>
      simp only [if_true]
      rw [cosine_eq, cosine_eq,
        asymmetric_eq (fun u => hbin u i) (fun u => hbin u j), asymmetric_eq (fun u => hbin' u i) (fun u => hbin' u j)]
      exact binary_closer hD (change_of hv h i j) hc h3 h4
    | false =>
      simp only [Bool.false_eq_true, if_false]
      rw [dot_binary (fun u => hbin u i) (fun u => hbin u j), dot_binary (fun u => hbin' u i) (fun u => hbin' u j)]
      simpa using binary_closer zero (change_of hv h i j) one_pos h3 h4
  · rw [h1 hbig i hi j hj, h2 hbig i hi j hj, if_neg hij, if_neg hij, e1, e1]
    cases b with
    | true =>
      simp only [if_true]
      rw [cosine_eq, cosine_eq,
        asymmetric_eq (fun u => hbin u i) (fun u => hbin u j), asymmetric_eq (fun u => hbin' u i) (fun u => hbin' u j)]
      exact binary_apart hD (change_of hv h i j) hc h3 h4
    | false =>
      simp only [Bool.false_eq_true, if_false]
      rw [dot_binary (fun u => hbin u i) (fun u => hbin u j), dot_binary (fun u => hbin' u i) (fun u => hbin' u j)]
      simpa using binary_apart zero (change_of hv h i j) one_pos h3 h4

/-! ## Scores -/

theorem neverLowers_of_nonneg (X : CSR ℝ) (hX : X.WF) (W : Dense ℝ) (hW : W.rows.length = X.cols)
    (h0 : ∀ i < X.cols, ∀ j, 0 ≤ W.get i j) : NeverLowers (similarity X (some W)) X.cols := by
  intro x x' hx hx' hc h
  refine ⟨_, _, (C50_similarity_cold X hX W hW).1 x hx hc, (C50_similarity_cold X hX W hW).1 x' hx' (h.cols.trans hc),
    rfl, by simp [h.nrows], fun u j => ?_⟩
  unfold Dense.get
  rw [h.nrows]
  by_cases hu : u < x.nrows
  · simp only [List.getD_eq_getElem?_getD, List.getElem?_map, List.getElem?_range hu, Option.map_some, Option.getD_some]
    unfold itemBased
    rw [h.cols]
    refine Finset.sum_le_sum (fun i hi => mul_le_mul_of_nonneg_right (h.more u i) (h0 i ?_ j))
    rw [← hc]; exact Finset.mem_range.mp hi
  · simp [List.getD_eq_getElem?_getD, hu]

theorem formula_nonneg {kind : Kind} (hk : kind.paramsOk) {n : Nat} {s : ℝ} (hs : 0 ≤ s) {f g : Nat → ℝ} (hf : ∀ u, 0 ≤ f u)
    (hg : ∀ u, 0 ≤ g u) : 0 ≤ formula kind n s f g := by
  have e := eps0
  have hd : 0 ≤ dot n f g := Finset.sum_nonneg (fun u _ => mul_nonneg (hf u) (hg u))
  have hl : ∀ h : Nat → ℝ, 0 ≤ l2norm n h := fun h => Real.sqrt_nonneg _
  have h1 := hl f
  have h2 := hl g
  cases kind with
  | raw => exact hd
  | cosine b =>
    cases b
    · exact hd
    · unfold formula cosine; positivity
  | asymmetric al => unfold formula asymmetric; positivity
  | jaccard => unfold formula jaccard; positivity
  | tversky al be =>
    obtain ⟨ha, hb⟩ := hk
    unfold formula tversky; positivity

theorem itemKnn_nonneg (hnth : NthOk nth) (kind : Kind) (s : ℝ) (hs : 0 ≤ s) (hk : kind.paramsOk) (X : CSR ℝ) (hX : Proper X)
    (hp : Positive X) (T k : Nat) (hT : 1 ≤ T) :
    ∃ W, itemKnnW nth .none kind s X T k = .ok W ∧ NeverLowers (similarity X (some (toDense W))) X.cols := by
  obtain ⟨S, W, hS, hW, h1, h2, h3, -⟩ := itemKnn_rows hnth .none kind s hs hk X T k hT
  refine ⟨W, hW, neverLowers_of_nonneg X hX.1 _ (by rw [toDense_length, h1]) (fun i hi j => ?_)⟩
  rw [toDense_get _ _ _ (by rw [h1]; exact hi), h3]
  split
  · exact le_refl _
  · have hz := positive_noZero hp
    have e1 : (Weighting.none).apply X = X := rfl
    rw [e1] at hS
    rcases any_get hnth kind s _ _ _ _ _ (transpose_proper X hX) (transpose_proper X hX)
      (fun _ => ⟨transpose_noZero X hz, transpose_noZero X hz⟩) S hS i j with h | h
    · rw [h]
    · rw [h]
      exact formula_nonneg hk hs (fun u => by rw [transpose_get X hX]; exact get_nonneg X hp _ _)
        (fun u => by rw [transpose_get X hX]; exact get_nonneg X hp _ _)

/-- C106 (scores of the item-based nearest-neighbour recommenders, no feature weighting, every `top_k`).  Adding an
interaction to the profile of a new user, or making one stronger, lowers no raw score. -/
theorem C106_knn_scores (hnth : NthOk nth) (e : Env) (X : CSR ℝ) (hX : Proper X) (hp : Positive X) (given : Args)
    (s a b : ℚ) (nz : Bool) (k T : Nat) (hs : Argument given "shrinkage" (.num 0) (.num s))
    (hk : Argument given "top_k" (.num 100) (.num k)) (hT : ThreadsAre e given T) (hs0 : 0 ≤ s) (ha0 : 0 ≤ a) (hb0 : 0 ≤ b)
    (hT1 : 1 ≤ T) :
    (Only given ["shrinkage", "normalize", "top_k", "feature_weighting", "bm25_k1", "bm25_b", "n_threads"] →
      Argument given "normalize" (.bool false) (.bool nz) → WeightingIs given .none →
      ∃ W, cosineKnnFit nth e X given = .ok W ∧ NeverLowers (similarity X (some (toDense W))) X.cols) ∧
    (Only given ["shrinkage", "alpha", "top_k", "feature_weighting", "bm25_k1", "bm25_b", "n_threads"] →
      Argument given "alpha" (.num (1 / 2)) (.num a) → WeightingIs given .none → a ≤ 1 →
      ∃ W, asymmetricKnnFit nth e X given = .ok W ∧ NeverLowers (similarity X (some (toDense W))) X.cols) ∧
    (Only given ["shrinkage", "top_k", "n_threads"] →
      ∃ W, jaccardKnnFit nth e X given = .ok W ∧ NeverLowers (similarity X (some (toDense W))) X.cols) ∧
    (Only given ["shrinkage", "alpha", "beta", "top_k", "n_threads"] →
      Argument given "alpha" (.num (1 / 2)) (.num a) → Argument given "beta" (.num (1 / 2)) (.num b) →
      ∃ W, tverskyKnnFit nth e X given = .ok W ∧ NeverLowers (similarity X (some (toDense W))) X.cols) := by
  have hs1 : (0 : ℝ) ≤ s := by exact_mod_cast hs0
  have ha1 : (0 : ℝ) ≤ a := by exact_mod_cast ha0
  have hb1 : (0 : ℝ) ≤ b := by exact_mod_cast hb0
  refine ⟨fun hn hb hw => ?_, fun hn ha hw hle => ?_, fun hn => ?_, fun hn ha hb => ?_⟩
  · obtain ⟨W, hW, h⟩ := itemKnn_nonneg hnth (.cosine nz) s hs1 trivial X hX hp T k hT1
    exact ⟨W, by rw [cosineKnnFit_eq e X given s nz k T .none hn hs hb hk hw hT, hW], h⟩
  · obtain ⟨W, hW, h⟩ := itemKnn_nonneg hnth (.asymmetric a) s hs1 ⟨ha1, by exact_mod_cast hle⟩ X hX hp T k hT1
    exact ⟨W, by rw [asymmetricKnnFit_eq e X given s a k T .none hn hs ha hk hw hT, hW], h⟩
  · obtain ⟨W, hW, h⟩ := itemKnn_nonneg hnth .jaccard s hs1 trivial X hX hp T k hT1
    exact ⟨W, by rw [jaccardKnnFit_eq e X given s k T hn hs hk hT, hW], h⟩
  · obtain ⟨W, hW, h⟩ := itemKnn_nonneg hnth (.tversky a b) s hs1 ⟨ha1, hb1⟩ X hX hp T k hT1
    exact ⟨W, by rw [tverskyKnnFit_eq e X given s a b k T hn hs ha hb hk hT, hW], h⟩

theorem walk_nonneg {X : CSR ℝ} (hp : Positive X) (a be : ℝ) (j i : Nat) :
    0 ≤ (∑ u ∈ Finset.range X.nrows, toUser a X j u * toItem a X u i) / Spec.Sim.popularity X i ^ be := by
  have hg := get_nonneg X hp
  have hpw : ∀ u i, 0 ≤ pw a (X.get u i) := by
    intro u i
    unfold pw
    split
    · exact le_refl _
    · exact Real.rpow_nonneg (hg u i) _
  have hpop : 0 ≤ Spec.Sim.popularity X i := Finset.sum_nonneg (fun u _ => hg u i)
  refine div_nonneg (Finset.sum_nonneg (fun u _ => mul_nonneg ?_ ?_)) (Real.rpow_nonneg hpop _)
  · exact div_nonneg (hpw _ _) (Finset.sum_nonneg (fun _ _ => hpw _ _))
  · exact div_nonneg (hpw _ _) (Finset.sum_nonneg (fun _ _ => hpw _ _))

theorem walk_neverLowers {X : CSR ℝ} (hX : Proper X) {full V W : CSC ℝ} {b : Bool} {g : Nat → Nat → ℝ}
    (hg : ∀ j i, 0 ≤ g j i) (hfull : ∀ j < X.cols, ∀ i < X.cols, full.get j i = g j i)
    (hV : ∀ i, V.cols.getD i [] = keepBest none (full.cols.getD i [])) (h1 : W.rows = X.cols) (h2 : W.cols.length = X.cols)
    (hW : ∀ j i, W.get j i = if b then V.get j i / ∑ i' ∈ Finset.range X.cols, V.get j i' else V.get j i) :
    NeverLowers (similarity X (some (cscDense W))) X.cols := by
  have hv : ∀ j < X.cols, ∀ i < X.cols, 0 ≤ V.get j i := by
    intro j hj i hi
    have : V.get j i = full.get j i := by
      unfold CSC.get
      rw [hV]; rfl
    rw [this, hfull j hj i hi]
    exact hg j i
  refine neverLowers_of_nonneg X hX.1 _ (by simp [cscDense, h1]) (fun j hj i => ?_)
  rw [cscDense_get _ _ _ (by rw [h1]; exact hj)]
  by_cases hi : i < X.cols
  · rw [hW]
    split
    · exact div_nonneg (hv j hj i hi) (Finset.sum_nonneg (fun i' hi' => hv j hj i' (Finset.mem_range.mp hi')))
    · exact hv j hj i hi
  · have : W.get j i = 0 := by
      unfold CSC.get
      rw [List.getD_eq_getElem?_getD, List.getElem?_eq_none (by rw [h2]; exact not_lt.mp hi)]
      rfl
    rw [this]

/-- C106 (scores of `P3alphaRecommender` and `RP3betaRecommender`, no `top_k`, with and without `normalize_weight`). -/
theorem C106_walk_scores (hnth : NthOk nth) (e : Env) (X : CSR ℝ) (hX : Proper X) (hp : Positive X) (given : Args)
    (a be : ℚ) (b : Bool) (T : Nat) (ha : Argument given "alpha" (.num 1) (.num a))
    (hk : Argument given "top_k" .none .none) (hb : Argument given "normalize_weight" (.bool false) (.bool b))
    (hT : ThreadsAre e given T) (ha0 : 0 ≤ a) (hb0 : 0 ≤ be) (hT1 : 1 ≤ T) :
    (Only given ["alpha", "top_k", "normalize_weight", "n_threads"] →
      ∃ W, p3Fit nth e X given = .ok W ∧ NeverLowers (similarity X (some (cscDense W))) X.cols) ∧
    (Only given ["alpha", "beta", "top_k", "normalize_weight", "n_threads"] →
      Argument given "beta" (.num (3 / 5)) (.num be) →
      ∃ W, rp3Fit nth e X given = .ok W ∧ NeverLowers (similarity X (some (cscDense W))) X.cols) := by
  constructor
  · intro hn
    obtain ⟨full, V, W, h1, h2, h3, h4, h5, h6⟩ := C82_p3 hnth e X hX hp given a b none T hn ha hk hb hT ha0 hT1
    exact ⟨W, h3, walk_neverLowers hX (fun j i => by simpa using walk_nonneg hp a 0 j i) h1 h2 h4 h5 h6⟩
  · intro hn hbe
    obtain ⟨full, V, W, h1, h2, h3, h4, h5, h6⟩ := C82_rp3 hnth e X hX hp given a be b none T hn ha hbe hk hb hT ha0 hb0 hT1
    exact ⟨W, h3, walk_neverLowers hX (walk_nonneg hp a be) h1 h2 h4 h5 h6⟩

/-- C106 (`TopPopRecommender`).  One more user who takes up an item raises its score for everybody by exactly what this user
adds, and leaves the scores of items this user does not touch as they were. -/
theorem C106_top_pop (X X' : CSR ℝ) (v : Nat) (hv : v < X.nrows) (h : DifferAt X X' v) (users : List Int) :
    ∃ s s', (topPop X (some (Score.popularity X))).getScore users = .ok s ∧
      (topPop X' (some (Score.popularity X'))).getScore users = .ok s' ∧ s.rows.length = users.length ∧
      s'.rows.length = users.length ∧
      ∀ k < users.length, ∀ i, s'.get k i = s.get k i + (X'.get v i - X.get v i) := by
  obtain ⟨p1, p2, -⟩ := C50_top_pop X
  obtain ⟨q1, q2, -⟩ := C50_top_pop X'
  obtain ⟨s, hs, -, h1, h2⟩ := p2 users
  obtain ⟨s', hs', -, h1', h2'⟩ := q2 users
  refine ⟨s, s', hs, hs', h1, h1', fun k hk i => ?_⟩
  have e1 : s.get k i = Score.popularity X i := by
    unfold Dense.get
    rw [List.getD_eq_getElem _ _ (by rw [h1]; exact hk), h2 _ (List.getElem_mem _)]
  have e2 : s'.get k i = Score.popularity X' i := by
    unfold Dense.get
    rw [List.getD_eq_getElem _ _ (by rw [h1']; exact hk), h2' _ (List.getElem_mem _)]
  rw [e1, e2, p1, q1, h.nrows]
  have hm : v ∈ Finset.range X.nrows := Finset.mem_range.mpr hv
  rw [← Finset.add_sum_erase _ _ hm, ← Finset.add_sum_erase _ _ hm,
    Finset.sum_congr rfl (fun u hu => differ_get h (Finset.ne_of_mem_erase hu) i)]
  ring

/-! ## Where it fails -/

/-- users 0 and 1, items 0 and 1: user 0 has rated both alike, user 1 rates as given -/
def rated (row : SpVec ℝ) : CSR ℝ := ⟨2, [[(0, 1), (1, 1)], row]⟩

/-- C106 fails for the cosine of data with different strengths: a user who has interacted with both items, once with the
one and three times with the other, makes them less similar. -/
theorem C106_cosine_counterexample (hnth : NthOk nth) : ∃ W W' : CSR ℝ, Proper (rated []) ∧ Proper (rated [(0, 1), (1, 3)]) ∧
    Positive (rated []) ∧ Positive (rated [(0, 1), (1, 3)]) ∧ DifferAt (rated []) (rated [(0, 1), (1, 3)]) 1 ∧
    Neither (rated []) 1 0 1 ∧ Joins (rated [(0, 1), (1, 3)]) 1 0 1 ∧
    cosineKnnFit nth exampleEnv2 (rated []) [("normalize", .bool true)] = .ok W ∧
    cosineKnnFit nth exampleEnv2 (rated [(0, 1), (1, 3)]) [("normalize", .bool true)] = .ok W' ∧ W'.get 0 1 < W.get 0 1 := by
  have p1 : Proper (rated []) := by
    constructor <;> intro r hr <;> simp [rated] at hr <;> rcases hr with rfl | rfl <;> simp [rated]
  have p2 : Proper (rated [(0, 1), (1, 3)]) := by
    constructor <;> intro r hr <;> simp [rated] at hr <;> rcases hr with rfl | rfl <;> simp [rated]
  have q1 : Positive (rated []) := by
    intro r hr; simp [rated] at hr; rcases hr with rfl | rfl <;> simp
  have q2 : Positive (rated [(0, 1), (1, 3)]) := by
    intro r hr; simp [rated] at hr; rcases hr with rfl | rfl <;> simp
  have fit := fun (X : CSR ℝ) (h1 : Proper X) (h2 : Positive X) => C82_cosine_items hnth exampleEnv2 X h1 (positive_noZero h2)
    [("normalize", .bool true)] 0 true 100 2 .none (by intro a ha; simp at ha; rw [ha]; simp) (.inr ⟨rfl, rfl⟩)
    (.inl (by simp)) (.inr ⟨rfl, rfl⟩) (.inl ⟨.inr ⟨rfl, rfl⟩, rfl⟩) (.inr ⟨.inr ⟨rfl, rfl⟩, rfl⟩) (le_refl _) (by norm_num)
  obtain ⟨W, hW, -, -, -, h1⟩ := fit _ p1 q1
  obtain ⟨W', hW', -, -, -, h2⟩ := fit _ p2 q2
  refine ⟨W, W', p1, p2, q1, q2, ⟨rfl, rfl, ?_⟩, ?_, ?_, hW, hW', ?_⟩
  · rintro (_ | _ | u) hu
    · rfl
    · exact absurd rfl hu
    · rfl
  · simp [Neither, rated, CSR.get, CSR.row, SpVec.get]
  · simp [Joins, rated, CSR.get, CSR.row, SpVec.get]
  · rw [h1 (by simp [rated]) 0 (by simp [rated]) 1 (by simp [rated]),
      h2 (by simp [rated]) 0 (by simp [rated]) 1 (by simp [rated])]
    have e1 : ∀ Y : CSR ℝ, (Weighting.none).apply Y = Y := fun _ => rfl
    simp only [e1, zero_ne_one, if_false, if_true]
    have n1 : ∀ row, (rated row).nrows = 2 := fun _ => rfl
    have d : ∀ f g : Nat → ℝ, dot 2 f g = f 0 * g 0 + f 1 * g 1 := by
      intro f g; simp [dot, Finset.sum_range_succ]
    rw [n1, n1]
    unfold cosine l2norm
    simp only [d]
    simp [rated, CSR.get, CSR.row, SpVec.get]
    norm_num
    rw [← Real.sqrt_mul (by norm_num)]
    have h4 : (4.1 : ℝ) ≤ Real.sqrt (2 * 10) := Real.le_sqrt_of_sq_le (by norm_num)
    unfold eps
    rw [div_lt_iff₀ (by linarith), ← one_div, one_div_mul_eq_div, lt_div_iff₀ (by norm_num)]
    nlinarith

/-- C106 fails with `feature_weighting="TF_IDF"`: an item everybody has interacted with gets a negative weight, so that every
interaction added to a profile lowers its score. -/
theorem C106_tfidf_counterexample (hnth : NthOk nth) : ∃ W : CSR ℝ, Proper (rated [(0, 1), (1, 1)]) ∧
    Positive (rated [(0, 1), (1, 1)]) ∧
    cosineKnnFit nth exampleEnv2 (rated [(0, 1), (1, 1)]) [("feature_weighting", .str "TF_IDF")] = .ok W ∧
    ¬ NeverLowers (similarity (rated [(0, 1), (1, 1)]) (some (toDense W))) 2 := by
  have p : Proper (rated [(0, 1), (1, 1)]) := by
    constructor <;> intro r hr <;> simp [rated] at hr <;> subst hr <;> simp [rated]
  have q : Positive (rated [(0, 1), (1, 1)]) := by
    intro r hr; simp [rated] at hr; subst hr; simp
  obtain ⟨W, hW, w1, w2, -, h⟩ := C82_cosine_items hnth exampleEnv2 _ p (positive_noZero q)
    [("feature_weighting", .str "TF_IDF")] 0 false 100 2 .tfIdf (by intro a ha; simp at ha; rw [ha]; simp) (.inr ⟨rfl, rfl⟩)
    (.inr ⟨rfl, rfl⟩) (.inr ⟨rfl, rfl⟩) (.inr (.inl ⟨.inl (by simp), rfl⟩)) (.inr ⟨.inr ⟨rfl, rfl⟩, rfl⟩) (le_refl _) (by norm_num)
  refine ⟨W, p, q, hW, fun hc => ?_⟩
  have hx : (⟨2, [[]]⟩ : CSR ℝ).WF := by intro r hr; simp at hr; subst hr; simp
  have hx' : (⟨2, [[(0, 1)]]⟩ : CSR ℝ).WF := by intro r hr; simp at hr; subst hr; simp
  obtain ⟨s, s', hs, hs', -, -, hle⟩ := hc ⟨2, [[]]⟩ ⟨2, [[(0, 1)]]⟩ hx hx' rfl ⟨rfl, rfl, by
    intro u i
    rcases u with _ | u
    · simp only [CSR.get, CSR.row, SpVec.get, List.getD_cons_zero]
      by_cases hi : (0 : Nat) = i <;> simp [hi]
    · simp [CSR.get, CSR.row, SpVec.get]⟩
  have hl : (toDense W).rows.length = (rated [(0, 1), (1, 1)]).cols := by rw [toDense_length, w1]
  have hcold := (C50_similarity_cold _ p.1 (toDense W) hl).1
  rw [hcold _ hx rfl] at hs
  rw [hcold _ hx' rfl] at hs'
  cases hs
  cases hs'
  have h0 := hle 0 1
  have hw01 : (toDense W).get 0 1 = W.get 0 1 := toDense_get _ _ _ (by rw [w1]; simp [rated])
  simp [Dense.get, CSR.nrows, List.range_succ, itemBased, Finset.sum_range_succ, CSR.get, CSR.row, SpVec.get] at h0
  have h0' : 0 ≤ (toDense W).get 0 1 := by simpa [Dense.get] using h0
  rw [hw01, h (by simp [rated]) 0 (by simp [rated]) 1 (by simp [rated])] at h0'
  have ti : ∀ u, ((Weighting.tfIdf).apply (rated [(0, 1), (1, 1)])).get u 1 =
      (rated [(0, 1), (1, 1)]).get u 1 * Real.log ((rated [(0, 1), (1, 1)]).nrows / ((frequency (rated [(0, 1), (1, 1)]) 1 : ℝ) + 1)) :=
    fun u => (C82_feature_weighting _ p q u 1 0 0 _ rfl).2.1
  have hf : frequency (rated [(0, 1), (1, 1)]) 1 = 2 := by
    unfold frequency
    rw [show (rated [(0, 1), (1, 1)]).nrows = 2 from rfl]
    rw [Finset.filter_true_of_mem, Finset.card_range]
    intro u hu
    have := Finset.mem_range.mp hu
    interval_cases u <;> simp [rated, CSR.get, CSR.row, SpVec.get]
  have hlog : Real.log (2 / 3) < 0 := Real.log_neg (by norm_num) (by norm_num)
  have d : ∀ f g : Nat → ℝ, dot 2 f g = f 0 * g 0 + f 1 * g 1 := by
    intro f g; simp [dot, Finset.sum_range_succ]
  simp only [ti, hf, show (rated [(0, 1), (1, 1)]).nrows = 2 from rfl, d, zero_ne_one, if_false, Bool.false_eq_true] at h0'
  simp [rated, CSR.get, CSR.row, SpVec.get] at h0'
  norm_num at h0'
  linarith

/-! ### The hypotheses are met -/

theorem rated_ok {row : SpVec ℝ} (h : row = [] ∨ row = [(0, 1), (1, 1)] ∨ row = [(0, 1)]) :
    Proper (rated row) ∧ Positive (rated row) ∧ Binary (rated row) ∧ DifferAt (rated []) (rated row) 1 := by
  refine ⟨?_, ?_, ?_, rfl, rfl, ?_⟩
  · rcases h with rfl | rfl | rfl <;> constructor <;> intro r hr <;> simp [rated] at hr <;> rcases hr with rfl | rfl <;>
      simp [rated]
  · rcases h with rfl | rfl | rfl <;> intro r hr <;> simp [rated] at hr <;> rcases hr with rfl | rfl <;> simp
  · have hv : ∀ r : SpVec ℝ, r = [] ∨ r = [(0, 1), (1, 1)] ∨ r = [(0, 1)] → ∀ i, SpVec.get r i = 0 ∨ SpVec.get r i = 1 := by
      rintro r (rfl | rfl | rfl) i
      · simp [SpVec.get]
      · rcases i with _ | _ | i <;> simp [SpVec.get]
      · rcases i with _ | i <;> simp [SpVec.get]
    rintro (_ | _ | u) i
    · exact hv _ (.inr (.inl rfl)) i
    · exact hv row h i
    · exact .inl (by simp [CSR.get, CSR.row, rated, SpVec.get])
  · rintro (_ | _ | u) hu
    · rfl
    · exact absurd rfl hu
    · rfl

/-- user 1 takes up both items: they get closer (cosine); user 1 takes up item 0 only: they do not (Jaccard) -/
example : (∃ W W', cosineKnnFit sortNth exampleEnv2 (rated []) [("normalize", .bool true)] = .ok W ∧
      cosineKnnFit sortNth exampleEnv2 (rated [(0, 1), (1, 1)]) [("normalize", .bool true)] = .ok W' ∧ W.get 0 1 < W'.get 0 1) ∧
    ∃ W W', jaccardKnnFit sortNth exampleEnv2 (rated []) [] = .ok W ∧
      jaccardKnnFit sortNth exampleEnv2 (rated [(0, 1)]) [] = .ok W' ∧ W'.get 0 1 ≤ W.get 0 1 := by
  obtain ⟨p1, q1, b1, -⟩ := rated_ok (row := []) (.inl rfl)
  obtain ⟨p2, q2, b2, d2⟩ := rated_ok (row := [(0, 1), (1, 1)]) (.inr (.inl rfl))
  obtain ⟨p3, q3, b3, d3⟩ := rated_ok (row := [(0, 1)]) (.inr (.inr rfl))
  constructor
  · obtain ⟨W, W', h1, h2, h3⟩ := C106_cosine_partial sortNth_ok exampleEnv2 _ _ p1 p2 (positive_noZero q1) (positive_noZero q2) b1 b2
      1 (by simp [rated, CSR.nrows]) d2 [("normalize", .bool true)] 0 true 100 2 (by intro a ha; simp at ha; rw [ha]; simp)
      (.inr ⟨rfl, rfl⟩) (.inl (by simp)) (.inr ⟨rfl, rfl⟩) (.inl ⟨.inr ⟨rfl, rfl⟩, rfl⟩) (.inr ⟨.inr ⟨rfl, rfl⟩, rfl⟩)
      (le_refl _) (by norm_num) (by simp [rated])
    exact ⟨W, W', h1, h2, h3.closer 0 (by simp [rated]) 1 (by simp [rated]) (by norm_num)
      (by simp [Joins, rated, CSR.get, CSR.row, SpVec.get]) (by simp [Joins, rated, CSR.get, CSR.row, SpVec.get])⟩
  · obtain ⟨W, W', h1, h2, h3⟩ := C106_jaccard sortNth_ok exampleEnv2 _ _ p1 p3 (positive_noZero q1) (positive_noZero q3)
      1 (by simp [rated, CSR.nrows]) d3 [] 0 100 2 (by intro a ha; cases ha)
      (.inr ⟨rfl, rfl⟩) (.inr ⟨rfl, rfl⟩) (.inr ⟨.inr ⟨rfl, rfl⟩, rfl⟩) (le_refl _) (by norm_num) (by simp [rated])
    exact ⟨W, W', h1, h2, h3.apart 0 (by simp [rated]) 1 (by simp [rated]) (by norm_num)
      (by simp [Neither, rated, CSR.get, CSR.row, SpVec.get]) (by simp [Joins, rated, CSR.get, CSR.row, SpVec.get])⟩

/-- P3alpha with its default arguments, and a profile that grows -/
example : (∃ W, p3Fit sortNth exampleEnv2 (rated [(0, 1)]) [] = .ok W ∧
      NeverLowers (similarity (rated [(0, 1)]) (some (cscDense W))) 2) ∧
    Extends ⟨2, [[(0, 1)]]⟩ ⟨2, [[(0, 1), (1, 1)]]⟩ := by
  obtain ⟨p3, q3, -⟩ := rated_ok (row := [(0, 1)]) (.inr (.inr rfl))
  refine ⟨(C106_walk_scores sortNth_ok exampleEnv2 _ p3 q3 [] 1 0 false 2 (.inr ⟨rfl, rfl⟩) (.inr ⟨rfl, rfl⟩) (.inr ⟨rfl, rfl⟩)
    (.inr ⟨.inr ⟨rfl, rfl⟩, rfl⟩) (by norm_num) (by norm_num) (by norm_num)).1 (by intro a ha; cases ha), rfl, rfl, ?_⟩
  rintro (_ | u) (_ | _ | i) <;> simp [CSR.get, CSR.row, SpVec.get]

end Irspack.Props

namespace Irspack.NewProfile

section
open Ials Retrieval Spec.NewProfile Spec.Evidence

/-- one factor, two items -/
noncomputable def twoItems : Recommender where
  args :=
    { X := ⟨2, [[(0, 1), (1, 1)]]⟩, nComponents := 1, alpha0 := 1, reg := 1, nu := 0, scaling := .none, epsilon := 1,
      initStd := 1, solverName := "CHOLESKY", maxCgSteps := 0, subspaceDimension := 1, lossType := .ialspp,
      nuStar := none, randomSeed := 42, predictionMaxCgSteps := 5, predictionIteration := 7, userF := none,
      itemF := none, lambdaUser := 0, lambdaItem := 0, warmup := 0 }
  solverType := .cholesky
  scaledReg := 1

/-- its trainer, after the random numbers 1 for the user and 1 and -1 for the items -/
noncomputable def twoTrainer : Trainer 1 :=
  Trainer.create twoItems.config ⟨2, [[(0, 1), (1, 1)]]⟩ (fun _ _ => 1) (fun i _ => if i = 0 then 1 else -1)

theorem twoItems_score {ω : Oracle T} (hω : ω.Complete) (hT : 0 < T) (p : Profile String) (hp : NonNegative p) (row : SpVec ℝ)
    (hrow : (newUsers (⟨["a", "b"]⟩ : ItemIDMapper String) [p]).row 0 = row) (hone : ∀ e ∈ row, e.1 = 0) :
    ∃ s, twoItems.getScoreColdUser ω twoTrainer (newUsers ⟨["a", "b"]⟩ [p]) none = .ok s ∧
      s.2 0 1 * (3 + (row.map Prod.snd).sum) = - (row.map Prod.snd).sum := by
  have hp' : ∀ q ∈ [p], NonNegative q := by simpa using hp
  have hn := nonNeg_newUsers .none (eps := 1) one_pos ⟨["a", "b"]⟩ [p] hp'
  have hcols : (scaleX .none 1 (newUsers (⟨["a", "b"]⟩ : ItemIDMapper String) [p])).cols = 2 := by
    rw [scaleX_cols, newUsers_eq]; rfl
  have hrows : (scaleX .none 1 (newUsers (⟨["a", "b"]⟩ : ItemIDMapper String) [p])).nrows = 1 := by
    rw [scaleX_nrows, newUsers_eq]; rfl
  have hrow' : (scaleX .none 1 (newUsers (⟨["a", "b"]⟩ : ItemIDMapper String) [p])).row 0 = row := by
    rw [scaleX_newUsers]; exact hrow
  set X := scaleX .none 1 (newUsers (⟨["a", "b"]⟩ : ItemIDMapper String) [p]) with hX
  set tr := twoTrainer with htr
  have ha : (0 : ℝ) ≤ tr.cfg.alpha0 := by simp [htr, twoTrainer, Trainer.create, Recommender.config, twoItems]
  have hr : (0 : ℝ) ≤ tr.cfg.reg := by simp [htr, twoTrainer, Trainer.create, Recommender.config, twoItems]
  have hreg : ∀ k : Nat, computeReg tr.cfg k tr.item.n = 1 := by
    intro k
    simp [computeReg, htr, twoTrainer, Trainer.create, Recommender.config, twoItems]
  obtain ⟨E, hE⟩ := solverStep_total (cfg := tr.cfg) (V := tr.item) (X := X) ha hr (hω.at 1) hT
    twoItems.predictionSolver ⟨X.nrows, fun _ => 0⟩ (fun r _ => hn r)
    (fun r _ => by rw [hreg]; norm_num)
  have hok : tr.transformUser ω twoItems.predictionSolver X = .ok E := by
    unfold Trainer.transformUser xToVector
    rw [prepareP_eq (hω.at 0) hT]
    simp only [bind, Except.bind]
    rw [if_neg (not_not.mpr (by rw [hcols]; rfl))]
    exact hE
  refine ⟨embeddingScores E tr.item, ?_, ?_⟩
  · unfold Recommender.getScoreColdUser
    rw [userEmbedding_eq (logDefined_newUsers _ one_pos _ _ hp')]
    simp only
    have : scaleX twoItems.args.scaling twoItems.args.epsilon (newUsers ⟨["a", "b"]⟩ [p]) = X := rfl
    rw [this, hok]
    rfl
  · unfold solverStep at hE
    rw [show twoItems.predictionSolver.solverType = .cholesky from rfl] at hE
    have h1 := (stepCholesky_row (hω.at 1) hT _ _ _ hE).2 0 (by simp [hrows])
    have h2 := congrFun (choleskyRow_min ha hr (hn 0) _ h1).2 0
    rw [hrow'] at h2
    have hV : ∀ k i, tr.item.row k i = if k = 0 then 1 else -1 := fun _ _ => rfl
    have hb : bias tr.cfg = 0 := by simp [bias, htr, twoTrainer, Trainer.create, Recommender.config, twoItems]
    have hs : ∀ l : SpVec ℝ, (∀ e ∈ l, e.1 = 0) → (l.map (fun e => (bias tr.cfg + e.2) • tr.item.row e.1)).sum 0 =
        (l.map Prod.snd).sum := by
      intro l hl
      induction l with
      | nil => rfl
      | cons e l ih =>
        rw [List.map_cons, List.sum_cons, Pi.add_apply, ih (fun e he => hl e (List.mem_cons_of_mem _ he)), List.map_cons,
          List.sum_cons]
        simp [hV, hb, hl e (List.mem_cons_self ..)]
    have hent : ((ents tr.item row).map (fun e => e.2 * (e.1 0 * e.1 0))).sum = (row.map Prod.snd).sum := by
      simp only [ents, hV, List.map_map, Function.comp_def]
      congr 1
      refine List.map_congr_left (fun e he => ?_)
      simp [hone e he]
    have hg : gramP tr.cfg tr.item 0 0 = 2 := by
      have hn2 : tr.item.n = 2 := rfl
      have hal : tr.cfg.alpha0 = 1 := by simp [htr, twoTrainer, Trainer.create, Recommender.config, twoItems]
      simp only [gramP, hV, hn2, hal]
      norm_num [Finset.sum_range_succ]
    unfold sysRhs at h2
    rw [Pi.add_apply, hs _ hone] at h2
    simp only [Matrix.mulVec, dotProduct, Finset.univ_unique, Fin.default_eq_zero, Finset.sum_singleton, sysMat, if_true,
      Pi.zero_apply, zero_add] at h2
    rw [hg, hrow', hent, hreg] at h2
    have hsc : (embeddingScores E tr.item).2 0 1 = - E.row 0 0 := by
      have hn1 : tr.item.n = 2 := rfl
      simp [embeddingScores, hV, hn1]
    rw [hsc]
    linarith

/-- C106 fails for iALS: with the item factors 1 and -1, adding item 0 to an empty profile lowers the score of item 1. -/
theorem C106_ials_counterexample {ω : Oracle T} (hω : ω.Complete) (hT : 0 < T) :
    ∃ (m : ItemIDMapper String) (s s' : Nat × (Nat → Nat → ℝ)), ItemIDMapper.make ["a", "b"] = .ok m ∧
      Extends (newUsers m [.ids []]) (newUsers m [.ids ["a"]]) ∧
      twoItems.getScoreColdUser ω twoTrainer (newUsers m [.ids []]) none = .ok s ∧
      twoItems.getScoreColdUser ω twoTrainer (newUsers m [.ids ["a"]]) none = .ok s' ∧ s'.2 0 1 < s.2 0 1 := by
  have e1 : newUsers (⟨["a", "b"]⟩ : ItemIDMapper String) [.ids []] = ⟨2, [[]]⟩ := by
    rw [newUsers_eq]; simp [entries]
  have e2 : newUsers (⟨["a", "b"]⟩ : ItemIDMapper String) [.ids ["a"]] = ⟨2, [[(0, 1)]]⟩ := by
    rw [newUsers_eq]; simp [entries, ItemIDMapper.index?]
  obtain ⟨s, hs, h1⟩ := twoItems_score hω hT (.ids []) trivial [] (by rw [e1]; rfl) (by simp)
  obtain ⟨s', hs', h2⟩ := twoItems_score hω hT (.ids ["a"]) trivial [(0, 1)] (by rw [e2]; rfl) (by simp)
  refine ⟨⟨["a", "b"]⟩, s, s', by decide, ?_, hs, hs', ?_⟩
  · rw [e1, e2]
    refine ⟨rfl, rfl, fun u i => ?_⟩
    rcases u with _ | u
    · simp only [CSR.get, CSR.row, SpVec.get, List.getD_cons_zero]
      by_cases hi : (0 : Nat) = i <;> simp [hi]
    · simp [CSR.get, CSR.row, SpVec.get]
  · simp at h1 h2
    linarith

end
end Irspack.NewProfile
