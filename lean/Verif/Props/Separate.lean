import Verif.Proofs.Separate
import Verif.Proofs.SlimConverge
import Verif.Props.Twins
import Verif.Props.SlimConverge
import Verif.Proofs.IalsCold

/-!
# C96: populations that share neither users nor items
-/

namespace Irspack.Props

open RecClasses Sim Score Spec.Sim Spec.Score Spec.Separate

variable {nth : Nat → SpVec ℝ → List Nat}

/-! ## Item-based recommenders -/

theorem get_inside {X X' : CSR ℝ} {P Q : Nat → Prop} (h : SameInside X X' P Q) {u : Nat} (hu : P u) (i : Nat) :
    X'.get u i = X.get u i := by
  unfold CSR.get
  rw [h.inside u hu]

theorem get_apart {X : CSR ℝ} {P Q : Nat → Prop} (h : Apart X P Q) {u i : Nat} (hui : ¬ (P u ↔ Q i)) : X.get u i = 0 := by
  refine get_of_not_mem _ _ (fun e he => ?_)
  rintro rfl
  exact hui (h u e he)

theorem item_scores_inside {X X' : CSR ℝ} {P Q : Nat → Prop} (h : SameInside X X' P Q) (hX : X.WF) (hX' : X'.WF) (W W' : Dense ℝ)
    (hW : W.rows.length = X.cols) (hW' : W'.rows.length = X.cols) (hc : W.cols = X.cols) (hc' : W'.cols = X.cols)
    (hin : ∀ i j, i < X.cols → Q i → Q j → W'.get i j = W.get i j)
    (hout : ∀ i j, i < X.cols → Q i → ¬ Q j → W.get i j = 0 ∧ W'.get i j = 0) :
    NoInterference (similarity X (some W)) (similarity X' (some W')) P Q := by
  intro u hu hPu
  have hu : u < X.nrows := hu
  refine ⟨X.cols, itemBased X W.get u, itemBased X' W'.get u, ?_, ?_, fun j hj => ⟨?_, fun hQ => ?_⟩⟩
  · rw [C50_similarity_score X hX W hW _ [u] (.cons ⟨hu, .inl rfl⟩ .nil), hc]; rfl
  · rw [C50_similarity_score X' hX' W' (by rw [hW', h.cols]) _ [u] (.cons ⟨by rw [h.nrows]; exact hu, .inl rfl⟩ .nil), hc']
    rfl
  · unfold itemBased
    rw [h.cols]
    refine Finset.sum_congr rfl (fun i hi => ?_)
    have hi := Finset.mem_range.mp hi
    rw [get_inside h hPu]
    by_cases hQi : Q i
    · by_cases hQj : Q j
      · rw [hin i j hi hQi hQj]
      · rw [(hout i j hi hQi hQj).1, (hout i j hi hQi hQj).2]
    · rw [get_apart h.apart (fun hiff => hQi (hiff.mp hPu)), zero_mul, zero_mul]
  · unfold itemBased
    refine Finset.sum_eq_zero (fun i hi => ?_)
    by_cases hQi : Q i
    · rw [(hout i j (Finset.mem_range.mp hi) hQi hQ).1, mul_zero]
    · rw [get_apart h.apart (fun hiff => hQi (hiff.mp hPu)), zero_mul]

theorem csr_inside {X X' W W' : CSR ℝ} {P Q : Nat → Prop} (h : SameInside X X' P Q) (hX : X.WF) (hX' : X'.WF)
    (hW : SameInside W W' Q Q) (hn : W.nrows = X.cols) (hc : W.cols = X.cols) :
    NoInterference (similarity X (some (toDense W))) (similarity X' (some (toDense W'))) P Q := by
  refine item_scores_inside h hX hX' _ _ (by rw [toDense_length, hn]) (by rw [toDense_length, hW.nrows, hn]) hc
    (hW.cols.trans hc) (fun i j hi hQi hQj => ?_) (fun i j hi hQi hQj => ?_)
  · rw [toDense_get _ _ _ (by rw [hW.nrows, hn]; exact hi), toDense_get _ _ _ (by rw [hn]; exact hi), get_inside hW hQi]
  · rw [toDense_get _ _ _ (by rw [hn]; exact hi), toDense_get _ _ _ (by rw [hW.nrows, hn]; exact hi)]
    exact ⟨get_apart hW.apart (fun hiff => hQj (hiff.mp hQi)), get_apart hW.apart' (fun hiff => hQj (hiff.mp hQi))⟩

/-- C96 (`CosineKNNRecommender`, every `top_k`, no feature weighting or TF-IDF). -/
theorem C96_cosine_items (hnth : NthOk nth) (e : Env) (X X' : CSR ℝ) (hX : X.WF) (hX' : X'.WF) (ours mine : Nat → Prop)
    (h : SameInside X X' ours mine) (given : Args) (s : ℚ) (b : Bool) (k T : Nat) (w : Weighting)
    (hn : Only given ["shrinkage", "normalize", "top_k", "feature_weighting", "bm25_k1", "bm25_b", "n_threads"])
    (hs : Argument given "shrinkage" (.num 0) (.num s))
    (hb : Argument given "normalize" (.bool false) (.bool b)) (hk : Argument given "top_k" (.num 100) (.num k))
    (hw : WeightingIs given w) (hw2 : w = .none ∨ w = .tfIdf) (hT : ThreadsAre e given T) (hs0 : 0 ≤ s) (hT1 : 1 ≤ T) :
    ∃ W W', cosineKnnFit nth e X given = .ok W ∧ cosineKnnFit nth e X' given = .ok W' ∧
      NoInterference (similarity X (some (toDense W))) (similarity X' (some (toDense W'))) ours mine := by
  obtain ⟨W, W', h1, h2, h3, h4, h5⟩ := itemKnnW_inside hnth w (by rcases hw2 with rfl | rfl <;> trivial) (.cosine b) s
    (by exact_mod_cast hs0) trivial h T k hT1
  exact ⟨W, W', by rw [cosineKnnFit_eq e X given s b k T w hn hs hb hk hw hT, h1],
    by rw [cosineKnnFit_eq e X' given s b k T w hn hs hb hk hw hT, h2], csr_inside h hX hX' h3 h4 h5⟩

/-- C96 (`AsymmetricCosineKNNRecommender`, every `top_k`, no feature weighting or TF-IDF). -/
theorem C96_asymmetric_items (hnth : NthOk nth) (e : Env) (X X' : CSR ℝ) (hX : X.WF) (hX' : X'.WF) (ours mine : Nat → Prop)
    (h : SameInside X X' ours mine) (given : Args) (s a : ℚ) (k T : Nat) (w : Weighting)
    (hn : Only given ["shrinkage", "alpha", "top_k", "feature_weighting", "bm25_k1", "bm25_b", "n_threads"])
    (hs : Argument given "shrinkage" (.num 0) (.num s))
    (ha : Argument given "alpha" (.num (1 / 2)) (.num a)) (hk : Argument given "top_k" (.num 100) (.num k))
    (hw : WeightingIs given w) (hw2 : w = .none ∨ w = .tfIdf) (hT : ThreadsAre e given T) (hs0 : 0 ≤ s)
    (ha0 : 0 ≤ a) (ha1 : a ≤ 1) (hT1 : 1 ≤ T) :
    ∃ W W', asymmetricKnnFit nth e X given = .ok W ∧ asymmetricKnnFit nth e X' given = .ok W' ∧
      NoInterference (similarity X (some (toDense W))) (similarity X' (some (toDense W'))) ours mine := by
  obtain ⟨W, W', h1, h2, h3, h4, h5⟩ := itemKnnW_inside hnth w (by rcases hw2 with rfl | rfl <;> trivial) (.asymmetric a) s
    (by exact_mod_cast hs0) ⟨by exact_mod_cast ha0, by exact_mod_cast ha1⟩ h T k hT1
  exact ⟨W, W', by rw [asymmetricKnnFit_eq e X given s a k T w hn hs ha hk hw hT, h1],
    by rw [asymmetricKnnFit_eq e X' given s a k T w hn hs ha hk hw hT, h2], csr_inside h hX hX' h3 h4 h5⟩

/-- C96 (`JaccardKNNRecommender`, every `top_k`). -/
theorem C96_jaccard_items (hnth : NthOk nth) (e : Env) (X X' : CSR ℝ) (hX : X.WF) (hX' : X'.WF) (ours mine : Nat → Prop)
    (h : SameInside X X' ours mine) (given : Args) (s : ℚ) (k T : Nat) (hn : Only given ["shrinkage", "top_k", "n_threads"])
    (hs : Argument given "shrinkage" (.num 0) (.num s)) (hk : Argument given "top_k" (.num 100) (.num k))
    (hT : ThreadsAre e given T) (hs0 : 0 ≤ s) (hT1 : 1 ≤ T) :
    ∃ W W', jaccardKnnFit nth e X given = .ok W ∧ jaccardKnnFit nth e X' given = .ok W' ∧
      NoInterference (similarity X (some (toDense W))) (similarity X' (some (toDense W'))) ours mine := by
  obtain ⟨W, W', h1, h2, h3, h4, h5⟩ := itemKnnW_inside hnth .none trivial .jaccard s (by exact_mod_cast hs0) trivial h T k hT1
  exact ⟨W, W', by rw [jaccardKnnFit_eq e X given s k T hn hs hk hT, h1],
    by rw [jaccardKnnFit_eq e X' given s k T hn hs hk hT, h2], csr_inside h hX hX' h3 h4 h5⟩

/-- C96 (`TverskyIndexKNNRecommender`, every `top_k`). -/
theorem C96_tversky_items (hnth : NthOk nth) (e : Env) (X X' : CSR ℝ) (hX : X.WF) (hX' : X'.WF) (ours mine : Nat → Prop)
    (h : SameInside X X' ours mine) (given : Args) (s a b : ℚ) (k T : Nat)
    (hn : Only given ["shrinkage", "alpha", "beta", "top_k", "n_threads"])
    (hs : Argument given "shrinkage" (.num 0) (.num s)) (ha : Argument given "alpha" (.num (1 / 2)) (.num a))
    (hb : Argument given "beta" (.num (1 / 2)) (.num b)) (hk : Argument given "top_k" (.num 100) (.num k))
    (hT : ThreadsAre e given T) (hs0 : 0 ≤ s) (ha0 : 0 ≤ a) (hb0 : 0 ≤ b) (hT1 : 1 ≤ T) :
    ∃ W W', tverskyKnnFit nth e X given = .ok W ∧ tverskyKnnFit nth e X' given = .ok W' ∧
      NoInterference (similarity X (some (toDense W))) (similarity X' (some (toDense W'))) ours mine := by
  obtain ⟨W, W', h1, h2, h3, h4, h5⟩ := itemKnnW_inside hnth .none trivial (.tversky a b) s (by exact_mod_cast hs0)
    ⟨by exact_mod_cast ha0, by exact_mod_cast hb0⟩ h T k hT1
  exact ⟨W, W', by rw [tverskyKnnFit_eq e X given s a b k T hn hs ha hb hk hT, h1],
    by rw [tverskyKnnFit_eq e X' given s a b k T hn hs ha hb hk hT, h2], csr_inside h hX hX' h3 h4 h5⟩

/-! ## Random walks -/

theorem csc_inside {X X' : CSR ℝ} {W W' : CSC ℝ} {P Q : Nat → Prop} (h : SameInside X X' P Q) (hX : X.WF) (hX' : X'.WF)
    (hW : SameInside (columns W) (columns W') Q Q) (hn : W.cols.length = X.cols) (hc : W.rows = X.cols) :
    NoInterference (similarity X (some (cscDense W))) (similarity X' (some (cscDense W'))) P Q := by
  have hc' : W'.rows = X.cols := Eq.trans (show (columns W').cols = (columns W).cols from hW.cols) hc
  have hn' : W'.cols.length = X.cols := Eq.trans (show (columns W').nrows = (columns W).nrows from hW.nrows) hn
  refine item_scores_inside h hX hX' _ _ (by simp [cscDense, hc]) (by simp [cscDense, hc']) hn hn'
    (fun i j hi hQi hQj => ?_) (fun i j hi hQi hQj => ?_)
  · rw [cscDense_get _ _ _ (by rw [hc']; exact hi), cscDense_get _ _ _ (by rw [hc]; exact hi)]
    exact get_inside hW hQj i
  · rw [cscDense_get _ _ _ (by rw [hc]; exact hi), cscDense_get _ _ _ (by rw [hc']; exact hi)]
    exact ⟨get_apart hW.apart (fun hiff => hQj (hiff.mpr hQi)), get_apart hW.apart' (fun hiff => hQj (hiff.mpr hQi))⟩

/-- C96 (`P3alphaRecommender`, every `top_k`). -/
theorem C96_p3 (hnth : NthOk nth) (e : Env) (X X' : CSR ℝ) (hX : X.WF) (hX' : X'.WF) (ours mine : Nat → Prop)
    (h : SameInside X X' ours mine) (given : Args) (a : ℚ) (b : Bool) (K : Option Nat) (T : Nat)
    (hn : Only given ["alpha", "top_k", "normalize_weight", "n_threads"])
    (ha : Argument given "alpha" (.num 1) (.num a)) (hk : Argument given "top_k" .none (optionalSize K))
    (hb : Argument given "normalize_weight" (.bool false) (.bool b)) (hT : ThreadsAre e given T)
    (ha0 : 0 ≤ a) (hT1 : 1 ≤ T) :
    ∃ W W', p3Fit nth e X given = .ok W ∧ p3Fit nth e X' given = .ok W' ∧
      NoInterference (similarity X (some (cscDense W))) (similarity X' (some (cscDense W'))) ours mine := by
  obtain ⟨W, W', h1, h2, h3, h4, h5⟩ := p3W_inside hnth h.transpose a (by exact_mod_cast ha0) T 128 (K.getD X.cols) hT1 (by norm_num)
  have h4 : W.cols.length = X.cols := h4.trans (transpose_nrows X)
  have h5 : W.rows = X.cols := h5.trans (transpose_nrows X)
  refine ⟨_, _, by rw [p3Fit_eq e X given a b K T hn ha hk hb hT]; unfold p3Learn; rw [h1],
    by rw [p3Fit_eq e X' given a b K T hn ha hk hb hT]; unfold p3Learn; rw [h.cols, h2], ?_⟩
  cases b with
  | false => exact csc_inside h hX hX' h3 h4 h5
  | true => exact csc_inside h hX hX' (l1NormalizeRow_inside h3) (by simpa [l1NormalizeRow] using h4) h5

/-- C96 (`RP3betaRecommender`, every `top_k`). -/
theorem C96_rp3 (hnth : NthOk nth) (e : Env) (X X' : CSR ℝ) (hX : X.WF) (hX' : X'.WF) (ours mine : Nat → Prop)
    (h : SameInside X X' ours mine) (given : Args) (a be : ℚ) (b : Bool) (K : Option Nat) (T : Nat)
    (hn : Only given ["alpha", "beta", "top_k", "normalize_weight", "n_threads"])
    (ha : Argument given "alpha" (.num 1) (.num a)) (hbe : Argument given "beta" (.num (3 / 5)) (.num be))
    (hk : Argument given "top_k" .none (optionalSize K))
    (hb : Argument given "normalize_weight" (.bool false) (.bool b)) (hT : ThreadsAre e given T)
    (ha0 : 0 ≤ a) (hb0 : 0 ≤ be) (hT1 : 1 ≤ T) :
    ∃ W W', rp3Fit nth e X given = .ok W ∧ rp3Fit nth e X' given = .ok W' ∧
      NoInterference (similarity X (some (cscDense W))) (similarity X' (some (cscDense W'))) ours mine := by
  obtain ⟨W, W', h1, h2, h3, h4, h5⟩ := rp3W_inside hnth h.transpose a be (by exact_mod_cast ha0) (by exact_mod_cast hb0) T 128
    (K.getD X.cols) hT1 (by norm_num)
  have h4 : W.cols.length = X.cols := h4.trans (transpose_nrows X)
  have h5 : W.rows = X.cols := h5.trans (transpose_nrows X)
  refine ⟨_, _, by rw [rp3Fit_eq e X given a be b K T hn ha hbe hk hb hT]; unfold rp3Learn; rw [h1],
    by rw [rp3Fit_eq e X' given a be b K T hn ha hbe hk hb hT]; unfold rp3Learn; rw [h.cols, h2], ?_⟩
  cases b with
  | false => exact csc_inside h hX hX' h3 h4 h5
  | true => exact csc_inside h hX hX' (l1NormalizeRow_inside h3) (by simpa [l1NormalizeRow] using h4) h5

/-! ## User-based recommenders -/

theorem user_inside (hnth : NthOk nth) (w : Weighting) (hw : w = .none ∨ w = .tfIdf) (kind : Kind) (s : ℝ) (hs : 0 ≤ s)
    (hp : kind.paramsOk) {X X' : CSR ℝ} {P Q : Nat → Prop} (h : SameInside X X' P Q) (T k : Nat) (hT : 1 ≤ T) :
    ∃ U U', userKnnU nth w kind s X T k = .ok U ∧ userKnnU nth w kind s X' T k = .ok U' ∧
      NoInterference (userSimilarity X (some U)) (userSimilarity X' (some U')) P Q := by
  obtain ⟨U, U', h1, h2, h3, h4, h5⟩ := userKnnU_inside hnth w (by rcases hw with rfl | rfl <;> trivial) kind s hs hp h T k hT
  refine ⟨U, U', h1, h2, fun u hu hPu => ?_⟩
  have hu : u < X.nrows := hu
  have n' : U'.nrows = X'.nrows := by rw [h3.nrows, h4, h.nrows]
  have c' : U'.cols = X'.nrows := by rw [h3.cols, h5, h.nrows]
  obtain ⟨⟨c, rs⟩, g1, g2, g3⟩ := (C50_user_similarity X U (userKnn_wf hnth w kind s hs hp X T k hT U h1) h4 h5).1
    [(u : Int)] [u] (.cons ⟨hu, .inl rfl⟩ .nil)
  obtain ⟨⟨c₂, rs₂⟩, k1, k2, k3⟩ := (C50_user_similarity X' U' (userKnn_wf hnth w kind s hs hp X' T k hT U' h2) n' c').1
    [(u : Int)] [u] (.cons ⟨by rw [h.nrows]; exact hu, .inl rfl⟩ .nil)
  simp only at g2 g3 k2 k3
  subst g2 g3 k2 k3
  refine ⟨X.cols, userBased U X u, userBased U' X' u, g1, ?_, fun j hj => ⟨?_, fun hQ => ?_⟩⟩
  · rw [k1, h.cols]; rfl
  · unfold userBased
    rw [h3.cols]
    refine Finset.sum_congr rfl (fun v _ => ?_)
    rw [get_inside h3 hPu]
    by_cases hv : P v
    · rw [get_inside h hv]
    · rw [get_apart h3.apart (fun hiff => hv (hiff.mp hPu)), zero_mul, zero_mul]
  · unfold userBased
    refine Finset.sum_eq_zero (fun v _ => ?_)
    by_cases hv : P v
    · rw [get_apart h.apart (fun hiff => hQ (hiff.mp hv)), mul_zero]
    · rw [get_apart h3.apart (fun hiff => hv (hiff.mp hPu)), zero_mul]

/-- C96 (`CosineUserKNNRecommender`, every `top_k`, no feature weighting or TF-IDF). -/
theorem C96_cosine_users (hnth : NthOk nth) (e : Env) (X X' : CSR ℝ) (ours mine : Nat → Prop)
    (h : SameInside X X' ours mine) (given : Args) (s : ℚ) (b : Bool) (k T : Nat) (w : Weighting)
    (hn : Only given ["shrinkage", "normalize", "top_k", "feature_weighting", "bm25_k1", "bm25_b", "n_threads"])
    (hs : Argument given "shrinkage" (.num 0) (.num s))
    (hb : Argument given "normalize" (.bool true) (.bool b)) (hk : Argument given "top_k" (.num 100) (.num k))
    (hw : WeightingIs given w) (hw2 : w = .none ∨ w = .tfIdf) (hT : ThreadsAre e given T) (hs0 : 0 ≤ s) (hT1 : 1 ≤ T) :
    ∃ U U', cosineUserKnnFit nth e X given = .ok U ∧ cosineUserKnnFit nth e X' given = .ok U' ∧
      NoInterference (userSimilarity X (some U)) (userSimilarity X' (some U')) ours mine := by
  obtain ⟨U, U', h1, h2, h3⟩ := user_inside hnth w hw2 (.cosine b) s (by exact_mod_cast hs0) trivial h T k hT1
  exact ⟨U, U', by rw [cosineUserKnnFit_eq e X given s b k T w hn hs hb hk hw hT, h1],
    by rw [cosineUserKnnFit_eq e X' given s b k T w hn hs hb hk hw hT, h2], h3⟩

/-- C96 (`AsymmetricCosineUserKNNRecommender`, every `top_k`, no feature weighting or TF-IDF). -/
theorem C96_asymmetric_users (hnth : NthOk nth) (e : Env) (X X' : CSR ℝ) (ours mine : Nat → Prop)
    (h : SameInside X X' ours mine) (given : Args) (s a : ℚ) (k T : Nat) (w : Weighting)
    (hn : Only given ["shrinkage", "alpha", "top_k", "feature_weighting", "bm25_k1", "bm25_b", "n_threads"])
    (hs : Argument given "shrinkage" (.num 0) (.num s))
    (ha : Argument given "alpha" (.num (1 / 2)) (.num a)) (hk : Argument given "top_k" (.num 100) (.num k))
    (hw : WeightingIs given w) (hw2 : w = .none ∨ w = .tfIdf) (hT : ThreadsAre e given T) (hs0 : 0 ≤ s)
    (ha0 : 0 ≤ a) (ha1 : a ≤ 1) (hT1 : 1 ≤ T) :
    ∃ U U', asymmetricUserKnnFit nth e X given = .ok U ∧ asymmetricUserKnnFit nth e X' given = .ok U' ∧
      NoInterference (userSimilarity X (some U)) (userSimilarity X' (some U')) ours mine := by
  obtain ⟨U, U', h1, h2, h3⟩ := user_inside hnth w hw2 (.asymmetric a) s (by exact_mod_cast hs0)
    ⟨by exact_mod_cast ha0, by exact_mod_cast ha1⟩ h T k hT1
  exact ⟨U, U', by rw [asymmetricUserKnnFit_eq e X given s a k T w hn hs ha hk hw hT, h1],
    by rw [asymmetricUserKnnFit_eq e X' given s a k T w hn hs ha hk hw hT, h2], h3⟩

/-! ## Linear autoencoders -/

section
open Matrix

variable {U F : Nat}

open Classical in
theorem inverse_inside {A A' : Matrix (Fin F) (Fin F) ℝ} (hA : IsUnit A.det) (hA' : IsUnit A'.det) (Q : Fin F → Prop)
    (h0 : ∀ i j, ¬ (Q i ↔ Q j) → A i j = 0 ∧ A' i j = 0) (h1 : ∀ i j, Q i → Q j → A' i j = A i j) :
    (∀ i j, ¬ (Q i ↔ Q j) → A⁻¹ i j = 0) ∧ ∀ i j, Q i → Q j → A'⁻¹ i j = A⁻¹ i j := by
  let d : Fin F → ℝ := fun i => if Q i then 1 else 0
  let D : Matrix (Fin F) (Fin F) ℝ := Matrix.diagonal d
  have hcomm : ∀ B : Matrix (Fin F) (Fin F) ℝ, (∀ i j, ¬ (Q i ↔ Q j) → B i j = 0) → B * D = D * B := by
    intro B hB
    ext i j
    rw [Matrix.mul_diagonal, Matrix.diagonal_mul]
    by_cases hij : Q i ↔ Q j
    · have : d i = d j := by simp only [d, hij]
      rw [this, mul_comm]
    · rw [hB i j hij, zero_mul, mul_zero]
  have hinv : ∀ B : Matrix (Fin F) (Fin F) ℝ, IsUnit B.det → B * D = D * B → B⁻¹ * D = D * B⁻¹ := by
    intro B hB h
    calc B⁻¹ * D = B⁻¹ * D * (B * B⁻¹) := by rw [Matrix.mul_nonsing_inv B hB, mul_one]
      _ = B⁻¹ * (D * B) * B⁻¹ := by simp only [mul_assoc]
      _ = B⁻¹ * (B * D) * B⁻¹ := by rw [h]
      _ = (B⁻¹ * B) * D * B⁻¹ := by simp only [mul_assoc]
      _ = D * B⁻¹ := by rw [Matrix.nonsing_inv_mul B hB, one_mul]
  have hc := hcomm A (fun i j h => (h0 i j h).1)
  have hc' := hcomm A' (fun i j h => (h0 i j h).2)
  have hi := hinv A hA hc
  have hi' := hinv A' hA' hc'
  have hD : A' * D = A * D := by
    ext i j
    rw [Matrix.mul_diagonal, Matrix.mul_diagonal]
    by_cases hj : Q j
    · by_cases hi : Q i
      · rw [h1 i j hi hj]
      · rw [(h0 i j (by tauto)).1, (h0 i j (by tauto)).2]
    · simp [d, hj]
  have hDD : A'⁻¹ * D = A⁻¹ * D := by
    calc A'⁻¹ * D = (A⁻¹ * A) * (A'⁻¹ * D) := by rw [Matrix.nonsing_inv_mul A hA, one_mul]
      _ = A⁻¹ * (A * D) * A'⁻¹ := by rw [hi']; simp only [mul_assoc]
      _ = A⁻¹ * (A' * D) * A'⁻¹ := by rw [hD]
      _ = A⁻¹ * (D * A') * A'⁻¹ := by rw [hc']
      _ = A⁻¹ * D * (A' * A'⁻¹) := by simp only [mul_assoc]
      _ = A⁻¹ * D := by rw [Matrix.mul_nonsing_inv A' hA', mul_one]
  refine ⟨fun i j hij => ?_, fun i j hi hj => ?_⟩
  · have := congrFun (congrFun hi i) j
    rw [Matrix.mul_diagonal, Matrix.diagonal_mul] at this
    by_cases hQi : Q i
    · have hQj : ¬ Q j := by tauto
      simpa [d, hQi, hQj] using this.symm
    · have hQj : Q j := by tauto
      simpa [d, hQi, hQj] using this
  · have := congrFun (congrFun hDD i) j
    rw [Matrix.mul_diagonal, Matrix.mul_diagonal] at this
    simpa [d, hj] using this

theorem gram_inside {X X' : Matrix (Fin U) (Fin F) ℝ} {P : Fin U → Prop} {Q : Fin F → Prop} (h : SameInsideDense X X' P Q) :
    (∀ i j, ¬ (Q i ↔ Q j) → Ease.gram X i j = 0 ∧ Ease.gram X' i j = 0) ∧
    ∀ i j, Q i → Ease.gram X' i j = Ease.gram X i j := by
  have e1 : ∀ Y : Matrix (Fin U) (Fin F) ℝ, (∀ u i, Y u i ≠ 0 → (P u ↔ Q i)) → ∀ i j, ¬ (Q i ↔ Q j) → Ease.gram Y i j = 0 := by
    intro Y hY i j hij
    unfold Ease.gram
    rw [Matrix.mul_apply]
    refine Finset.sum_eq_zero (fun u _ => ?_)
    rw [Matrix.transpose_apply]
    by_contra hne
    have h1 := hY u i (left_ne_zero_of_mul hne)
    have h2 := hY u j (right_ne_zero_of_mul hne)
    exact hij (h1.symm.trans h2)
  refine ⟨fun i j hij => ⟨e1 X h.apart i j hij, e1 X' h.apart' i j hij⟩, fun i j hi => ?_⟩
  unfold Ease.gram
  rw [Matrix.mul_apply, Matrix.mul_apply]
  refine Finset.sum_congr rfl (fun u _ => ?_)
  rw [Matrix.transpose_apply, Matrix.transpose_apply]
  by_cases hu : P u
  · rw [h.inside u i hu, h.inside u j hu]
  · have z : ∀ Y : Matrix (Fin U) (Fin F) ℝ, (∀ u i, Y u i ≠ 0 → (P u ↔ Q i)) → Y u i = 0 := by
      intro Y hY
      by_contra hne
      exact hu ((hY u i hne).mpr hi)
    rw [z X h.apart, z X' h.apart', zero_mul, zero_mul]

theorem solve_ok {P : Matrix (Fin F) (Fin F) ℝ} {l : Fin F → ℝ} {W : Matrix (Fin F) (Fin F) ℝ} (h : Ease.solve P l = .ok W) :
    IsUnit (P + Matrix.diagonal l).det ∧
    W = fun i j => if i = j then 0 else (P + Matrix.diagonal l)⁻¹ i j * -(1 / (P + Matrix.diagonal l)⁻¹ j j) := by
  unfold Ease.solve at h
  simp only at h
  by_cases hu : IsUnit (P + Matrix.diagonal l).det
  · rw [if_pos hu] at h
    split_ifs at h
    cases h
    exact ⟨hu, rfl⟩
  · rw [if_neg hu] at h
    cases h

theorem linear_inside {X X' : Matrix (Fin U) (Fin F) ℝ} {ours : Fin U → Prop} {mine : Fin F → Prop}
    (h : SameInsideDense X X' ours mine) {l l' : Fin F → ℝ} (hl : ∀ i, mine i → l' i = l i) {W W' : Matrix (Fin F) (Fin F) ℝ}
    (hW : Ease.solve (Ease.gram X) l = .ok W) (hW' : Ease.solve (Ease.gram X') l' = .ok W') (u : Fin U) (hu : ours u) (j : Fin F) :
    (X' * W') u j = (X * W) u j ∧ (¬ mine j → (X * W) u j = 0) := by
  obtain ⟨hA, eW⟩ := solve_ok hW
  obtain ⟨hA', eW'⟩ := solve_ok hW'
  obtain ⟨g0, g1⟩ := gram_inside h
  have z : ∀ i j, ¬ (mine i ↔ mine j) → (Ease.gram X + Matrix.diagonal l) i j = 0 ∧ (Ease.gram X' + Matrix.diagonal l') i j = 0 := by
    intro i j hij
    have hne : i ≠ j := by rintro rfl; exact hij Iff.rfl
    rw [Matrix.add_apply, Matrix.add_apply, Matrix.diagonal_apply_ne _ hne, Matrix.diagonal_apply_ne _ hne, (g0 i j hij).1,
      (g0 i j hij).2]
    simp
  have s : ∀ i j, mine i → mine j → (Ease.gram X' + Matrix.diagonal l') i j = (Ease.gram X + Matrix.diagonal l) i j := by
    intro i j hi hj
    rw [Matrix.add_apply, Matrix.add_apply, g1 i j hi]
    by_cases hij : i = j
    · subst hij; rw [Matrix.diagonal_apply_eq, Matrix.diagonal_apply_eq, hl i hi]
    · rw [Matrix.diagonal_apply_ne _ hij, Matrix.diagonal_apply_ne _ hij]
  obtain ⟨i0, i1⟩ := inverse_inside hA hA' mine z s
  obtain ⟨i0', -⟩ := inverse_inside hA' hA mine (fun i j hij => (z i j hij).symm) (fun i j hi hj => (s i j hi hj).symm)
  have hz : ∀ (a : Fin F), ¬ mine a → X u a = 0 := by
    intro a ha
    by_contra hne
    exact ha ((h.apart u a hne).mp hu)
  rw [Matrix.mul_apply, Matrix.mul_apply, eW, eW']
  refine ⟨Finset.sum_congr rfl (fun a _ => ?_), fun hj => Finset.sum_eq_zero (fun a _ => ?_)⟩
  · rw [h.inside u a hu]
    by_cases ha : mine a
    · by_cases haj : a = j
      · simp [haj]
      · simp only [if_neg haj]
        by_cases hj : mine j
        · rw [i1 a j ha hj, i1 j j hj hj]
        · rw [i0 a j (by tauto), i0' a j (by tauto), zero_mul, zero_mul]
    · rw [hz a ha, zero_mul, zero_mul]
  · by_cases ha : mine a
    · have haj : a ≠ j := by rintro rfl; exact hj ha
      simp only [if_neg haj]
      rw [i0 a j (by tauto), zero_mul, mul_zero]
    · rw [hz a ha, zero_mul]

/-- C96 (`DenseSLIMRecommender`).  Whatever the arguments, if `learn` succeeds for both data sets. -/
theorem C96_dense_slim (X X' : Matrix (Fin U) (Fin F) ℝ) (ours : Fin U → Prop) (mine : Fin F → Prop)
    (h : SameInsideDense X X' ours mine) (given : Args) (W W' : Matrix (Fin F) (Fin F) ℝ)
    (hW : denseSlimFit X given = .ok W) (hW' : denseSlimFit X' given = .ok W') (u : Fin U) (hu : ours u) (j : Fin F) :
    (X' * W') u j = (X * W) u j ∧ (¬ mine j → (X * W) u j = 0) := by
  unfold denseSlimFit at hW hW'
  obtain ⟨p, hp, hW⟩ := Ials.bind_ok hW
  obtain ⟨r, hr, hW⟩ := Ials.bind_ok hW
  obtain ⟨r', hr', hW⟩ := Ials.bind_ok hW
  obtain ⟨reg, hreg, hW⟩ := Ials.bind_ok hW
  simp only [hp, hr, hr', hreg, bind, Except.bind] at hW'
  exact linear_inside h (fun _ _ => rfl) hW hW' u hu j

/-- C96 (`EDLAERecommender`). -/
theorem C96_edlae (X X' : Matrix (Fin U) (Fin F) ℝ) (ours : Fin U → Prop) (mine : Fin F → Prop)
    (h : SameInsideDense X X' ours mine) (given : Args) (W W' : Matrix (Fin F) (Fin F) ℝ)
    (hW : edlaeFit X given = .ok W) (hW' : edlaeFit X' given = .ok W') (u : Fin U) (hu : ours u) (j : Fin F) :
    (X' * W') u j = (X * W) u j ∧ (¬ mine j → (X * W) u j = 0) := by
  unfold edlaeFit at hW hW'
  obtain ⟨p, hp, hW⟩ := Ials.bind_ok hW
  obtain ⟨r, hr, hW⟩ := Ials.bind_ok hW
  obtain ⟨r', hr', hW⟩ := Ials.bind_ok hW
  obtain ⟨r'', hr'', hW⟩ := Ials.bind_ok hW
  obtain ⟨reg, hreg, hW⟩ := Ials.bind_ok hW
  obtain ⟨q, hq, hW⟩ := Ials.bind_ok hW
  obtain ⟨dp, hdp, hW⟩ := Ials.bind_ok hW
  simp only [hp, hr, hr', hr'', hreg, hq, hdp, bind, Except.bind] at hW'
  unfold Ease.edlae at hW hW'
  simp only at hW hW'
  by_cases hz : 1 - dp = 0
  · rw [if_pos hz] at hW; cases hW
  · rw [if_neg hz] at hW hW'
    refine linear_inside h (fun i hi => ?_) hW hW' u hu j
    rw [(gram_inside h).2 i i hi]

end

/-! ## SLIM -/

section
open Spec.Slim Slim

/-- C96 (`SLIMRecommender`).  The solution of the documented problem, which the learnt weights approach (C86), has the
same columns for our items, whatever the others did, and their entries for the items of the others are zero. -/
theorem C96_slim_solution (X X' : CSC ℝ) (hU : 0 < X.rows) (hrows : X'.rows = X.rows)
    (hcols : X'.cols.length = X.cols.length) (ours mine : Nat → Prop)
    (ha : ∀ u i, u < X.rows → i < X.cols.length → X.get u i ≠ 0 → (ours u ↔ mine i))
    (ha' : ∀ u i, u < X.rows → i < X.cols.length → X'.get u i ≠ 0 → (ours u ↔ mine i))
    (hin : ∀ u i, u < X.rows → i < X.cols.length → ours u → X'.get u i = X.get u i)
    (α l1Ratio : ℝ) (hα : 0 < α) (hl0 : 0 ≤ l1Ratio) (hl1 : l1Ratio < 1) (positiveOnly : Bool)
    (B B' : Nat → Nat → ℝ) (hB : Optimal positiveOnly X.get X.rows X.cols.length α l1Ratio B)
    (hB' : Optimal positiveOnly X'.get X'.rows X'.cols.length α l1Ratio B')
    (f j : Nat) (hf : f < X.cols.length) (hj : j < X.cols.length) (hmj : mine j) :
    B' f j = B f j ∧ (¬ mine f → B f j = 0) := by
  classical
  have hU' : (0 : ℝ) < X.rows := Nat.cast_pos.mpr hU
  have h2 : 0 < X.rows * α * (1 - l1Ratio) := mul_pos (mul_pos hU' hα) (by linarith)
  have h1 : 0 ≤ X.rows * α * l1Ratio := mul_nonneg (mul_nonneg hU'.le hα.le) hl0
  -- a column without the items of the others
  let res : (Nat → ℝ) → Nat → ℝ := fun c f => if mine f then c f else 0
  have hres : ∀ c, Feasible positiveOnly X.cols.length j c → Feasible positiveOnly X.cols.length j (res c) := by
    intro c hc
    refine ⟨by simp only [res, if_pos hmj]; exact hc.1, fun hp f hf => ?_⟩
    simp only [res]
    split_ifs
    · exact hc.2 hp f hf
    · exact le_refl _
  -- what a user contributes
  have hours : ∀ A : Nat → Nat → ℝ, (∀ u i, u < X.rows → i < X.cols.length → A u i ≠ 0 → (ours u ↔ mine i)) → ∀ c u, u < X.rows →
      ours u → ∑ f ∈ Finset.range X.cols.length, A u f * res c f = ∑ f ∈ Finset.range X.cols.length, A u f * c f := by
    intro A hA c u hu ho
    refine Finset.sum_congr rfl (fun f hf => ?_)
    simp only [res]
    split_ifs with hm
    · rfl
    · have : A u f = 0 := by
        by_contra hne
        exact hm ((hA u f hu (Finset.mem_range.mp hf) hne).mp ho)
      rw [this, zero_mul, zero_mul]
  have hothers : ∀ A : Nat → Nat → ℝ, (∀ u i, u < X.rows → i < X.cols.length → A u i ≠ 0 → (ours u ↔ mine i)) → ∀ c u, u < X.rows →
      ¬ ours u → A u j - ∑ f ∈ Finset.range X.cols.length, A u f * res c f = 0 := by
    intro A hA c u hu ho
    have z : ∀ f, f < X.cols.length → mine f → A u f = 0 := by
      intro f hf hm
      by_contra hne
      exact ho ((hA u f hu hf hne).mpr hm)
    rw [z j hj hmj, zero_sub, neg_eq_zero]
    refine Finset.sum_eq_zero (fun f hf => ?_)
    simp only [res]
    split_ifs with hm
    · rw [z f (Finset.mem_range.mp hf) hm, zero_mul]
    · rw [mul_zero]
  have hle : ∀ A : Nat → Nat → ℝ, (∀ u i, u < X.rows → i < X.cols.length → A u i ≠ 0 → (ours u ↔ mine i)) → ∀ c,
      columnLoss A X.rows X.cols.length (X.rows * α * (1 - l1Ratio)) (X.rows * α * l1Ratio) j (res c) ≤
      columnLoss A X.rows X.cols.length (X.rows * α * (1 - l1Ratio)) (X.rows * α * l1Ratio) j c := by
    intro A hA c
    unfold columnLoss
    have s1 : ∑ u ∈ Finset.range X.rows, (A u j - ∑ f ∈ Finset.range X.cols.length, A u f * res c f) ^ 2 ≤
        ∑ u ∈ Finset.range X.rows, (A u j - ∑ f ∈ Finset.range X.cols.length, A u f * c f) ^ 2 := by
      refine Finset.sum_le_sum (fun u hu => ?_)
      by_cases ho : ours u
      · rw [hours A hA c u (Finset.mem_range.mp hu) ho]
      · rw [hothers A hA c u (Finset.mem_range.mp hu) ho]
        nlinarith [sq_nonneg (A u j - ∑ f ∈ Finset.range X.cols.length, A u f * c f)]
    have s2 : ∑ f ∈ Finset.range X.cols.length, res c f ^ 2 ≤ ∑ f ∈ Finset.range X.cols.length, c f ^ 2 := by
      refine Finset.sum_le_sum (fun f _ => ?_)
      simp only [res]
      split_ifs
      · exact le_refl _
      · nlinarith [sq_nonneg (c f)]
    have s3 : ∑ f ∈ Finset.range X.cols.length, |res c f| ≤ ∑ f ∈ Finset.range X.cols.length, |c f| := by
      refine Finset.sum_le_sum (fun f _ => ?_)
      simp only [res]
      split_ifs
      · exact le_refl _
      · rw [abs_zero]; exact abs_nonneg _
    have := mul_le_mul_of_nonneg_left s2 (by linarith : (0 : ℝ) ≤ X.rows * α * (1 - l1Ratio) / 2)
    have := mul_le_mul_of_nonneg_left s3 h1
    linarith
  have heq : ∀ c, columnLoss X'.get X.rows X.cols.length (X.rows * α * (1 - l1Ratio)) (X.rows * α * l1Ratio) j (res c) =
      columnLoss X.get X.rows X.cols.length (X.rows * α * (1 - l1Ratio)) (X.rows * α * l1Ratio) j (res c) := by
    intro c
    unfold columnLoss
    congr 3
    refine Finset.sum_congr rfl (fun u hu => ?_)
    have hu := Finset.mem_range.mp hu
    by_cases ho : ours u
    · rw [hin u j hu hj ho]
      congr 2
      exact Finset.sum_congr rfl (fun f hf => by rw [hin u f hu (Finset.mem_range.mp hf) ho])
    · rw [hothers _ ha c u hu ho, hothers _ ha' c u hu ho]
  have zero_of : ∀ (a c : Nat → ℝ), X.rows * α * (1 - l1Ratio) / 4 * ∑ f ∈ Finset.range X.cols.length, (a f - c f) ^ 2 ≤ 0 →
      ∀ f, f < X.cols.length → a f = c f := by
    intro a c h f hf
    have hs : ∑ f ∈ Finset.range X.cols.length, (a f - c f) ^ 2 ≤ 0 := by
      by_contra hpos
      push Not at hpos
      have := mul_pos (by linarith : (0 : ℝ) < X.rows * α * (1 - l1Ratio) / 4) hpos
      linarith
    have h0 := (Finset.sum_eq_zero_iff_of_nonneg (fun f _ => sq_nonneg (a f - c f))).mp
      (le_antisymm hs (Finset.sum_nonneg (fun f _ => sq_nonneg _))) f (Finset.mem_range.mpr hf)
    have := pow_eq_zero_iff (two_ne_zero) |>.mp h0
    linarith
  have hopt : ∀ c, Feasible positiveOnly X.cols.length j c →
      columnLoss X.get X.rows X.cols.length (X.rows * α * (1 - l1Ratio)) (X.rows * α * l1Ratio) j (fun f => B f j) ≤
      columnLoss X.get X.rows X.cols.length (X.rows * α * (1 - l1Ratio)) (X.rows * α * l1Ratio) j c :=
    fun c hc => optimal_column hB j hj c hc
  have hopt' : ∀ c, Feasible positiveOnly X.cols.length j c →
      columnLoss X'.get X.rows X.cols.length (X.rows * α * (1 - l1Ratio)) (X.rows * α * l1Ratio) j (fun f => B' f j) ≤
      columnLoss X'.get X.rows X.cols.length (X.rows * α * (1 - l1Ratio)) (X.rows * α * l1Ratio) j c := by
    intro c hc
    have := optimal_column hB' j (by rw [hcols]; exact hj) c (by rw [hcols]; exact hc)
    rwa [hrows, hcols] at this
  have hBj := hB.1 j hj
  have hBj' : Feasible positiveOnly X.cols.length j (fun f => B' f j) := by
    have := hB'.1 j (by rw [hcols]; exact hj)
    rwa [hcols] at this
  -- the optimum uses our items only
  have e1 : ∀ f, f < X.cols.length → res (fun f => B f j) f = B f j := by
    refine zero_of _ _ ?_
    have := near_minimiser X _ _ h2 positiveOnly j (res (fun f => B f j)) (fun f => B f j) (hres _ hBj) hBj hopt h1
    linarith [hle X.get ha (fun f => B f j)]
  -- the other optimum is no worse for our data
  have e2 : ∀ f, f < X.cols.length → res (fun f => B' f j) f = B f j := by
    refine zero_of _ _ ?_
    have := near_minimiser X _ _ h2 positiveOnly j (res (fun f => B' f j)) (fun f => B f j) (hres _ hBj') hBj hopt h1
    have c1 := heq (fun f => B' f j)
    have c2 := heq (fun f => B f j)
    have c3 := hopt' _ (hres _ hBj)
    have c4 := hle X'.get ha' (fun f => B' f j)
    have c5 := hle X.get ha (fun f => B f j)
    linarith
  have e3 : ∀ f, f < X.cols.length → res (fun f => B' f j) f = B' f j := by
    refine zero_of _ _ ?_
    have := near_minimiser X' (X.rows * α * (1 - l1Ratio)) (X.rows * α * l1Ratio) h2 positiveOnly j (res (fun f => B' f j))
      (fun f => B' f j) (by rw [hcols]; exact hres _ hBj') (by rw [hcols]; exact hBj')
      (by rw [hcols, hrows]; exact hopt') h1
    rw [hcols, hrows] at this
    linarith [hle X'.get ha' (fun f => B' f j)]
  refine ⟨by rw [← e3 f hf, e2 f hf], fun hm => ?_⟩
  rw [← e1 f hf]
  simp [res, hm]

end

/-! ## Where it fails -/

/-- C96 fails for `TopPopRecommender`: popularity is counted over everybody, so our users are recommended what the
others use. -/
theorem C96_top_pop_counterexample : ∃ (X X' : CSR ℝ) (u j : Nat), SameInside X X' (· = 0) (· = 0) ∧ u = 0 ∧ j ≠ 0 ∧
    (Score.topPop X (some (Score.popularity X))).getScore [(u : Int)] = .ok ⟨2, [Score.popularity X]⟩ ∧
    (Score.topPop X' (some (Score.popularity X'))).getScore [(u : Int)] = .ok ⟨2, [Score.popularity X']⟩ ∧
    Score.popularity X j = 1 ∧ Score.popularity X' j = 3 := by
  refine ⟨⟨2, [[(0, 1)], [(1, 1)]]⟩, ⟨2, [[(0, 1)], [(1, 3)]]⟩, 0, 1, ⟨rfl, rfl, ?_, ?_, ?_⟩, rfl, by norm_num, rfl, rfl, ?_, ?_⟩
  · rintro (_ | _ | u) e he <;> simp [CSR.row] at he <;> simp [he]
  · rintro (_ | _ | u) e he <;> simp [CSR.row] at he <;> simp [he]
  · rintro u rfl; rfl
  · norm_num [Score.popularity, SpVec.get, List.filter_cons]
  · norm_num [Score.popularity, SpVec.get, List.filter_cons]

/-- user 0 has used items 0 and 1; user 1 has used item 2, with value `c` -/
def twoParts (c : ℝ) : CSR ℝ := ⟨3, [[(0, 1), (1, 1)], [(2, c)]]⟩

theorem twoParts_mem {c : ℝ} {row : SpVec ℝ} (h : row ∈ (twoParts c).rows) : row = [(0, 1), (1, 1)] ∨ row = [(2, c)] := by
  simpa [twoParts] using h

theorem twoParts_proper (c : ℝ) : Proper (twoParts c) := by
  constructor <;> intro row h <;> rcases twoParts_mem h with rfl | rfl <;> simp [twoParts]

theorem twoParts_positive {c : ℝ} (hc : 0 < c) : Positive (twoParts c) := by
  intro row h
  rcases twoParts_mem h with rfl | rfl <;> simp [hc]

theorem twoParts_noZero {c : ℝ} (hc : 0 < c) : NoStoredZero (twoParts c) :=
  fun row h e he => ne_of_gt (twoParts_positive hc row h e he)

theorem twoParts_inside (c d : ℝ) : SameInside (twoParts c) (twoParts d) (· = 0) (· < 2) := by
  have ha : ∀ c, Apart (twoParts c) (· = 0) (· < 2) := by
    rintro c (_ | _ | u) e he
    · simp [twoParts, CSR.row] at he
      rcases he with rfl | rfl <;> simp
    · simp [twoParts, CSR.row] at he
      simp [he]
    · simp [twoParts, CSR.row] at he
  exact ⟨rfl, rfl, ha c, ha d, by rintro u rfl; rfl⟩

/-- C96 fails for BM25: the mean length of the histories is taken over everybody, so what the others do changes the
similarities of our items and our scores. -/
theorem C96_bm25_counterexample (hnth : NthOk nth) : ∃ (X X' W W' : CSR ℝ), X.WF ∧ X'.WF ∧ SameInside X X' (· = 0) (· < 2) ∧
    cosineKnnFit nth exampleEnv2 X [("feature_weighting", .str "BM_25")] = .ok W ∧
    cosineKnnFit nth exampleEnv2 X' [("feature_weighting", .str "BM_25")] = .ok W' ∧
    ¬ NoInterference (similarity X (some (toDense W))) (similarity X' (some (toDense W'))) (· = 0) (· < 2) := by
  have fit : ∀ c : ℝ, 0 < c → ∃ W, cosineKnnFit nth exampleEnv2 (twoParts c) [("feature_weighting", .str "BM_25")] = .ok W ∧
      W.nrows = 3 ∧ W.cols = 3 ∧ W.get 0 0 = 0 ∧ W.get 0 1 = (bm25 (twoParts c) ((6 / 5 : ℚ) : ℝ) ((3 / 4 : ℚ) : ℝ)).get 0 1 ∧
      W.get 1 0 = (bm25 (twoParts c) ((6 / 5 : ℚ) : ℝ) ((3 / 4 : ℚ) : ℝ)).get 0 0 ∧ W.get 1 1 = 0 := by
    intro c hc
    obtain ⟨W, h1, h2, h3, -, h4⟩ := C82_cosine_items hnth exampleEnv2 (twoParts c) (twoParts_proper c) (twoParts_noZero hc)
      [("feature_weighting", .str "BM_25")] 0 false 100 2 (.bm25 ((6 / 5 : ℚ) : ℝ) ((3 / 4 : ℚ) : ℝ))
      (by intro a ha; simp at ha; rw [ha]; simp) (.inr ⟨rfl, rfl⟩) (.inr ⟨rfl, rfl⟩) (.inr ⟨rfl, rfl⟩)
      (.inr (.inr ⟨.inl rfl, 6 / 5, 3 / 4, .inr ⟨rfl, rfl⟩, .inr ⟨rfl, rfl⟩, rfl⟩)) (.inr ⟨.inr ⟨rfl, rfl⟩, rfl⟩) (le_refl _) (by norm_num)
    have h4 := h4 (by simp [twoParts])
    refine ⟨W, h1, h2, h3, ?_, ?_, ?_, ?_⟩
    · simpa using h4 0 (by simp [twoParts]) 0 (by simp [twoParts])
    · simpa [dot, twoParts, CSR.nrows, Finset.sum_range_succ, CSR.get, CSR.row, SpVec.get, List.filter_cons, Weighting.apply]
        using h4 0 (by simp [twoParts]) 1 (by simp [twoParts])
    · simpa [dot, twoParts, CSR.nrows, Finset.sum_range_succ, CSR.get, CSR.row, SpVec.get, List.filter_cons, Weighting.apply]
        using h4 1 (by simp [twoParts]) 0 (by simp [twoParts])
    · simpa using h4 1 (by simp [twoParts]) 1 (by simp [twoParts])
  have wf : ∀ c, (twoParts c).WF := fun c => (twoParts_proper c).1
  have w1 : (bm25 (twoParts 1) ((6 / 5 : ℚ) : ℝ) ((3 / 4 : ℚ) : ℝ)).get 0 1 = Real.log 2 * (22 / 25) := by
    simp [bm25, docFreq, avgdl, docLength, twoParts, CSR.get, CSR.row, SpVec.get, CSR.nrows, List.filter_cons]
    norm_num
    ring
  have w2 : (bm25 (twoParts 2) ((6 / 5 : ℚ) : ℝ) ((3 / 4 : ℚ) : ℝ)).get 0 1 = Real.log 2 * 1 := by
    simp [bm25, docFreq, avgdl, docLength, twoParts, CSR.get, CSR.row, SpVec.get, CSR.nrows, List.filter_cons]
    norm_num
  obtain ⟨W, h1, h2, h3, h4, h5, h6, h7⟩ := fit 1 one_pos
  obtain ⟨W', h1', h2', h3', h4', h5', h6', h7'⟩ := fit 2 two_pos
  refine ⟨_, _, W, W', wf 1, wf 2, twoParts_inside 1 2, h1, h1', fun h => ?_⟩
  obtain ⟨cols, row, row', g1, g2, g3⟩ := h 0 (by simp [similarity, twoParts, CSR.nrows]) rfl
  rw [C50_similarity_score _ (wf 1) _ (by rw [toDense_length, h2]; rfl) _ [0] (.cons ⟨by simp [twoParts, CSR.nrows], .inl rfl⟩ .nil)] at g1
  rw [C50_similarity_score _ (wf 2) _ (by rw [toDense_length, h2']; rfl) _ [0] (.cons ⟨by simp [twoParts, CSR.nrows], .inl rfl⟩ .nil)] at g2
  injection g1 with g1
  injection g1 with gc gr
  injection g2 with g2
  injection g2 with gc' gr'
  obtain ⟨e, -⟩ := g3 1 (by rw [← gc]; show 1 < W.cols; rw [h3]; norm_num)
  have r1 : row = itemBased (twoParts 1) (toDense W).get 0 := by simpa using gr.symm
  have r2 : row' = itemBased (twoParts 2) (toDense W').get 0 := by simpa using gr'.symm
  rw [r1, r2] at e
  have v : ∀ (c : ℝ) (V : CSR ℝ), V.nrows = 3 → V.get 1 1 = 0 → itemBased (twoParts c) (toDense V).get 0 1 = V.get 0 1 := by
    intro c V hn hz
    unfold itemBased
    rw [show (twoParts c).cols = 3 from rfl, Finset.sum_range_succ, Finset.sum_range_succ, Finset.sum_range_succ,
      toDense_get _ _ _ (by omega), toDense_get _ _ _ (by omega), toDense_get _ _ _ (by omega), hz]
    simp [twoParts, CSR.get, CSR.row, SpVec.get, List.filter_cons]
  rw [v _ _ h2 h7, v _ _ h2' h7', h5, h5', w1, w2] at e
  have := Real.log_pos (by norm_num : (1 : ℝ) < 2)
  linarith

/-! ### The hypotheses are met -/

example : cosineKnnFit sortNth exampleEnv2 (twoParts 1) [("top_k", .num 1)] ≠ .error .valueError ∧
    ∃ W W', NoInterference (similarity (twoParts 1) (some (toDense W))) (similarity (twoParts 5) (some (toDense W'))) (· = 0) (· < 2) := by
  obtain ⟨W, W', h1, h2, h3⟩ := C96_cosine_items sortNth_ok exampleEnv2 (twoParts 1) (twoParts 5) (twoParts_proper 1).1
    (twoParts_proper 5).1 (· = 0) (· < 2) (twoParts_inside 1 5) [("top_k", .num 1)] 0 false 1 2 .none
    (by intro a ha; simp at ha; rw [ha]; simp) (.inr ⟨rfl, rfl⟩) (.inr ⟨rfl, rfl⟩) (.inl (by simp))
    (.inl ⟨.inr ⟨rfl, rfl⟩, rfl⟩) (.inl rfl) (.inr ⟨.inr ⟨rfl, rfl⟩, rfl⟩) (le_refl _) (by norm_num)
  exact ⟨by rw [h1]; simp, W, W', h3⟩

example : ∃ W W', p3Fit sortNth exampleEnv2 (twoParts 1) [] = .ok W ∧ p3Fit sortNth exampleEnv2 (twoParts 5) [] = .ok W' ∧
    NoInterference (similarity (twoParts 1) (some (cscDense W))) (similarity (twoParts 5) (some (cscDense W'))) (· = 0) (· < 2) :=
  C96_p3 sortNth_ok exampleEnv2 _ _ (twoParts_proper 1).1 (twoParts_proper 5).1 _ _ (twoParts_inside 1 5) [] 1 false none 2
    (by intro a ha; cases ha) (.inr ⟨rfl, rfl⟩) (.inr ⟨rfl, rfl⟩) (.inr ⟨rfl, rfl⟩) (.inr ⟨.inr ⟨rfl, rfl⟩, rfl⟩) (by norm_num)
    (by norm_num)

example : ∃ U U', cosineUserKnnFit sortNth exampleEnv2 (twoParts 1) [] = .ok U ∧ cosineUserKnnFit sortNth exampleEnv2 (twoParts 5) [] = .ok U' ∧
    NoInterference (userSimilarity (twoParts 1) (some U)) (userSimilarity (twoParts 5) (some U')) (· = 0) (· < 2) :=
  C96_cosine_users sortNth_ok exampleEnv2 _ _ _ _ (twoParts_inside 1 5) [] 0 true 100 2 .none
    (by intro a ha; cases ha) (.inr ⟨rfl, rfl⟩) (.inr ⟨rfl, rfl⟩) (.inr ⟨rfl, rfl⟩)
    (.inl ⟨.inr ⟨rfl, rfl⟩, rfl⟩) (.inl rfl) (.inr ⟨.inr ⟨rfl, rfl⟩, rfl⟩) (le_refl _) (by norm_num)

/-- the dense form of `twoParts` -/
def densePartsOf (c : ℝ) : Matrix (Fin 2) (Fin 3) ℝ := !![1, 1, 0; 0, 0, c]

/-- a case that meets the hypotheses of `C96_edlae` -/
example : ∃ W W', edlaeFit (densePartsOf 1) [("dropout_p", .num (1 / 2))] = .ok W ∧
    edlaeFit (densePartsOf 5) [("dropout_p", .num (1 / 2))] = .ok W' ∧ (densePartsOf 5 * W') 0 1 = (densePartsOf 1 * W) 0 1 := by
  have fit : ∀ c, ∃ W, edlaeFit (densePartsOf c) [("dropout_p", .num (1 / 2))] = .ok W := fun c =>
    let ⟨W, h, _⟩ := (C83_edlae (densePartsOf c) [("dropout_p", .num (1 / 2))] 1 (1 / 2)
      (by intro a ha; simp at ha; subst ha; simp) (.inr ⟨rfl, rfl⟩) (.inl rfl)).1 (by norm_num) (by norm_num) (by norm_num)
    ⟨W, h⟩
  obtain ⟨W, h⟩ := fit 1
  obtain ⟨W', h'⟩ := fit 5
  refine ⟨W, W', h, h', (C96_edlae (densePartsOf 1) (densePartsOf 5) (· = 0) (fun i => i.val < 2) ⟨?_, ?_, ?_⟩ _ W W' h h' 0 rfl 1).1⟩
  · intro u i; fin_cases u <;> fin_cases i <;> simp [densePartsOf]
  · intro u i; fin_cases u <;> fin_cases i <;> simp [densePartsOf]
  · rintro u i rfl; fin_cases i <;> simp [densePartsOf]

/-- a case that meets the hypotheses of `C96_slim_solution` -/
example : ∃ B B' : Nat → Nat → ℝ, B' 0 1 = B 0 1 ∧ B 2 1 = 0 ∧
    Spec.Slim.Optimal false (CSC.get ⟨2, [[(0, 1)], [(0, 1)], [(1, 1)]]⟩) 2 3 1 (1 / 2) B ∧
    Spec.Slim.Optimal false (CSC.get ⟨2, [[(0, 1)], [(0, 1)], [(1, 5)]]⟩) 2 3 1 (1 / 2) B' := by
  have opt : ∀ c : ℝ, ∃ B, Spec.Slim.Optimal false (CSC.get ⟨2, [[(0, 1)], [(0, 1)], [(1, c)]]⟩) 2 3 1 (1 / 2) B := fun c =>
    (C86_optimum ⟨2, [[(0, 1)], [(0, 1)], [(1, c)]]⟩ (by norm_num) 1 (1 / 2) (by norm_num) (by norm_num) (by norm_num) false).1
  have ha : ∀ c : ℝ, ∀ u i, u < 2 → i < 3 → CSC.get ⟨2, [[(0, 1)], [(0, 1)], [(1, c)]]⟩ u i ≠ 0 → (u = 0 ↔ i < 2) := by
    intro c u i hu hi
    interval_cases u <;> interval_cases i <;> simp [CSC.get, SpVec.get]
  obtain ⟨B, hB⟩ := opt 1
  obtain ⟨B', hB'⟩ := opt 5
  have key := fun f j hf hj hm => C96_slim_solution ⟨2, [[(0, 1)], [(0, 1)], [(1, 1)]]⟩ ⟨2, [[(0, 1)], [(0, 1)], [(1, 5)]]⟩ (by norm_num) rfl
    rfl (· = 0) (· < 2) (ha 1) (ha 5) (by
      rintro u i - hi rfl
      have hi : i < 3 := hi
      interval_cases i <;> simp [CSC.get, SpVec.get]) 1 (1 / 2) (by norm_num) (by norm_num) (by norm_num) false B B' hB hB' f j hf hj hm
  exact ⟨B, B', (key 0 1 (by norm_num) (by norm_num) (by norm_num)).1, (key 2 1 (by norm_num) (by norm_num) (by norm_num)).2
    (by norm_num), hB, hB'⟩

end Irspack.Props
