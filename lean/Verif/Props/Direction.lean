import Verif.Spec.Direction
import Verif.Props.Evidence
import Verif.Props.Ease
import Verif.Props.SlimConverge
import Verif.Props.IalsCold

/-!
# C107: hyperparameters act in the direction they are documented to
-/

namespace Irspack.Props

open RecClasses Sim Spec.Sim Spec.Direction

variable {nth : Nat → SpVec ℝ → List Nat}

/-! ## `top_k` -/

theorem bestOf_mono {k k' : Nat} (h : k ≤ k') (row : SpVec ℝ) {e : Nat × ℝ} (he : e ∈ bestOf k row) : e ∈ bestOf k' row := by
  unfold bestOf at he ⊢
  rw [List.mem_filter] at he ⊢
  refine ⟨he.1, ?_⟩
  have := he.2
  simp only [decide_eq_true_eq] at this ⊢
  omega

theorem better_trans' {a b c : Nat × ℝ} (h1 : better a b) (h2 : better b c) : better a c := by
  unfold better at *
  rcases h1 with h1 | ⟨h1, h1'⟩ <;> rcases h2 with h2 | ⟨h2, h2'⟩
  · exact .inl (h2.trans h1)
  · exact .inl (by rw [← h2]; exact h1)
  · exact .inl (by rw [h1]; exact h2)
  · exact .inr ⟨h1.trans h2, h1'.trans h2'⟩

theorem bestOf_best {k : Nat} (row : SpVec ℝ) {e f : Nat × ℝ} (he : e ∈ bestOf k row) (hf : f ∈ row) (hn : f ∉ bestOf k row) :
    f.2 ≤ e.2 := by
  by_contra hlt
  push Not at hlt
  apply hn
  unfold bestOf at he ⊢
  rw [List.mem_filter] at he ⊢
  refine ⟨hf, ?_⟩
  have h2 := he.2
  simp only [decide_eq_true_eq] at h2 ⊢
  refine lt_of_le_of_lt (List.countP_mono_left (fun g _ hg => ?_)) h2
  simp only [decide_eq_true_eq] at hg ⊢
  exact better_trans' hg (.inl hlt)

theorem similarity_nodup (hnth : NthOk nth) (kind : Kind) (s : ℝ) (X target : CSR ℝ) (nThreads maxChunk topK : Nat) (R : CSR ℝ)
    (h : computeSimilarity nth kind s X target nThreads maxChunk topK = .ok R) (r : Nat) : ((R.row r).map Prod.fst).Nodup := by
  by_cases ha : Accepted kind s X target nThreads maxChunk
  swap
  · rw [computeSimilarity_error nth kind s X target nThreads maxChunk topK ha] at h; cases h
  rw [computeSimilarity_eq hnth kind s X target nThreads maxChunk topK ha] at h
  injection h with h
  subst h
  by_cases hr : r < target.nrows
  · rw [row_range _ _ _ hr]
    exact (simRow_sorted kind s X (target.row r)).nodup.sublist ((bestOf_sublist _ _).map _)
  · rw [row_nil _ (by simpa [CSR.nrows] using hr)]
    simp

theorem itemKnn_nested (hnth : NthOk nth) (w : Weighting) (kind : Kind) (s : ℝ) (hs : 0 ≤ s) (hp : kind.paramsOk) (X : CSR ℝ)
    {T T' k k' : Nat} (hT : 1 ≤ T) (hT' : 1 ≤ T') (hk : k ≤ k') :
    ∃ W W', itemKnnW nth w kind s X T k = .ok W ∧ itemKnnW nth w kind s X T' k' = .ok W' ∧ Nested W W' := by
  obtain ⟨S, W, hS, hW, -, -, h1⟩ := C60_rows_are_top_k_partial hnth w kind s hs hp X T k hT
  obtain ⟨S', W', hS', hW', -, -, h2⟩ := C60_rows_are_top_k_partial hnth w kind s hs hp X T' k' hT'
  have hSS : S = S' := by
    have hcols : (transpose (w.apply X)).cols = (transpose X).cols := by rw [transpose_cols, transpose_cols, (apply_shape w X).2]
    rw [computeSimilarity_eq hnth kind s _ _ T 128 X.cols ⟨hs, hT, by norm_num, hp, hcols.symm⟩] at hS
    rw [computeSimilarity_eq hnth kind s _ _ T' 128 X.cols ⟨hs, hT', by norm_num, hp, hcols.symm⟩] at hS'
    injection hS with hS
    injection hS' with hS'
    rw [← hS, ← hS']
  subst hSS
  have hnd := similarity_nodup hnth kind s _ _ _ _ _ S hS
  have hget : ∀ k i e, e ∈ bestOf k (S.row i) → (bestOf k (S.row i)).get e.1 = e.2 := fun k i e he =>
    get_of_mem _ ((hnd i).sublist ((bestOf_sublist k _).map _)) e he
  refine ⟨W, W', hW, hW', fun i j hj => ?_, fun i j j' hij hij' hj hj' hn => ?_⟩
  · rw [(h1 i).1] at hj
    obtain ⟨e, he, rfl⟩ := List.mem_map.mp hj
    have he' := bestOf_mono hk _ he
    refine ⟨by rw [(h2 i).1]; exact List.mem_map.mpr ⟨e, he', rfl⟩, ?_⟩
    rw [(h1 i).2.1, (h2 i).2.1]
    split
    · rfl
    · rw [hget k i e he, hget k' i e he']
  · rw [(h1 i).1] at hj hn
    rw [(h2 i).1] at hj'
    obtain ⟨e, he, rfl⟩ := List.mem_map.mp hj
    obtain ⟨f, hf, rfl⟩ := List.mem_map.mp hj'
    rw [(h2 i).2.1, (h2 i).2.1, if_neg (Ne.symm hij), if_neg (Ne.symm hij'), hget k' i f hf, hget k' i e (bestOf_mono hk _ he)]
    exact bestOf_best _ he ((bestOf_sublist _ _).subset hf) (fun h => hn (List.mem_map.mpr ⟨f, h, rfl⟩))

/-- C107 (`top_k` of the item-based nearest-neighbour recommenders).  A larger `top_k` keeps every neighbour a smaller one
keeps, with the same similarity, and adds only neighbours that are not more similar, whatever the numbers of threads. -/
theorem C107_top_k (hnth : NthOk nth) (e : Env) (X : CSR ℝ) (given given' : Args) (s a b : ℚ) (nz : Bool) (w : Weighting)
    (k k' T T' : Nat) (hk : k ≤ k') (ha0 : 0 ≤ a) (hb0 : 0 ≤ b) :
    (Means e ["shrinkage", "normalize", "top_k", "feature_weighting", "bm25_k1", "bm25_b", "n_threads"] given s k T →
      Means e ["shrinkage", "normalize", "top_k", "feature_weighting", "bm25_k1", "bm25_b", "n_threads"] given' s k' T' →
      Argument given "normalize" (.bool false) (.bool nz) → Argument given' "normalize" (.bool false) (.bool nz) →
      WeightingIs given w → WeightingIs given' w →
      ∃ W W', cosineKnnFit nth e X given = .ok W ∧ cosineKnnFit nth e X given' = .ok W' ∧ Nested W W') ∧
    (Means e ["shrinkage", "alpha", "top_k", "feature_weighting", "bm25_k1", "bm25_b", "n_threads"] given s k T →
      Means e ["shrinkage", "alpha", "top_k", "feature_weighting", "bm25_k1", "bm25_b", "n_threads"] given' s k' T' →
      Argument given "alpha" (.num (1 / 2)) (.num a) → Argument given' "alpha" (.num (1 / 2)) (.num a) → a ≤ 1 →
      WeightingIs given w → WeightingIs given' w →
      ∃ W W', asymmetricKnnFit nth e X given = .ok W ∧ asymmetricKnnFit nth e X given' = .ok W' ∧ Nested W W') ∧
    (Means e ["shrinkage", "top_k", "n_threads"] given s k T → Means e ["shrinkage", "top_k", "n_threads"] given' s k' T' →
      ∃ W W', jaccardKnnFit nth e X given = .ok W ∧ jaccardKnnFit nth e X given' = .ok W' ∧ Nested W W') ∧
    (Means e ["shrinkage", "alpha", "beta", "top_k", "n_threads"] given s k T →
      Means e ["shrinkage", "alpha", "beta", "top_k", "n_threads"] given' s k' T' →
      Argument given "alpha" (.num (1 / 2)) (.num a) → Argument given' "alpha" (.num (1 / 2)) (.num a) →
      Argument given "beta" (.num (1 / 2)) (.num b) → Argument given' "beta" (.num (1 / 2)) (.num b) →
      ∃ W W', tverskyKnnFit nth e X given = .ok W ∧ tverskyKnnFit nth e X given' = .ok W' ∧ Nested W W') := by
  have ha1 : (0 : ℝ) ≤ a := by exact_mod_cast ha0
  have hb1 : (0 : ℝ) ≤ b := by exact_mod_cast hb0
  refine ⟨fun m m' hz hz' hw hw' => ?_, fun m m' ha ha' hle hw hw' => ?_, fun m m' => ?_, fun m m' ha ha' hb hb' => ?_⟩
  all_goals have hs1 : (0 : ℝ) ≤ s := by exact_mod_cast m.nonneg
  · obtain ⟨W, W', hW, hW', h⟩ := itemKnn_nested hnth w (.cosine nz) s hs1 trivial X m.pos m'.pos hk
    exact ⟨W, W', by rw [cosineKnnFit_eq e X given s nz k T w m.only m.shrinkage hz m.topK hw m.threads, hW],
      by rw [cosineKnnFit_eq e X given' s nz k' T' w m'.only m'.shrinkage hz' m'.topK hw' m'.threads, hW'], h⟩
  · obtain ⟨W, W', hW, hW', h⟩ :=
      itemKnn_nested hnth w (.asymmetric a) s hs1 ⟨ha1, by exact_mod_cast hle⟩ X m.pos m'.pos hk
    exact ⟨W, W', by rw [asymmetricKnnFit_eq e X given s a k T w m.only m.shrinkage ha m.topK hw m.threads, hW],
      by rw [asymmetricKnnFit_eq e X given' s a k' T' w m'.only m'.shrinkage ha' m'.topK hw' m'.threads, hW'], h⟩
  · obtain ⟨W, W', hW, hW', h⟩ := itemKnn_nested hnth .none .jaccard s hs1 trivial X m.pos m'.pos hk
    exact ⟨W, W', by rw [jaccardKnnFit_eq e X given s k T m.only m.shrinkage m.topK m.threads, hW],
      by rw [jaccardKnnFit_eq e X given' s k' T' m'.only m'.shrinkage m'.topK m'.threads, hW'], h⟩
  · obtain ⟨W, W', hW, hW', h⟩ := itemKnn_nested hnth .none (.tversky a b) s hs1 ⟨ha1, hb1⟩ X m.pos m'.pos hk
    exact ⟨W, W', by rw [tverskyKnnFit_eq e X given s a b k T m.only m.shrinkage ha hb m.topK m.threads, hW],
      by rw [tverskyKnnFit_eq e X given' s a b k' T' m'.only m'.shrinkage ha' hb' m'.topK m'.threads, hW'], h⟩

theorem rp3_nested (hnth : NthOk nth) (a be : ℝ) (ha : 0 ≤ a) (hb : 0 ≤ be) (X : CSR ℝ) {k k' T : Nat} (hT : 1 ≤ T) (hk : k ≤ k') :
    ∃ W W', rp3Learn nth a be X (some k) false T = .ok W ∧ rp3Learn nth a be X (some k') false T = .ok W' ∧ NestedColumns W W' := by
  obtain ⟨W, F, hW, hF, -, -, h1⟩ := C61_columns_are_top_k hnth a be ha hb X k T hT
  obtain ⟨W', F', hW', hF', -, -, h2⟩ := C61_columns_are_top_k hnth a be ha hb X k' T hT
  rw [hF] at hF'; cases hF'
  refine ⟨W, W', hW, hW', fun i e he => ?_, fun i e he f hf hn => ?_⟩
  · rw [(h1 i).1] at he
    rw [(h2 i).1]
    exact bestOf_mono hk _ he
  · rw [(h1 i).1] at he hn
    rw [(h2 i).1] at hf
    exact bestOf_best _ he ((bestOf_sublist _ _).subset hf) hn

/-- C107 (`top_k` of `P3alphaRecommender` and `RP3betaRecommender` without `normalize_weight`): the same for the weights that
lead to an item. -/
theorem C107_top_k_walk (hnth : NthOk nth) (e : Env) (X : CSR ℝ) (given given' : Args) (a be : ℚ) (k k' T : Nat) (hk : k ≤ k')
    (h1 : Argument given "alpha" (.num 1) (.num a)) (h1' : Argument given' "alpha" (.num 1) (.num a))
    (h2 : Argument given "top_k" .none (.num k)) (h2' : Argument given' "top_k" .none (.num k'))
    (h3 : Argument given "normalize_weight" (.bool false) (.bool false))
    (h3' : Argument given' "normalize_weight" (.bool false) (.bool false))
    (hT : ThreadsAre e given T) (hT' : ThreadsAre e given' T) (ha0 : 0 ≤ a) (hb0 : 0 ≤ be) (hT1 : 1 ≤ T) :
    (Only given ["alpha", "top_k", "normalize_weight", "n_threads"] → Only given' ["alpha", "top_k", "normalize_weight", "n_threads"] →
      ∃ W W', p3Fit nth e X given = .ok W ∧ p3Fit nth e X given' = .ok W' ∧ NestedColumns W W') ∧
    (Only given ["alpha", "beta", "top_k", "normalize_weight", "n_threads"] →
      Only given' ["alpha", "beta", "top_k", "normalize_weight", "n_threads"] →
      Argument given "beta" (.num (3 / 5)) (.num be) → Argument given' "beta" (.num (3 / 5)) (.num be) →
      ∃ W W', rp3Fit nth e X given = .ok W ∧ rp3Fit nth e X given' = .ok W' ∧ NestedColumns W W') := by
  have ha1 : (0 : ℝ) ≤ a := by exact_mod_cast ha0
  have hb1 : (0 : ℝ) ≤ be := by exact_mod_cast hb0
  refine ⟨fun n n' => ?_, fun n n' b b' => ?_⟩
  · obtain ⟨W, W', hW, hW', h⟩ := rp3_nested hnth a 0 ha1 (le_refl _) X hT1 hk
    exact ⟨W, W', by rw [p3Fit_eq e X given a false (some k) T n h1 h2 h3 hT, ← C36_beta_zero, hW],
      by rw [p3Fit_eq e X given' a false (some k') T n' h1' h2' h3' hT', ← C36_beta_zero, hW'], h⟩
  · obtain ⟨W, W', hW, hW', h⟩ := rp3_nested hnth a be ha1 hb1 X hT1 hk
    exact ⟨W, W', by rw [rp3Fit_eq e X given a be false (some k) T n h1 b h2 h3 hT, hW],
      by rw [rp3Fit_eq e X given' a be false (some k') T n' h1' b' h2' h3' hT', hW'], h⟩

/-! ## `shrinkage` -/

theorem div_shrunk {x d s s' : ℝ} (hx : 0 ≤ x) (hd : 0 ≤ d) (hs : 0 ≤ s) (h : s ≤ s') :
    0 ≤ x / (d + s' + eps) ∧ x / (d + s' + eps) ≤ x / (d + s + eps) ∧
      (s < s' → 0 < x / (d + s + eps) → x / (d + s' + eps) < x / (d + s + eps)) := by
  have e := Evidence.eps0
  refine ⟨div_nonneg hx (by linarith), div_le_div_of_nonneg_left hx (by linarith) (by linarith), fun hlt hpos => ?_⟩
  have hx' : 0 < x := by
    rcases hx.lt_or_eq with h | h
    · exact h
    · rw [← h, zero_div] at hpos; exact absurd hpos (lt_irrefl _)
  exact div_lt_div_of_pos_left hx' (by linarith) (by linarith)

theorem shrunk_of {n : Nat} {stronger : Prop} {W W' : CSR ℝ}
    (h : ∀ i < n, ∀ j < n, 0 ≤ W'.get i j ∧ W'.get i j ≤ W.get i j ∧ (stronger → 0 < W.get i j → W'.get i j < W.get i j)) :
    Shrunk n stronger W W' :=
  ⟨fun i hi j hj => ⟨(h i hi j hj).1, (h i hi j hj).2.1⟩, fun hs i hi j hj => (h i hi j hj).2.2 hs⟩

/-- C107 (`shrinkage`).  With every neighbour kept and weighted interactions that are not negative, more shrinkage lowers
every positive similarity of every item-based recommender that divides by it, and makes none negative. -/
theorem C107_shrinkage (hnth : NthOk nth) (e : Env) (X : CSR ℝ) (hX : Proper X) (hp : Positive X) (given given' : Args)
    (s s' a b : ℚ) (w : Weighting) (hw0 : ∀ u j, 0 ≤ (w.apply X).get u j) (k k' T T' : Nat) (hk : X.cols ≤ k)
    (hk' : X.cols ≤ k') (hs : s ≤ s') (ha0 : 0 ≤ a) (hb0 : 0 ≤ b) :
    (Means e ["shrinkage", "normalize", "top_k", "feature_weighting", "bm25_k1", "bm25_b", "n_threads"] given s k T →
      Means e ["shrinkage", "normalize", "top_k", "feature_weighting", "bm25_k1", "bm25_b", "n_threads"] given' s' k' T' →
      Argument given "normalize" (.bool false) (.bool true) → Argument given' "normalize" (.bool false) (.bool true) →
      WeightingIs given w → WeightingIs given' w →
      ∃ W W', cosineKnnFit nth e X given = .ok W ∧ cosineKnnFit nth e X given' = .ok W' ∧ Shrunk X.cols (s < s') W W') ∧
    (Means e ["shrinkage", "alpha", "top_k", "feature_weighting", "bm25_k1", "bm25_b", "n_threads"] given s k T →
      Means e ["shrinkage", "alpha", "top_k", "feature_weighting", "bm25_k1", "bm25_b", "n_threads"] given' s' k' T' →
      Argument given "alpha" (.num (1 / 2)) (.num a) → Argument given' "alpha" (.num (1 / 2)) (.num a) → a ≤ 1 →
      WeightingIs given w → WeightingIs given' w →
      ∃ W W', asymmetricKnnFit nth e X given = .ok W ∧ asymmetricKnnFit nth e X given' = .ok W' ∧ Shrunk X.cols (s < s') W W') ∧
    (Means e ["shrinkage", "top_k", "n_threads"] given s k T → Means e ["shrinkage", "top_k", "n_threads"] given' s' k' T' →
      ∃ W W', jaccardKnnFit nth e X given = .ok W ∧ jaccardKnnFit nth e X given' = .ok W' ∧ Shrunk X.cols (s < s') W W') ∧
    (Means e ["shrinkage", "alpha", "beta", "top_k", "n_threads"] given s k T →
      Means e ["shrinkage", "alpha", "beta", "top_k", "n_threads"] given' s' k' T' →
      Argument given "alpha" (.num (1 / 2)) (.num a) → Argument given' "alpha" (.num (1 / 2)) (.num a) →
      Argument given "beta" (.num (1 / 2)) (.num b) → Argument given' "beta" (.num (1 / 2)) (.num b) →
      ∃ W W', tverskyKnnFit nth e X given = .ok W ∧ tverskyKnnFit nth e X given' = .ok W' ∧ Shrunk X.cols (s < s') W W') := by
  have hz := positive_noZero hp
  have ha1 : (0 : ℝ) ≤ a := by exact_mod_cast ha0
  have hb1 : (0 : ℝ) ≤ b := by exact_mod_cast hb0
  have hss : (s : ℝ) ≤ s' := by exact_mod_cast hs
  have hdot : ∀ i j, 0 ≤ dot X.nrows (fun u => X.get u i) (fun u => (w.apply X).get u j) := fun i j =>
    Finset.sum_nonneg (fun u _ => mul_nonneg (get_nonneg X hp u i) (hw0 u j))
  have hl : ∀ h : Nat → ℝ, 0 ≤ l2norm X.nrows h := fun h => Real.sqrt_nonneg _
  have conv : ∀ {x d : ℝ}, 0 ≤ s → 0 ≤ x → 0 ≤ d → 0 ≤ x / (d + (s' : ℝ) + eps) ∧ x / (d + (s' : ℝ) + eps) ≤ x / (d + (s : ℝ) + eps) ∧
      (s < s' → 0 < x / (d + (s : ℝ) + eps) → x / (d + (s' : ℝ) + eps) < x / (d + (s : ℝ) + eps)) := by
    intro x d h0 hx hd
    have := div_shrunk hx hd (show (0 : ℝ) ≤ s by exact_mod_cast h0) hss
    exact ⟨this.1, this.2.1, fun h => this.2.2 (by exact_mod_cast h)⟩
  have zero : (0 : ℝ) ≤ 0 ∧ (0 : ℝ) ≤ 0 ∧ (s < s' → (0 : ℝ) < 0 → (0 : ℝ) < 0) := ⟨le_refl _, le_refl _, fun _ h => h⟩
  refine ⟨fun m m' hz1 hz1' hw hw' => ?_, fun m m' ha ha' hle hw hw' => ?_, fun m m' => ?_, fun m m' ha ha' hb hb' => ?_⟩
  · obtain ⟨W, hW, -, -, -, h⟩ := C82_cosine_items hnth e X hX hz given s true k T w m.only m.shrinkage hz1 m.topK hw m.threads m.nonneg m.pos
    obtain ⟨W', hW', -, -, -, h'⟩ :=
      C82_cosine_items hnth e X hX hz given' s' true k' T' w m'.only m'.shrinkage hz1' m'.topK hw' m'.threads m'.nonneg m'.pos
    refine ⟨W, W', hW, hW', shrunk_of (fun i hi j hj => ?_)⟩
    rw [h hk i hi j hj, h' hk' i hi j hj]
    by_cases hij : i = j
    · rw [if_pos hij, if_pos hij]; exact zero
    · rw [if_neg hij, if_neg hij, if_pos rfl, if_pos rfl]
      exact conv m.nonneg (hdot i j) (mul_nonneg (hl _) (hl _))
  · obtain ⟨W, hW, -, -, -, h⟩ :=
      C82_asymmetric_items hnth e X hX hz given s a k T w m.only m.shrinkage ha m.topK hw m.threads m.nonneg ha0 hle m.pos
    obtain ⟨W', hW', -, -, -, h'⟩ :=
      C82_asymmetric_items hnth e X hX hz given' s' a k' T' w m'.only m'.shrinkage ha' m'.topK hw' m'.threads m'.nonneg ha0 hle m'.pos
    refine ⟨W, W', hW, hW', shrunk_of (fun i hi j hj => ?_)⟩
    rw [h hk i hi j hj, h' hk' i hi j hj]
    by_cases hij : i = j
    · rw [if_pos hij, if_pos hij]; exact zero
    · rw [if_neg hij, if_neg hij]
      exact conv m.nonneg (hdot i j) (mul_nonneg (Real.rpow_nonneg (hl _) _) (Real.rpow_nonneg (hl _) _))
  · obtain ⟨W, hW, -, -, -, h⟩ := C82_jaccard_items hnth e X hX hz given s k T m.only m.shrinkage m.topK m.threads m.nonneg m.pos
    obtain ⟨W', hW', -, -, -, h'⟩ :=
      C82_jaccard_items hnth e X hX hz given' s' k' T' m'.only m'.shrinkage m'.topK m'.threads m'.nonneg m'.pos
    refine ⟨W, W', hW, hW', shrunk_of (fun i hi j hj => ?_)⟩
    rw [h hk i hi j hj, h' hk' i hi j hj]
    by_cases hij : i = j
    · rw [if_pos hij, if_pos hij]; exact zero
    · rw [if_neg hij, if_neg hij]
      exact conv m.nonneg (Nat.cast_nonneg _) (Nat.cast_nonneg _)
  · obtain ⟨W, hW, -, -, -, h⟩ :=
      C82_tversky_items hnth e X hX hz given s a b k T m.only m.shrinkage ha hb m.topK m.threads m.nonneg ha0 hb0 m.pos
    obtain ⟨W', hW', -, -, -, h'⟩ :=
      C82_tversky_items hnth e X hX hz given' s' a b k' T' m'.only m'.shrinkage ha' hb' m'.topK m'.threads m'.nonneg ha0 hb0 m'.pos
    refine ⟨W, W', hW, hW', shrunk_of (fun i hi j hj => ?_)⟩
    rw [h hk i hi j hj, h' hk' i hi j hj]
    by_cases hij : i = j
    · rw [if_pos hij, if_pos hij]; exact zero
    · rw [if_neg hij, if_neg hij]
      exact conv m.nonneg (Nat.cast_nonneg _) (by positivity)

/-- C107 (`shrinkage` without `normalize`).  `CosineKNNRecommender` without `normalize`, its default, ignores `shrinkage`: for all interactions, all
numbers of neighbours and threads, and any two amounts of shrinkage, it learns the same similarities. -/
theorem C107_shrinkage_ignored (hnth : NthOk nth) (e : Env) (X : CSR ℝ) (given given' : Args) (s s' : ℚ) (w : Weighting)
    (k T T' : Nat)
    (m : Means e ["shrinkage", "normalize", "top_k", "feature_weighting", "bm25_k1", "bm25_b", "n_threads"] given s k T)
    (m' : Means e ["shrinkage", "normalize", "top_k", "feature_weighting", "bm25_k1", "bm25_b", "n_threads"] given' s' k T')
    (hz : Argument given "normalize" (.bool false) (.bool false)) (hz' : Argument given' "normalize" (.bool false) (.bool false))
    (hw : WeightingIs given w) (hw' : WeightingIs given' w) :
    cosineKnnFit nth e X given = cosineKnnFit nth e X given' := by
  rw [cosineKnnFit_eq e X given s false k T w m.only m.shrinkage hz m.topK hw m.threads,
    cosineKnnFit_eq e X given' s' false k T' w m'.only m'.shrinkage hz' m'.topK hw' m'.threads]
  have hcols : (transpose (w.apply X)).cols = (transpose X).cols := by rw [transpose_cols, transpose_cols, (apply_shape w X).2]
  unfold itemKnnW
  rw [computeSimilarity_eq hnth (.cosine false) s _ _ T 128 k ⟨by exact_mod_cast m.nonneg, m.pos, by norm_num, trivial, hcols.symm⟩,
    computeSimilarity_eq hnth (.cosine false) s' _ _ T' 128 k ⟨by exact_mod_cast m'.nonneg, m'.pos, by norm_num, trivial, hcols.symm⟩]
  rfl

/-! ## `beta` -/

/-- C107 (`beta` of `RP3betaRecommender`).  A larger `beta` moves weight from popular to less popular items: whatever item
`j` was used, the weight of the more popular item `i` relative to that of the less popular item `i'` does not grow. -/
theorem C107_rp3_beta (hnth : NthOk nth) (e : Env) (X : CSR ℝ) (hX : Proper X) (hp : Positive X) (given given' : Args)
    (a be be' : ℚ) (T T' : Nat)
    (hn : Only given ["alpha", "beta", "top_k", "normalize_weight", "n_threads"])
    (hn' : Only given' ["alpha", "beta", "top_k", "normalize_weight", "n_threads"])
    (ha : Argument given "alpha" (.num 1) (.num a)) (ha' : Argument given' "alpha" (.num 1) (.num a))
    (hb : Argument given "beta" (.num (3 / 5)) (.num be)) (hb' : Argument given' "beta" (.num (3 / 5)) (.num be'))
    (hk : Argument given "top_k" .none .none) (hk' : Argument given' "top_k" .none .none)
    (hz : Argument given "normalize_weight" (.bool false) (.bool false))
    (hz' : Argument given' "normalize_weight" (.bool false) (.bool false))
    (hT : ThreadsAre e given T) (hT' : ThreadsAre e given' T') (ha0 : 0 ≤ a) (hb0 : 0 ≤ be) (hbb : be ≤ be') (hT1 : 1 ≤ T)
    (hT1' : 1 ≤ T') :
    ∃ W W', rp3Fit nth e X given = .ok W ∧ rp3Fit nth e X given' = .ok W' ∧
      ∀ j i i', j < X.cols → i < X.cols → i' < X.cols → 0 < Spec.Sim.popularity X i' →
        Spec.Sim.popularity X i' ≤ Spec.Sim.popularity X i →
        W'.get j i * W.get j i' ≤ W.get j i * W'.get j i' := by
  have key : ∀ (given : Args) (be : ℚ) (T : Nat), Only given ["alpha", "beta", "top_k", "normalize_weight", "n_threads"] →
      Argument given "alpha" (.num 1) (.num a) → Argument given "beta" (.num (3 / 5)) (.num be) →
      Argument given "top_k" .none .none → Argument given "normalize_weight" (.bool false) (.bool false) →
      ThreadsAre e given T → 0 ≤ be → 1 ≤ T → ∃ W, rp3Fit nth e X given = .ok W ∧ ∀ j < X.cols, ∀ i < X.cols, W.get j i =
        (∑ u ∈ Finset.range X.nrows, toUser a X j u * toItem a X u i) / Spec.Sim.popularity X i ^ (be : ℝ) := by
    intro given be T hn ha hb hk hz hT hb0 hT1
    obtain ⟨full, V, W, h1, h2, h3, -, -, h4⟩ := C82_rp3 hnth e X hX hp given a be false none T hn ha hb hk hz hT ha0 hb0 hT1
    refine ⟨W, h3, fun j hj i hi => ?_⟩
    rw [h4, ← h1 j hj i hi]
    simp only [Bool.false_eq_true, if_false, CSC.get]
    rw [h2 i]
    rfl
  obtain ⟨W, hW, h⟩ := key given be T hn ha hb hk hz hT hb0 hT1
  obtain ⟨W', hW', h'⟩ := key given' be' T' hn' ha' hb' hk' hz' hT' (hb0.trans hbb) hT1'
  refine ⟨W, W', hW, hW', fun j i i' hj hi hi' h0 hle => ?_⟩
  have n1 : 0 ≤ ∑ u ∈ Finset.range X.nrows, toUser a X j u * toItem a X u i := by
    have := walk_nonneg hp (a : ℝ) 0 j i; simpa using this
  have n2 : 0 ≤ ∑ u ∈ Finset.range X.nrows, toUser a X j u * toItem a X u i' := by
    have := walk_nonneg hp (a : ℝ) 0 j i'; simpa using this
  rw [h j hj i hi, h j hj i' hi', h' j hj i hi, h' j hj i' hi', div_mul_div_comm, div_mul_div_comm]
  have h1 : 0 < Spec.Sim.popularity X i := lt_of_lt_of_le h0 hle
  have hbr : (be : ℝ) ≤ be' := by exact_mod_cast hbb
  refine div_le_div_of_nonneg_left (mul_nonneg n1 n2) (by positivity) ?_
  have e1 : (be' : ℝ) = be + (be' - be) := by ring
  rw [e1, Real.rpow_add h1, Real.rpow_add h0]
  have hm := Real.rpow_le_rpow h0.le hle (sub_nonneg.mpr hbr)
  have q1 : 0 ≤ Spec.Sim.popularity X i ^ (be : ℝ) := Real.rpow_nonneg h1.le _
  have q2 : 0 ≤ Spec.Sim.popularity X i' ^ (be : ℝ) := Real.rpow_nonneg h0.le _
  calc _ = (Spec.Sim.popularity X i ^ (be : ℝ) * Spec.Sim.popularity X i' ^ (be : ℝ)) * Spec.Sim.popularity X i' ^ ((be' : ℝ) - be) := by ring
    _ ≤ (Spec.Sim.popularity X i ^ (be : ℝ) * Spec.Sim.popularity X i' ^ (be : ℝ)) * Spec.Sim.popularity X i ^ ((be' : ℝ) - be) :=
      mul_le_mul_of_nonneg_left hm (mul_nonneg q1 q2)
    _ = _ := by ring

/-! ## Regularisation -/

theorem tradeoff {K : Type} [Field K] [LinearOrder K] [IsStrictOrderedRing K] {f g f' g' l l' : K} (h : f + l * g ≤ f' + l * g')
    (h' : f' + l' * g' ≤ f + l' * g) (hl : l < l') : g' ≤ g ∧ (0 ≤ l → f ≤ f') := by
  have hg : g' ≤ g := by
    by_contra hlt
    push Not at hlt
    have := mul_pos (sub_pos.mpr hl) (sub_pos.mpr hlt)
    nlinarith
  exact ⟨hg, fun h0 => by have := mul_le_mul_of_nonneg_left hg h0; linarith⟩

section Ease

open Ease Spec.Ease

variable {K : Type} [Field K] [LinearOrder K] [IsStrictOrderedRing K] {U F : Nat}

omit [LinearOrder K] [IsStrictOrderedRing K] in
theorem easeLoss_const (X : Matrix (Fin U) (Fin F) K) (reg : K) (B : Matrix (Fin F) (Fin F) K) :
    loss X (fun _ => reg) B = fitError X B + reg * sizeSq B := by
  unfold loss fitError sizeSq; rw [Finset.mul_sum]

omit [LinearOrder K] [IsStrictOrderedRing K] in
theorem easeLoss_dropout (X : Matrix (Fin U) (Fin F) K) (reg p : K) (B : Matrix (Fin F) (Fin F) K) :
    loss X (dropoutPenalty X reg p) B = fitError X B + p / (1 - p) * droppedSq X B + reg * sizeSq B := by
  unfold loss fitError sizeSq droppedSq dropoutPenalty
  rw [Finset.mul_sum, Finset.mul_sum, add_assoc, ← Finset.sum_add_distrib]
  congr 1
  exact Finset.sum_congr rfl (fun i _ => by ring)

/-- C107 (`reg` of `DenseSLIMRecommender`).  A larger `reg` gives smaller weights, at the price of a worse fit. -/
theorem C107_dense_slim_reg (X : Matrix (Fin U) (Fin F) K) (reg reg' : K) (h0 : 0 < reg) (h : reg < reg') :
    ∃ W W', denseSlim X reg = .ok W ∧ denseSlim X reg' = .ok W' ∧ sizeSq W' ≤ sizeSq W ∧ fitError X W ≤ fitError X W' := by
  obtain ⟨W, hW, d, m⟩ := C40_dense_slim_optimal X reg h0
  obtain ⟨W', hW', d', m'⟩ := C40_dense_slim_optimal X reg' (h0.trans h)
  have h1 := (m W' d').1
  have h2 := (m' W d).1
  rw [easeLoss_const, easeLoss_const] at h1 h2
  have := tradeoff h1 h2 h
  exact ⟨W, W', hW, hW', this.1, this.2 h0.le⟩

/-- C107 (`reg` and `dropout_p` of `EDLAERecommender`).  A larger `reg` gives smaller weights, and a larger `dropout_p`
smaller weights for the frequently used inputs, at the price of a worse fit in the rest of the objective. -/
theorem C107_edlae (X : Matrix (Fin U) (Fin F) K) (reg reg' p p' : K) (h0 : 0 < reg) (hr : reg < reg') (hp0 : 0 ≤ p) (hp : p < p')
    (hp1 : p' < 1) :
    (∃ W W', edlae X reg p = .ok W ∧ edlae X reg' p = .ok W' ∧ sizeSq W' ≤ sizeSq W ∧
      fitError X W + p / (1 - p) * droppedSq X W ≤ fitError X W' + p / (1 - p) * droppedSq X W') ∧
    ∃ W W', edlae X reg p = .ok W ∧ edlae X reg p' = .ok W' ∧ droppedSq X W' ≤ droppedSq X W ∧
      fitError X W + reg * sizeSq W ≤ fitError X W' + reg * sizeSq W' := by
  obtain ⟨W, hW, d, m⟩ := C40_edlae_optimal X reg p h0 hp0 (hp.trans hp1)
  obtain ⟨V, hV, dV, mV⟩ := C40_edlae_optimal X reg' p (h0.trans hr) hp0 (hp.trans hp1)
  obtain ⟨Z, hZ, dZ, mZ⟩ := C40_edlae_optimal X reg p' h0 (hp0.trans hp.le) hp1
  constructor
  · have h1 := (m V dV).1
    have h2 := (mV W d).1
    rw [easeLoss_dropout, easeLoss_dropout] at h1 h2
    have := tradeoff h1 h2 hr
    exact ⟨W, V, hW, hV, this.1, this.2 h0.le⟩
  · have h1 := (m Z dZ).1
    have h2 := (mZ W d).1
    rw [easeLoss_dropout, easeLoss_dropout, add_right_comm, add_right_comm (fitError X Z)] at h1
    rw [easeLoss_dropout, easeLoss_dropout, add_right_comm, add_right_comm (fitError X W)] at h2
    have hlt : p / (1 - p) < p' / (1 - p') := by
      rw [div_lt_div_iff₀ (by linarith) (by linarith)]
      nlinarith
    have := tradeoff h1 h2 hlt
    exact ⟨W, Z, hW, hZ, this.1, this.2 (div_nonneg hp0 (by linarith))⟩

end Ease

section Slim

open WorkQueue Slim Spec.Slim
open Filter Topology

theorem documentedLoss_split (A : Nat → Nat → ℝ) (U F : Nat) (α l₁ : ℝ) (B : Nat → Nat → ℝ) :
    documentedLoss A U F α l₁ B = 1 / 2 * Spec.Direction.residual A U F B + α * (U * elastic F l₁ B) := by
  unfold documentedLoss Spec.Direction.residual elastic; ring

/-- C107 (`alpha` of `SLIMRecommender`).  With a larger `alpha` the weights to which training tends, as it is given more
sweeps and a smaller tolerance, are cheaper in the elastic net, at the price of a worse fit.
Missing: as in C86 (an exact zero test). -/
theorem C107_slim_alpha_partial (X : CSC ℝ) (hX : Slim.Proper X) (hU : 0 < X.rows) (α α' l1Ratio : ℝ) (hα : 0 < α) (hαα : α < α')
    (hl0 : 0 ≤ l1Ratio) (hl1 : l1Ratio < 1) (positiveOnly : Bool) (blockSize : Nat) (hB : 0 < blockSize)
    (nIter : ℕ → ℕ) (tol : ℕ → ℝ) (hn : Tendsto nIter atTop atTop) (ht : Tendsto tol atTop (𝓝 0))
    (shuffles : ℕ → Nat → List Nat) (hsh : ∀ n c, (shuffles n c).Perm (List.range X.cols.length))
    (srt : List (ℝ × Nat) → List (ℝ × Nat)) (T : ℕ → ℕ) (sched sched' : ∀ n, List (Fin (T n)))
    (s s' : ∀ n, State (T n) (Worker ℝ) Unit)
    (hs : ∀ n, slim (recommenderConfig X.rows α l1Ratio positiveOnly (nIter n) (tol n) none blockSize 0) X
      (shuffles n) srt (sched n) = .ok (s n)) (hfin : ∀ n, Finished (s n))
    (hs' : ∀ n, slim (recommenderConfig X.rows α' l1Ratio positiveOnly (nIter n) (tol n) none blockSize 0) X
      (shuffles n) srt (sched' n) = .ok (s' n)) (hfin' : ∀ n, Finished (s' n)) :
    ∃ B B' : Nat → Nat → ℝ,
      (∀ f j, f < X.cols.length → j < X.cols.length → Tendsto (fun n => weights (s n) f j) atTop (𝓝 (B f j))) ∧
      (∀ f j, f < X.cols.length → j < X.cols.length → Tendsto (fun n => weights (s' n) f j) atTop (𝓝 (B' f j))) ∧
      elastic X.cols.length l1Ratio B' ≤ elastic X.cols.length l1Ratio B ∧
      Spec.Direction.residual X.get X.rows X.cols.length B ≤ Spec.Direction.residual X.get X.rows X.cols.length B' := by
  have hα' := hα.trans hαα
  obtain ⟨B, o⟩ := (C86_optimum X hU α l1Ratio hα hl0 hl1 positiveOnly).1
  obtain ⟨B', o'⟩ := (C86_optimum X hU α' l1Ratio hα' hl0 hl1 positiveOnly).1
  refine ⟨B, B', fun f j hf hj => C86_converges_partial X hX hU α l1Ratio hα hl0 hl1 positiveOnly blockSize hB nIter tol hn ht
      shuffles hsh srt T sched s hs hfin B o f j hf hj,
    fun f j hf hj => C86_converges_partial X hX hU α' l1Ratio hα' hl0 hl1 positiveOnly blockSize hB nIter tol hn ht
      shuffles hsh srt T sched' s' hs' hfin' B' o' f j hf hj, ?_⟩
  have h1 := o.2 B' o'.1
  have h2 := o'.2 B o.1
  rw [documentedLoss_split, documentedLoss_split] at h1 h2
  have := tradeoff h1 h2 hαα
  have hU' : (0 : ℝ) < X.rows := Nat.cast_pos.mpr hU
  exact ⟨le_of_mul_le_mul_left this.1 hU', by have := this.2 hα.le; linarith⟩

/-- Two items of one user, `l1_ratio = 0`, `alpha` one and two: every number of sweeps gives weights. -/
example (α : ℝ) (hα : α = 1 ∨ α = 2) :
    let X : CSC ℝ := ⟨1, [[(0, 1)], [(0, 1)]]⟩
    Slim.Proper X ∧ ∀ n : ℕ, ∃ s : State 1 (Worker ℝ) Unit,
      slim (recommenderConfig X.rows α 0 true (n + 1) (1 / (n + 1)) none 4 0) X (fun _ => [1, 0]) id
        (List.replicate 4 (0 : Fin 1)) = .ok s ∧ Finished s := by
  intro X
  have hα0 : 0 ≤ α := by rcases hα with rfl | rfl <;> norm_num
  refine ⟨⟨?_, ?_⟩, fun n => ?_⟩
  · simp [X]
  · simp [X]
  · refine ⟨run (blockCount (recommenderConfig X.rows α 0 true (n + 1) (1 / (n + 1)) none 4 0) X) 1
        (fun i w m => (processBlock (recommenderConfig X.rows α 0 true (n + 1) (1 / (n + 1)) none 4 0) X
          (fun _ => [1, 0]) id i w, m))
        (init (freshWorker (recommenderConfig X.rows α 0 true (n + 1) (1 / (n + 1)) none 4 0) X) ())
        (List.replicate 4 (0 : Fin 1)), ?_, ?_⟩
    · unfold Slim.slim
      rw [if_neg (by decide), if_neg (by simp [recommenderConfig]), if_neg (by simp [recommenderConfig, X]; linarith),
        if_neg (by simp [recommenderConfig])]
    · intro t
      have ht : t = 0 := Subsingleton.elim _ _
      subst ht
      have hb : blockCount (recommenderConfig X.rows α 0 true (n + 1) (1 / (n + 1)) none 4 0) X = 1 := by
        simp [blockCount, recommenderConfig, X]
      rw [hb]
      simp [run, step, init, List.replicate]

end Slim

/-! ## Concrete cases -/

/-- Two items used by one user: the Jaccard index with one neighbour and with three, without shrinkage and with five. -/
example : (∃ W W', jaccardKnnFit sortNth exampleEnv2 (rated []) [("top_k", .num 1)] = .ok W ∧
      jaccardKnnFit sortNth exampleEnv2 (rated []) [("top_k", .num 3)] = .ok W' ∧ Nested W W') ∧
    (∃ W W', jaccardKnnFit sortNth exampleEnv2 (rated []) [] = .ok W ∧
      jaccardKnnFit sortNth exampleEnv2 (rated []) [("shrinkage", .num 5)] = .ok W' ∧ Shrunk 2 ((0 : ℚ) < 5) W W') ∧
    (∃ W W', cosineKnnFit sortNth exampleEnv2 (rated []) [("normalize", .bool true)] = .ok W ∧
      cosineKnnFit sortNth exampleEnv2 (rated []) [("normalize", .bool true), ("shrinkage", .num 5)] = .ok W' ∧
        Shrunk 2 ((0 : ℚ) < 5) W W') ∧
    cosineKnnFit sortNth exampleEnv2 (rated []) [] = cosineKnnFit sortNth exampleEnv2 (rated []) [("shrinkage", .num 5)] := by
  obtain ⟨p1, q1, -, -⟩ := rated_ok (row := []) (.inl rfl)
  have hth : ∀ g : Args, (∀ x ∈ g, x.1 ≠ "n_threads") → ThreadsAre exampleEnv2 g 2 := fun g hg =>
    .inr ⟨.inr ⟨by
      rw [List.lookup_eq_none_iff]
      intro x hx
      have := hg x hx
      simpa using Ne.symm this, rfl⟩, rfl⟩
  have hpos : ∀ u j, 0 ≤ (Weighting.none.apply (rated [])).get u j := get_nonneg _ q1
  refine ⟨?_, ?_, ?_, ?_⟩
  · exact (C107_top_k sortNth_ok exampleEnv2 (rated []) [("top_k", .num 1)] [("top_k", .num 3)] 0 0 0 true .none 1 3 2 2
      (by norm_num) (le_refl _) (le_refl _)).2.2.1
      ⟨by intro x hx; simp at hx; rw [hx]; simp, .inr ⟨rfl, rfl⟩, .inl (by simp), hth _ (by simp), le_refl _, by norm_num⟩
      ⟨by intro x hx; simp at hx; rw [hx]; simp, .inr ⟨rfl, rfl⟩, .inl (by simp), hth _ (by simp), le_refl _, by norm_num⟩
  · exact (C107_shrinkage sortNth_ok exampleEnv2 (rated []) p1 q1 [] [("shrinkage", .num 5)] 0 5 0 0 .none hpos
      100 100 2 2 (by simp [rated]) (by simp [rated]) (by norm_num) (le_refl _) (le_refl _)).2.2.1
      ⟨(by intro x hx; cases hx), .inr ⟨rfl, rfl⟩, .inr ⟨rfl, rfl⟩, hth _ (by simp), le_refl _, by norm_num⟩
      ⟨by intro x hx; simp at hx; rw [hx]; simp, .inl (by simp), .inr ⟨rfl, rfl⟩, hth _ (by simp), by norm_num, by norm_num⟩
  · exact (C107_shrinkage sortNth_ok exampleEnv2 (rated []) p1 q1 [("normalize", .bool true)]
      [("normalize", .bool true), ("shrinkage", .num 5)] 0 5 0 0 .none hpos
      100 100 2 2 (by simp [rated]) (by simp [rated]) (by norm_num) (le_refl _) (le_refl _)).1
      ⟨by intro x hx; simp at hx; rw [hx]; simp, .inr ⟨rfl, rfl⟩, .inr ⟨rfl, rfl⟩, hth _ (by simp), le_refl _, by norm_num⟩
      ⟨by intro x hx; simp at hx; rcases hx with rfl | rfl <;> simp, .inl (by simp [List.lookup]), .inr ⟨rfl, rfl⟩,
        hth _ (by simp), by norm_num, by norm_num⟩
      (.inl (by simp)) (.inl (by simp)) (.inl ⟨.inr ⟨rfl, rfl⟩, rfl⟩) (.inl ⟨.inr ⟨rfl, rfl⟩, rfl⟩)
  · exact C107_shrinkage_ignored sortNth_ok exampleEnv2 (rated []) [] [("shrinkage", .num 5)] 0 5 .none 100 2 2
      ⟨(by intro x hx; cases hx), .inr ⟨rfl, rfl⟩, .inr ⟨rfl, rfl⟩, hth _ (by simp), le_refl _, by norm_num⟩
      ⟨by intro x hx; simp at hx; rw [hx]; simp, .inl (by simp), .inr ⟨rfl, rfl⟩, hth _ (by simp), by norm_num, by norm_num⟩
      (.inr ⟨rfl, rfl⟩) (.inr ⟨rfl, rfl⟩) (.inl ⟨.inr ⟨rfl, rfl⟩, rfl⟩) (.inl ⟨.inr ⟨rfl, rfl⟩, rfl⟩)

/-- Two users of item 0, one of item 1: the default `beta` and a larger one; item 0 is the more popular. -/
example : (∃ W W', rp3Fit sortNth exampleEnv2 (rated [(0, 1)]) [] = .ok W ∧
      rp3Fit sortNth exampleEnv2 (rated [(0, 1)]) [("beta", .num 1)] = .ok W' ∧
      W'.get 0 0 * W.get 0 1 ≤ W.get 0 0 * W'.get 0 1) ∧
    ∃ W W', p3Fit sortNth exampleEnv2 (rated [(0, 1)]) [("top_k", .num 1)] = .ok W ∧
      p3Fit sortNth exampleEnv2 (rated [(0, 1)]) [("top_k", .num 2)] = .ok W' ∧ NestedColumns W W' := by
  obtain ⟨p3, q3, -⟩ := rated_ok (row := [(0, 1)]) (.inr (.inr rfl))
  constructor
  · obtain ⟨W, W', h1, h2, h3⟩ := C107_rp3_beta sortNth_ok exampleEnv2 _ p3 q3 [] [("beta", .num 1)] 1 (3 / 5) 1 2 2
      (by intro x hx; cases hx) (by intro x hx; simp at hx; rw [hx]; simp) (.inr ⟨rfl, rfl⟩) (.inr ⟨rfl, rfl⟩) (.inr ⟨rfl, rfl⟩)
      (.inl (by simp)) (.inr ⟨rfl, rfl⟩) (.inr ⟨rfl, rfl⟩) (.inr ⟨rfl, rfl⟩) (.inr ⟨rfl, rfl⟩) (.inr ⟨.inr ⟨rfl, rfl⟩, rfl⟩)
      (.inr ⟨.inr ⟨rfl, rfl⟩, rfl⟩) (by norm_num) (by norm_num) (by norm_num) (by norm_num) (by norm_num)
    refine ⟨W, W', h1, h2, h3 0 0 1 (by simp [rated]) (by simp [rated]) (by simp [rated]) ?_ ?_⟩ <;>
      simp [Spec.Sim.popularity, rated, CSR.nrows, Finset.sum_range_succ, CSR.get, CSR.row, SpVec.get]
  · exact (C107_top_k_walk sortNth_ok exampleEnv2 (rated [(0, 1)]) [("top_k", .num 1)] [("top_k", .num 2)] 1 0 1 2 2 (by norm_num)
      (.inr ⟨rfl, rfl⟩) (.inr ⟨rfl, rfl⟩) (.inl (by simp)) (.inl (by simp)) (.inr ⟨rfl, rfl⟩) (.inr ⟨rfl, rfl⟩)
      (.inr ⟨.inr ⟨rfl, rfl⟩, rfl⟩) (.inr ⟨.inr ⟨rfl, rfl⟩, rfl⟩) (by norm_num) (le_refl _) (by norm_num)).1
      (by intro x hx; simp at hx; rw [hx]; simp) (by intro x hx; simp at hx; rw [hx]; simp)

/-- Three users of two items over the rationals, `reg` one and two, dropout zero and one half. -/
example : (0 : ℚ) < 1 ∧ (1 : ℚ) < 2 ∧ (0 : ℚ) < 1 / 2 ∧ (1 / 2 : ℚ) < 1 ∧
    ∃ W, Ease.denseSlim (U := 1) (F := 2) (fun _ _ => (1 : ℚ)) 1 = .ok W ∧ sizeSq W ≠ 0 := by
  refine ⟨by norm_num, by norm_num, by norm_num, by norm_num, ?_⟩
  obtain ⟨W, hW, d, m⟩ := C40_dense_slim_optimal (U := 1) (F := 2) (fun _ _ => (1 : ℚ)) 1 (by norm_num)
  refine ⟨W, hW, fun h => ?_⟩
  have hz : ∀ i j, W i j = 0 := by
    intro i j
    unfold sizeSq at h
    have h1 := (Finset.sum_eq_zero_iff_of_nonneg (fun i _ => Finset.sum_nonneg (fun j _ => sq_nonneg (W i j)))).mp h i (Finset.mem_univ _)
    have h2 := (Finset.sum_eq_zero_iff_of_nonneg (fun j _ => sq_nonneg (W i j))).mp h1 j (Finset.mem_univ _)
    exact pow_eq_zero_iff (two_ne_zero) |>.mp h2
  have := (m (fun i j => if i = j then 0 else 1 / 2) (fun i => if_pos rfl)).1
  simp [Spec.Ease.loss, hz, Fin.sum_univ_two] at this
  norm_num at this

end Irspack.Props

namespace Irspack.Ials

open Spec.Ials

variable {K T : Nat}

theorem loss_alone (p : Params) (D : Data) (B : Nat → Fin K → ℝ) {u : Nat} (hu : u < D.U) (y : Fin K → ℝ) :
    loss p D (Function.update 0 u y) B = 1 / 2 * dataTerm p D (Function.update 0 u y) B +
      1 / 2 * (userWeight p D u * normSq y + ∑ i ∈ Finset.range D.I, itemWeight p D i * normSq (B i)) := by
  unfold loss
  congr 3
  rw [Finset.sum_eq_single u]
  · rw [Function.update_self]
  · intro w _ hw
    rw [Function.update_of_ne hw]
    simp [normSq]
  · intro h
    exact absurd (Finset.mem_range.mpr hu) h

/-- C107 (`reg` of `IALSRecommender`, Cholesky solver).  For the same item embeddings, data and other settings, a larger
`reg` gives every user another embedding only if it is strictly shorter; and it fits the data no better. -/
theorem C107_ials_reg {ω ω' : Oracle T} (hω : ω.Complete) (hω' : ω'.Complete) (r r' : Recommender)
    (hs : r.solverType = .cholesky) (hs' : r'.solverType = .cholesky) (hsc : r'.args.scaling = r.args.scaling)
    (hep : r'.args.epsilon = r.args.epsilon) (tr tr' : Trainer K) (reg' : ℝ) (hcfg : tr'.cfg = { tr.cfg with reg := reg' })
    (hitem : tr'.item = tr.item) (hreg : tr.cfg.reg ≤ reg') (X : CSR ℝ)
    (hv : Valid tr.cfg (scaleX r.args.scaling r.args.epsilon X)) (E E' : Factor K)
    (h : r.computeUserEmbedding ω tr X none = .ok E) (h' : r'.computeUserEmbedding ω' tr' X none = .ok E') (u : Nat)
    (hu : u < X.nrows) :
    (E'.row u ≠ E.row u → normSq (E'.row u) < normSq (E.row u)) ∧
    dataTerm (paramsOf tr.cfg) (Data.ofCSR (scaleX r.args.scaling r.args.epsilon X)) (Function.update 0 u (E.row u)) tr.item.row ≤
      dataTerm (paramsOf tr.cfg) (Data.ofCSR (scaleX r.args.scaling r.args.epsilon X)) (Function.update 0 u (E'.row u))
        tr.item.row := by
  by_cases heq : E'.row u = E.row u
  · exact ⟨fun hne => absurd heq hne, by rw [heq]⟩
  have hv' : Valid tr'.cfg (scaleX r'.args.scaling r'.args.epsilon X) := by
    rw [hsc, hep, hcfg]
    exact ⟨hv.proper, hv.nonneg, hv.reg.trans hreg, hv.alpha0⟩
  have h1 := (C45_cold_user_minimises hω r hs tr X hv E h).2.2 u hu 0 (E'.row u) heq
  have h2 := (C45_cold_user_minimises hω' r' hs' tr' X hv' E' h').2.2 u hu 0 (E.row u) (Ne.symm heq)
  rw [hsc, hep, hitem, hcfg] at h2
  have hu' : u < (Data.ofCSR (scaleX r.args.scaling r.args.epsilon X)).U := by
    show u < CSR.nrows _
    rw [scaleX_nrows]; exact hu
  rw [loss_alone _ _ _ hu', loss_alone _ _ _ hu'] at h1 h2
  set D := Data.ofCSR (scaleX r.args.scaling r.args.epsilon X) with hD
  set c : ℝ := (tr.cfg.alpha0 * D.I + D.userCount u) ^ tr.cfg.nu with hc
  have hc0 : 0 ≤ c := Real.rpow_nonneg (add_nonneg (mul_nonneg hv.alpha0 (Nat.cast_nonneg _)) (Nat.cast_nonneg _)) _
  have w1 : userWeight (paramsOf tr.cfg) D u = tr.cfg.reg * c := rfl
  have w2 : userWeight (paramsOf { tr.cfg with reg := reg' }) D u = reg' * c := rfl
  have d2 : ∀ A : Nat → Fin K → ℝ, dataTerm (paramsOf { tr.cfg with reg := reg' }) D A tr.item.row =
      dataTerm (paramsOf tr.cfg) D A tr.item.row := fun _ => rfl
  rw [w1] at h1
  rw [w2, d2, d2] at h2
  have hlt : normSq (E'.row u) < normSq (E.row u) := by
    by_contra hge
    push Not at hge
    have := mul_nonneg (mul_nonneg (sub_nonneg.mpr hreg) hc0) (sub_nonneg.mpr hge)
    nlinarith
  refine ⟨fun _ => hlt, ?_⟩
  have := mul_le_mul_of_nonneg_left hlt.le (mul_nonneg hv.reg hc0)
  linarith

/-- C107 (`alpha0` of `IALSRecommender`, iALS++ loss with `nu = 0`, Cholesky solver).  For the same item embeddings, data
and other settings, a larger `alpha0` lowers the sum over all items of the squared scores of every user. -/
theorem C107_ials_alpha0 {ω ω' : Oracle T} (hω : ω.Complete) (hω' : ω'.Complete) (r r' : Recommender)
    (hs : r.solverType = .cholesky) (hs' : r'.solverType = .cholesky) (hsc : r'.args.scaling = r.args.scaling)
    (hep : r'.args.epsilon = r.args.epsilon) (tr tr' : Trainer K) (alpha' : ℝ)
    (hcfg : tr'.cfg = { tr.cfg with alpha0 := alpha' }) (hloss : tr.cfg.lossType ≠ .original) (hnu : tr.cfg.nu = 0)
    (hitem : tr'.item = tr.item) (halpha : tr.cfg.alpha0 < alpha') (X : CSR ℝ)
    (hv : Valid tr.cfg (scaleX r.args.scaling r.args.epsilon X)) (E E' : Factor K)
    (h : r.computeUserEmbedding ω tr X none = .ok E) (h' : r'.computeUserEmbedding ω' tr' X none = .ok E') (u : Nat)
    (hu : u < X.nrows) :
    ∑ i ∈ Finset.range X.cols, score (E'.row u) (tr.item.row i) ^ 2 ≤
      ∑ i ∈ Finset.range X.cols, score (E.row u) (tr.item.row i) ^ 2 := by
  by_cases heq : E'.row u = E.row u
  · rw [heq]
  have hv' : Valid tr'.cfg (scaleX r'.args.scaling r'.args.epsilon X) := by
    rw [hsc, hep, hcfg]
    exact ⟨hv.proper, hv.nonneg, hv.reg, hv.alpha0.trans halpha.le⟩
  have h1 := (C45_cold_user_minimises hω r hs tr X hv E h).2.2 u hu 0 (E'.row u) heq
  have h2 := (C45_cold_user_minimises hω' r' hs' tr' X hv' E' h').2.2 u hu 0 (E.row u) (Ne.symm heq)
  rw [hsc, hep, hitem, hcfg] at h2
  have hu' : u < (Data.ofCSR (scaleX r.args.scaling r.args.epsilon X)).U := by
    show u < CSR.nrows _
    rw [scaleX_nrows]; exact hu
  rw [loss_alone _ _ _ hu', loss_alone _ _ _ hu'] at h1 h2
  have hI : (Data.ofCSR (scaleX r.args.scaling r.args.epsilon X)).I = X.cols := scaleX_cols _ _ _
  set D := Data.ofCSR (scaleX r.args.scaling r.args.epsilon X) with hD
  have w1 : userWeight (paramsOf tr.cfg) D u = tr.cfg.reg := by unfold userWeight; simp [paramsOf, hnu]
  have w2 : userWeight (paramsOf { tr.cfg with alpha0 := alpha' }) D u = tr.cfg.reg := by unfold userWeight; simp [paramsOf, hnu]
  have all : ∀ y : Fin K → ℝ, ∑ w ∈ Finset.range D.U, ∑ i ∈ Finset.range D.I,
      score ((Function.update 0 u y : Nat → Fin K → ℝ) w) (tr.item.row i) ^ 2 =
        ∑ i ∈ Finset.range X.cols, score y (tr.item.row i) ^ 2 := by
    intro y
    rw [Finset.sum_eq_single u, Function.update_self, hI]
    · intro w _ hw
      rw [Function.update_of_ne hw]
      simp [score]
    · intro h
      exact absurd (Finset.mem_range.mpr hu') h
  rw [w1] at h1
  rw [w2] at h2
  unfold dataTerm at h1 h2
  simp only [paramsOf, hloss, decide_false, Bool.false_eq_true, if_false] at h1 h2
  unfold ialsppTerm at h1 h2
  rw [all, all] at h1 h2
  generalize (∑ w ∈ Finset.range D.U, ∑ i ∈ _, D.X w i * (score ((Function.update 0 u (E.row u) : Nat → Fin K → ℝ) w) _ - 1) ^ 2) = o
    at h1 h2
  generalize (∑ w ∈ Finset.range D.U, ∑ i ∈ _, D.X w i * (score ((Function.update 0 u (E'.row u) : Nat → Fin K → ℝ) w) _ - 1) ^ 2) = o'
    at h1 h2
  exact (Props.tradeoff (f := o + tr.cfg.reg * normSq (E.row u)) (f' := o' + tr.cfg.reg * normSq (E'.row u)) (by linarith)
    (by linarith) halpha).1

/-- a trainer of one user and two items, with this `reg` -/
noncomputable def knobTrainer (reg : ℝ) : Trainer 1 :=
  let c := (Recommender.config ⟨exampleArgs "cholesky", .cholesky, 1⟩)
  Trainer.create { c with reg := reg } (scaleX .log 1 exampleX) (fun u k => u + k.val) (fun i k => 1 + i * k.val)

/-- For `reg` one and two, a batch of one profile is embedded. -/
example : ∃ ω : Oracle 2, ω.Complete ∧ ∀ reg : ℝ, reg = 1 ∨ reg = 2 →
    (knobTrainer reg).item = (knobTrainer 1).item ∧ (knobTrainer reg).cfg = { (knobTrainer 1).cfg with reg := reg } ∧
    Valid (knobTrainer reg).cfg (scaleX .log 1 ⟨2, [[(0, 2), (1, 1)]]⟩) ∧
    ∃ E, (⟨exampleArgs "cholesky", .cholesky, 1⟩ : Recommender).computeUserEmbedding ω (knobTrainer reg) ⟨2, [[(0, 2), (1, 1)]]⟩ none =
      .ok E := by
  obtain ⟨ω, hω⟩ := exists_complete_oracle 2 (by norm_num)
  refine ⟨ω, hω, fun reg hreg => ⟨rfl, rfl, ?_⟩⟩
  have hr0 : 0 < reg := by rcases hreg with rfl | rfl <;> norm_num
  have hnn : ∀ row ∈ ([[(0, 2), (1, 1)]] : List (SpVec ℝ)), ∀ e ∈ row, (0 : ℝ) ≤ e.2 := by
    intro row hrow e he
    simp only [List.mem_cons, List.not_mem_nil, or_false] at hrow
    subst hrow
    simp only [List.mem_cons, List.not_mem_nil, or_false] at he
    rcases he with rfl | rfl <;> norm_num
  have hval : Valid (knobTrainer reg).cfg (scaleX .log 1 ⟨2, [[(0, 2), (1, 1)]]⟩) := by
    apply validScaled
    · exact hr0.le
    · norm_num [knobTrainer, Trainer.create, Recommender.config, exampleArgs]
    · norm_num
    · constructor
      · intro row hrow e he
        simp only [List.mem_cons, List.not_mem_nil, or_false] at hrow
        subst hrow
        simp only [List.mem_cons, List.not_mem_nil, or_false] at he
        rcases he with rfl | rfl <;> norm_num
      · intro row hrow
        simp only [List.mem_cons, List.not_mem_nil, or_false] at hrow
        subst hrow; simp
    · exact hnn
  refine ⟨hval, C45_cold_user_succeeds hω (by norm_num) ⟨exampleArgs "cholesky", .cholesky, 1⟩ (knobTrainer reg)
    ⟨2, [[(0, 2), (1, 1)]]⟩ (logDefined_of_nonneg _ (by norm_num [exampleArgs]) hnn) hval ⟨hr0, fun row _ => Or.inr ?_⟩ rfl⟩
  have : (0 : ℝ) ≤ row.length := Nat.cast_nonneg _
  rw [scaleX_cols]
  norm_num [knobTrainer, Trainer.create, Recommender.config, exampleArgs]
  linarith

end Irspack.Ials
