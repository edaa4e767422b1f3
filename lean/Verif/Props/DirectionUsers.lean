import Verif.Props.Direction

/-!
# C107 for the user-based nearest-neighbour recommenders
-/

namespace Irspack.Props

open RecClasses Sim Spec.Sim Spec.Direction

variable {nth : Nat → SpVec ℝ → List Nat}

theorem userKnn_nested (hnth : NthOk nth) (w : Weighting) (kind : Kind) (s : ℝ) (hs : 0 ≤ s) (hp : kind.paramsOk) (X : CSR ℝ)
    {T T' k k' : Nat} (hT : 1 ≤ T) (hT' : 1 ≤ T') (hk : k ≤ k') :
    ∃ U U', userKnnU nth w kind s X T k = .ok U ∧ userKnnU nth w kind s X T' k' = .ok U' ∧ Nested U U' := by
  obtain ⟨S, W, hS, hW, -, -, h1⟩ := C60_user_rows_are_top_k_partial hnth w kind s hs hp X T k hT
  obtain ⟨S', W', hS', hW', -, -, h2⟩ := C60_user_rows_are_top_k_partial hnth w kind s hs hp X T' k' hT'
  have hSS : S = S' := by
    rw [computeSimilarity_eq hnth kind s _ _ T 128 X.nrows ⟨hs, hT, by norm_num, hp, (apply_shape w X).1.symm⟩] at hS
    rw [computeSimilarity_eq hnth kind s _ _ T' 128 X.nrows ⟨hs, hT', by norm_num, hp, (apply_shape w X).1.symm⟩] at hS'
    injection hS with hS
    injection hS' with hS'
    rw [← hS, ← hS']
  subst hSS
  have hnd := similarity_nodup hnth kind s _ _ _ _ _ S hS
  have hget : ∀ k i e, e ∈ bestOf k (S.row i) → (bestOf k (S.row i)).get e.1 = e.2 := fun k i e he =>
    get_of_mem _ ((hnd i).sublist ((bestOf_sublist k _).map _)) e he
  refine ⟨W, W', hW, hW', fun i j hj => ?_, fun i j j' hij hij' hj hj' hn => ?_⟩
  · rw [(h1 i).1] at hj
    obtain ⟨e, he, rfl⟩ := List.mem_map.mp hj
    have he' := bestOf_mono hk _ he
    refine ⟨by rw [(h2 i).1]; exact List.mem_map.mpr ⟨e, he', rfl⟩, ?_⟩
    rw [(h1 i).2.1, (h2 i).2.1]
    split
    · rfl
    · rw [hget k i e he, hget k' i e he']
  · rw [(h1 i).1] at hj hn
    rw [(h2 i).1] at hj'
    obtain ⟨e, he, rfl⟩ := List.mem_map.mp hj
    obtain ⟨f, hf, rfl⟩ := List.mem_map.mp hj'
    rw [(h2 i).2.1, (h2 i).2.1, if_neg (Ne.symm hij), if_neg (Ne.symm hij'), hget k' i f hf, hget k' i e (bestOf_mono hk _ he)]
    exact bestOf_best _ he ((bestOf_sublist _ _).subset hf) (fun h => hn (List.mem_map.mpr ⟨f, h, rfl⟩))

/-- C107 (`top_k` of the user-based nearest-neighbour recommenders).  A larger `top_k` keeps every neighbour a smaller one
keeps, with the same similarity, and adds only neighbours that are not more similar. -/
theorem C107_top_k_users (hnth : NthOk nth) (e : Env) (X : CSR ℝ) (given given' : Args) (s a : ℚ) (nz : Bool) (w : Weighting)
    (k k' T T' : Nat) (hk : k ≤ k') (ha0 : 0 ≤ a) :
    (Means e ["shrinkage", "normalize", "top_k", "feature_weighting", "bm25_k1", "bm25_b", "n_threads"] given s k T →
      Means e ["shrinkage", "normalize", "top_k", "feature_weighting", "bm25_k1", "bm25_b", "n_threads"] given' s k' T' →
      Argument given "normalize" (.bool true) (.bool nz) → Argument given' "normalize" (.bool true) (.bool nz) →
      WeightingIs given w → WeightingIs given' w →
      ∃ U U', cosineUserKnnFit nth e X given = .ok U ∧ cosineUserKnnFit nth e X given' = .ok U' ∧ Nested U U') ∧
    (Means e ["shrinkage", "alpha", "top_k", "feature_weighting", "bm25_k1", "bm25_b", "n_threads"] given s k T →
      Means e ["shrinkage", "alpha", "top_k", "feature_weighting", "bm25_k1", "bm25_b", "n_threads"] given' s k' T' →
      Argument given "alpha" (.num (1 / 2)) (.num a) → Argument given' "alpha" (.num (1 / 2)) (.num a) → a ≤ 1 →
      WeightingIs given w → WeightingIs given' w →
      ∃ U U', asymmetricUserKnnFit nth e X given = .ok U ∧ asymmetricUserKnnFit nth e X given' = .ok U' ∧ Nested U U') := by
  have ha1 : (0 : ℝ) ≤ a := by exact_mod_cast ha0
  refine ⟨fun m m' hz hz' hw hw' => ?_, fun m m' ha ha' hle hw hw' => ?_⟩
  all_goals have hs1 : (0 : ℝ) ≤ s := by exact_mod_cast m.nonneg
  · obtain ⟨W, W', hW, hW', h⟩ := userKnn_nested hnth w (.cosine nz) s hs1 trivial X m.pos m'.pos hk
    exact ⟨W, W', by rw [cosineUserKnnFit_eq e X given s nz k T w m.only m.shrinkage hz m.topK hw m.threads, hW],
      by rw [cosineUserKnnFit_eq e X given' s nz k' T' w m'.only m'.shrinkage hz' m'.topK hw' m'.threads, hW'], h⟩
  · obtain ⟨W, W', hW, hW', h⟩ :=
      userKnn_nested hnth w (.asymmetric a) s hs1 ⟨ha1, by exact_mod_cast hle⟩ X m.pos m'.pos hk
    exact ⟨W, W', by rw [asymmetricUserKnnFit_eq e X given s a k T w m.only m.shrinkage ha m.topK hw m.threads, hW],
      by rw [asymmetricUserKnnFit_eq e X given' s a k' T' w m'.only m'.shrinkage ha' m'.topK hw' m'.threads, hW'], h⟩

/-- C107 (`shrinkage` of the user-based recommenders).  With every neighbour kept and weighted interactions that are not
negative, more shrinkage lowers every positive similarity between users and makes none negative. -/
theorem C107_shrinkage_users (hnth : NthOk nth) (e : Env) (X : CSR ℝ) (hX : Proper X) (hp : Positive X) (given given' : Args)
    (s s' a : ℚ) (w : Weighting) (hw0 : ∀ u j, 0 ≤ (w.apply X).get u j) (k k' T T' : Nat) (hk : X.nrows ≤ k)
    (hk' : X.nrows ≤ k') (hs : s ≤ s') (ha0 : 0 ≤ a) :
    (Means e ["shrinkage", "normalize", "top_k", "feature_weighting", "bm25_k1", "bm25_b", "n_threads"] given s k T →
      Means e ["shrinkage", "normalize", "top_k", "feature_weighting", "bm25_k1", "bm25_b", "n_threads"] given' s' k' T' →
      Argument given "normalize" (.bool true) (.bool true) → Argument given' "normalize" (.bool true) (.bool true) →
      WeightingIs given w → WeightingIs given' w →
      ∃ U U', cosineUserKnnFit nth e X given = .ok U ∧ cosineUserKnnFit nth e X given' = .ok U' ∧
        Shrunk X.nrows (s < s') U U') ∧
    (Means e ["shrinkage", "alpha", "top_k", "feature_weighting", "bm25_k1", "bm25_b", "n_threads"] given s k T →
      Means e ["shrinkage", "alpha", "top_k", "feature_weighting", "bm25_k1", "bm25_b", "n_threads"] given' s' k' T' →
      Argument given "alpha" (.num (1 / 2)) (.num a) → Argument given' "alpha" (.num (1 / 2)) (.num a) → a ≤ 1 →
      WeightingIs given w → WeightingIs given' w →
      ∃ U U', asymmetricUserKnnFit nth e X given = .ok U ∧ asymmetricUserKnnFit nth e X given' = .ok U' ∧
        Shrunk X.nrows (s < s') U U') := by
  have hss : (s : ℝ) ≤ s' := by exact_mod_cast hs
  have hdot : ∀ i j, 0 ≤ dot X.cols (X.get i) ((w.apply X).get j) := fun i j =>
    Finset.sum_nonneg (fun u _ => mul_nonneg (get_nonneg X hp i u) (hw0 j u))
  have hl : ∀ h : Nat → ℝ, 0 ≤ l2norm X.cols h := fun h => Real.sqrt_nonneg _
  have conv : ∀ {x d : ℝ}, 0 ≤ s → 0 ≤ x → 0 ≤ d → 0 ≤ x / (d + (s' : ℝ) + eps) ∧ x / (d + (s' : ℝ) + eps) ≤ x / (d + (s : ℝ) + eps) ∧
      (s < s' → 0 < x / (d + (s : ℝ) + eps) → x / (d + (s' : ℝ) + eps) < x / (d + (s : ℝ) + eps)) := by
    intro x d h0 hx hd
    have := div_shrunk hx hd (show (0 : ℝ) ≤ s by exact_mod_cast h0) hss
    exact ⟨this.1, this.2.1, fun h => this.2.2 (by exact_mod_cast h)⟩
  have zero : (0 : ℝ) ≤ 0 ∧ (0 : ℝ) ≤ 0 ∧ (s < s' → (0 : ℝ) < 0 → (0 : ℝ) < 0) := ⟨le_refl _, le_refl _, fun _ h => h⟩
  refine ⟨fun m m' hz1 hz1' hw hw' => ?_, fun m m' ha ha' hle hw hw' => ?_⟩
  · obtain ⟨W, hW, -, -, -, h⟩ := C82_cosine_users hnth e X hX given s true k T w m.only m.shrinkage hz1 m.topK hw m.threads m.nonneg m.pos
    obtain ⟨W', hW', -, -, -, h'⟩ :=
      C82_cosine_users hnth e X hX given' s' true k' T' w m'.only m'.shrinkage hz1' m'.topK hw' m'.threads m'.nonneg m'.pos
    refine ⟨W, W', hW, hW', shrunk_of (fun i hi j hj => ?_)⟩
    rw [h hk i hi j hj, h' hk' i hi j hj]
    by_cases hij : i = j
    · rw [if_pos hij, if_pos hij]; exact zero
    · rw [if_neg hij, if_neg hij, if_pos rfl, if_pos rfl]
      exact conv m.nonneg (hdot i j) (mul_nonneg (hl _) (hl _))
  · obtain ⟨W, hW, -, -, -, h⟩ :=
      C82_asymmetric_users hnth e X hX given s a k T w m.only m.shrinkage ha m.topK hw m.threads m.nonneg ha0 hle m.pos
    obtain ⟨W', hW', -, -, -, h'⟩ :=
      C82_asymmetric_users hnth e X hX given' s' a k' T' w m'.only m'.shrinkage ha' m'.topK hw' m'.threads m'.nonneg ha0 hle m'.pos
    refine ⟨W, W', hW, hW', shrunk_of (fun i hi j hj => ?_)⟩
    rw [h hk i hi j hj, h' hk' i hi j hj]
    by_cases hij : i = j
    · rw [if_pos hij, if_pos hij]; exact zero
    · rw [if_neg hij, if_neg hij]
      exact conv m.nonneg (hdot i j) (mul_nonneg (Real.rpow_nonneg (hl _) _) (Real.rpow_nonneg (hl _) _))

/-- Arguments that give only `shrinkage` and `top_k` meet the hypotheses above. -/
example : Means exampleEnv2 ["shrinkage", "normalize", "top_k", "feature_weighting", "bm25_k1", "bm25_b", "n_threads"]
    [("shrinkage", .num 2), ("top_k", .num 3)] 2 3 2 ∧
    Argument [("shrinkage", .num 2), ("top_k", .num 3)] "normalize" (.bool true) (.bool true) :=
  ⟨⟨by intro a ha; simp at ha; rcases ha with rfl | rfl <;> simp, .inl rfl, .inl rfl,
    .inr ⟨.inr ⟨rfl, rfl⟩, rfl⟩, by norm_num, by norm_num⟩, .inr ⟨rfl, rfl⟩⟩

end Irspack.Props
