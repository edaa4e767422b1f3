import Verif.Spec.TuneTrial
import Verif.Props.SimRecommender
import Verif.Props.LibRecommender
import Verif.Props.IalsArgs
import Verif.Props.Tuning
import Mathlib.Tactic.NormNum

/-!
# C91: tuning with the default ranges does not fail by what it suggests
-/

namespace Irspack.Props

open RecClasses Sim Spec.Sim

theorem lookup_none_of_names {given : Args} {n : String} (h : n ∉ given.map (·.1)) : given.lookup n = none := by
  induction given with
  | nil => rfl
  | cons a l ih =>
    obtain ⟨k, v⟩ := a
    simp only [List.map_cons, List.mem_cons, not_or] at h
    have : (n == k) = false := by simpa using h.1
    rw [List.lookup_cons, this]
    exact ih h.2

/-- a parameter that is not tuned has its default -/
theorem _root_.Irspack.RecClasses.Trial.default {c : RecClass} {given : Args} (h : Trial c given) (n : String) (d : Val)
    (hn : n ≠ "n_threads") (ht : n ∉ c.tune.map (·.1)) : Argument given n d d := by
  refine .inr ⟨lookup_none_of_names ?_, rfl⟩
  intro hm
  obtain ⟨a, ha, rfl⟩ := List.mem_map.mp hm
  exact (h.names a ha).elim hn ht

theorem _root_.Irspack.RecClasses.Trial.only {c : RecClass} {given : Args} (h : Trial c given) (names : List String)
    (ht : ∀ n, n = "n_threads" ∨ n ∈ c.tune.map (·.1) → n ∈ names) : Only given names :=
  fun a ha => ht _ (h.names a ha)

/-- a whole number within non-negative bounds -/
theorem _root_.Irspack.RecClasses.Trial.size {c : RecClass} {given : Args} (h : Trial c given) (n : String) (lo hi : ℤ)
    (hr : (n, Range.int lo hi) ∈ c.tune) (h0 : 0 ≤ lo) (d : Val) :
    ∃ k : Nat, lo ≤ k ∧ k ≤ hi ∧ Argument given n d (.num k) := by
  obtain ⟨v, hv, k, h1, h2, rfl⟩ := h.values _ hr
  refine ⟨k.toNat, by omega, by omega, .inl ?_⟩
  rw [hv]
  congr 2
  have : ((k.toNat : ℤ) : ℚ) = (k : ℚ) := by rw [Int.toNat_of_nonneg (by omega)]
  rw [← this]
  rfl

theorem _root_.Irspack.RecClasses.Trial.number {c : RecClass} {given : Args} (h : Trial c given) (n : String) (lo hi : ℚ)
    (hr : (n, Range.float lo hi) ∈ c.tune) (d : Val) :
    ∃ q : ℚ, lo ≤ q ∧ q ≤ hi ∧ Argument given n d (.num q) := by
  obtain ⟨v, hv, q, h1, h2, rfl⟩ := h.values _ hr
  exact ⟨q, h1, h2, .inl hv⟩

theorem _root_.Irspack.RecClasses.Trial.flag {c : RecClass} {given : Args} (h : Trial c given) (n : String) (l : List Val)
    (hr : (n, Range.cat l) ∈ c.tune) (hl : ∀ v ∈ l, v = .bool true ∨ v = .bool false) (d : Val) :
    ∃ b : Bool, Argument given n d (.bool b) := by
  obtain ⟨v, hv, hm⟩ := h.values _ hr
  rcases hl v hm with rfl | rfl
  · exact ⟨true, .inl hv⟩
  · exact ⟨false, .inl hv⟩

theorem _root_.Irspack.RecClasses.Trial.weighting {c : RecClass} {given : Args} (h : Trial c given)
    (hr : ("feature_weighting", Range.cat [.str "NONE", .str "TF_IDF", .str "BM_25"]) ∈ c.tune)
    (h1 : "bm25_k1" ∉ c.tune.map (·.1)) (h2 : "bm25_b" ∉ c.tune.map (·.1)) : ∃ w, WeightingIs given w := by
  obtain ⟨v, hv, hm⟩ := h.values _ hr
  simp only [Within, List.mem_cons, List.not_mem_nil, or_false] at hm
  rcases hm with rfl | rfl | rfl
  · exact ⟨.none, .inl ⟨.inl hv, rfl⟩⟩
  · exact ⟨.tfIdf, .inr (.inl ⟨.inl hv, rfl⟩)⟩
  · exact ⟨_, .inr (.inr ⟨.inl hv, 6 / 5, 3 / 4, h.default _ _ (by decide) h1, h.default _ _ (by decide) h2, rfl⟩)⟩

variable {nth : Nat → SpVec ℝ → List Nat}

/-! ## Neighbourhoods and random walks -/

/-- C91 (item neighbourhoods).  Every trial of the default tuning ranges trains: for every data set and at least
one thread the similarity is learnt. -/
theorem C91_item_knn (hnth : NthOk nth) (e : Env) (X : CSR ℝ) (hX : Proper X) (hz : NoStoredZero X) (T : Nat) (hT1 : 1 ≤ T)
    (given : Args) (hT : ThreadsAre e given T) :
    (Trial cosineKnn given → ∃ W, cosineKnnFit nth e X given = .ok W) ∧
    (Trial asymmetricCosineKnn given → ∃ W, asymmetricKnnFit nth e X given = .ok W) ∧
    (Trial jaccardKnn given → ∃ W, jaccardKnnFit nth e X given = .ok W) ∧
    (Trial tverskyKnn given → ∃ W, tverskyKnnFit nth e X given = .ok W) := by
  refine ⟨fun h => ?_, fun h => ?_, fun h => ?_, fun h => ?_⟩
  · obtain ⟨k, -, -, hk⟩ := h.size "top_k" 4 1000 (by decide +kernel) (by norm_num) (.num 100)
    obtain ⟨s, hs0, -, hs⟩ := h.number "shrinkage" 0 1000 (by decide +kernel) (.num 0)
    obtain ⟨w, hw⟩ := h.weighting (by decide +kernel) (by decide +kernel) (by decide +kernel)
    obtain ⟨b, hb⟩ := h.flag "normalize" [.bool false, .bool true] (by decide +kernel) (by decide +kernel) (.bool false)
    obtain ⟨W, hW, -⟩ := C82_cosine_items hnth e X hX hz given s b k T w (h.only _ (by
      intro n hn; revert hn; simp [cosineKnn]; rintro (rfl | rfl | rfl | rfl | rfl) <;> simp)) hs hb hk hw hT hs0 hT1
    exact ⟨W, hW⟩
  · obtain ⟨k, -, -, hk⟩ := h.size "top_k" 4 1000 (by decide +kernel) (by norm_num) (.num 100)
    obtain ⟨s, hs0, -, hs⟩ := h.number "shrinkage" 0 1000 (by decide +kernel) (.num 0)
    obtain ⟨w, hw⟩ := h.weighting (by decide +kernel) (by decide +kernel) (by decide +kernel)
    obtain ⟨a, ha0, ha1, ha⟩ := h.number "alpha" 0 1 (by decide +kernel) (.num (1 / 2))
    obtain ⟨W, hW, -⟩ := C82_asymmetric_items hnth e X hX hz given s a k T w (h.only _ (by
      intro n hn; revert hn; simp [asymmetricCosineKnn]; rintro (rfl | rfl | rfl | rfl | rfl) <;> simp)) hs ha hk hw hT hs0 ha0 ha1 hT1
    exact ⟨W, hW⟩
  · obtain ⟨k, -, -, hk⟩ := h.size "top_k" 4 1000 (by decide +kernel) (by norm_num) (.num 100)
    obtain ⟨s, hs0, -, hs⟩ := h.number "shrinkage" 0 1000 (by decide +kernel) (.num 0)
    obtain ⟨W, hW, -⟩ := C82_jaccard_items hnth e X hX hz given s k T (h.only _ (by
      intro n hn; revert hn; simp [jaccardKnn]; rintro (rfl | rfl | rfl) <;> simp)) hs hk hT hs0 hT1
    exact ⟨W, hW⟩
  · obtain ⟨k, -, -, hk⟩ := h.size "top_k" 4 1000 (by decide +kernel) (by norm_num) (.num 100)
    obtain ⟨s, hs0, -, hs⟩ := h.number "shrinkage" 0 1000 (by decide +kernel) (.num 0)
    obtain ⟨a, ha0, -, ha⟩ := h.number "alpha" 0 2 (by decide +kernel) (.num (1 / 2))
    obtain ⟨b, hb0, -, hb⟩ := h.number "beta" 0 2 (by decide +kernel) (.num (1 / 2))
    obtain ⟨W, hW, -⟩ := C82_tversky_items hnth e X hX hz given s a b k T (h.only _ (by
      intro n hn; revert hn; simp [tverskyKnn]; rintro (rfl | rfl | rfl | rfl | rfl) <;> simp)) hs ha hb hk hT hs0 ha0 hb0 hT1
    exact ⟨W, hW⟩

/-- C91 (user neighbourhoods) -/
theorem C91_user_knn (hnth : NthOk nth) (e : Env) (X : CSR ℝ) (hX : Proper X) (T : Nat) (hT1 : 1 ≤ T)
    (given : Args) (hT : ThreadsAre e given T) :
    (Trial cosineUserKnn given → ∃ W, cosineUserKnnFit nth e X given = .ok W) ∧
    (Trial asymmetricCosineUserKnn given → ∃ W, asymmetricUserKnnFit nth e X given = .ok W) := by
  refine ⟨fun h => ?_, fun h => ?_⟩
  · obtain ⟨k, -, -, hk⟩ := h.size "top_k" 4 1000 (by decide +kernel) (by norm_num) (.num 100)
    obtain ⟨s, hs0, -, hs⟩ := h.number "shrinkage" 0 1000 (by decide +kernel) (.num 0)
    obtain ⟨w, hw⟩ := h.weighting (by decide +kernel) (by decide +kernel) (by decide +kernel)
    obtain ⟨b, hb⟩ := h.flag "normalize" [.bool false, .bool true] (by decide +kernel) (by decide +kernel) (.bool true)
    obtain ⟨W, hW, -⟩ := C82_cosine_users hnth e X hX given s b k T w (h.only _ (by
      intro n hn; revert hn; simp [cosineUserKnn]; rintro (rfl | rfl | rfl | rfl | rfl) <;> simp)) hs hb hk hw hT hs0 hT1
    exact ⟨W, hW⟩
  · obtain ⟨k, -, -, hk⟩ := h.size "top_k" 4 1000 (by decide +kernel) (by norm_num) (.num 100)
    obtain ⟨s, hs0, -, hs⟩ := h.number "shrinkage" 0 1000 (by decide +kernel) (.num 0)
    obtain ⟨w, hw⟩ := h.weighting (by decide +kernel) (by decide +kernel) (by decide +kernel)
    obtain ⟨a, ha0, ha1, ha⟩ := h.number "alpha" 0 1 (by decide +kernel) (.num (1 / 2))
    obtain ⟨W, hW, -⟩ := C82_asymmetric_users hnth e X hX given s a k T w (h.only _ (by
      intro n hn; revert hn; simp [asymmetricCosineUserKnn]; rintro (rfl | rfl | rfl | rfl | rfl) <;> simp)) hs ha hk hw hT hs0 ha0 ha1 hT1
    exact ⟨W, hW⟩

/-- C91 (random walks) -/
theorem C91_walks (hnth : NthOk nth) (e : Env) (X : CSR ℝ) (hX : Proper X) (hp : Positive X) (T : Nat) (hT1 : 1 ≤ T)
    (given : Args) (hT : ThreadsAre e given T) :
    (Trial p3alpha given → ∃ W, p3Fit nth e X given = .ok W) ∧
    (Trial rp3beta given → ∃ W, rp3Fit nth e X given = .ok W) := by
  refine ⟨fun h => ?_, fun h => ?_⟩
  · obtain ⟨k, -, -, hk⟩ := h.size "top_k" 10 1000 (by decide +kernel) (by norm_num) .none
    obtain ⟨b, hb⟩ := h.flag "normalize_weight" [.bool true, .bool false] (by decide +kernel) (by decide +kernel) (.bool false)
    obtain ⟨_, _, W, -, -, hW, -⟩ := C82_p3 hnth e X hX hp given 1 b (some k) T (h.only _ (by
      intro n hn; revert hn; simp [p3alpha]; rintro (rfl | rfl | rfl) <;> simp))
      (by simpa using h.default "alpha" (.num 1) (by decide) (by decide +kernel)) hk hb hT (by norm_num) hT1
    exact ⟨W, hW⟩
  · obtain ⟨k, -, -, hk⟩ := h.size "top_k" 2 1000 (by decide +kernel) (by norm_num) .none
    obtain ⟨be, hbe0, -, hbe⟩ := h.number "beta" (1 / 100000) (1 / 2) (by decide +kernel) (.num (3 / 5))
    obtain ⟨b, hb⟩ := h.flag "normalize_weight" [.bool true, .bool false] (by decide +kernel) (by decide +kernel) (.bool false)
    obtain ⟨_, _, W, -, -, hW, -⟩ := C82_rp3 hnth e X hX hp given 1 be b (some k) T (h.only _ (by
      intro n hn; revert hn; simp [rp3beta]; rintro (rfl | rfl | rfl | rfl) <;> simp))
      (h.default "alpha" (.num 1) (by decide) (by decide +kernel)) hbe hk hb hT (by norm_num)
      (le_trans (by norm_num) hbe0) hT1
    exact ⟨W, hW⟩

/-! ## Linear models -/

/-- C91 (linear models).  Every trial of DenseSLIM and EDLAE finds its matrix, without a singular system, for every
data set. -/
theorem C91_linear {U F : Nat} (X : Matrix (Fin U) (Fin F) ℝ) (given : Args) (hno : given.lookup "n_threads" = none) :
    (Trial denseSlim given → ∃ W, denseSlimFit X given = .ok W) ∧
    (Trial edlae given → ∃ W, edlaeFit X given = .ok W) := by
  have hno' : ∀ a ∈ given, a.1 ≠ "n_threads" := by
    intro a ha he
    have hm : a.1 ∈ given.map (·.1) := List.mem_map.mpr ⟨a, ha, rfl⟩
    rw [he] at hm
    clear he ha
    induction given with
    | nil => simp at hm
    | cons x l ih =>
      rw [List.lookup_cons] at hno
      by_cases hx : "n_threads" = x.1
      · rw [hx] at hno; simp at hno
      · have : ("n_threads" == x.1) = false := by simpa using hx
        rw [this] at hno
        simp only [List.map_cons, List.mem_cons] at hm
        exact ih hno (hm.resolve_left hx)
  refine ⟨fun h => ?_, fun h => ?_⟩
  · obtain ⟨r, hr0, -, hr⟩ := h.number "reg" 1 10000 (by decide +kernel) (.num 1)
    obtain ⟨W, hW, -⟩ := C83_dense_slim X given r (fun a ha => by
      have := (h.names a ha).resolve_left (hno' a ha)
      simpa [denseSlim] using this) hr (lt_of_lt_of_le (by norm_num) hr0)
    exact ⟨W, hW⟩
  · obtain ⟨r, hr0, -, hr⟩ := h.number "reg" 1 10000 (by decide +kernel) (.num 1)
    obtain ⟨p, hp0, hp1, hp⟩ := h.number "dropout_p" 0 (99 / 100) (by decide +kernel) (.num (1 / 10))
    obtain ⟨W, hW, -⟩ := (C83_edlae X given r p (fun a ha => by
      have := (h.names a ha).resolve_left (hno' a ha)
      simpa [edlae] using this) hr hp).1 (lt_of_lt_of_le (by norm_num) hr0) hp0 (lt_of_le_of_lt hp1 (by norm_num))
    exact ⟨W, hW⟩

/-- C91 (SLIM) -/
theorem C91_slim (r : SlimRun) (e : Env) (X : CSC ℝ) (given : Args) (T : Nat) (hT1 : 1 ≤ T) (hT : ThreadsAre e given T)
    (h : Trial slim given) : ∃ res, slimFit r e X given = .ok res := by
  obtain ⟨a, ha0, -, ha⟩ := h.number "alpha" (1 / 100000) 1 (by decide +kernel) (.num (1 / 20))
  obtain ⟨l, hl0, hl1, hl⟩ := h.number "l1_ratio" 0 1 (by decide +kernel) (.num (1 / 100))
  obtain ⟨-, h2, h3⟩ := C83_slim r e X given a l true 100 (1 / 10000) none T (h.only _ (by
      intro n hn; revert hn; simp [slim]; rintro (rfl | rfl | rfl) <;> simp)) ha hl
    (h.default "positive_only" (.bool true) (by decide) (by decide +kernel))
    (by simpa using h.default "n_iter" (.num 100) (by decide) (by decide +kernel))
    (h.default "tol" (.num (1 / 10000)) (by decide) (by decide +kernel))
    (h.default "top_k" .none (by decide) (by decide +kernel)) hT
  cases hf : slimFit r e X given with
  | ok res => exact ⟨res, rfl⟩
  | error x =>
    have hx := h3 x hf
    subst hx
    have ha' : 0 ≤ a := le_trans (by norm_num) ha0
    have hX : (0 : ℚ) ≤ X.rows := Nat.cast_nonneg _
    rcases h2.mp hf with h | h | h | h
    · omega
    · omega
    · have : 0 ≤ (X.rows : ℚ) * a * (1 - l) := mul_nonneg (mul_nonneg hX ha') (by linarith)
      linarith
    · have : 0 ≤ (X.rows : ℚ) * a * l := mul_nonneg (mul_nonneg hX ha') hl0
      linarith

/-! ## Factorisations -/

/-- C91 (truncated SVD).  The decomposition is always asked for at least one and fewer components than there are
items, as long as there are two items; so if scikit-learn accepts such numbers every trial trains. -/
theorem C91_truncated_svd {M : Type} (svd : Args → CSR ℝ → Except Err M) (X : CSR ℝ) (hX : 1 < X.cols)
    (hlib : ∀ (asked : Args) (k : Nat), asked.lookup "n_components" = some (.num k) → 1 ≤ k → k < X.cols →
      ∃ m, svd asked X = .ok m)
    (given : Args) (hno : "n_threads" ∉ given.map (·.1)) (h : Trial truncatedSvd given) :
    ∃ m, svdFit svd X given = .ok m := by
  obtain ⟨k, hk0, -, hk⟩ := h.size "n_components" 4 512 (by decide +kernel) (by norm_num) (.num 4)
  obtain ⟨h1, -⟩ := C83_truncated_svd svd X given k (.num 0) (fun a ha => by
      have hne : a.1 ≠ "n_threads" := fun he => hno (he ▸ List.mem_map.mpr ⟨a, ha, rfl⟩)
      have := (h.names a ha).resolve_left hne
      revert this
      simp only [truncatedSvd, List.map_cons, List.map_nil, List.mem_cons, List.not_mem_nil, or_false]
      exact Or.inl) hk
    (h.default "random_seed" (.num 0) (by decide) (by decide +kernel))
  obtain ⟨asked, ha, he⟩ := h1 hX
  rw [he]
  refine hlib asked (min k (X.cols - 1)) ?_ (by omega) (by omega)
  rw [ha]
  rfl

/-- C91 (NMF).  scikit-learn's `NMF` is always asked for at least four components with a penalty of at least 1e-10
and a ratio between 0 and 1, the Frobenius loss and its own choice of initialisation (under which any number of
components is accepted); so if it accepts such requests, and fits what it has made, every trial trains. -/
theorem C91_nmf {S M : Type} (lib : NmfLib S M) (old : Bool) (X : CSR ℝ)
    (hmake : ∀ (asked : Args) (k : Nat) (a l : ℚ), asked.lookup "n_components" = some (.num k) → 4 ≤ k →
      asked.lookup (if old then "alpha" else "alpha_W") = some (.num a) → 1 / 10000000000 ≤ a →
      asked.lookup "l1_ratio" = some (.num l) → 0 ≤ l → l ≤ 1 →
      asked.lookup "beta_loss" = some (.str "frobenius") → asked.lookup "init" = some .none →
      ∃ m m' r, lib.make asked = .ok m ∧ lib.fit m X = .ok m' ∧ lib.fitTransform m' X = .ok r)
    (given : Args) (hno : "n_threads" ∉ given.map (·.1)) (h : Trial nmf given) :
    ∃ r, nmfFit lib old X given = .ok r := by
  obtain ⟨k, hk0, -, hk⟩ := h.size "n_components" 4 512 (by decide +kernel) (by norm_num) (.num 64)
  obtain ⟨a, ha0, -, ha⟩ := h.number "alpha" (1 / 10000000000) (1 / 10) (by decide +kernel) (.num (1 / 100))
  obtain ⟨l, hl0, hl1, hl⟩ := h.number "l1_ratio" 0 1 (by decide +kernel) (.num (1 / 100))
  obtain ⟨asked, h1, h2⟩ := C83_nmf lib old X given (.num k) (.num a) (.num l) (.str "frobenius") .none (fun b hb => by
      have hne : b.1 ≠ "n_threads" := fun he => hno (he ▸ List.mem_map.mpr ⟨b, hb, rfl⟩)
      have := (h.names b hb).resolve_left hne
      revert this
      simp only [nmf, List.map_cons, List.map_nil, List.mem_cons, List.not_mem_nil, or_false]
      tauto) hk ha hl (h.default _ _ (by decide) (by decide +kernel)) (h.default _ _ (by decide) (by decide +kernel))
  obtain ⟨m, m', r, e1, e2, e3⟩ := hmake asked k a l (by rw [h1]; rfl) (by exact_mod_cast hk0)
    (by rw [h1]; cases old <;> rfl) ha0 (by rw [h1]; cases old <;> rfl) hl0 hl1 (by rw [h1]; cases old <;> rfl)
    (by rw [h1]; cases old <;> rfl)
  exact ⟨r, by rw [h2, e1]; show (lib.fit m X >>= _) = _; rw [e2]; exact e3⟩

/-- C91 (iALS).  Every trial of `IALSRecommender` trains to the end, for every data set with non-negative
interactions. -/
theorem C91_ials (run : IalsRun) (e : Env) (X : CSR ℝ) (hX : Spec.Sim.Proper X)
    (hpos : ∀ row ∈ X.rows, ∀ c ∈ row, 0 ≤ c.2) (hU : 0 < X.nrows) (hI : 0 < X.cols)
    (T : Nat) (hT1 : 0 < T) (hT2 : T < 2 ^ 64) (hω : ∀ k, (run.oracle T k).Complete) (given : Args)
    (hT : ThreadsAre e given T) (h : Trial ials given) :
    ∃ r, ialsFit run e X none none given = .ok r := by
  obtain ⟨k, -, hk1, hk⟩ := h.size "n_components" 4 300 (by decide +kernel) (by norm_num) (.num 20)
  obtain ⟨a, ha0, -, ha⟩ := h.number "alpha0" (3 / 1000) 1 (by decide +kernel) (.num 0)
  obtain ⟨r, hr0, -, hr⟩ := h.number "reg" (1 / 10000) (1 / 10) (by decide +kernel) (.num (1 / 1000))
  have d : ∀ n d, n ≠ "n_threads" → n ∉ ials.tune.map (·.1) → Argument given n d d := fun n dv => h.default n dv
  let s : IalsSettings := ⟨k, a, r, 1, false, 1, 1 / 10, .cg, 3, 64, false, none, 42, T, 16, 5, 7, 0, 0, 0⟩
  have hs : Says e given "CG" s := {
    only := h.only _ (by
      intro n hn; revert hn; simp [ials]; rintro (rfl | rfl | rfl | rfl) <;> simp)
    nComponents := hk
    alpha0 := ha
    reg := hr
    nu := by simpa [s] using d "nu" (.num 1) (by decide) (by decide +kernel)
    scaling := by simpa [s] using d "confidence_scaling" (.str "none") (by decide) (by decide +kernel)
    epsilon := by simpa [s] using d "epsilon" (.num 1) (by decide) (by decide +kernel)
    initStd := by simpa [s] using d "init_std" (.num (1 / 10)) (by decide) (by decide +kernel)
    solver := ⟨d "solver_type" (.str "CG") (by decide) (by decide +kernel), (by decide +kernel : "CG".toUpper = "CG")⟩
    maxCgSteps := by simpa [s] using d "max_cg_steps" (.num 3) (by decide) (by decide +kernel)
    subspaceDimension := by simpa [s] using d "ialspp_subspace_dimension" (.num 64) (by decide) (by decide +kernel)
    loss := ⟨"IALSPP", d "loss_type" (.str "IALSPP") (by decide) (by decide +kernel), (by decide +kernel : "IALSPP".toUpper = "IALSPP")⟩
    nuStar := by simpa [s, optionalNum] using d "nu_star" .none (by decide) (by decide +kernel)
    seed := by simpa [s] using d "random_seed" (.num 42) (by decide) (by decide +kernel)
    threads := hT
    epochs := by simpa [s] using d "train_epochs" (.num 16) (by decide) (by decide +kernel)
    predictionMaxCgSteps := by simpa [s] using d "prediction_time_max_cg_steps" (.num 5) (by decide) (by decide +kernel)
    predictionIteration := by
      simpa [s] using d "prediction_time_ialspp_iteration" (.num 7) (by decide) (by decide +kernel)
    lambdaUser := by simpa [s] using d "lambda_user_feature" (.num 0) (by decide) (by decide +kernel)
    lambdaItem := by simpa [s] using d "lambda_item_feature" (.num 0) (by decide) (by decide +kernel)
    warmup := by simpa [s] using d "feature_warmup_epochs" (.num 0) (by decide) (by decide +kernel) }
  have hfit : s.Fit := by
    refine ⟨?_, ?_, ?_, ?_, ?_, ?_, hT2, ?_⟩
    · show k < 2 ^ 64
      omega
    all_goals simp [s]
  obtain ⟨c, tr, ht⟩ := C84_learn_succeeds run e X hX given "CG" s hs hfit (fun hl => by simp [s] at hl) hω rfl
    (lt_of_lt_of_le (by norm_num) ha0) (lt_of_lt_of_le (by norm_num) hr0) hT1
    (fun row hrow c hc => by simpa [s, IalsSettings.confidence] using hpos row hrow c hc) hU hI
  exact ⟨_, ht⟩

/-! ## A whole study -/

open Tuning

/-- the suggestions of one trial -/
theorem suggest_within (fixed : Dict Val) (sample : List Char → Request ℚ Val → Except Err Val)
    (tune : List (String × Range)) (ranges : List (ParameterRange ℚ Val)) (h : List.Forall₂ Asks tune ranges)
    (hs : ∀ r ∈ tune, ∀ q, Asks r q → ∃ v, sample q.name q.request = .ok v ∧ Within r.2 v)
    (hnd : (tune.map (·.1)).Nodup) (hf : ∀ r ∈ tune, fixed.has r.1.toList = false) (acc params : Dict Val)
    (ha : ∀ r ∈ tune, acc.has r.1.toList = false) (hp : ∀ r ∈ tune, params.get? r.1.toList = none) :
    ∃ vs : List (String × Val), List.Forall₂ (fun (r : String × Range) a => a.1 = r.1 ∧ Within r.2 a.2) tune vs ∧
      (defaultSuggest fixed ranges acc).run sample params =
        (params ++ vs.map (fun a => (a.1.toList, a.2)), .ok (acc ++ vs.map (fun a => (a.1.toList, a.2)))) := by
  induction h generalizing acc params with
  | nil => exact ⟨[], .nil, by simp [defaultSuggest, Prog.run]⟩
  | @cons r q tune ranges hrq _ ih =>
    have hname : q.name = r.1.toList := by cases hrq <;> rfl
    obtain ⟨v, hv, hw⟩ := hs r List.mem_cons_self q hrq
    simp only [List.map_cons, List.nodup_cons] at hnd
    have hne : ∀ r' ∈ tune, r'.1.toList ≠ r.1.toList := by
      intro r' hr' he
      exact hnd.1 (List.mem_map.mpr ⟨r', hr', String.toList_inj.mp he⟩)
    have hset : acc.set r.1.toList v = acc ++ [(r.1.toList, v)] := by
      unfold Dict.set
      have := ha r List.mem_cons_self
      unfold Dict.has at this
      rw [this]
      rfl
    obtain ⟨vs, h1, h2⟩ := ih (fun r' hr' => hs r' (List.mem_cons_of_mem _ hr')) hnd.2
      (fun r' hr' => hf r' (List.mem_cons_of_mem _ hr')) (acc ++ [(r.1.toList, v)]) (params ++ [(r.1.toList, v)])
      (fun r' hr' => by
        rw [Dict.has_false_iff, Dict.get?_append, (Dict.has_false_iff _ _).mp (ha r' (List.mem_cons_of_mem _ hr'))]
        simp [Dict.get?_cons, Dict.get?_nil, (hne r' hr').symm])
      (fun r' hr' => by
        rw [Dict.get?_append, hp r' (List.mem_cons_of_mem _ hr')]
        simp [Dict.get?_cons, Dict.get?_nil, (hne r' hr').symm])
    refine ⟨(r.1, v) :: vs, .cons ⟨rfl, hw⟩ h1, ?_⟩
    rw [defaultSuggest, hname, if_neg (by rw [hf r List.mem_cons_self]; simp)]
    rw [hname] at hv
    rw [Prog.run, hp r List.mem_cons_self]
    simp only [hv, hset]
    rw [h2]
    simp

theorem lookup_forall₂ {tune : List (String × Range)} {vs : Args}
    (h : List.Forall₂ (fun (r : String × Range) a => a.1 = r.1 ∧ Within r.2 a.2) tune vs) (hnd : (tune.map (·.1)).Nodup)
    (rest : Args) : ∀ r ∈ tune, ∃ v, (vs ++ rest).lookup r.1 = some v ∧ Within r.2 v := by
  induction h with
  | nil => simp
  | @cons r a tune vs hra _ ih =>
    obtain ⟨k, v⟩ := a
    obtain ⟨rfl, hw⟩ := hra
    simp only [List.map_cons, List.nodup_cons] at hnd
    intro r' hr'
    rcases List.mem_cons.mp hr' with rfl | hr'
    · exact ⟨v, by simp [List.lookup_cons], hw⟩
    · obtain ⟨v', h1, h2⟩ := ih hnd.2 r' hr'
      have : (r'.1 == r.1) = false := by
        simp only [beq_eq_false_iff_ne, ne_eq]
        intro he
        exact hnd.1 (List.mem_map.mpr ⟨r', hr', he⟩)
      exact ⟨v', by rw [List.cons_append, List.lookup_cons]; simp only [this]; exact h1, h2⟩

theorem forall₂_names {tune : List (String × Range)} {vs : Args}
    (h : List.Forall₂ (fun (r : String × Range) a => a.1 = r.1 ∧ Within r.2 a.2) tune vs) :
    vs.map (·.1) = tune.map (·.1) := by
  induction h with
  | nil => rfl
  | cons h _ ih => simp [h.1, ih]

theorem tune_facts : ∀ c ∈ all, (c.tune.map (·.1)).Nodup ∧ "n_threads" ∉ c.tune.map (·.1) := by decide +kernel

theorem fixedThreads_get? (threads : Option Val) (k : List Char) (h : k ≠ "n_threads".toList) :
    (fixedThreads threads).get? k = none := by
  unfold fixedThreads
  generalize "n_threads".toList = q at h ⊢
  cases threads with
  | none => rfl
  | some v =>
    show Dict.get? [(q, v)] k = none
    rw [Dict.get?_cons, if_neg h.symm]
    rfl

theorem update_fixedThreads (threads : Option Val) (d : Dict Val) (h : d.has "n_threads".toList = false) :
    d.update (fixedThreads threads) = d ++ fixedThreads threads := by
  unfold fixedThreads
  generalize "n_threads".toList = q at h ⊢
  cases threads with
  | none => simp [Dict.update]
  | some v =>
    show Dict.set d q v = _
    unfold Dict.set
    unfold Dict.has at h
    rw [h]
    rfl

/-- the keyword argument that fixes the number of threads -/
def threadArgs : Option Val → Args
  | none => []
  | some v => [("n_threads", v)]

theorem keywords_fixedThreads (threads : Option Val) :
    keywords (fixedThreads threads) = threadArgs threads := by
  cases threads with
  | none => rfl
  | some v => simp [keywords, fixedThreads, threadArgs]

/-- one trial of such a study -/
theorem trial_completes {Data M : Type} (c : RecClass) (hc : c ∈ all) (ranges : List (ParameterRange ℚ Val))
    (hr : List.Forall₂ Asks c.tune ranges) (threads : Option Val) (fitOf : Data → Args → Except Err M) (data : Data)
    (hfit : ∀ given, Trial c given → given.lookup "n_threads" = threads → ∃ m, fitOf data given = .ok m)
    (learnt : M → Dict Val) (hl : ∀ m, ∀ k ∈ (learnt m).map (·.1), ∀ r ∈ c.tune, k ≠ r.1.toList)
    (score : M → Dict (Option ℚ)) (target suffix : List Char) (hsc : ∀ m, ∃ x, (score m).get? target = some (some x))
    (sample : Study ℚ Val Data → List Char → Request ℚ Val → Except Err Val) (hs : Answers c sample)
    (s : Study ℚ Val Data) :
    ∃ (t : Frozen ℚ Val Data) (sc : List (Nat × Dict (Option ℚ))),
      runTrial ⟨.ret data, defaultSuggest (fixedThreads threads) ranges [], fixedThreads threads, target, suffix, sample,
        fun _ d kw => trained learnt score (fitOf d (keywords kw))⟩ s = (⟨s.trials ++ [t], sc⟩, none) ∧
      (∃ v, t.outcome = .complete v) ∧ (∀ k, t.params.has k = true → ∃ r ∈ c.tune, k = r.1.toList) ∧
      (∀ r ∈ c.tune, ∃ v, t.params.get? r.1.toList = some v ∧ Within r.2 v) ∧
      ∀ k, t.attrs.has k = true → ∀ r ∈ c.tune, k ≠ r.1.toList := by
  obtain ⟨hnd, hnt⟩ := tune_facts c hc
  have hnt' : ∀ r ∈ c.tune, r.1.toList ≠ "n_threads".toList := fun r hr' he =>
    hnt (List.mem_map.mpr ⟨r, hr', String.toList_inj.mp he⟩)
  obtain ⟨vs, h1, h2⟩ := suggest_within (fixedThreads threads) (sample s) c.tune ranges hr (hs s) hnd
    (fun r hr' => by
      rw [Dict.has_false_iff]
      exact fixedThreads_get? threads _ (hnt' r hr'))
    [] [] (fun _ _ => rfl) (fun _ _ => rfl)
  have hnames := forall₂_names h1
  have hkw : keywords (Dict.update (vs.map (fun a => (a.1.toList, a.2))) (fixedThreads threads)) =
      vs ++ threadArgs threads := by
    have e1 : keywords (vs.map (fun a => (a.1.toList, a.2))) = vs := by
      simp [keywords, Function.comp_def]
    have : Dict.has (vs.map (fun a => (a.1.toList, a.2))) "n_threads".toList = false := by
      rw [← Bool.not_eq_true, Dict.has_iff_mem]
      intro hm
      simp only [List.map_map, List.mem_map, Function.comp] at hm
      obtain ⟨a, ha, he⟩ := hm
      exact hnt (hnames ▸ List.mem_map.mpr ⟨a, ha, String.toList_inj.mp he⟩)
    rw [update_fixedThreads _ _ this, ← keywords_fixedThreads]
    unfold keywords at e1 ⊢
    rw [List.map_append, e1]
  have htrial : Trial c (vs ++ threadArgs threads) := by
    refine ⟨fun a ha => ?_, lookup_forall₂ h1 hnd _⟩
    rcases List.mem_append.mp ha with ha | ha
    · exact .inr (hnames ▸ List.mem_map.mpr ⟨a, ha, rfl⟩)
    · cases threads with
      | none => simp [threadArgs] at ha
      | some v => simp only [threadArgs, List.mem_singleton] at ha; subst ha; exact .inl rfl
  have hlook : (vs ++ threadArgs threads : Args).lookup "n_threads" = threads := by
    rw [List.lookup_append, lookup_none_of_names (by rw [hnames]; exact hnt)]
    cases threads <;> rfl
  obtain ⟨m, hm⟩ := hfit _ htrial hlook
  obtain ⟨x, hx⟩ := hsc m
  refine ⟨⟨s.trials.length, .complete (-x), vs.map (fun a => (a.1.toList, a.2)), Dict.update [] (learnt m),
    some (data, Dict.update (vs.map (fun a => (a.1.toList, a.2))) (fixedThreads threads))⟩,
    addScore s.trials.length suffix (score m) s.scores, ?_, ⟨_, rfl⟩, ?_, ?_, ?_⟩
  · unfold runTrial
    simp only [Prog.run, h2, List.nil_append, hkw, hm, hx, trained]
  · intro k hk
    rw [Dict.has_iff_mem] at hk
    simp only [List.map_map, List.mem_map, Function.comp] at hk
    obtain ⟨a, ha, rfl⟩ := hk
    have : a.1 ∈ c.tune.map (·.1) := hnames ▸ List.mem_map.mpr ⟨a, ha, rfl⟩
    obtain ⟨r, hr', he⟩ := List.mem_map.mp this
    exact ⟨r, hr', by rw [he]⟩
  · intro r hr'
    obtain ⟨v, hv, hw⟩ := lookup_forall₂ h1 hnd [] r hr'
    refine ⟨v, ?_, hw⟩
    rw [List.append_nil] at hv
    clear h1 h2 hnames hkw htrial hlook hm
    induction vs with
    | nil => simp at hv
    | cons a l ih =>
      obtain ⟨k, y⟩ := a
      rw [List.lookup_cons] at hv
      rw [List.map_cons, Dict.get?_cons]
      by_cases hk : r.1 = k
      · subst hk
        simpa using hv
      · have hb : (r.1 == k) = false := by simpa using hk
        rw [hb] at hv
        simp only at hv
        rw [if_neg (fun he => hk (String.toList_inj.mp he).symm)]
        exact ih hv
  · intro k hk
    have : k ∈ (learnt m).map (·.1) := by
      rw [Dict.has_iff] at hk
      obtain ⟨v, hv⟩ := hk
      have key : ∀ (l d : Dict Val) (v : Val), (d.update l).get? k = some v → k ∈ l.map (·.1) ∨ d.get? k = some v := by
        intro l
        induction l with
        | nil => intro d v h; exact .inr h
        | cons e l ih =>
          intro d v h
          rcases ih (d.set e.1 e.2) v h with h | h
          · exact .inl (List.mem_cons_of_mem _ h)
          · rw [Dict.get?_set] at h
            by_cases he : e.1 = k
            · exact .inl (by simp [he])
            · rw [if_neg he] at h; exact .inr h
      exact (key _ _ _ hv).resolve_right (by simp [Dict.get?_nil])
    exact hl m k this

/-- C91 (a whole study).  Let training succeed in every trial of a recommender's default tuning range (as the
theorems above say for each recommender), let the evaluator return a number for the target metric, and let the
sampler answer requests with values within the range.  Then `tune` with any positive number of trials returns: all
trials are complete, and the parameters returned have a value within its range for every tuned parameter. -/
theorem C91_study {Data M : Type} (U : Chars) (c : RecClass) (hc : c ∈ all) (ranges : List (ParameterRange ℚ Val))
    (hr : List.Forall₂ Asks c.tune ranges) (threads : Option Val) (fitOf : Data → Args → Except Err M) (data : Data)
    (hfit : ∀ given, Trial c given → given.lookup "n_threads" = threads → ∃ m, fitOf data given = .ok m)
    (learnt : M → Dict Val) (hl : ∀ m, ∀ k ∈ (learnt m).map (·.1), ∀ r ∈ c.tune, k ≠ r.1.toList)
    (score : M → Dict (Option ℚ)) (target suffix : List Char) (hsc : ∀ m, ∃ x, (score m).get? target = some (some x))
    (sample : Study ℚ Val Data → List Char → Request ℚ Val → Except Err Val) (hs : Answers c sample)
    (ds : Prog ℚ Val Data) (ps : Prog ℚ Val (Dict Val)) (n : Nat) (hn : 0 < n) :
    ∃ (best : Dict Val) (study : Study ℚ Val Data),
      tune U ranges (some data) none none ⟨ds, ps, fixedThreads threads, target, suffix, sample,
        fun _ d kw => trained learnt score (fitOf d (keywords kw))⟩ n ⟨[], []⟩ = .ok (best, study) ∧
      study.trials.length = n ∧ (∀ t ∈ study.trials, ∃ v, t.outcome = .complete v) ∧
      ∀ r ∈ c.tune, ∃ v, best.get? r.1.toList = some v ∧ Within r.2 v := by
  set setup : Setup ℚ Val Data := ⟨.ret data, defaultSuggest (fixedThreads threads) ranges [], fixedThreads threads,
    target, suffix, sample, fun _ d kw => trained learnt score (fitOf d (keywords kw))⟩ with hsetup
  have htrial := trial_completes c hc ranges hr threads fitOf data hfit learnt hl score target suffix hsc sample hs
  rw [← hsetup] at htrial
  let Good (t : Frozen ℚ Val Data) : Prop := (∃ v, t.outcome = .complete v) ∧
    (∀ k, t.params.has k = true → ∃ r ∈ c.tune, k = r.1.toList) ∧
    (∀ r ∈ c.tune, ∃ v, t.params.get? r.1.toList = some v ∧ Within r.2 v) ∧
    ∀ k, t.attrs.has k = true → ∀ r ∈ c.tune, k ≠ r.1.toList
  have key : ∀ (n : Nat) (s : Study ℚ Val Data), (∀ t ∈ s.trials, Good t) → ∃ s', optimize setup n s = (s', none) ∧
      s'.trials.length = s.trials.length + n ∧ ∀ t ∈ s'.trials, Good t := by
    intro n
    induction n with
    | zero => intro s h; exact ⟨s, rfl, rfl, h⟩
    | succ n ih =>
      intro s h
      obtain ⟨t, sc, h1, h2⟩ := htrial s
      obtain ⟨s', h3, h4, h5⟩ := ih ⟨s.trials ++ [t], sc⟩ (by
        intro t' ht'
        rcases List.mem_append.mp ht' with ht' | ht'
        · exact h t' ht'
        · rw [List.mem_singleton.mp ht']; exact h2)
      refine ⟨s', ?_, ?_, h5⟩
      · rw [optimize, h1]
        exact h3
      · rw [h4]; simp; omega
  obtain ⟨s', h1, h2, h3⟩ := key n ⟨[], []⟩ (by simp)
  simp only [List.length_nil, Nat.zero_add] at h2
  cases hb : bestOf s'.trials with
  | none =>
    have hne : s'.trials ≠ [] := by intro he; rw [he] at h2; simp at h2; omega
    obtain ⟨t, l, ht⟩ := List.exists_cons_of_ne_nil hne
    obtain ⟨⟨v, hv⟩, -⟩ := h3 t (by rw [ht]; simp)
    exact absurd hv ((bestOf_none _).mp hb t (by rw [ht]; simp) v)
  | some bw =>
    obtain ⟨b, w⟩ := bw
    obtain ⟨pre, post, e1, -⟩ := bestOf_some _ _ _ hb
    obtain ⟨-, g2, g3, g4⟩ := h3 b (by rw [e1]; simp)
    obtain ⟨bp, hbp, hbp2⟩ := (mergeBest_cases U b.params b.attrs).2 (by
      rintro ⟨k, -, hk1, hk2⟩
      obtain ⟨r, hr', rfl⟩ := g2 k hk2
      exact g4 _ hk1 r hr' rfl)
    refine ⟨bp, s', ?_, h2, fun t ht => (h3 t ht).1, fun r hr' => ?_⟩
    · show optimizeWithStudy U setup n ⟨[], []⟩ = _
      unfold optimizeWithStudy
      rw [h1]
      simp only [hb, hbp]
      rfl
    · obtain ⟨v, hv, hw⟩ := g3 r hr'
      exact ⟨v, by rw [hbp2, hv]; rfl, hw⟩

/-! ## The theorems together, and concrete cases -/

/-- C91 (the two halves together, for `CosineKNNRecommender.tune` with a fixed number of threads).  On any training
matrix that is a proper one without stored zeros, `tune` with the default range returns after any positive number of
trials, all of them complete. -/
theorem C91_tune_cosine {nth : Nat → SpVec ℝ → List Nat} (hnth : NthOk nth) (e : Env) (X : CSR ℝ)
    (hX : Proper X) (hz : NoStoredZero X) (T : Nat) (hT1 : 1 ≤ T) (U : Chars) (ranges : List (ParameterRange ℚ Val))
    (hr : List.Forall₂ Asks cosineKnn.tune ranges) (score : CSR ℝ → Dict (Option ℚ)) (target suffix : List Char)
    (hsc : ∀ m, ∃ x, (score m).get? target = some (some x))
    (sample : Study ℚ Val (CSR ℝ) → List Char → Request ℚ Val → Except Err Val) (hs : Answers cosineKnn sample)
    (ds : Prog ℚ Val (CSR ℝ)) (ps : Prog ℚ Val (Dict Val)) (n : Nat) (hn : 0 < n) :
    ∃ (best : Dict Val) (study : Study ℚ Val (CSR ℝ)),
      tune U ranges (some X) none none ⟨ds, ps, [("n_threads".toList, .num T)], target, suffix, sample,
        fun _ d kw => trained (fun _ => []) score (cosineKnnFit nth e d (keywords kw))⟩ n ⟨[], []⟩ = .ok (best, study) ∧
      study.trials.length = n ∧ (∀ t ∈ study.trials, ∃ v, t.outcome = .complete v) ∧
      ∀ r ∈ cosineKnn.tune, ∃ v, best.get? r.1.toList = some v ∧ Within r.2 v :=
  C91_study U cosineKnn (by simp [RecClasses.all]) ranges hr (some (.num T)) (cosineKnnFit nth e) X
    (fun given h hl => (C91_item_knn hnth e X hX hz T hT1 given (.inl (.inl hl))).1 h) (fun _ => []) (by simp) score target
    suffix hsc sample hs ds ps n hn

/-- a trial of each kind -/
example : Trial cosineKnn [("top_k", .num 10), ("shrinkage", .num (1 / 2)), ("feature_weighting", .str "BM_25"),
    ("normalize", .bool true)] :=
  ⟨by simp [cosineKnn], by
    simp only [cosineKnn, List.forall_mem_cons, List.not_mem_nil, false_implies, implies_true, and_true]
    exact ⟨⟨_, rfl, 10, by norm_num, by norm_num, by norm_num⟩, ⟨_, rfl, 1 / 2, by norm_num, by norm_num, rfl⟩,
      ⟨_, rfl, by simp [Within]⟩, ⟨_, rfl, by simp [Within]⟩⟩⟩

example : Trial ials [("n_threads", .num 2), ("n_components", .num 300), ("alpha0", .num (3 / 1000)), ("reg", .num (1 / 10))] :=
  ⟨by simp [ials], by
    simp only [ials, List.forall_mem_cons, List.not_mem_nil, false_implies, implies_true, and_true]
    exact ⟨⟨_, rfl, 300, by norm_num, by norm_num, by norm_num⟩, ⟨_, rfl, 3 / 1000, by norm_num, by norm_num, rfl⟩,
      ⟨_, rfl, 1 / 10, by norm_num, by norm_num, rfl⟩⟩⟩

example : Trial edlae [("reg", .num 10000), ("dropout_p", .num (99 / 100))] :=
  ⟨by simp [edlae], by
    simp only [edlae, List.forall_mem_cons, List.not_mem_nil, false_implies, implies_true, and_true]
    exact ⟨⟨_, rfl, 10000, by norm_num, by norm_num, by norm_num⟩, ⟨_, rfl, 99 / 100, by norm_num, by norm_num, rfl⟩⟩⟩

/-- a sampler that always takes the lower end, or the first of the values -/
def lowest : Study ℚ Val (CSR ℝ) → List Char → Request ℚ Val → Except Err Val
  | _, _, .int (some lo) _ _ _ => .ok (.num lo)
  | _, _, .float (some lo) _ _ => .ok (.num lo)
  | _, _, .categorical (v :: _) => .ok v
  | _, _, _ => .error .valueError

theorem lowest_answers : Answers cosineKnn lowest := by
  intro s r hr q hq
  simp only [cosineKnn, List.mem_cons, List.not_mem_nil, or_false] at hr
  rcases hr with rfl | rfl | rfl | rfl <;> cases hq
  · exact ⟨_, rfl, 4, by norm_num, by norm_num, rfl⟩
  · exact ⟨_, rfl, 0, by norm_num, by norm_num, rfl⟩
  · exact ⟨_, rfl, by simp [Within]⟩
  · exact ⟨_, rfl, by simp [Within]⟩

/-- five trials on a matrix of two users and two items -/
example (U : Chars) (t : List Char) : ∃ (best : Dict Val) (study : Study ℚ Val (CSR ℝ)),
    tune U [⟨"top_k".toList, .int (some 4) (some 1000) 1 false⟩, ⟨"shrinkage".toList, .float (some 0) (some 1000) false⟩,
        ⟨"feature_weighting".toList, .categorical [.str "NONE", .str "TF_IDF", .str "BM_25"]⟩,
        ⟨"normalize".toList, .categorical [.bool false, .bool true]⟩] (some exampleWalk) none none
      ⟨.raise .valueError, .ret [], [("n_threads".toList, .num 2)], t, [], lowest,
        fun _ d kw => trained (fun _ => []) (fun _ => [(t, some (1 / 2))]) (cosineKnnFit sortNth exampleEnv2 d (keywords kw))⟩ 5 ⟨[], []⟩ = .ok (best, study) ∧ study.trials.length = 5 := by
  obtain ⟨best, study, h1, h2, -⟩ := C91_tune_cosine sortNth_ok exampleEnv2 exampleWalk exampleWalk_ok.1
    (positive_noZero exampleWalk_ok.2) 2 (by norm_num) U
    [⟨"top_k".toList, .int (some 4) (some 1000) 1 false⟩, ⟨"shrinkage".toList, .float (some 0) (some 1000) false⟩,
        ⟨"feature_weighting".toList, .categorical [.str "NONE", .str "TF_IDF", .str "BM_25"]⟩,
        ⟨"normalize".toList, .categorical [.bool false, .bool true]⟩]
    (.cons (.int ..) (.cons (.float ..) (.cons (.cat ..) (.cons (.cat ..) .nil))))
    (fun _ => [(t, some (1 / 2))]) t [] (fun _ => ⟨1 / 2, by rw [Dict.get?_cons, if_pos rfl]⟩)
    lowest lowest_answers (.raise .valueError) (.ret []) 5 (by norm_num)
  exact ⟨best, study, h1, h2⟩

end Irspack.Props
