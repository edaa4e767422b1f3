import Verif.Props.LibRecommender
import Verif.Props.RecClasses

/-!
# C72: whatever the default tuning range suggests can be learnt
-/

namespace Irspack.RecClasses

/-- what a study may suggest from the default tuning range of a class: one value per range, by name -/
def Suggested (c : RecClass) (given : Args) : Prop :=
  List.Forall₂ (fun (r : String × Range) a => a.1 = r.1 ∧ Suggests r.2 a.2) c.tune given

theorem pair_eq {a : String × Val} {n : String} {v : Val} (h1 : a.1 = n) (h2 : a.2 = v) : a = (n, v) := by
  cases a; cases h1; cases h2; rfl

theorem suggested_cons {n : String} {r : Range} {t : List (String × Range)} {given : Args}
    (h : List.Forall₂ (fun (r : String × Range) a => a.1 = r.1 ∧ Suggests r.2 a.2) ((n, r) :: t) given) :
    ∃ v rest, given = (n, v) :: rest ∧ Suggests r v ∧
      List.Forall₂ (fun (r : String × Range) a => a.1 = r.1 ∧ Suggests r.2 a.2) t rest := by
  cases h with
  | cons h t => exact ⟨_, _, by rw [pair_eq h.1 rfl], h.2, t⟩

theorem suggested_nil {given : Args}
    (h : List.Forall₂ (fun (r : String × Range) a => a.1 = r.1 ∧ Suggests r.2 a.2) [] given) : given = [] := by
  cases h; rfl

theorem suggests_int {lo hi : ℤ} {v : Val} (h : Suggests (.int lo hi) v) (h0 : 0 ≤ lo) :
    ∃ k : Nat, v = .num k := by
  obtain ⟨k, hk, -, rfl⟩ := h
  refine ⟨k.toNat, ?_⟩
  congr 1
  have : ((k.toNat : ℤ) : ℚ) = (k : ℚ) := by rw [Int.toNat_of_nonneg (le_trans h0 hk)]
  exact_mod_cast this.symm

theorem suggests_bool {v : Val} (h : Suggests (.cat [.bool true, .bool false]) v ∨ Suggests (.cat [.bool false, .bool true]) v) :
    ∃ b : Bool, v = .bool b := by
  rcases h with h | h <;>
  · have : v = .bool true ∨ v = .bool false := by simpa [Suggests, or_comm] using h
    rcases this with rfl | rfl
    · exact ⟨true, rfl⟩
    · exact ⟨false, rfl⟩

theorem suggests_weighting {v : Val} {given : Args} (h : Suggests (.cat [.str "NONE", .str "TF_IDF", .str "BM_25"]) v)
    (hl : given.lookup "feature_weighting" = some v) (hk : given.lookup "bm25_k1" = none)
    (hb : given.lookup "bm25_b" = none) : ∃ w, WeightingIs given w := by
  have : v = .str "NONE" ∨ v = .str "TF_IDF" ∨ v = .str "BM_25" := by simpa [Suggests] using h
  rcases this with rfl | rfl | rfl
  · exact ⟨.none, .inl ⟨.inl hl, rfl⟩⟩
  · exact ⟨.tfIdf, .inr (.inl ⟨.inl hl, rfl⟩)⟩
  · exact ⟨.bm25 _ _, .inr (.inr ⟨.inl hl, _, _, .inr ⟨hk, rfl⟩, .inr ⟨hb, rfl⟩, rfl⟩)⟩

end Irspack.RecClasses

namespace Irspack.Props

open Sim Spec.Sim RecClasses WorkQueue

variable {nth : Nat → SpVec ℝ → List Nat}

/-- C72 (tuning, neighbourhoods).  Whatever the default tuning ranges of the KNN recommenders suggest, `learn`
succeeds: no suggested value is refused later by the similarity computers. -/
theorem C72_tuned_knn_learns (hnth : NthOk nth) (e : Env) (T : Nat)
    (hT : Threads.getNThreads e.chars none e.threads e.cpus = .ok T) (hT1 : 1 ≤ T)
    (X : CSR ℝ) (hX : Proper X) (hz : NoStoredZero X) (given : Args) :
    (Suggested cosineKnn given → ∃ W, cosineKnnFit nth e X given = .ok W) ∧
    (Suggested asymmetricCosineKnn given → ∃ W, asymmetricKnnFit nth e X given = .ok W) ∧
    (Suggested jaccardKnn given → ∃ W, jaccardKnnFit nth e X given = .ok W) ∧
    (Suggested tverskyKnn given → ∃ W, tverskyKnnFit nth e X given = .ok W) ∧
    (Suggested cosineUserKnn given → ∃ W, cosineUserKnnFit nth e X given = .ok W) ∧
    (Suggested asymmetricCosineUserKnn given → ∃ W, asymmetricUserKnnFit nth e X given = .ok W) := by
  refine ⟨fun h => ?_, fun h => ?_, fun h => ?_, fun h => ?_, fun h => ?_, fun h => ?_⟩
  · obtain ⟨vk, r, rfl, hk, h⟩ := suggested_cons h
    obtain ⟨vs, r, rfl, hs, h⟩ := suggested_cons h
    obtain ⟨vw, r, rfl, hw, h⟩ := suggested_cons h
    obtain ⟨vb, r, rfl, hb, h⟩ := suggested_cons h
    cases suggested_nil h
    obtain ⟨k, rfl⟩ := suggests_int hk (by norm_num)
    obtain ⟨s, hs0, -, rfl⟩ := hs
    obtain ⟨b, rfl⟩ := suggests_bool (.inr hb)
    obtain ⟨w, hw⟩ := suggests_weighting (given := [("top_k", .num k), ("shrinkage", .num s), ("feature_weighting", vw),
      ("normalize", .bool b)]) hw rfl rfl rfl
    obtain ⟨W, hW, -⟩ := C82_cosine_items hnth e X hX hz _ s b k T w
      (by intro a ha; simp at ha; rcases ha with rfl | rfl | rfl | rfl <;> simp) (.inl rfl) (.inl rfl) (.inl rfl) hw
      (.inr ⟨.inr ⟨rfl, rfl⟩, hT⟩) hs0 hT1
    exact ⟨W, hW⟩
  · obtain ⟨vk, r, rfl, hk, h⟩ := suggested_cons h
    obtain ⟨vs, r, rfl, hs, h⟩ := suggested_cons h
    obtain ⟨vw, r, rfl, hw, h⟩ := suggested_cons h
    obtain ⟨vb, r, rfl, hb, h⟩ := suggested_cons h
    cases suggested_nil h
    obtain ⟨k, rfl⟩ := suggests_int hk (by norm_num)
    obtain ⟨s, hs0, -, rfl⟩ := hs
    obtain ⟨a, ha0, ha1, rfl⟩ := hb
    obtain ⟨w, hw⟩ := suggests_weighting (given := [("top_k", .num k), ("shrinkage", .num s), ("feature_weighting", vw),
      ("alpha", .num a)]) hw rfl rfl rfl
    obtain ⟨W, hW, -⟩ := C82_asymmetric_items hnth e X hX hz _ s a k T w
      (by intro a ha; simp at ha; rcases ha with rfl | rfl | rfl | rfl <;> simp) (.inl rfl) (.inl rfl) (.inl rfl) hw
      (.inr ⟨.inr ⟨rfl, rfl⟩, hT⟩) hs0 ha0 ha1 hT1
    exact ⟨W, hW⟩
  · obtain ⟨vk, r, rfl, hk, h⟩ := suggested_cons h
    obtain ⟨vs, r, rfl, hs, h⟩ := suggested_cons h
    cases suggested_nil h
    obtain ⟨k, rfl⟩ := suggests_int hk (by norm_num)
    obtain ⟨s, hs0, -, rfl⟩ := hs
    obtain ⟨W, hW, -⟩ := C82_jaccard_items hnth e X hX hz [("top_k", .num k), ("shrinkage", .num s)] s k T
      (by intro a ha; simp at ha; rcases ha with rfl | rfl <;> simp) (.inl rfl) (.inl rfl)
      (.inr ⟨.inr ⟨rfl, rfl⟩, hT⟩) hs0 hT1
    exact ⟨W, hW⟩
  · obtain ⟨vk, r, rfl, hk, h⟩ := suggested_cons h
    obtain ⟨vs, r, rfl, hs, h⟩ := suggested_cons h
    obtain ⟨va, r, rfl, ha, h⟩ := suggested_cons h
    obtain ⟨vb, r, rfl, hb, h⟩ := suggested_cons h
    cases suggested_nil h
    obtain ⟨k, rfl⟩ := suggests_int hk (by norm_num)
    obtain ⟨s, hs0, -, rfl⟩ := hs
    obtain ⟨a, ha0, -, rfl⟩ := ha
    obtain ⟨b, hb0, -, rfl⟩ := hb
    obtain ⟨W, hW, -⟩ := C82_tversky_items hnth e X hX hz [("top_k", .num k), ("shrinkage", .num s),
      ("alpha", .num a), ("beta", .num b)] s a b k T
      (by intro a ha; simp at ha; rcases ha with rfl | rfl | rfl | rfl <;> simp) (.inl rfl) (.inl rfl) (.inl rfl)
      (.inl rfl) (.inr ⟨.inr ⟨rfl, rfl⟩, hT⟩) hs0 ha0 hb0 hT1
    exact ⟨W, hW⟩
  · obtain ⟨vk, r, rfl, hk, h⟩ := suggested_cons h
    obtain ⟨vs, r, rfl, hs, h⟩ := suggested_cons h
    obtain ⟨vw, r, rfl, hw, h⟩ := suggested_cons h
    obtain ⟨vb, r, rfl, hb, h⟩ := suggested_cons h
    cases suggested_nil h
    obtain ⟨k, rfl⟩ := suggests_int hk (by norm_num)
    obtain ⟨s, hs0, -, rfl⟩ := hs
    obtain ⟨b, rfl⟩ := suggests_bool (.inr hb)
    obtain ⟨w, hw⟩ := suggests_weighting (given := [("top_k", .num k), ("shrinkage", .num s), ("feature_weighting", vw),
      ("normalize", .bool b)]) hw rfl rfl rfl
    obtain ⟨W, hW, -⟩ := C82_cosine_users hnth e X hX _ s b k T w
      (by intro a ha; simp at ha; rcases ha with rfl | rfl | rfl | rfl <;> simp) (.inl rfl) (.inl rfl) (.inl rfl) hw
      (.inr ⟨.inr ⟨rfl, rfl⟩, hT⟩) hs0 hT1
    exact ⟨W, hW⟩
  · obtain ⟨vk, r, rfl, hk, h⟩ := suggested_cons h
    obtain ⟨vs, r, rfl, hs, h⟩ := suggested_cons h
    obtain ⟨vw, r, rfl, hw, h⟩ := suggested_cons h
    obtain ⟨vb, r, rfl, hb, h⟩ := suggested_cons h
    cases suggested_nil h
    obtain ⟨k, rfl⟩ := suggests_int hk (by norm_num)
    obtain ⟨s, hs0, -, rfl⟩ := hs
    obtain ⟨a, ha0, ha1, rfl⟩ := hb
    obtain ⟨w, hw⟩ := suggests_weighting (given := [("top_k", .num k), ("shrinkage", .num s), ("feature_weighting", vw),
      ("alpha", .num a)]) hw rfl rfl rfl
    obtain ⟨W, hW, -⟩ := C82_asymmetric_users hnth e X hX _ s a k T w
      (by intro a ha; simp at ha; rcases ha with rfl | rfl | rfl | rfl <;> simp) (.inl rfl) (.inl rfl) (.inl rfl) hw
      (.inr ⟨.inr ⟨rfl, rfl⟩, hT⟩) hs0 ha0 ha1 hT1
    exact ⟨W, hW⟩

/-- C72 (tuning, random walks and regressions).  The same for P3alpha and RP3beta on positive interactions, for
SLIM, DenseSLIM and EDLAE; for TruncatedSVD on data with two items or more scikit-learn is asked for at least
one component and fewer than there are items. -/
theorem C72_tuned_others_learn (hnth : NthOk nth) (r : SlimRun) (e : Env) (T : Nat)
    (hT : Threads.getNThreads e.chars none e.threads e.cpus = .ok T) (hT1 : 1 ≤ T)
    (X : CSR ℝ) (hX : Proper X) (hp : Positive X) (Y : CSC ℝ) {U F : Nat} (Z : Matrix (Fin U) (Fin F) ℝ)
    (given : Args) :
    (Suggested p3alpha given → ∃ W, p3Fit nth e X given = .ok W) ∧
    (Suggested rp3beta given → ∃ W, rp3Fit nth e X given = .ok W) ∧
    (Suggested RecClasses.slim given → ∃ res, slimFit r e Y given = .ok res) ∧
    (Suggested RecClasses.denseSlim given → ∃ W, denseSlimFit Z given = .ok W) ∧
    (Suggested RecClasses.edlae given → ∃ W, edlaeFit Z given = .ok W) ∧
    (Suggested RecClasses.truncatedSvd given → 1 < X.cols → ∀ {M : Type} (svd : Args → CSR ℝ → Except Err M),
      ∃ asked, ∃ k : Nat, 0 < k ∧ k < X.cols ∧ asked.lookup "n_components" = some (.num k) ∧
        svdFit svd X given = svd asked X) := by
  refine ⟨fun h => ?_, fun h => ?_, fun h => ?_, fun h => ?_, fun h => ?_, fun h hc M svd => ?_⟩
  · obtain ⟨vk, r, rfl, hk, h⟩ := suggested_cons h
    obtain ⟨vb, r, rfl, hb, h⟩ := suggested_cons h
    cases suggested_nil h
    obtain ⟨k, rfl⟩ := suggests_int hk (by norm_num)
    obtain ⟨b, rfl⟩ := suggests_bool (.inl hb)
    obtain ⟨_, _, W, -, -, hW, -⟩ := C82_p3 hnth e X hX hp [("top_k", .num k), ("normalize_weight", .bool b)] 1 b
      (some k) T (by intro a ha; simp at ha; rcases ha with rfl | rfl <;> simp) (.inr ⟨rfl, rfl⟩) (.inl rfl) (.inl rfl)
      (.inr ⟨.inr ⟨rfl, rfl⟩, hT⟩) (by norm_num) hT1
    exact ⟨W, hW⟩
  · obtain ⟨vk, r, rfl, hk, h⟩ := suggested_cons h
    obtain ⟨vs, r, rfl, hs, h⟩ := suggested_cons h
    obtain ⟨vb, r, rfl, hb, h⟩ := suggested_cons h
    cases suggested_nil h
    obtain ⟨k, rfl⟩ := suggests_int hk (by norm_num)
    obtain ⟨be, hb0, -, rfl⟩ := hs
    obtain ⟨b, rfl⟩ := suggests_bool (.inl hb)
    obtain ⟨_, _, W, -, -, hW, -⟩ := C82_rp3 hnth e X hX hp [("top_k", .num k), ("beta", .num be),
      ("normalize_weight", .bool b)] 1 be b
      (some k) T (by intro a ha; simp at ha; rcases ha with rfl | rfl | rfl <;> simp) (.inr ⟨rfl, rfl⟩) (.inl rfl)
      (.inl rfl) (.inl rfl) (.inr ⟨.inr ⟨rfl, rfl⟩, hT⟩) (by norm_num) (le_trans (by norm_num) hb0) hT1
    exact ⟨W, hW⟩
  · obtain ⟨va, rest, rfl, ha, h⟩ := suggested_cons h
    obtain ⟨vl, rest, rfl, hl, h⟩ := suggested_cons h
    cases suggested_nil h
    obtain ⟨a, ha0, -, rfl⟩ := ha
    obtain ⟨l, hl0, hl1, rfl⟩ := hl
    obtain ⟨-, h2, h3⟩ := C83_slim r e Y [("alpha", .num a), ("l1_ratio", .num l)] a l true 100 (1 / 10000) none T
      (by intro a ha; simp at ha; rcases ha with rfl | rfl <;> simp) (.inl rfl) (.inl rfl) (.inr ⟨rfl, rfl⟩)
      (.inr ⟨rfl, by norm_num⟩) (.inr ⟨rfl, rfl⟩) (.inr ⟨rfl, rfl⟩) (.inr ⟨.inr ⟨rfl, rfl⟩, hT⟩)
    cases hf : slimFit r e Y [("alpha", .num a), ("l1_ratio", .num l)] with
    | ok res => exact ⟨res, rfl⟩
    | error err =>
      have hr : (0 : ℚ) ≤ Y.rows := Nat.cast_nonneg _
      have ha1 : (0 : ℚ) ≤ a := le_trans (by norm_num) ha0
      have := h3 err hf
      subst this
      rcases h2.mp hf with h | h | h | h
      · omega
      · omega
      · exact absurd h (not_lt.mpr (mul_nonneg (mul_nonneg hr ha1) (by linarith)))
      · exact absurd h (not_lt.mpr (mul_nonneg (mul_nonneg hr ha1) hl0))
  · obtain ⟨va, rest, rfl, ha, h⟩ := suggested_cons h
    cases suggested_nil h
    obtain ⟨a, ha0, -, rfl⟩ := ha
    obtain ⟨W, hW, -⟩ := C83_dense_slim Z [("reg", .num a)] a (by intro a ha; simp at ha; subst ha; simp) (.inl rfl)
      (lt_of_lt_of_le (by norm_num) ha0)
    exact ⟨W, hW⟩
  · obtain ⟨va, rest, rfl, ha, h⟩ := suggested_cons h
    obtain ⟨vp, rest, rfl, hd, h⟩ := suggested_cons h
    cases suggested_nil h
    obtain ⟨a, ha0, -, rfl⟩ := ha
    obtain ⟨p, hp0, hp1, rfl⟩ := hd
    obtain ⟨W, hW, -⟩ := (C83_edlae Z [("reg", .num a), ("dropout_p", .num p)] a p
      (by intro a ha; simp at ha; rcases ha with rfl | rfl <;> simp) (.inl rfl) (.inl rfl)).1
      (lt_of_lt_of_le (by norm_num) ha0) hp0 (lt_of_le_of_lt hp1 (by norm_num))
    exact ⟨W, hW⟩
  · obtain ⟨va, rest, rfl, ha, h⟩ := suggested_cons h
    cases suggested_nil h
    obtain ⟨z, hz, -, rfl⟩ := ha
    obtain ⟨k, hk⟩ := suggests_int (lo := 4) (hi := z) (v := .num z) ⟨z, hz, le_refl _, rfl⟩ (by norm_num)
    rw [hk]
    have hk4 : 4 ≤ k := by
      injection hk with hk
      have : z = (k : ℤ) := by exact_mod_cast hk
      omega
    obtain ⟨asked, h1, h2⟩ := (C83_truncated_svd svd X [("n_components", .num k)] k (.num 0)
      (by intro a ha; simp at ha; subst ha; simp) (.inl rfl) (.inr ⟨rfl, rfl⟩)).1 hc
    exact ⟨asked, min k (X.cols - 1), by omega, by omega, (h1 "n_components").trans rfl, h2⟩

/-- a suggestion for the cosine similarity is learnt on the example data -/
example : ∃ W, cosineKnnFit sortNth exampleEnv2 exampleWalk [("top_k", .num 10), ("shrinkage", .num (1 / 2)),
    ("feature_weighting", .str "BM_25"), ("normalize", .bool true)] = .ok W :=
  (C72_tuned_knn_learns sortNth_ok exampleEnv2 2 rfl (by norm_num) exampleWalk exampleWalk_ok.1
    (positive_noZero exampleWalk_ok.2) _).1 (.cons ⟨rfl, 10, by decide, by decide, by norm_num⟩
      (.cons ⟨rfl, 1 / 2, by norm_num, by norm_num, rfl⟩ (.cons ⟨rfl, by show _ ∈ _; simp⟩
        (.cons ⟨rfl, by show _ ∈ _; simp⟩ .nil))))

end Irspack.Props
