import Verif.Props.RelabelModels
import Verif.Props.MultVAE
import Verif.Props.Zeros
import Verif.Props.LibRecommender
import Verif.Proofs.IalsPp
import Verif.Spec.Twins

/-!
# C95: users with the same history and items with the same audience are treated alike
-/

namespace Irspack.Props
open Sim Spec.Sim RecClasses Spec.Relabel Spec.Twins Score Spec.Score

variable {nth : Nat → SpVec ℝ → List Nat}

/-! ### exchanging two numbers -/

/-- exchange `a` and `b` -/
def exchange (a b n : Nat) : Nat := if n = a then b else if n = b then a else n

theorem exchange_left (a b : Nat) : exchange a b a = b := by simp [exchange]

theorem exchange_right (a b : Nat) : exchange a b b = a := by
  by_cases h : b = a
  · simp [exchange, h]
  · simp [exchange, h]

theorem renames_exchange {n a b : Nat} (ha : a < n) (hb : b < n) : Renames n (exchange a b) := by
  refine ⟨fun i hi => ?_, fun i j _ _ h => ?_⟩
  · unfold exchange; split_ifs <;> assumption
  · unfold exchange at h; split_ifs at h <;> omega

theorem renamed_users {X : CSR ℝ} {u v : Nat} (hu : u < X.nrows) (hv : v < X.nrows) (h : SameHistory X u v) :
    Renamed X X (exchange u v) (fun i => i) where
  users := rfl
  items := rfl
  renamesUsers := renames_exchange hu hv
  renamesItems := Renames.id _
  entries w i hw hi := by
    unfold exchange; split_ifs with h1 h2
    · rw [h1, h i hi]
    · rw [h2, h i hi]
    · rfl

theorem renamed_items {X : CSR ℝ} {i j : Nat} (hi : i < X.cols) (hj : j < X.cols) (h : SameAudience X i j) :
    Renamed X X (fun u => u) (exchange i j) where
  users := rfl
  items := rfl
  renamesUsers := Renames.id _
  renamesItems := renames_exchange hi hj
  entries u k hu hk := by
    unfold exchange; split_ifs with h1 h2
    · rw [h1, h u hu]
    · rw [h2, h u hu]
    · rfl

theorem wf_of_proper {X : CSR ℝ} (hX : Proper X) : X.WF := hX.1

theorem items_alike_of {X : CSR ℝ} (hX : Proper X) {i j : Nat} (hi : i < X.cols) (hj : j < X.cols)
    (h : SameAudience X i j) (W : Dense ℝ) (hW : W.rows.length = X.cols) (hc : W.cols = X.cols)
    (hWW : ∀ a b, a < X.cols → b < X.cols → W.get (exchange i j a) (exchange i j b) = W.get a b) :
    ItemsScoredAlike (similarity X (some W)) i j := by
  intro u hu
  obtain ⟨row, row', h1, h2, h3⟩ := C87_item_scores (renamed_items hi hj h) (wf_of_proper hX) (wf_of_proper hX) W W hW hW
    hWW u hu
  rw [h1] at h2
  cases h2
  refine ⟨_, row, h1, by rw [hc]; exact hi, by rw [hc]; exact hj, ?_⟩
  have := h3 i hi
  rw [exchange_left] at this
  exact this.symm

theorem csr_items_alike {X : CSR ℝ} (hX : Proper X) {i j : Nat} (hi : i < X.cols) (hj : j < X.cols)
    (h : SameAudience X i j) (W : CSR ℝ) (hW : W.nrows = X.cols) (hc : W.cols = X.cols)
    (hWW : ∀ a b, a < X.cols → b < X.cols → W.get (exchange i j a) (exchange i j b) = W.get a b) :
    ItemsScoredAlike (similarity X (some (toDense W))) i j := by
  refine items_alike_of hX hi hj h _ (by rw [toDense_length, hW]) hc (fun a b ha hb => ?_)
  rw [toDense_get _ _ _ (by rw [hW]; exact (renames_exchange hi hj).bound a ha), toDense_get _ _ _ (by rw [hW]; exact ha),
    hWW a b ha hb]

/-! ## Users with the same history -/

/-- C95 (item-based recommenders).  Whatever the learnt weights are (item neighbourhoods, random walks, SLIM,
DenseSLIM, EDLAE), users with the same history get the same scores. -/
theorem C95_users_item_based (X : CSR ℝ) (hX : Proper X) (W : Dense ℝ) (hW : W.rows.length = X.cols) (u v : Nat)
    (hu : u < X.nrows) (hv : v < X.nrows) (h : SameHistory X u v) : UsersScoredAlike (similarity X (some W)) u v := by
  refine ⟨_, _, _, C50_similarity_score X (wf_of_proper hX) W hW _ [u] (.cons ⟨hu, .inl rfl⟩ .nil),
    C50_similarity_score X (wf_of_proper hX) W hW _ [v] (.cons ⟨hv, .inl rfl⟩ .nil), fun j _ => ?_⟩
  exact Finset.sum_congr rfl (fun i hi => by rw [h i (Finset.mem_range.mp hi)])

theorem users_alike_of {X U : CSR ℝ} (hU : U.WF) (hn : U.nrows = X.nrows) (hc : U.cols = X.nrows) {u v : Nat}
    (hu : u < X.nrows) (hv : v < X.nrows) (h : SameHistory X u v)
    (hUU : ∀ a b, a < X.nrows → b < X.nrows → U.get (exchange u v a) (exchange u v b) = U.get a b) :
    UsersScoredAlike (userSimilarity X (some U)) u v := by
  obtain ⟨row, row', h1, h2, h3⟩ := C87_user_scores (renamed_users hu hv h) U U hU hU hn hc hn hc hUU u hu
  rw [exchange_left] at h2
  exact ⟨_, row, row', h1, h2, fun j hj => (h3 j hj).symm⟩

theorem items_of_users {X U : CSR ℝ} (hU : U.WF) (hn : U.nrows = X.nrows) (hc : U.cols = X.nrows) {i j : Nat}
    (hi : i < X.cols) (hj : j < X.cols) (h : SameAudience X i j) : ItemsScoredAlike (userSimilarity X (some U)) i j := by
  intro u hu
  obtain ⟨⟨c, rs⟩, h1, h2, h3⟩ := (C50_user_similarity X U hU hn hc).1 [(u : Int)] [u] (.cons ⟨hu, .inl rfl⟩ .nil)
  simp only at h2 h3
  subst h2 h3
  refine ⟨_, _, h1, hi, hj, ?_⟩
  unfold userBased
  rw [hc]
  exact Finset.sum_congr rfl (fun v hv => by rw [h v (Finset.mem_range.mp hv)])

/-- C95 (popularity).  `TopPopRecommender` gives all users the same scores, and items with the same audience the
same score. -/
theorem C95_top_pop (X : CSR ℝ) :
    (∀ u v, UsersScoredAlike (Score.topPop X (some (Score.popularity X))) u v) ∧
    ∀ i j, i < X.cols → j < X.cols → SameAudience X i j → ItemsScoredAlike (Score.topPop X (some (Score.popularity X))) i j := by
  refine ⟨fun u v => ⟨X.cols, _, _, rfl, rfl, fun _ _ => rfl⟩, fun i j hi hj h u _ => ⟨X.cols, _, rfl, hi, hj, ?_⟩⟩
  rw [(C50_top_pop X).1, (C50_top_pop X).1]
  exact Finset.sum_congr rfl (fun w hw => h w (Finset.mem_range.mp hw))

/-- C95 (masks).  If two users with the same history get the same scores, they get the same scores with the seen
items masked; if a user gets the same score for two items with the same audience, both are masked or neither. -/
theorem C95_remove_seen (r : Recommender ℝ) (hX : Proper r.X) (u v : Nat) (hu : u < r.X.nrows) (hv : v < r.X.nrows)
    (row row' : Nat → ℝ) (h1 : r.getScore [(u : Int)] = .ok ⟨r.X.cols, [row]⟩)
    (h2 : r.getScore [(v : Int)] = .ok ⟨r.X.cols, [row']⟩) :
    ∃ t t' : Nat → WithBot ℝ, r.getScoreRemoveSeen [(u : Int)] = .ok ⟨r.X.cols, [t]⟩ ∧
      r.getScoreRemoveSeen [(v : Int)] = .ok ⟨r.X.cols, [t']⟩ ∧
      (SameHistory r.X u v → ∀ j, j < r.X.cols → row j = row' j → t j = t' j) ∧
      ∀ i j, SameAudience r.X i j → row i = row j → t i = t j := by
  classical
  have seen : ∀ w j, w < r.X.nrows → (Seen r.X w j ↔ r.X.get w j ≠ 0) := by
    intro w j hw
    constructor
    · rintro ⟨x, hx, hne⟩
      have := Sim.get_of_mem _ (Sim.row_nodup hX w) _ hx
      unfold CSR.get
      rw [this]; exact hne
    · intro hne
      by_contra hn
      refine hne ?_
      unfold CSR.get SpVec.get
      refine List.sum_eq_zero (fun x hx => ?_)
      obtain ⟨e, he, rfl⟩ := List.mem_map.mp hx
      obtain ⟨he1, he2⟩ := List.mem_filter.mp he
      by_contra h0
      have : e.1 = j := by simpa using he2
      exact hn ⟨e.2, by rw [← this]; exact he1, h0⟩
  have one : ∀ w (sc : Nat → ℝ), w < r.X.nrows → r.getScore [(w : Int)] = .ok ⟨r.X.cols, [sc]⟩ →
      ∃ t : Nat → WithBot ℝ, r.getScoreRemoveSeen [(w : Int)] = .ok ⟨r.X.cols, [t]⟩ ∧
        ∀ j, t j = if r.X.get w j ≠ 0 then ⊥ else (sc j : WithBot ℝ) := by
    intro w sc hw hs
    obtain ⟨⟨c, ts⟩, g1, g2, g3, g4⟩ := C50_remove_seen r (wf_of_proper hX) [(w : Int)] [w] (.cons ⟨hw, .inl rfl⟩ .nil)
      ⟨r.X.cols, [sc]⟩ hs rfl rfl
    simp only at g2 g3
    subst g2
    match ts, g3 with
    | [t], _ =>
      refine ⟨t, g1, fun j => ?_⟩
      rw [g4 0 w sc t rfl rfl rfl j]
      simp only [seen w j hw]
  obtain ⟨t, e1, e2⟩ := one u row hu h1
  obtain ⟨t', e1', e2'⟩ := one v row' hv h2
  refine ⟨t, t', e1, e1', fun h j hj hjj => ?_, fun i j h hij => ?_⟩
  · rw [e2, e2', h j hj, hjj]
  · rw [e2, e2, h u hu, hij]


/-! ## Items with the same audience -/

/-- C95 (`CosineKNNRecommender`, `top_k` at least the number of items).  Items with the same audience get the same score
from every user; users with the same history get the same scores. -/
theorem C95_cosine_items (hnth : NthOk nth) (e : Env) (X : CSR ℝ) (hX : Proper X) (hp : Positive X) (given : Args) (s : ℚ) (b : Bool) (k T : Nat) (w : Weighting)
    (hn : Only given ["shrinkage", "normalize", "top_k", "feature_weighting", "bm25_k1", "bm25_b", "n_threads"])
    (hs : Argument given "shrinkage" (.num 0) (.num s))
    (hb : Argument given "normalize" (.bool false) (.bool b)) (hk : Argument given "top_k" (.num 100) (.num k))
    (hw : WeightingIs given w) (hT : ThreadsAre e given T) (hs0 : 0 ≤ s) (hT1 : 1 ≤ T) (hc : X.cols ≤ k) :
    ∃ W, cosineKnnFit nth e X given = .ok W ∧
      (∀ i j, i < X.cols → j < X.cols → SameAudience X i j → ItemsScoredAlike (similarity X (some (toDense W))) i j) ∧
      ∀ u v, u < X.nrows → v < X.nrows → SameHistory X u v → UsersScoredAlike (similarity X (some (toDense W))) u v := by
  obtain ⟨W, h1, h2, h3, -, -⟩ := C82_cosine_items hnth e X hX (positive_noZero hp) given s b k T w hn hs hb hk hw hT hs0 hT1
  refine ⟨W, h1, fun i j hi hj h => csr_items_alike hX hi hj h W h2 h3 (fun x y hx hy => ?_), fun u v hu hv h =>
    C95_users_item_based X hX _ (by rw [toDense_length, h2]) u v hu hv h⟩
  obtain ⟨W₁, W₂, g1, g2, g3⟩ := C87_cosine_items hnth e e (renamed_items hi hj h) hX hX hp hp given s b k T T w hn hs hb hk hw hT hT hs0 hT1 hT1 hc
  rw [h1] at g1 g2
  cases g1; cases g2
  exact g3 x y hx hy

/-- C95 (`AsymmetricCosineKNNRecommender`, `top_k` at least the number of items).  Items with the same audience get the same score
from every user; users with the same history get the same scores. -/
theorem C95_asymmetric_items (hnth : NthOk nth) (e : Env) (X : CSR ℝ) (hX : Proper X) (hp : Positive X) (given : Args) (s a : ℚ) (k T : Nat) (w : Weighting)
    (hn : Only given ["shrinkage", "alpha", "top_k", "feature_weighting", "bm25_k1", "bm25_b", "n_threads"])
    (hs : Argument given "shrinkage" (.num 0) (.num s))
    (ha : Argument given "alpha" (.num (1 / 2)) (.num a)) (hk : Argument given "top_k" (.num 100) (.num k))
    (hw : WeightingIs given w) (hT : ThreadsAre e given T) (hs0 : 0 ≤ s)
    (ha0 : 0 ≤ a) (ha1 : a ≤ 1) (hT1 : 1 ≤ T) (hc : X.cols ≤ k) :
    ∃ W, asymmetricKnnFit nth e X given = .ok W ∧
      (∀ i j, i < X.cols → j < X.cols → SameAudience X i j → ItemsScoredAlike (similarity X (some (toDense W))) i j) ∧
      ∀ u v, u < X.nrows → v < X.nrows → SameHistory X u v → UsersScoredAlike (similarity X (some (toDense W))) u v := by
  obtain ⟨W, h1, h2, h3, -, -⟩ := C82_asymmetric_items hnth e X hX (positive_noZero hp) given s a k T w hn hs ha hk hw hT hs0 ha0 ha1 hT1
  refine ⟨W, h1, fun i j hi hj h => csr_items_alike hX hi hj h W h2 h3 (fun x y hx hy => ?_), fun u v hu hv h =>
    C95_users_item_based X hX _ (by rw [toDense_length, h2]) u v hu hv h⟩
  obtain ⟨W₁, W₂, g1, g2, g3⟩ := C87_asymmetric_items hnth e e (renamed_items hi hj h) hX hX hp hp given s a k T T w hn hs ha hk hw hT hT hs0 ha0 ha1 hT1 hT1 hc
  rw [h1] at g1 g2
  cases g1; cases g2
  exact g3 x y hx hy

/-- C95 (`JaccardKNNRecommender`, `top_k` at least the number of items).  Items with the same audience get the same score
from every user; users with the same history get the same scores. -/
theorem C95_jaccard_items (hnth : NthOk nth) (e : Env) (X : CSR ℝ) (hX : Proper X) (hz : NoStoredZero X) (given : Args) (s : ℚ) (k T : Nat) (hn : Only given ["shrinkage", "top_k", "n_threads"])
    (hs : Argument given "shrinkage" (.num 0) (.num s)) (hk : Argument given "top_k" (.num 100) (.num k))
    (hT : ThreadsAre e given T) (hs0 : 0 ≤ s) (hT1 : 1 ≤ T) (hc : X.cols ≤ k) :
    ∃ W, jaccardKnnFit nth e X given = .ok W ∧
      (∀ i j, i < X.cols → j < X.cols → SameAudience X i j → ItemsScoredAlike (similarity X (some (toDense W))) i j) ∧
      ∀ u v, u < X.nrows → v < X.nrows → SameHistory X u v → UsersScoredAlike (similarity X (some (toDense W))) u v := by
  obtain ⟨W, h1, h2, h3, -, -⟩ := C82_jaccard_items hnth e X hX hz given s k T hn hs hk hT hs0 hT1
  refine ⟨W, h1, fun i j hi hj h => csr_items_alike hX hi hj h W h2 h3 (fun x y hx hy => ?_), fun u v hu hv h =>
    C95_users_item_based X hX _ (by rw [toDense_length, h2]) u v hu hv h⟩
  obtain ⟨W₁, W₂, g1, g2, g3⟩ := C87_jaccard_items hnth e e (renamed_items hi hj h) hX hX hz hz given s k T T hn hs hk hT hT hs0 hT1 hT1 hc
  rw [h1] at g1 g2
  cases g1; cases g2
  exact g3 x y hx hy

/-- C95 (`TverskyIndexKNNRecommender`, `top_k` at least the number of items).  Items with the same audience get the same score
from every user; users with the same history get the same scores. -/
theorem C95_tversky_items (hnth : NthOk nth) (e : Env) (X : CSR ℝ) (hX : Proper X) (hz : NoStoredZero X) (given : Args) (s a b : ℚ) (k T : Nat)
    (hn : Only given ["shrinkage", "alpha", "beta", "top_k", "n_threads"])
    (hs : Argument given "shrinkage" (.num 0) (.num s)) (ha : Argument given "alpha" (.num (1 / 2)) (.num a))
    (hb : Argument given "beta" (.num (1 / 2)) (.num b)) (hk : Argument given "top_k" (.num 100) (.num k))
    (hT : ThreadsAre e given T) (hs0 : 0 ≤ s) (ha0 : 0 ≤ a) (hb0 : 0 ≤ b)
    (hT1 : 1 ≤ T) (hc : X.cols ≤ k) :
    ∃ W, tverskyKnnFit nth e X given = .ok W ∧
      (∀ i j, i < X.cols → j < X.cols → SameAudience X i j → ItemsScoredAlike (similarity X (some (toDense W))) i j) ∧
      ∀ u v, u < X.nrows → v < X.nrows → SameHistory X u v → UsersScoredAlike (similarity X (some (toDense W))) u v := by
  obtain ⟨W, h1, h2, h3, -, -⟩ := C82_tversky_items hnth e X hX hz given s a b k T hn hs ha hb hk hT hs0 ha0 hb0 hT1
  refine ⟨W, h1, fun i j hi hj h => csr_items_alike hX hi hj h W h2 h3 (fun x y hx hy => ?_), fun u v hu hv h =>
    C95_users_item_based X hX _ (by rw [toDense_length, h2]) u v hu hv h⟩
  obtain ⟨W₁, W₂, g1, g2, g3⟩ := C87_tversky_items hnth e e (renamed_items hi hj h) hX hX hz hz given s a b k T T hn hs ha hb hk hT hT hs0 ha0 hb0 hT1 hT1 hc
  rw [h1] at g1 g2
  cases g1; cases g2
  exact g3 x y hx hy

/-- the weights of a random-walk recommender as a dense matrix -/
noncomputable def cscDense (W : CSC ℝ) : Dense ℝ := ⟨W.cols.length, (List.range W.rows).map (fun i j => W.get i j)⟩

theorem cscDense_get (W : CSC ℝ) (i j : Nat) (hi : i < W.rows) : (cscDense W).get i j = W.get i j := by
  unfold cscDense Dense.get
  simp [hi]

theorem csc_items_alike {X : CSR ℝ} (hX : Proper X) {i j : Nat} (hi : i < X.cols) (hj : j < X.cols)
    (h : SameAudience X i j) (W : CSC ℝ) (hW : W.rows = X.cols) (hc : W.cols.length = X.cols)
    (hWW : ∀ a b, a < X.cols → b < X.cols → W.get (exchange i j b) (exchange i j a) = W.get b a) :
    ItemsScoredAlike (similarity X (some (cscDense W))) i j := by
  refine items_alike_of hX hi hj h _ (by simp [cscDense, hW]) hc (fun a b ha hb => ?_)
  rw [cscDense_get _ _ _ (by rw [hW]; exact (renames_exchange hi hj).bound a ha), cscDense_get _ _ _ (by rw [hW]; exact ha),
    hWW b a hb ha]

/-- C95 (`P3alphaRecommender`, no `top_k`). -/
theorem C95_p3 (hnth : NthOk nth) (e : Env) (X : CSR ℝ) (hX : Proper X) (hp : Positive X) (given : Args) (a : ℚ) (b : Bool) (T : Nat)
    (hn : Only given ["alpha", "top_k", "normalize_weight", "n_threads"])
    (ha : Argument given "alpha" (.num 1) (.num a)) (hk : Argument given "top_k" .none .none)
    (hb : Argument given "normalize_weight" (.bool false) (.bool b)) (hT : ThreadsAre e given T)
    (ha0 : 0 ≤ a) (hT1 : 1 ≤ T) :
    ∃ W, p3Fit nth e X given = .ok W ∧
      (∀ i j, i < X.cols → j < X.cols → SameAudience X i j → ItemsScoredAlike (similarity X (some (cscDense W))) i j) ∧
      ∀ u v, u < X.nrows → v < X.nrows → SameHistory X u v → UsersScoredAlike (similarity X (some (cscDense W))) u v := by
  obtain ⟨-, -, W, -, -, h1, h2, h3, -⟩ := C82_p3 hnth e X hX hp given a b none T hn ha hk hb hT ha0 hT1
  refine ⟨W, h1, fun i j hi hj h => csc_items_alike hX hi hj h W h2 h3 (fun x y hx hy => ?_), fun u v hu hv h =>
    C95_users_item_based X hX _ (by simp [cscDense, h2]) u v hu hv h⟩
  obtain ⟨W₁, W₂, g1, g2, g3⟩ := C87_p3 hnth e e (renamed_items hi hj h) hX hX hp hp given a b T T hn ha hk hb hT hT ha0 hT1 hT1
  rw [h1] at g1 g2
  cases g1; cases g2
  exact g3 x y hx hy

/-- C95 (`RP3betaRecommender`, no `top_k`). -/
theorem C95_rp3 (hnth : NthOk nth) (e : Env) (X : CSR ℝ) (hX : Proper X) (hp : Positive X) (given : Args) (a be : ℚ) (b : Bool) (T : Nat)
    (hn : Only given ["alpha", "beta", "top_k", "normalize_weight", "n_threads"])
    (ha : Argument given "alpha" (.num 1) (.num a)) (hbe : Argument given "beta" (.num (3 / 5)) (.num be))
    (hk : Argument given "top_k" .none .none)
    (hb : Argument given "normalize_weight" (.bool false) (.bool b)) (hT : ThreadsAre e given T)
    (ha0 : 0 ≤ a) (hb0 : 0 ≤ be) (hT1 : 1 ≤ T) :
    ∃ W, rp3Fit nth e X given = .ok W ∧
      (∀ i j, i < X.cols → j < X.cols → SameAudience X i j → ItemsScoredAlike (similarity X (some (cscDense W))) i j) ∧
      ∀ u v, u < X.nrows → v < X.nrows → SameHistory X u v → UsersScoredAlike (similarity X (some (cscDense W))) u v := by
  obtain ⟨-, -, W, -, -, h1, h2, h3, -⟩ := C82_rp3 hnth e X hX hp given a be b none T hn ha hbe hk hb hT ha0 hb0 hT1
  refine ⟨W, h1, fun i j hi hj h => csc_items_alike hX hi hj h W h2 h3 (fun x y hx hy => ?_), fun u v hu hv h =>
    C95_users_item_based X hX _ (by simp [cscDense, h2]) u v hu hv h⟩
  obtain ⟨W₁, W₂, g1, g2, g3⟩ := C87_rp3 hnth e e (renamed_items hi hj h) hX hX hp hp given a be b T T hn ha hbe hk hb hT hT ha0 hb0 hT1 hT1
  rw [h1] at g1 g2
  cases g1; cases g2
  exact g3 x y hx hy

section
open Matrix

variable {U F : Nat}

theorem dense_alike {X : Matrix (Fin U) (Fin F) ℝ} {i j : Fin F} (h : ∀ u, X u i = X u j) {W : Matrix (Fin F) (Fin F) ℝ}
    (hW : ∀ a b, W (Equiv.swap i j a) (Equiv.swap i j b) = W a b) (u : Fin U) : (X * W) u i = (X * W) u j := by
  rw [Matrix.mul_apply, Matrix.mul_apply, ← Equiv.sum_comp (Equiv.swap i j)]
  refine Finset.sum_congr rfl (fun a _ => ?_)
  have h1 : W (Equiv.swap i j a) i = W a j := by rw [← hW a j, Equiv.swap_apply_right]
  have h2 : X u (Equiv.swap i j a) = X u a := by
    by_cases e1 : a = i
    · rw [e1, Equiv.swap_apply_left, h u]
    · by_cases e2 : a = j
      · rw [e2, Equiv.swap_apply_right, h u]
      · rw [Equiv.swap_apply_of_ne_of_ne e1 e2]
  rw [h1, h2]

theorem swap_columns {X : Matrix (Fin U) (Fin F) ℝ} {i j : Fin F} (h : ∀ u, X u i = X u j) :
    (fun u a => X (Equiv.refl (Fin U) u) (Equiv.swap i j a)) = X := by
  funext u a
  by_cases e1 : a = i
  · rw [e1, Equiv.swap_apply_left]; exact (h u).symm
  · by_cases e2 : a = j
    · rw [e2, Equiv.swap_apply_right]; exact h u
    · rw [Equiv.swap_apply_of_ne_of_ne e1 e2]; rfl

/-- C95 (`DenseSLIMRecommender`).  Whatever the arguments, if `learn` succeeds then items with the same audience
get the same score from every user, and users with the same history get the same scores. -/
theorem C95_dense_slim (X : Matrix (Fin U) (Fin F) ℝ) (given : Args) (W : Matrix (Fin F) (Fin F) ℝ)
    (hW : denseSlimFit X given = .ok W) :
    (∀ i j, (∀ u, X u i = X u j) → ∀ u, (X * W) u i = (X * W) u j) ∧
    ∀ u v, (∀ i, X u i = X v i) → ∀ i, (X * W) u i = (X * W) v i := by
  refine ⟨fun i j h u => dense_alike h (fun a b => ?_) u, fun u v h i => ?_⟩
  · unfold denseSlimFit at hW
    obtain ⟨p, _, hW⟩ := Ials.bind_ok hW
    obtain ⟨r, _, hW⟩ := Ials.bind_ok hW
    obtain ⟨r', _, hW⟩ := Ials.bind_ok hW
    obtain ⟨reg, _, hW⟩ := Ials.bind_ok hW
    have := C87_dense_slim X reg (Equiv.refl _) (Equiv.swap i j)
    rw [swap_columns h, hW] at this
    exact (congrFun (congrFun (Except.ok.inj this) a) b).symm
  · rw [Matrix.mul_apply, Matrix.mul_apply]
    exact Finset.sum_congr rfl (fun a _ => by rw [h a])

/-- C95 (`EDLAERecommender`). -/
theorem C95_edlae (X : Matrix (Fin U) (Fin F) ℝ) (given : Args) (W : Matrix (Fin F) (Fin F) ℝ)
    (hW : edlaeFit X given = .ok W) :
    (∀ i j, (∀ u, X u i = X u j) → ∀ u, (X * W) u i = (X * W) u j) ∧
    ∀ u v, (∀ i, X u i = X v i) → ∀ i, (X * W) u i = (X * W) v i := by
  refine ⟨fun i j h u => dense_alike h (fun a b => ?_) u, fun u v h i => ?_⟩
  · unfold edlaeFit at hW
    obtain ⟨p, _, hW⟩ := Ials.bind_ok hW
    obtain ⟨r, _, hW⟩ := Ials.bind_ok hW
    obtain ⟨r', _, hW⟩ := Ials.bind_ok hW
    obtain ⟨r'', _, hW⟩ := Ials.bind_ok hW
    obtain ⟨reg, _, hW⟩ := Ials.bind_ok hW
    obtain ⟨q, _, hW⟩ := Ials.bind_ok hW
    obtain ⟨dp, _, hW⟩ := Ials.bind_ok hW
    have := C87_edlae X reg dp (Equiv.refl _) (Equiv.swap i j)
    rw [swap_columns h, hW] at this
    exact (congrFun (congrFun (Except.ok.inj this) a) b).symm
  · rw [Matrix.mul_apply, Matrix.mul_apply]
    exact Finset.sum_congr rfl (fun a _ => by rw [h a])

end

/-- C95 (`SLIMRecommender`).  The solution of the documented problem, which the learnt weights approach (C86),
gives items with the same audience the same score from every user, and users with the same history the same
scores. -/
theorem C95_slim_solution (X : CSC ℝ) (hU : 0 < X.rows) (α l1Ratio : ℝ) (hα : 0 < α) (hl0 : 0 ≤ l1Ratio)
    (hl1 : l1Ratio < 1) (positiveOnly : Bool) (B : Nat → Nat → ℝ)
    (hB : Spec.Slim.Optimal positiveOnly X.get X.rows X.cols.length α l1Ratio B) :
    (∀ i j, i < X.cols.length → j < X.cols.length → (∀ u, u < X.rows → X.get u i = X.get u j) → ∀ u, u < X.rows →
      ∑ f ∈ Finset.range X.cols.length, X.get u f * B f i = ∑ f ∈ Finset.range X.cols.length, X.get u f * B f j) ∧
    ∀ u v, (∀ i, i < X.cols.length → X.get u i = X.get v i) → ∀ i,
      ∑ f ∈ Finset.range X.cols.length, X.get u f * B f i = ∑ f ∈ Finset.range X.cols.length, X.get v f * B f i := by
  refine ⟨fun i j hi hj h u hu => ?_, fun u v h i => Finset.sum_congr rfl (fun f hf => by rw [h f (Finset.mem_range.mp hf)])⟩
  have hr := renames_exchange hi hj
  have hX : ∀ u k, u < X.rows → k < X.cols.length → X.get u (exchange i j k) = X.get u k := by
    intro u k hu hk
    unfold exchange; split_ifs with h1 h2
    · rw [h1, h u hu]
    · rw [h2, h u hu]
    · rfl
  have hBB := C87_slim_solution X X hU rfl rfl (Renames.id _) hr hX α l1Ratio hα hl0 hl1 positiveOnly B B hB hB
  refine (hr.sum _ _ (fun f hf => ?_)).symm
  have h1 := hBB f j hf hj
  rw [exchange_right] at h1
  rw [h1, hX u f hu hf]

/-! ## User neighbourhoods -/

theorem userKnn_wf (hnth : NthOk nth) (w : Weighting) (kind : Kind) (s : ℝ) (hs : 0 ≤ s) (hp : kind.paramsOk) (X : CSR ℝ)
    (T k : Nat) (hT : 1 ≤ T) (U : CSR ℝ) (hU : userKnnU nth w kind s X T k = .ok U) : U.WF := by
  obtain ⟨S, U', hS, hU', h1, h2, h3⟩ := C60_user_rows_are_top_k_partial hnth w kind s hs hp X T k hT
  rw [hU] at hU'
  cases hU'
  intro row hrow e he
  obtain ⟨r, hr, rfl⟩ := List.getElem_of_mem hrow
  have hrr : U.row r = U.rows[r] := by simp [CSR.row, hr]
  rw [← hrr] at he
  have hm : e.1 ∈ (U.row r).map Prod.fst := List.mem_map_of_mem he
  rw [(h3 r).1] at hm
  obtain ⟨e', he', h4⟩ := List.mem_map.mp hm
  have := (C33_rows_sorted hnth _ _ _ _ _ _ _ S hS r).2 e' ((bestOf_sublist _ _).subset he')
  rw [h2, ← h4]
  rw [(apply_shape w X).2] at this
  exact this

/-- C95 (`CosineUserKNNRecommender`, `top_k` at least the number of users).  Users with the same history get the
same scores; items with the same audience get the same score from every user. -/
theorem C95_cosine_users (hnth : NthOk nth) (e : Env) (X : CSR ℝ) (hX : Proper X) (hp : Positive X)
    (given : Args) (s : ℚ) (b : Bool) (k T : Nat) (w : Weighting)
    (hn : Only given ["shrinkage", "normalize", "top_k", "feature_weighting", "bm25_k1", "bm25_b", "n_threads"])
    (hs : Argument given "shrinkage" (.num 0) (.num s))
    (hb : Argument given "normalize" (.bool true) (.bool b)) (hk : Argument given "top_k" (.num 100) (.num k))
    (hw : WeightingIs given w) (hT : ThreadsAre e given T) (hs0 : 0 ≤ s) (hT1 : 1 ≤ T) (hc : X.nrows ≤ k) :
    ∃ U, cosineUserKnnFit nth e X given = .ok U ∧
      (∀ u v, u < X.nrows → v < X.nrows → SameHistory X u v → UsersScoredAlike (userSimilarity X (some U)) u v) ∧
      ∀ i j, i < X.cols → j < X.cols → SameAudience X i j → ItemsScoredAlike (userSimilarity X (some U)) i j := by
  obtain ⟨U, h1, h2, h3, -, -⟩ := C82_cosine_users hnth e X hX given s b k T w hn hs hb hk hw hT hs0 hT1
  have hwf : U.WF := userKnn_wf hnth w (.cosine b) s (by exact_mod_cast hs0) trivial X T k hT1 U (by
    rw [← h1, cosineUserKnnFit_eq e X given s b k T w hn hs hb hk hw hT])
  refine ⟨U, h1, fun u v hu hv h => users_alike_of hwf h2 h3 hu hv h (fun x y hx hy => ?_), fun i j hi hj h =>
    items_of_users hwf h2 h3 hi hj h⟩
  obtain ⟨W₁, W₂, g1, g2, g3⟩ := C87_cosine_users hnth e e (renamed_users hu hv h) hX hX hp hp given s b k T T w hn hs hb hk
    hw hT hT hs0 hT1 hT1 hc
  rw [h1] at g1 g2
  cases g1; cases g2
  exact g3 x y hx hy

/-- C95 (`AsymmetricCosineUserKNNRecommender`). -/
theorem C95_asymmetric_users (hnth : NthOk nth) (e : Env) (X : CSR ℝ) (hX : Proper X) (hp : Positive X)
    (given : Args) (s a : ℚ) (k T : Nat) (w : Weighting)
    (hn : Only given ["shrinkage", "alpha", "top_k", "feature_weighting", "bm25_k1", "bm25_b", "n_threads"])
    (hs : Argument given "shrinkage" (.num 0) (.num s))
    (ha : Argument given "alpha" (.num (1 / 2)) (.num a)) (hk : Argument given "top_k" (.num 100) (.num k))
    (hw : WeightingIs given w) (hT : ThreadsAre e given T) (hs0 : 0 ≤ s)
    (ha0 : 0 ≤ a) (ha1 : a ≤ 1) (hT1 : 1 ≤ T) (hc : X.nrows ≤ k) :
    ∃ U, asymmetricUserKnnFit nth e X given = .ok U ∧
      (∀ u v, u < X.nrows → v < X.nrows → SameHistory X u v → UsersScoredAlike (userSimilarity X (some U)) u v) ∧
      ∀ i j, i < X.cols → j < X.cols → SameAudience X i j → ItemsScoredAlike (userSimilarity X (some U)) i j := by
  obtain ⟨U, h1, h2, h3, -, -⟩ := C82_asymmetric_users hnth e X hX given s a k T w hn hs ha hk hw hT hs0 ha0 ha1 hT1
  have hwf : U.WF := userKnn_wf hnth w (.asymmetric a) s (by exact_mod_cast hs0)
    ⟨by exact_mod_cast ha0, by exact_mod_cast ha1⟩ X T k hT1 U (by
    rw [← h1, asymmetricUserKnnFit_eq e X given s a k T w hn hs ha hk hw hT])
  refine ⟨U, h1, fun u v hu hv h => users_alike_of hwf h2 h3 hu hv h (fun x y hx hy => ?_), fun i j hi hj h =>
    items_of_users hwf h2 h3 hi hj h⟩
  obtain ⟨W₁, W₂, g1, g2, g3⟩ := C87_asymmetric_users hnth e e (renamed_users hu hv h) hX hX hp hp given s a k T T w hn hs ha
    hk hw hT hT hs0 ha0 ha1 hT1 hT1 hc
  rw [h1] at g1 g2
  cases g1; cases g2
  exact g3 x y hx hy

/-! ## Mult-VAE -/

section
open MultVAE

theorem minibatches_one (size : Nat) (hs : 0 < size) (r : SpVec ℝ) : ((minibatches size [r]).map List.length).sum = 1 := by
  rw [minibatches_step size hs [r] (by simp)]
  obtain ⟨n, rfl⟩ : ∃ n, size = n + 1 := ⟨size - 1, by omega⟩
  rw [List.drop_succ_cons, List.drop_nil, minibatches_nil]
  simp

/-- C95 (`MultVAERecommender`).  Users with the same history get the same scores. -/
theorem C95_mult_vae {O : Type} (cfg : MultVAE.Config) (hs : 0 < cfg.size) (X : CSR ℝ) (hX : Proper X) (st : State O) (u v : Nat)
    (hu : u < X.nrows) (hv : v < X.nrows) (h : SameHistory X u v) :
    UsersScoredAlike (recommender cfg X (some st)) u v := by
  have one : ∀ w, w < X.nrows → ∃ row : Nat → ℝ, (recommender cfg X (some st)).getScore [(w : Int)] = .ok ⟨X.cols, [row]⟩ ∧
      row = scoreRow st.params X.cols (fun j => X.get w j) := by
    intro w hw
    have hk := ((C63_known_users cfg X st).1 [(w : Int)] [w] (.cons ⟨hw, .inl rfl⟩ .nil)).1
    have hc : ∃ r, coldScores cfg X.cols st ⟨X.cols, [X.row w]⟩ = .ok r ∧ r.1.cols = X.cols ∧ r.1.rows.length = 1 := by
      unfold coldScores
      rw [if_neg (by simp), if_neg (by simp)]
      refine ⟨_, rfl, rfl, ?_⟩
      simp only [List.length_flatMap, List.length_map]
      exact minibatches_one cfg.size hs (X.row w)
    obtain ⟨⟨⟨c, rs⟩, st'⟩, h1, h2, h3⟩ := hc
    simp only at h2 h3
    subst h2
    have hrow := coldScores_row hs h1 0 (by simp [CSR.nrows])
    match rs, h3 with
    | [row], _ =>
      refine ⟨row, ?_, by simpa [CSR.get, CSR.row] using hrow⟩
      rw [hk]
      show (do let t ← fitted (some st); let r ← coldScores cfg X.cols t ⟨X.cols, [X.row w]⟩; pure r.1) = _
      simp only [bind, Except.bind, fitted]
      rw [h1]
      rfl
  obtain ⟨row, h1, h2⟩ := one u hu
  obtain ⟨row', h1', h2'⟩ := one v hv
  have hh : (fun j => X.get u j) = fun j => X.get v j := by
    funext j
    by_cases hj : j < X.cols
    · exact h j hj
    · have hz : ∀ w, X.get w j = 0 := fun w => Sim.get_eq_zero _ _ (fun hm => by
        obtain ⟨e, he, rfl⟩ := List.mem_map.mp hm
        exact hj (Sim.row_bound hX w e he))
      rw [hz, hz]
  exact ⟨_, row, row', h1, h1', fun j _ => by rw [h2, h2', hh]⟩

end

/-! ## Where it fails -/

/-- one user who has interacted with both of two items -/
def twinPair : CSR ℝ := ⟨2, [[(0, 1), (1, 1)]]⟩

theorem twinPair_transpose : transpose twinPair = ⟨1, [[(0, 1)], [(0, 1)]]⟩ := by
  simp [transpose, twinPair, CSR.nrows, CSR.row, List.range_succ]

/-- C95 fails with a smaller `top_k`: which of equally similar items is kept is decided by their numbers, so of two
items with the same audience the first gets a score and the second gets none. -/
theorem C95_top_k_counterexample (hnth : NthOk nth) :
    ∃ (X : CSR ℝ) (W : CSR ℝ), Proper X ∧ Positive X ∧ SameAudience X 0 1 ∧
      cosineKnnFit nth exampleEnv2 X [("top_k", .num 1)] = .ok W ∧
      ¬ ItemsScoredAlike (similarity X (some (toDense W))) 0 1 := by
  have hfit : cosineKnnFit nth exampleEnv2 twinPair [("top_k", .num 1)] = .ok ⟨2, [[(0, 0)], [(0, 1)]]⟩ := by
    rw [cosineKnnFit_eq exampleEnv2 twinPair [("top_k", .num 1)] 0 false 1 2 .none
      (by intro a ha; simp at ha; rw [ha]; simp [cosineKnn]) (.inr ⟨rfl, rfl⟩) (.inr ⟨rfl, rfl⟩) (.inl (by simp))
      (.inl ⟨.inr ⟨rfl, rfl⟩, rfl⟩) (.inr ⟨.inr ⟨rfl, rfl⟩, rfl⟩)]
    unfold itemKnnW
    simp only [Weighting.apply, twinPair_transpose]
    rw [computeSimilarity_eq hnth _ _ _ _ _ _ _ (by norm_num [Accepted, Kind.paramsOk])]
    have hrow : bestOf 1 (simRow (.cosine false) ((0 : ℚ) : ℝ) ⟨1, [[(0, 1)], [(0, 1)]]⟩ [(0, 1)]) = [(0, 1)] := by
      norm_num [simRow, productRow_two, SpVec.get, bestOf, better, List.filter_cons]
    have hr : (List.range (CSR.nrows ⟨1, [[(0, (1 : ℝ))], [(0, 1)]]⟩)).map (fun r => bestOf 1 (simRow (.cosine false) ((0 : ℚ) : ℝ)
        ⟨1, [[(0, 1)], [(0, 1)]]⟩ ((CSR.mk 1 [[(0, 1)], [(0, 1)]]).row r))) = [[(0, 1)], [(0, 1)]] := by
      show [bestOf 1 (simRow (.cosine false) ((0 : ℚ) : ℝ) ⟨1, [[(0, 1)], [(0, 1)]]⟩ [(0, 1)]),
        bestOf 1 (simRow (.cosine false) ((0 : ℚ) : ℝ) ⟨1, [[(0, 1)], [(0, 1)]]⟩ [(0, 1)])] = _
      rw [hrow]
    simp only [hr]
    simp [removeDiagonal, CSR.nrows, zeroAt]
  refine ⟨twinPair, _, ?_, ?_, ?_, hfit, ?_⟩
  · constructor <;> intro row hr <;> simp only [twinPair, List.mem_singleton] at hr <;> subst hr <;> simp [twinPair]
  · intro row hr
    simp only [twinPair, List.mem_singleton] at hr
    subst hr
    simp
  · intro u hu
    have : u = 0 := by simpa [twinPair, CSR.nrows] using hu
    subst this
    norm_num [twinPair, CSR.get, CSR.row, SpVec.get]
  · intro h
    obtain ⟨cols, row, h1, -, -, h2⟩ := h 0 (by simp [similarity, twinPair, CSR.nrows])
    rw [C50_similarity_score twinPair (by
      intro row hr
      simp only [twinPair, List.mem_singleton] at hr
      subst hr; simp [twinPair]) _ (by simp [toDense, twinPair, CSR.nrows]) _ [0] (.cons ⟨by simp [twinPair, CSR.nrows], .inl rfl⟩ .nil)] at h1
    cases h1
    revert h2
    norm_num [itemBased, twinPair, Finset.sum_range_succ, toDense, Dense.get, CSR.nrows, CSR.get, CSR.row, SpVec.get]

/-! ### The hypotheses are met -/

/-- users 0 and 1 have the same history, items 0 and 1 the same audience -/
def exampleTwins : CSR ℝ := ⟨3, [[(0, 1), (1, 1)], [(1, 1), (0, 1)], [(1, 2), (2, 3), (0, 2)]]⟩

theorem exampleTwins_ok : Proper exampleTwins ∧ Positive exampleTwins ∧ SameHistory exampleTwins 0 1 ∧
    SameAudience exampleTwins 0 1 ∧ ¬ SameHistory exampleTwins 0 2 ∧ ¬ SameAudience exampleTwins 0 2 := by
  have hr : ∀ row ∈ exampleTwins.rows, row = [(0, 1), (1, 1)] ∨ row = [(1, 1), (0, 1)] ∨ row = [(1, 2), (2, 3), (0, 2)] := by
    intro row h
    simpa [exampleTwins] using h
  refine ⟨⟨fun row h => ?_, fun row h => ?_⟩, fun row h => ?_, fun i hi => ?_, fun u hu => ?_, fun h => ?_, fun h => ?_⟩
  · rcases hr row h with rfl | rfl | rfl <;> simp [exampleTwins]
  · rcases hr row h with rfl | rfl | rfl <;> simp
  · rcases hr row h with rfl | rfl | rfl <;> simp
  · have : i = 0 ∨ i = 1 ∨ i = 2 := by simp [exampleTwins] at hi; omega
    rcases this with rfl | rfl | rfl <;> norm_num [exampleTwins, CSR.get, CSR.row, SpVec.get]
  · have : u = 0 ∨ u = 1 ∨ u = 2 := by simp [exampleTwins, CSR.nrows] at hu; omega
    rcases this with rfl | rfl | rfl <;> norm_num [exampleTwins, CSR.get, CSR.row, SpVec.get]
  · have := h 2 (by simp [exampleTwins])
    norm_num [exampleTwins, CSR.get, CSR.row, SpVec.get] at this
  · have := h 0 (by simp [exampleTwins, CSR.nrows])
    norm_num [exampleTwins, CSR.get, CSR.row, SpVec.get] at this

/-- a case that meets the hypotheses of `C95_cosine_items` -/
example : ∃ W, cosineKnnFit sortNth exampleEnv2 exampleTwins [("normalize", .bool true), ("shrinkage", .num 2)] = .ok W ∧
    ItemsScoredAlike (similarity exampleTwins (some (toDense W))) 0 1 ∧
    UsersScoredAlike (similarity exampleTwins (some (toDense W))) 0 1 := by
  obtain ⟨W, h1, h2, h3⟩ := C95_cosine_items sortNth_ok exampleEnv2 exampleTwins exampleTwins_ok.1 exampleTwins_ok.2.1
    [("normalize", .bool true), ("shrinkage", .num 2)] 2 true 100 2 .none
    (by intro a ha; simp at ha; rcases ha with rfl | rfl <;> simp) (.inl rfl) (.inl rfl) (.inr ⟨rfl, rfl⟩)
    (.inl ⟨.inr ⟨rfl, rfl⟩, rfl⟩) (.inr ⟨.inr ⟨rfl, rfl⟩, rfl⟩) (by norm_num) (by norm_num) (by simp [exampleTwins])
  exact ⟨W, h1, h2 0 1 (by simp [exampleTwins]) (by simp [exampleTwins]) exampleTwins_ok.2.2.2.1,
    h3 0 1 (by simp [exampleTwins, CSR.nrows]) (by simp [exampleTwins, CSR.nrows]) exampleTwins_ok.2.2.1⟩

/-- a case that meets the hypotheses of `C95_rp3` -/
example : ∃ W, rp3Fit sortNth exampleEnv2 exampleTwins [("normalize_weight", .bool true), ("alpha", .num 2)] = .ok W ∧
    ItemsScoredAlike (similarity exampleTwins (some (cscDense W))) 0 1 := by
  obtain ⟨W, h1, h2, -⟩ := C95_rp3 sortNth_ok exampleEnv2 exampleTwins exampleTwins_ok.1 exampleTwins_ok.2.1
    [("normalize_weight", .bool true), ("alpha", .num 2)] 2 (3 / 5) true 2
    (by intro a ha; simp at ha; rcases ha with rfl | rfl <;> simp) (.inl rfl) (.inr ⟨rfl, rfl⟩) (.inr ⟨rfl, rfl⟩)
    (.inl rfl) (.inr ⟨.inr ⟨rfl, rfl⟩, rfl⟩) (by norm_num) (by norm_num) (by norm_num)
  exact ⟨W, h1, h2 0 1 (by simp [exampleTwins]) (by simp [exampleTwins]) exampleTwins_ok.2.2.2.1⟩

/-- a case that meets the hypotheses of `C95_cosine_users` -/
example : ∃ U, cosineUserKnnFit sortNth exampleEnv2 exampleTwins [("shrinkage", .num 2)] = .ok U ∧
    UsersScoredAlike (userSimilarity exampleTwins (some U)) 0 1 ∧ ItemsScoredAlike (userSimilarity exampleTwins (some U)) 0 1 := by
  obtain ⟨W, h1, h2, h3⟩ := C95_cosine_users sortNth_ok exampleEnv2 exampleTwins exampleTwins_ok.1 exampleTwins_ok.2.1
    [("shrinkage", .num 2)] 2 true 100 2 .none
    (by intro a ha; simp at ha; rw [ha]; simp) (.inl rfl) (.inr ⟨rfl, rfl⟩) (.inr ⟨rfl, rfl⟩)
    (.inl ⟨.inr ⟨rfl, rfl⟩, rfl⟩) (.inr ⟨.inr ⟨rfl, rfl⟩, rfl⟩) (by norm_num) (by norm_num) (by simp [exampleTwins, CSR.nrows])
  exact ⟨W, h1, h2 0 1 (by simp [exampleTwins, CSR.nrows]) (by simp [exampleTwins, CSR.nrows]) exampleTwins_ok.2.2.1,
    h3 0 1 (by simp [exampleTwins]) (by simp [exampleTwins]) exampleTwins_ok.2.2.2.1⟩

/-- a case that meets the hypotheses of `C95_slim_solution`: two items with the same audience -/
example : ∃ B : Nat → Nat → ℝ, Spec.Slim.Optimal false (CSC.get ⟨2, [[(0, 1), (1, 1)], [(1, 1), (0, 1)]]⟩) 2 2 1 (1 / 2) B ∧
    ∀ u, u < 2 → CSC.get (⟨2, [[(0, 1), (1, 1)], [(1, 1), (0, 1)]]⟩ : CSC ℝ) u 0 =
      CSC.get ⟨2, [[(0, 1), (1, 1)], [(1, 1), (0, 1)]]⟩ u 1 := by
  obtain ⟨B, hB⟩ := (C86_optimum ⟨2, [[(0, 1), (1, 1)], [(1, 1), (0, 1)]]⟩ (by norm_num) 1 (1 / 2) (by norm_num) (by norm_num)
    (by norm_num) false).1
  refine ⟨B, hB, fun u hu => ?_⟩
  have : u = 0 ∨ u = 1 := by omega
  rcases this with rfl | rfl <;> norm_num [CSC.get, SpVec.get]

/-- three items with the same audience -/
def exampleAlike : Matrix (Fin 2) (Fin 3) ℝ := fun u _ => (u.val : ℝ) + 1

/-- a case that meets the hypotheses of `C95_edlae` -/
example : ∃ W, edlaeFit exampleAlike [("dropout_p", .num (1 / 2))] = .ok W ∧
    (exampleAlike * W) 0 1 = (exampleAlike * W) 0 2 :=
  let ⟨W, h, _⟩ := (C83_edlae exampleAlike [("dropout_p", .num (1 / 2))] 1 (1 / 2)
    (by intro a ha; simp at ha; subst ha; simp) (.inr ⟨rfl, rfl⟩) (.inl rfl)).1 (by norm_num) (by norm_num) (by norm_num)
  ⟨W, h, (C95_edlae _ _ W h).1 1 2 (fun _ => rfl) 0⟩

end Irspack.Props
