import Mathlib.Tactic
import Verif.Proofs.Similarity

/-!
# C33, C34, C35: neighbourhood similarities

`nth` is any implementation of `std::nth_element` that keeps the promise of the C++ standard
(`NthOk`); `sortNth_ok` shows that one exists.
-/

namespace Irspack.Props
open Irspack Sim Spec.Sim

variable {nth : Nat → SpVec ℝ → List Nat}

/-! ### C33 -/

/-- C33: with `top_k`, each row is the list of the `top_k` best entries (larger value, ties toward the
smaller column) of the row computed without truncation, and has `min top_k size` entries. -/
theorem C33_top_k_best (hnth : NthOk nth) (kind : Kind) (s : ℝ) (X target : CSR ℝ)
    (nThreads maxChunk topK big : Nat) (hbig : X.nrows ≤ big) (R : CSR ℝ)
    (h : computeSimilarity nth kind s X target nThreads maxChunk topK = .ok R) :
    ∃ full, computeSimilarity nth kind s X target nThreads maxChunk big = .ok full ∧
      R.nrows = target.nrows ∧ R.cols = X.nrows ∧ full.nrows = target.nrows ∧ full.cols = X.nrows ∧
      ∀ r, R.row r = bestOf topK (full.row r) ∧ (R.row r).length = min topK (full.row r).length := by
  by_cases ha : Accepted kind s X target nThreads maxChunk
  swap
  · rw [computeSimilarity_error nth kind s X target nThreads maxChunk topK ha] at h; cases h
  rw [computeSimilarity_eq hnth kind s X target nThreads maxChunk topK ha] at h
  injection h with h
  subst h
  refine ⟨_, computeSimilarity_eq hnth kind s X target nThreads maxChunk big ha, ?_, rfl, ?_, rfl, ?_⟩
  · simp [CSR.nrows]
  · simp [CSR.nrows]
  intro r
  by_cases hr : r < target.nrows
  · rw [row_range _ _ _ hr, row_range _ _ _ hr]
    have hs := simRow_sorted kind s X (target.row r)
    rw [bestOf_all big _ (le_trans hs.length_le hbig)]
    refine ⟨rfl, ?_⟩
    rw [← truncRow_eq nth topK _ hs.nodup (hnth _ _), truncRow_length nth topK _ (hnth _ _)]
  · have h1 : ∀ k, (CSR.mk X.nrows ((List.range target.nrows).map
        (fun r => bestOf k (simRow kind s X (target.row r))))).row r = [] :=
      fun k => row_nil _ (by simpa [CSR.nrows] using hr)
    rw [h1, h1]
    simp [bestOf]

/-- C33: without truncation, every stored value is the value of the similarity, so `top_k ≥` row size
keeps the whole row.  Rows of the result have distinct columns in increasing order. -/
theorem C33_rows_sorted (hnth : NthOk nth) (kind : Kind) (s : ℝ) (X target : CSR ℝ)
    (nThreads maxChunk topK : Nat) (R : CSR ℝ)
    (h : computeSimilarity nth kind s X target nThreads maxChunk topK = .ok R) (r : Nat) :
    ((R.row r).map Prod.fst).Pairwise (· < ·) ∧ ∀ e ∈ R.row r, e.1 < X.nrows := by
  by_cases ha : Accepted kind s X target nThreads maxChunk
  swap
  · rw [computeSimilarity_error nth kind s X target nThreads maxChunk topK ha] at h; cases h
  rw [computeSimilarity_eq hnth kind s X target nThreads maxChunk topK ha] at h
  injection h with h
  subst h
  by_cases hr : r < target.nrows
  · rw [row_range _ _ _ hr]
    exact (simRow_sorted kind s X (target.row r)).sublist (bestOf_sublist _ _)
  · rw [row_nil _ (by simpa [CSR.nrows] using hr)]
    simp

/-! ### C34 -/

/-- C34: the result is the same for all thread counts and chunk sizes. -/
theorem C34_threads_and_chunks (hnth : NthOk nth) (kind : Kind) (s : ℝ) (X target : CSR ℝ) (topK : Nat)
    (n m n' m' : Nat) (hn : 1 ≤ n) (hm : 1 ≤ m) (hn' : 1 ≤ n') (hm' : 1 ≤ m') :
    computeSimilarity nth kind s X target n m topK = computeSimilarity nth kind s X target n' m' topK := by
  by_cases ha : Accepted kind s X target n m
  · have ha' : Accepted kind s X target n' m' := ⟨ha.1, hn', hm', ha.2.2.2⟩
    rw [computeSimilarity_eq hnth kind s X target n m topK ha,
      computeSimilarity_eq hnth kind s X target n' m' topK ha']
  · have ha' : ¬ Accepted kind s X target n' m' := fun h => ha ⟨h.1, hn, hm, h.2.2.2⟩
    rw [computeSimilarity_error nth kind s X target n m topK ha,
      computeSimilarity_error nth kind s X target n' m' topK ha']

/-- C34: the arguments that are refused, whatever the data: negative shrinkage, no thread, empty chunk,
parameters out of range, wrong number of features.  Everything else succeeds. -/
theorem C34_succeeds_iff (hnth : NthOk nth) (kind : Kind) (s : ℝ) (X target : CSR ℝ)
    (nThreads maxChunk topK : Nat) :
    (∃ R, computeSimilarity nth kind s X target nThreads maxChunk topK = .ok R) ↔
      0 ≤ s ∧ 1 ≤ nThreads ∧ 1 ≤ maxChunk ∧ kind.paramsOk ∧ target.cols = X.cols := by
  constructor
  · rintro ⟨R, h⟩
    by_contra hc
    rw [computeSimilarity_error nth kind s X target nThreads maxChunk topK hc] at h
    cases h
  · intro h
    exact ⟨_, computeSimilarity_eq hnth kind s X target nThreads maxChunk topK h⟩

/-- Two users and three items (as rows), one repeated value. -/
def exampleItems : CSR ℝ := ⟨2, [[(0, 1), (1, 1)], [(0, 1)], [(1, 2)]]⟩

theorem exampleItems_ok : Proper exampleItems ∧ NoStoredZero exampleItems := by
  refine ⟨⟨?_, ?_⟩, ?_⟩
  · intro row hr e he; simp [exampleItems] at hr; rcases hr with rfl | rfl | rfl <;> simp at he
    · rcases he with rfl | rfl <;> simp [exampleItems]
    · subst he; simp [exampleItems]
    · subst he; simp [exampleItems]
  · intro row hr; simp [exampleItems] at hr; rcases hr with rfl | rfl | rfl <;> simp
  · intro row hr e he; simp [exampleItems] at hr; rcases hr with rfl | rfl | rfl <;> simp at he
    · rcases he with rfl | rfl <;> norm_num
    · subst he; norm_num
    · subst he; norm_num

/-- The hypotheses are met: a conforming `nth_element` and three threads with chunks of 2. -/
example : ∃ R, computeSimilarity sortNth (.cosine true) 0 exampleItems exampleItems 3 2 1 = .ok R ∧
    ∀ r, (R.row r).length ≤ 1 := by
  obtain ⟨R, hR⟩ := (C34_succeeds_iff sortNth_ok (.cosine true) 0 exampleItems exampleItems 3 2 1).mpr
    ⟨le_refl _, by norm_num, by norm_num, trivial, rfl⟩
  refine ⟨R, hR, fun r => ?_⟩
  obtain ⟨full, -, -, -, -, -, h⟩ := C33_top_k_best sortNth_ok _ _ _ _ _ _ _ 3 (by simp [exampleItems, CSR.nrows]) R hR
  rw [(h r).2]; exact min_le_left _ _

/-! ### C35 -/

theorem full_get (hnth : NthOk nth) (kind : Kind) (s : ℝ) (X target : CSR ℝ)
    (nThreads maxChunk topK : Nat) (hX : Proper X) (ht : Proper target)
    (hz : kind.onSets → NoStoredZero X ∧ NoStoredZero target) (R : CSR ℝ)
    (h : computeSimilarity nth kind s X target nThreads maxChunk topK = .ok R) (hk : X.nrows ≤ topK)
    (r j : Nat) (hr : r < target.nrows) (hj : j < X.nrows) :
    R.get r j = formula kind X.cols s (target.get r) (X.get j) := by
  by_cases ha : Accepted kind s X target nThreads maxChunk
  swap
  · rw [computeSimilarity_error nth kind s X target nThreads maxChunk topK ha] at h; cases h
  rw [computeSimilarity_eq hnth kind s X target nThreads maxChunk topK ha] at h
  injection h with h
  subst h
  unfold CSR.get
  rw [row_range _ _ _ hr]
  have hs := simRow_sorted kind s X (target.row r)
  rw [bestOf_all topK _ (le_trans hs.length_le hk)]
  exact simRow_get kind s X hX (target.row r) (ha.2.2.2.2 ▸ row_bound ht r) (row_nodup ht r)
    (fun hk => ⟨(hz hk).1, row_nonzero (hz hk).2 r⟩) j hj

theorem any_get (hnth : NthOk nth) (kind : Kind) (s : ℝ) (X target : CSR ℝ)
    (nThreads maxChunk topK : Nat) (hX : Proper X) (ht : Proper target)
    (hz : kind.onSets → NoStoredZero X ∧ NoStoredZero target) (R : CSR ℝ)
    (h : computeSimilarity nth kind s X target nThreads maxChunk topK = .ok R) (r j : Nat) :
    R.get r j = 0 ∨ R.get r j = formula kind X.cols s (target.get r) (X.get j) := by
  by_cases ha : Accepted kind s X target nThreads maxChunk
  swap
  · rw [computeSimilarity_error nth kind s X target nThreads maxChunk topK ha] at h; cases h
  rw [computeSimilarity_eq hnth kind s X target nThreads maxChunk topK ha] at h
  injection h with h
  subst h
  unfold CSR.get
  have hs := simRow_sorted kind s X (target.row r)
  by_cases hr : r < target.nrows
  · rw [row_range _ _ _ hr]
    by_cases hj : j < X.nrows
    · rcases get_le_of_bestOf topK _ hs.nodup j with h0 | h0
      · exact Or.inl h0
      · right
        rw [h0]
        exact simRow_get kind s X hX (target.row r) (ha.2.2.2.2 ▸ row_bound ht r) (row_nodup ht r)
          (fun hk => ⟨(hz hk).1, row_nonzero (hz hk).2 r⟩) j hj
    · left
      apply get_eq_zero
      intro hm
      obtain ⟨e, he, rfl⟩ := List.mem_map.mp hm
      exact hj (hs.2 e ((bestOf_sublist _ _).subset he))
  · left
    rw [row_nil _ (by simpa [CSR.nrows] using hr)]
    exact get_nil j

/-- C35: without truncation, entry `(r, j)` of each similarity is the documented formula for row `r` of
the argument and row `j` of the data (with the constant `1e-6` in the denominator). -/
theorem C35_formulas (hnth : NthOk nth) (s : ℝ) (X target : CSR ℝ) (nThreads maxChunk topK : Nat)
    (hX : Proper X) (ht : Proper target) (hk : X.nrows ≤ topK) (r j : Nat) (hr : r < target.nrows)
    (hj : j < X.nrows) :
    (∀ R, computeSimilarity nth (.cosine false) s X target nThreads maxChunk topK = .ok R →
      R.get r j = dot X.cols (target.get r) (X.get j)) ∧
    (∀ R, computeSimilarity nth (.cosine true) s X target nThreads maxChunk topK = .ok R →
      R.get r j = cosine X.cols s (target.get r) (X.get j)) ∧
    (∀ alpha R, computeSimilarity nth (.asymmetric alpha) s X target nThreads maxChunk topK = .ok R →
      R.get r j = asymmetric X.cols alpha s (target.get r) (X.get j)) ∧
    (NoStoredZero X → NoStoredZero target → ∀ R,
      computeSimilarity nth .jaccard s X target nThreads maxChunk topK = .ok R →
      R.get r j = jaccard X.cols s (target.get r) (X.get j)) ∧
    (NoStoredZero X → NoStoredZero target → ∀ alpha beta R,
      computeSimilarity nth (.tversky alpha beta) s X target nThreads maxChunk topK = .ok R →
      R.get r j = tversky X.cols alpha beta s (target.get r) (X.get j)) := by
  refine ⟨fun R h => ?_, fun R h => ?_, fun a R h => ?_, fun z1 z2 R h => ?_, fun z1 z2 a b R h => ?_⟩
  · exact full_get hnth _ s X target _ _ _ hX ht (by intro h; exact False.elim h) R h hk r j hr hj
  · exact full_get hnth _ s X target _ _ _ hX ht (by intro h; exact False.elim h) R h hk r j hr hj
  · exact full_get hnth _ s X target _ _ _ hX ht (by intro h; exact False.elim h) R h hk r j hr hj
  · exact full_get hnth _ s X target _ _ _ hX ht (fun _ => ⟨z1, z2⟩) R h hk r j hr hj
  · exact full_get hnth _ s X target _ _ _ hX ht (fun _ => ⟨z1, z2⟩) R h hk r j hr hj

theorem eps_pos : 0 < eps := by unfold eps; norm_num

/-- C35: normalised cosine similarities lie strictly between -1 and 1, with any truncation. -/
theorem C35_cosine_range (hnth : NthOk nth) (s : ℝ) (X target : CSR ℝ) (nThreads maxChunk topK : Nat)
    (hX : Proper X) (ht : Proper target) (R : CSR ℝ)
    (h : computeSimilarity nth (.cosine true) s X target nThreads maxChunk topK = .ok R) (r j : Nat) :
    |R.get r j| < 1 := by
  have hs : 0 ≤ s := ((C34_succeeds_iff hnth _ s X target nThreads maxChunk topK).mp ⟨R, h⟩).1
  rcases any_get hnth _ s X target _ _ _ hX ht (by intro h; exact False.elim h) R h r j with h0 | h0
  · rw [h0]; norm_num
  · rw [h0]
    simp only [formula, cosine]
    have hc := cauchy X.cols (target.get r) (X.get j)
    have h1 := l2norm_nonneg X.cols (target.get r)
    have h2 := l2norm_nonneg X.cols (X.get j)
    have h3 := mul_nonneg h1 h2
    have he := eps_pos
    rw [abs_div, abs_of_pos (a := _ + s + eps) (by linarith), div_lt_one (by linarith)]
    linarith

/-- C35: Jaccard and Tversky similarities lie in `[0, 1)`, with any truncation. -/
theorem C35_set_range (hnth : NthOk nth) (s : ℝ) (X target : CSR ℝ) (nThreads maxChunk topK : Nat)
    (hX : Proper X) (ht : Proper target) (hzX : NoStoredZero X) (hzt : NoStoredZero target) (kind : Kind)
    (hkind : kind = .jaccard ∨ ∃ alpha beta, kind = .tversky alpha beta) (R : CSR ℝ)
    (h : computeSimilarity nth kind s X target nThreads maxChunk topK = .ok R) (r j : Nat) :
    0 ≤ R.get r j ∧ R.get r j < 1 := by
  obtain ⟨hs, -, -, hpar, -⟩ := (C34_succeeds_iff hnth kind s X target nThreads maxChunk topK).mp ⟨R, h⟩
  rcases any_get hnth kind s X target _ _ _ hX ht (fun _ => ⟨hzX, hzt⟩) R h r j with h0 | h0
  · rw [h0]; norm_num
  · rw [h0]
    have he := eps_pos
    rcases hkind with rfl | ⟨alpha, beta, rfl⟩
    · simp only [formula, jaccard]
      have : ((support X.cols (target.get r) ∩ support X.cols (X.get j)).card : ℝ) ≤
          (support X.cols (target.get r) ∪ support X.cols (X.get j)).card := by
        exact_mod_cast Finset.card_le_card (Finset.inter_subset_union)
      constructor
      · positivity
      · rw [div_lt_one (by positivity)]; linarith
    · obtain ⟨ha, hb⟩ := hpar
      simp only [formula, tversky]
      have h1 : 0 ≤ alpha * ((support X.cols (target.get r) \ support X.cols (X.get j)).card : ℝ) := by positivity
      have h2 : 0 ≤ beta * ((support X.cols (X.get j) \ support X.cols (target.get r)).card : ℝ) := by positivity
      constructor
      · positivity
      · rw [div_lt_one (by positivity)]; linarith

/-- C35: cosine and Jaccard similarities of a matrix with itself are symmetric (no truncation). -/
theorem C35_symmetric (hnth : NthOk nth) (s : ℝ) (X : CSR ℝ) (nThreads maxChunk topK : Nat)
    (hX : Proper X) (hz : NoStoredZero X) (hk : X.nrows ≤ topK) (kind : Kind)
    (hkind : kind = .jaccard ∨ ∃ normalize, kind = .cosine normalize) (R : CSR ℝ)
    (h : computeSimilarity nth kind s X X nThreads maxChunk topK = .ok R) (i j : Nat) (hi : i < X.nrows)
    (hj : j < X.nrows) : R.get i j = R.get j i := by
  rw [full_get hnth kind s X X _ _ _ hX hX (fun _ => ⟨hz, hz⟩) R h hk i j hi hj,
    full_get hnth kind s X X _ _ _ hX hX (fun _ => ⟨hz, hz⟩) R h hk j i hj hi]
  rcases hkind with rfl | ⟨nrm, rfl⟩
  · simp only [formula, jaccard]
    rw [Finset.inter_comm, Finset.union_comm]
  · cases nrm
    · exact dot_comm _ _ _
    · simp only [formula, cosine]
      rw [dot_comm, mul_comm (l2norm _ _)]

/-- C35: Tversky with both parameters 1 is Jaccard: the same result (or the same error) for all inputs. -/
theorem C35_tversky_is_jaccard (s : ℝ) (X target : CSR ℝ) (nThreads maxChunk topK : Nat) :
    computeSimilarity nth (.tversky 1 1) s X target nThreads maxChunk topK =
      computeSimilarity nth .jaccard s X target nThreads maxChunk topK := by
  have hrow : ∀ t, simRow (.tversky 1 1) s X t = simRow .jaccard s X t := by
    intro t
    unfold simRow
    apply List.map_congr_left
    intro e _
    congr 2
    ring
  have hp : (Kind.tversky 1 1).paramsOk ↔ Kind.jaccard.paramsOk := by
    simp [Kind.paramsOk]
  unfold computeSimilarity similarityRows triples simBlock
  simp only [hrow]
  classical
  apply if_congr
  · rw [hp]
  · rfl
  · rfl

/-- C35: asymmetric cosine with `alpha = 1/2` is the normalised cosine. -/
theorem C35_asymmetric_half_is_cosine (s : ℝ) (X target : CSR ℝ) (nThreads maxChunk topK : Nat) :
    computeSimilarity nth (.asymmetric (1 / 2)) s X target nThreads maxChunk topK =
      computeSimilarity nth (.cosine true) s X target nThreads maxChunk topK := by
  have hrow : ∀ t, simRow (.asymmetric (1 / 2)) s X t = simRow (.cosine true) s X t := by
    intro t
    unfold simRow
    apply List.map_congr_left
    intro e _
    rw [Real.sqrt_eq_rpow, Real.sqrt_eq_rpow]
    norm_num
  have hp : (Kind.asymmetric (1 / 2)).paramsOk ↔ (Kind.cosine true).paramsOk := by
    unfold Kind.paramsOk; norm_num
  unfold computeSimilarity similarityRows triples simBlock
  simp only [hrow]
  classical
  apply if_congr
  · rw [hp]
  · rfl
  · rfl

theorem formula_antitone (kind : Kind) (hp : kind.paramsOk) (n : Nat) (s s' : ℝ) (hs : 0 ≤ s)
    (hss : s ≤ s') (v w : Nat → ℝ) (hv : ∀ u, 0 ≤ v u) (hw : ∀ u, 0 ≤ w u) :
    formula kind n s' v w ≤ formula kind n s v w := by
  have hd := dot_nonneg_of n v w (fun u => mul_nonneg (hv u) (hw u))
  have he := eps_pos
  have h1 := l2norm_nonneg n v
  have h2 := l2norm_nonneg n w
  match kind, hp with
  | .raw, _ => exact le_refl _
  | .cosine false, _ => exact le_refl _
  | .cosine true, _ =>
    simp only [formula, cosine]
    apply div_le_div_of_nonneg_left hd (by positivity); linarith
  | .asymmetric alpha, _ =>
    simp only [formula, asymmetric]
    apply div_le_div_of_nonneg_left hd (by positivity); linarith
  | .jaccard, _ =>
    simp only [formula, jaccard]
    apply div_le_div_of_nonneg_left (by positivity) (by positivity); linarith
  | .tversky alpha beta, ⟨ha, hb⟩ =>
    simp only [formula, tversky]
    apply div_le_div_of_nonneg_left (by positivity) (by positivity); linarith

/-- C35: for non-negative data a larger shrinkage never gives a larger similarity (no truncation). -/
theorem C35_shrinkage (hnth : NthOk nth) (kind : Kind) (s s' : ℝ) (hs : s ≤ s') (X target : CSR ℝ)
    (nThreads maxChunk topK : Nat) (hX : Proper X) (ht : Proper target)
    (hpX : Positive X) (hpt : Positive target) (hk : X.nrows ≤ topK) (R R' : CSR ℝ)
    (h : computeSimilarity nth kind s X target nThreads maxChunk topK = .ok R)
    (h' : computeSimilarity nth kind s' X target nThreads maxChunk topK = .ok R') (r j : Nat)
    (hr : r < target.nrows) (hj : j < X.nrows) : R'.get r j ≤ R.get r j := by
  obtain ⟨h0, -, -, hp, -⟩ := (C34_succeeds_iff hnth kind s X target nThreads maxChunk topK).mp ⟨R, h⟩
  have hz : ∀ Y : CSR ℝ, Positive Y → NoStoredZero Y := fun Y hY row hrow e he => ne_of_gt (hY row hrow e he)
  have hnn : ∀ Y : CSR ℝ, Positive Y → ∀ a b, 0 ≤ Y.get a b := by
    intro Y hY a b
    unfold CSR.get SpVec.get
    apply List.sum_nonneg
    intro x hx
    obtain ⟨e, he, rfl⟩ := List.mem_map.mp hx
    by_cases hr : a < Y.nrows
    · exact (hY _ (row_mem Y hr) e (List.mem_filter.mp he).1).le
    · rw [row_nil Y hr] at he; simp at he
  rw [full_get hnth kind s X target _ _ _ hX ht (fun _ => ⟨hz X hpX, hz target hpt⟩) R h hk r j hr hj,
    full_get hnth kind s' X target _ _ _ hX ht (fun _ => ⟨hz X hpX, hz target hpt⟩) R' h' hk r j hr hj]
  exact formula_antitone kind hp X.cols s s' h0 hs _ _ (hnn target hpt r) (hnn X hpX j)

/-- A concrete value: items 0 and 1 share one of two users. -/
example : ∃ R, computeSimilarity sortNth .jaccard 1 exampleItems exampleItems 2 2 3 = .ok R ∧
    R.get 0 1 = 1 / (2 + 1 + eps) := by
  obtain ⟨R, hR⟩ := (C34_succeeds_iff sortNth_ok .jaccard 1 exampleItems exampleItems 2 2 3).mpr
    ⟨by norm_num, by norm_num, by norm_num, trivial, rfl⟩
  refine ⟨R, hR, ?_⟩
  rw [(C35_formulas sortNth_ok 1 exampleItems exampleItems 2 2 3 exampleItems_ok.1 exampleItems_ok.1
    (by simp [exampleItems, CSR.nrows]) 0 1 (by simp [exampleItems, CSR.nrows])
    (by simp [exampleItems, CSR.nrows])).2.2.2.1 exampleItems_ok.2 exampleItems_ok.2 R hR]
  have h0 : support 2 (exampleItems.get 0) = {0, 1} := by
    ext u
    simp only [support, Finset.mem_filter, Finset.mem_range, Finset.mem_insert, Finset.mem_singleton]
    constructor
    · omega
    · rintro (rfl | rfl) <;> norm_num [CSR.get, CSR.row, SpVec.get, exampleItems]
  have h1 : support 2 (exampleItems.get 1) = {0} := by
    ext u
    simp only [support, Finset.mem_filter, Finset.mem_range, Finset.mem_singleton]
    constructor
    · rintro ⟨hu, h⟩
      by_contra hc
      have : u = 1 := by omega
      subst this
      exact h (by norm_num [CSR.get, CSR.row, SpVec.get, exampleItems])
    · rintro rfl; norm_num [CSR.get, CSR.row, SpVec.get, exampleItems]
  have hc : exampleItems.cols = 2 := rfl
  unfold jaccard
  rw [hc, h0, h1]
  simp

end Irspack.Props
