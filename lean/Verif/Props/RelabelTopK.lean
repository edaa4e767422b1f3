import Verif.Props.RelabelModels
import Verif.Spec.Untied

/-!
# C60, C87: neighbourhoods of any size

Without ties the `top_k` nearest neighbours are determined by the similarities, so they do not depend on the
numbers of users and items.
-/

namespace Irspack.Props
open Sim Spec Spec.Sim RecClasses Spec.Relabel

variable {nth : Nat → SpVec ℝ → List Nat}

theorem bestOf_untied (k n : Nat) (row : SpVec ℝ) (hs : Sorted n row) (hu : Untied n row.get) (j : Nat) (hj : j < n) :
    (bestOf k row).get j = nearest k n row.get j := by
  classical
  have hn := hs.nodup
  unfold nearest
  by_cases h0 : row.get j = 0
  · rcases get_le_of_bestOf k row hn j with h | h <;> rw [h, h0] <;> simp
  have hmem : j ∈ row.map Prod.fst := by
    by_contra hc; exact h0 (get_eq_zero row j hc)
  obtain ⟨e, he, rfl⟩ := List.mem_map.mp hmem
  have hval := get_of_mem row hn e he
  have hcount : row.countP (fun f => decide (better f e)) =
      ((Finset.range n).filter (fun i => row.get e.1 < row.get i)).card := by
    rw [List.countP_eq_length_filter, ← List.length_map (f := Prod.fst),
      ← List.toFinset_card_of_nodup (hn.sublist (List.filter_sublist.map _))]
    congr 1
    ext i
    simp only [List.mem_toFinset, List.mem_map, List.mem_filter, Finset.mem_filter, Finset.mem_range, decide_eq_true_eq]
    constructor
    · rintro ⟨f, ⟨hf, hb⟩, rfl⟩
      refine ⟨hs.2 f hf, ?_⟩
      rw [hval, get_of_mem row hn f hf]
      rcases hb with hb | ⟨hb1, hb2⟩
      · exact hb
      · exfalso
        have := hu.2 e.1 f.1 hj (hs.2 f hf) (by rw [hval, get_of_mem row hn f hf, hb1]) h0
        omega
    · rintro ⟨hi, hlt⟩
      have hpos : row.get i ≠ 0 := by
        have := hu.1 e.1 hj
        linarith [this, hlt] |> fun (h : 0 < row.get i) => h.ne'
      have hmi : i ∈ row.map Prod.fst := by
        by_contra hc; exact hpos (get_eq_zero row i hc)
      obtain ⟨f, hf, rfl⟩ := List.mem_map.mp hmi
      refine ⟨f, ⟨hf, .inl ?_⟩, rfl⟩
      rwa [hval, get_of_mem row hn f hf] at hlt
  rw [← hcount]
  by_cases hk : row.countP (fun f => decide (better f e)) < k
  · rw [if_pos hk]
    have : e ∈ bestOf k row := by
      unfold bestOf
      exact List.mem_filter.mpr ⟨he, by simpa using hk⟩
    rw [get_of_mem _ (hn.sublist ((bestOf_sublist k row).map _)) e this, hval]
  · rw [if_neg hk]
    apply get_eq_zero
    intro hc
    obtain ⟨f, hf, hfe⟩ := List.mem_map.mp hc
    have hf' := (bestOf_sublist k row).subset hf
    have hfe' : f = e := by
      have h1 := get_of_mem row hn f hf'
      rw [hfe, hval] at h1
      exact Prod.ext hfe h1.symm
    subst hfe'
    unfold bestOf at hf
    have := (List.mem_filter.mp hf).2
    exact hk (by simpa using this)

theorem full_sorted (hnth : NthOk nth) (kind : Kind) (s : ℝ) (X target : CSR ℝ) (nThreads maxChunk topK : Nat)
    (R : CSR ℝ) (h : computeSimilarity nth kind s X target nThreads maxChunk topK = .ok R) (r : Nat) :
    Sorted X.nrows (R.row r) := by
  by_cases ha : Accepted kind s X target nThreads maxChunk
  swap
  · rw [computeSimilarity_error nth kind s X target nThreads maxChunk topK ha] at h; cases h
  rw [computeSimilarity_eq hnth kind s X target nThreads maxChunk topK ha] at h
  injection h with h
  subst h
  by_cases hr : r < target.nrows
  · rw [row_range _ _ _ hr]
    exact (simRow_sorted kind s X (target.row r)).sublist (bestOf_sublist _ _)
  · rw [row_nil _ (by simpa [CSR.nrows] using hr)]
    exact ⟨List.Pairwise.nil, by simp⟩

theorem nearest_congr {k n : Nat} {f g : Nat → ℝ} (h : ∀ j, j < n → f j = g j) (j : Nat) (hj : j < n) :
    nearest k n f j = nearest k n g j := by
  unfold nearest
  rw [h j hj]
  congr 3
  exact Finset.filter_congr (fun i hi => by rw [h i (Finset.mem_range.mp hi)])

theorem Untied.congr {n : Nat} {f g : Nat → ℝ} (h : ∀ j, j < n → f j = g j) (hf : Untied n f) : Untied n g :=
  ⟨fun j hj => h j hj ▸ hf.1 j hj, fun i j hi hj e h0 => hf.2 i j hi hj (by rw [h i hi, h j hj, e])
    (by rw [h i hi]; exact h0)⟩

/-- C60 (`top_k`, items).  Row `i` of the learnt matrix holds the documented similarities to the items to which fewer
than `top_k` items are more similar; the item itself is one of those counted, and has weight 0. -/
theorem C60_untied_items (hnth : NthOk nth) (w : Weighting) (kind : Kind) (s : ℝ) (hs : 0 ≤ s) (hk : kind.paramsOk)
    (hset : kind.onSets → w = .none) (X : CSR ℝ) (hX : Proper X) (hz : NoStoredZero X) (T k : Nat) (hT : 1 ≤ T) :
    ∃ W, itemKnnW nth w kind s X T k = .ok W ∧ ∀ i, i < X.cols →
      Untied X.cols (fun j => formula kind X.nrows s (fun u => X.get u i) (fun u => (w.apply X).get u j)) →
      ∀ j, j < X.cols → W.get i j = if i = j then 0 else nearest k X.cols
        (fun j => formula kind X.nrows s (fun u => X.get u i) (fun u => (w.apply X).get u j)) j := by
  obtain ⟨S, W, hS, hW, -, -, hrow⟩ := C60_rows_are_top_k_partial hnth w kind s hs hk X T k hT
  refine ⟨W, hW, fun i hi hu j hj => ?_⟩
  have hsort := full_sorted hnth kind s _ _ T 128 X.cols S hS i
  rw [transpose_nrows, (apply_shape w X).1] at hsort
  have hget : ∀ j, j < X.cols → formula kind X.nrows s (fun u => X.get u i) (fun u => (w.apply X).get u j) =
      (S.row i).get j := by
    intro j hj
    have := full_get hnth kind s _ _ T 128 X.cols (transpose_proper _ (apply_proper w X hX))
      (transpose_proper X hX)
      (fun h => ⟨by rw [hset h]; exact transpose_noZero X hz, transpose_noZero X hz⟩) S hS
      (by rw [transpose_nrows, (apply_shape w X).1]) i j (by rw [transpose_nrows]; exact hi)
      (by rw [transpose_nrows, (apply_shape w X).1]; exact hj)
    rw [transpose_cols, (apply_shape w X).2] at this
    unfold CSR.get at this
    rw [this]
    congr 1
    · funext u; exact (transpose_get X hX i u).symm
    · funext u; exact (transpose_get _ (apply_proper w X hX) j u).symm
  rw [(hrow i).2.1 j]
  congr 1
  rw [bestOf_untied k X.cols _ hsort (Untied.congr hget hu) j hj]
  exact (nearest_congr hget j hj).symm

/-- C60 (`top_k`, users). -/
theorem C60_untied_users (hnth : NthOk nth) (w : Weighting) (kind : Kind) (s : ℝ) (hs : 0 ≤ s) (hk : kind.paramsOk)
    (hset : ¬ kind.onSets) (X : CSR ℝ) (hX : Proper X) (T k : Nat) (hT : 1 ≤ T) :
    ∃ U, userKnnU nth w kind s X T k = .ok U ∧ ∀ u, u < X.nrows →
      Untied X.nrows (fun v => formula kind X.cols s (X.get u) ((w.apply X).get v)) →
      ∀ v, v < X.nrows → U.get u v = if u = v then 0 else nearest k X.nrows
        (fun v => formula kind X.cols s (X.get u) ((w.apply X).get v)) v := by
  obtain ⟨S, W, hS, hW, -, -, hrow⟩ := C60_user_rows_are_top_k_partial hnth w kind s hs hk X T k hT
  refine ⟨W, hW, fun i hi hu j hj => ?_⟩
  have hsort := full_sorted hnth kind s _ _ T 128 X.nrows S hS i
  rw [(apply_shape w X).2] at hsort
  have hget : ∀ j, j < X.nrows → formula kind X.cols s (X.get i) ((w.apply X).get j) = (S.row i).get j := by
    intro j hj
    have := full_get hnth kind s _ _ T 128 X.nrows (apply_proper w X hX) hX
      (fun h => absurd h hset) S hS (by rw [(apply_shape w X).2]) i j hi (by rw [(apply_shape w X).2]; exact hj)
    rw [(apply_shape w X).1] at this
    exact this.symm
  rw [(hrow i).2.1 j]
  congr 1
  rw [bestOf_untied k X.nrows _ hsort (Untied.congr hget hu) j hj]
  exact (nearest_congr hget j hj).symm

theorem nearest_rename {k n : Nat} {p : Nat → Nat} (hp : Renames n p) {f f' : Nat → ℝ}
    (h : ∀ j, j < n → f' (p j) = f j) (j : Nat) (hj : j < n) : nearest k n f' (p j) = nearest k n f j := by
  classical
  unfold nearest
  rw [h j hj]
  have : ((Finset.range n).filter (fun i => f j < f' i)).card = ((Finset.range n).filter (fun i => f j < f i)).card := by
    rw [Finset.card_filter, Finset.card_filter]
    exact (hp.sum _ _ (fun i hi => by rw [h i hi])).symm
  rw [this]

theorem Untied.rename {n : Nat} {p : Nat → Nat} (hp : Renames n p) {f f' : Nat → ℝ}
    (h : ∀ j, j < n → f' (p j) = f j) (hf : Untied n f) : Untied n f' := by
  constructor
  · intro j hj
    obtain ⟨i, hi, rfl⟩ := hp.surj j hj
    rw [h i hi]; exact hf.1 i hi
  · intro a b ha hb e h0
    obtain ⟨i, hi, rfl⟩ := hp.surj a ha
    obtain ⟨j, hj, rfl⟩ := hp.surj b hb
    rw [h i hi] at e h0
    rw [h j hj] at e
    rw [hf.2 i j hi hj e h0]

theorem formula_rename {n : Nat} {p : Nat → Nat} (hp : Renames n p) (kind : Kind) (s : ℝ) {v w v' w' : Nat → ℝ}
    (hv : ∀ i, i < n → v' (p i) = v i) (hw : ∀ i, i < n → w' (p i) = w i) :
    formula kind n s v' w' = formula kind n s v w := by
  cases kind with
  | raw => exact dot_rename hp hv hw
  | cosine b =>
    cases b
    · exact dot_rename hp hv hw
    · exact cosine_rename hp s hv hw
  | asymmetric a => exact asymmetric_rename hp a s hv hw
  | jaccard => exact jaccard_rename hp s hv hw
  | tversky a b => exact tversky_rename hp a b s hv hw

/-- C87 (item neighbourhoods of any size).  For every `top_k`, an item without ties gets the same neighbours with the
same weights under other numbers of users and items. -/
theorem C87_item_knn_top_k (hnth : NthOk nth) (w : Weighting) (kind : Kind) (s : ℝ) (hs : 0 ≤ s) (hk : kind.paramsOk)
    (hset : kind.onSets → w = .none) {X X' : CSR ℝ} {σ π : Nat → Nat} (h : Renamed X X' σ π) (hX : Proper X)
    (hX' : Proper X') (hp : Positive X) (hp' : Positive X') (T T' k : Nat) (hT : 1 ≤ T) (hT' : 1 ≤ T') :
    ∃ W W', itemKnnW nth w kind s X T k = .ok W ∧ itemKnnW nth w kind s X' T' k = .ok W' ∧ ∀ i, i < X.cols →
      Untied X.cols (fun j => formula kind X.nrows s (fun u => X.get u i) (fun u => (w.apply X).get u j)) →
      ∀ j, j < X.cols → W'.get (π i) (π j) = W.get i j := by
  obtain ⟨W, h1, h2⟩ := C60_untied_items hnth w kind s hs hk hset X hX (positive_noZero hp) T k hT
  obtain ⟨W', h1', h2'⟩ := C60_untied_items hnth w kind s hs hk hset X' hX' (positive_noZero hp') T' k hT'
  refine ⟨W, W', h1, h1', fun i hi hu j hj => ?_⟩
  have hf : ∀ j, j < X.cols →
      formula kind X'.nrows s (fun u => X'.get u (π i)) (fun u => (w.apply X').get u (π j)) =
        formula kind X.nrows s (fun u => X.get u i) (fun u => (w.apply X).get u j) := by
    intro j hj
    rw [h.users]
    exact formula_rename h.renamesUsers kind s (fun u hu => h.entries u i hu hi)
      (fun u hu => apply_rename h hX hX' hp hp' w u j hu hj)
  have hi' : π i < X'.cols := by rw [h.items]; exact h.renamesItems.bound i hi
  have hj' : π j < X'.cols := by rw [h.items]; exact h.renamesItems.bound j hj
  have hij : π i = π j ↔ i = j := ⟨h.renamesItems.inj i j hi hj, fun e => by rw [e]⟩
  have hu' := Untied.rename h.renamesItems (f' := fun j => formula kind X'.nrows s (fun u => X'.get u (π i))
    (fun u => (w.apply X').get u j)) hf hu
  rw [h2 i hi hu j hj, h2' (π i) hi' (by rw [h.items]; exact hu') (π j) hj']
  simp only [hij]
  congr 1
  rw [h.items]
  exact nearest_rename h.renamesItems (f' := fun j => formula kind X'.nrows s (fun u => X'.get u (π i))
    (fun u => (w.apply X').get u j)) hf j hj

/-- C87 (user neighbourhoods of any size). -/
theorem C87_user_knn_top_k (hnth : NthOk nth) (w : Weighting) (kind : Kind) (s : ℝ) (hs : 0 ≤ s) (hk : kind.paramsOk)
    (hset : ¬ kind.onSets) {X X' : CSR ℝ} {σ π : Nat → Nat} (h : Renamed X X' σ π) (hX : Proper X)
    (hX' : Proper X') (hp : Positive X) (hp' : Positive X') (T T' k : Nat) (hT : 1 ≤ T) (hT' : 1 ≤ T') :
    ∃ U U', userKnnU nth w kind s X T k = .ok U ∧ userKnnU nth w kind s X' T' k = .ok U' ∧ ∀ u, u < X.nrows →
      Untied X.nrows (fun v => formula kind X.cols s (X.get u) ((w.apply X).get v)) →
      ∀ v, v < X.nrows → U'.get (σ u) (σ v) = U.get u v := by
  obtain ⟨W, h1, h2⟩ := C60_untied_users hnth w kind s hs hk hset X hX T k hT
  obtain ⟨W', h1', h2'⟩ := C60_untied_users hnth w kind s hs hk hset X' hX' T' k hT'
  refine ⟨W, W', h1, h1', fun i hi hu j hj => ?_⟩
  have hf : ∀ j, j < X.nrows → formula kind X'.cols s (X'.get (σ i)) ((w.apply X').get (σ j)) =
        formula kind X.cols s (X.get i) ((w.apply X).get j) := by
    intro j hj
    rw [h.items]
    exact formula_rename h.renamesItems kind s (fun u hu => h.entries i u hi hu)
      (fun u hu => apply_rename h hX hX' hp hp' w j u hj hu)
  have hi' : σ i < X'.nrows := by rw [h.users]; exact h.renamesUsers.bound i hi
  have hj' : σ j < X'.nrows := by rw [h.users]; exact h.renamesUsers.bound j hj
  have hij : σ i = σ j ↔ i = j := ⟨h.renamesUsers.inj i j hi hj, fun e => by rw [e]⟩
  have hu' := Untied.rename h.renamesUsers
    (f' := fun j => formula kind X'.cols s (X'.get (σ i)) ((w.apply X').get j)) hf hu
  rw [h2 i hi hu j hj, h2' (σ i) hi' (by rw [h.users]; exact hu') (σ j) hj']
  simp only [hij]
  congr 1
  rw [h.users]
  exact nearest_rename h.renamesUsers
    (f' := fun j => formula kind X'.cols s (X'.get (σ i)) ((w.apply X').get j)) hf j hj

/-! ### random walks -/

theorem rp3_nearest (hnth : NthOk nth) (X : CSR ℝ) (hX : Proper X) (hp : Positive X) (a be : ℝ) (b : Bool)
    (k T : Nat) (ha : 0 ≤ a) (hb : 0 ≤ be) (hT : 1 ≤ T) :
    ∃ V W : CSC ℝ, rp3Learn nth a be X (some k) b T = .ok W ∧
      (∀ i, i < X.cols → Untied X.cols (walkTo a be X i) → ∀ j, j < X.cols →
        V.get j i = nearest k X.cols (walkTo a be X i) j) ∧
      ∀ j i, W.get j i = if b then V.get j i / ∑ i' ∈ Finset.range X.cols, V.get j i' else V.get j i := by
  obtain ⟨P, full, hP, hf, h1, h2, h3⟩ := C36_rp3_penalises_popularity hnth a be ha hb X hX hp T hT
  obtain ⟨P', hP', -, -, h4⟩ := C36_p3_random_walk hnth a ha X hX hp T hT
  rw [hP] at hP'; cases hP'
  obtain ⟨V, full', hV, hf', h5, h6, h7⟩ := C61_columns_are_top_k hnth a be ha hb X k T hT
  rw [hf] at hf'; cases hf'
  refine ⟨V, if b then l1NormalizeRow V else V, ?_, ?_, ?_⟩
  · unfold rp3Learn at hV ⊢
    cases hr : rp3W nth a be (transpose X) T 128 ((some k).getD X.cols) with
    | error e => rw [hr] at hV; cases hV
    | ok R =>
      rw [hr] at hV
      simp only [Bool.false_eq_true, if_false] at hV
      cases hV
      rfl
  · intro i hi hu j hj
    have hsort : Sorted X.cols (full.cols.getD i []) := by
      obtain ⟨F, hF, hW⟩ := rp3_rows hnth a be ha hb (transpose X) T 128 X.cols hT (by norm_num)
      have hs := full_sorted hnth .raw 0 _ _ T 128 X.cols F hF i
      rw [itemToUser_nrows, transpose_nrows] at hs
      unfold rp3Learn at hf
      rw [Option.getD_none, hW] at hf
      simp only [Bool.false_eq_true, if_false] at hf
      cases hf
      exact hs
    have hget : ∀ j, j < X.cols → walkTo a be X i j = SpVec.get (full.cols.getD i []) j := by
      intro j hj
      have := h3 j hj i hi
      rw [h4 j hj i hi] at this
      exact this.symm
    unfold CSC.get
    rw [(h7 i).1, bestOf_untied k X.cols _ hsort (Untied.congr hget hu) j hj]
    exact (nearest_congr hget j hj).symm
  · intro j i
    cases b
    · simp
    · have := (C32_entries V).2.2.1 j i
      simpa [h6.trans h2] using this

theorem walkTo_rename {X X' : CSR ℝ} {σ π : Nat → Nat} (h : Renamed X X' σ π) (a be : ℝ) (i j : Nat)
    (hi : i < X.cols) (hj : j < X.cols) : walkTo a be X' (π i) (π j) = walkTo a be X i j := by
  unfold walkTo
  rw [walk_rename h a i j hi hj, popularity_rename h i hi]

/-- C61 (`top_k` of P3alpha and RP3beta without normalised weights).  Column `i` holds the walk probabilities
(divided by the popularity of `i`) from the items from which fewer than `top_k` items are more probable. -/
theorem C61_untied_columns (hnth : NthOk nth) (X : CSR ℝ) (hX : Proper X) (hp : Positive X) (a be : ℝ)
    (k T : Nat) (ha : 0 ≤ a) (hb : 0 ≤ be) (hT : 1 ≤ T) :
    ∃ W : CSC ℝ, rp3Learn nth a be X (some k) false T = .ok W ∧
      (be = 0 → p3Learn nth a X (some k) false T = .ok W) ∧
      ∀ i, i < X.cols → Untied X.cols (walkTo a be X i) → ∀ j, j < X.cols →
        W.get j i = nearest k X.cols (walkTo a be X i) j := by
  obtain ⟨V, W, h1, h2, h3⟩ := rp3_nearest hnth X hX hp a be false k T ha hb hT
  refine ⟨W, h1, fun h => ?_, fun i hi hu j hj => ?_⟩
  · subst h; rwa [C36_beta_zero] at h1
  · rw [h3 j i]; simpa using h2 i hi hu j hj

/-- C87 (random walks with any `top_k`).  A column without ties is the same under other numbers of users and items;
with normalised weights the other columns must have no ties either, as they enter the sums. -/
theorem C87_walk_top_k (hnth : NthOk nth) {X X' : CSR ℝ} {σ π : Nat → Nat} (h : Renamed X X' σ π) (hX : Proper X)
    (hX' : Proper X') (hp : Positive X) (hp' : Positive X') (a be : ℝ) (b : Bool) (k T T' : Nat) (ha : 0 ≤ a)
    (hb : 0 ≤ be) (hT : 1 ≤ T) (hT' : 1 ≤ T') :
    ∃ W W' : CSC ℝ, rp3Learn nth a be X (some k) b T = .ok W ∧ rp3Learn nth a be X' (some k) b T' = .ok W' ∧
      (be = 0 → p3Learn nth a X (some k) b T = .ok W ∧ p3Learn nth a X' (some k) b T' = .ok W') ∧
      ∀ i, i < X.cols → (∀ i', i' < X.cols → i' = i ∨ b = true → Untied X.cols (walkTo a be X i')) →
        ∀ j, j < X.cols → W'.get (π j) (π i) = W.get j i := by
  obtain ⟨V, W, h1, h2, h3⟩ := rp3_nearest hnth X hX hp a be b k T ha hb hT
  obtain ⟨V', W', h1', h2', h3'⟩ := rp3_nearest hnth X' hX' hp' a be b k T' ha hb hT'
  refine ⟨W, W', h1, h1', fun h => ?_, fun i hi hu j hj => ?_⟩
  · subst h
    rw [C36_beta_zero] at h1 h1'
    exact ⟨h1, h1'⟩
  have hv : ∀ i, i < X.cols → Untied X.cols (walkTo a be X i) → V'.get (π j) (π i) = V.get j i := by
    intro i hi hu
    have hf : ∀ j, j < X.cols → walkTo a be X' (π i) (π j) = walkTo a be X i j :=
      fun j hj => walkTo_rename h a be i j hi hj
    rw [h2 i hi hu j hj, h2' (π i) (by rw [h.items]; exact h.renamesItems.bound i hi)
      (by rw [h.items]; exact Untied.rename h.renamesItems hf hu) (π j)
      (by rw [h.items]; exact h.renamesItems.bound j hj), h.items]
    exact nearest_rename h.renamesItems hf j hj
  rw [h3, h3', hv i hi (hu i hi (.inl rfl))]
  cases b with
  | false => rfl
  | true =>
    simp only [if_true]
    congr 1
    rw [h.items]
    exact (h.renamesItems.sum _ _ (fun i' hi' => (hv i' hi' (hu i' hi' (.inr rfl))).symm)).symm

/-- C87: with ties the kept neighbours depend on the numbers.  One user, three items, `top_k = 1`: exchanging the
numbers of the first two items gives the same matrix of interactions, in which the item now called 0 has another
neighbourhood. -/
theorem C87_top_k_ties_counterexample (hnth : NthOk nth) :
    Renamed exampleOne exampleOne (fun u => u) (fun i => if i = 0 then 1 else if i = 1 then 0 else i) ∧
    ∃ W, itemKnnW nth .none (.cosine false) 0 exampleOne 1 1 = .ok W ∧ W.get 1 0 = 1 ∧ W.get 0 1 = 0 := by
  refine ⟨⟨rfl, rfl, Renames.id _, ⟨?_, ?_⟩, ?_⟩, ?_⟩
  · intro i hi
    have : i < 3 := hi
    show _ < 3
    interval_cases i <;> simp
  · intro i j hi hj
    have : i < 3 := hi
    have : j < 3 := hj
    interval_cases i <;> interval_cases j <;> simp
  · intro u i hu hi
    have : u < 1 := hu
    have : i < 3 := hi
    interval_cases u
    interval_cases i <;> simp [exampleOne, CSR.get, CSR.row, SpVec.get]
  · obtain ⟨W, h1, h2, -, h3, -⟩ := C60_column_wise_counterexample hnth
    exact ⟨W, h1, h2, h3⟩

/-- Three items; the first shares one user with each of the others, with different similarities. -/
def exampleUntied : CSR ℝ := ⟨3, [[(0, 1), (1, 2)], [(0, 2), (2, 3)]]⟩

/-- The hypotheses of `C87_item_knn_top_k` hold: item 0 has the similarities 5, 2, 6. -/
example : Proper exampleUntied ∧ Positive exampleUntied ∧
    Untied 3 (fun j => formula (.cosine false) 2 0 (fun u => exampleUntied.get u 0) (fun u => exampleUntied.get u j)) ∧
    nearest 2 3 (fun j => formula (.cosine false) 2 0 (fun u => exampleUntied.get u 0)
      (fun u => exampleUntied.get u j)) 1 = 0 := by
  have h0 : ∀ j, j < 3 → formula (.cosine false) 2 0 (fun u => exampleUntied.get u 0)
      (fun u => exampleUntied.get u j) = if j = 0 then 5 else if j = 1 then 2 else 6 := by
    intro j hj
    interval_cases j <;>
      norm_num [formula, dot, Finset.sum_range_succ, exampleUntied, CSR.get, CSR.row, SpVec.get]
  refine ⟨?_, ?_, ?_, ?_⟩
  · unfold Proper exampleUntied; simp only [List.forall_mem_cons]; simp
  · unfold Positive exampleUntied; simp only [List.forall_mem_cons]; simp
  · apply Untied.congr (f := fun j => if j = 0 then 5 else if j = 1 then 2 else 6) (fun j hj => (h0 j hj).symm)
    constructor
    · intro j hj; interval_cases j <;> norm_num
    · intro i j hi hj; interval_cases i <;> interval_cases j <;> norm_num
  · rw [nearest_congr h0 1 (by norm_num)]
    unfold nearest
    rw [if_neg]
    rw [Finset.card_filter]
    simp only [Finset.sum_range_succ, Finset.sum_range_zero]
    norm_num

/-- The hypotheses of `C61_untied_columns` and `C87_walk_top_k` hold: item 0 is reached from the three items with
probabilities 17/45, 1/3 and 2/5. -/
example : Untied 3 (walkTo 1 0 exampleUntied 0) := by
  have h0 : ∀ j, j < 3 → walkTo 1 0 exampleUntied 0 j = if j = 0 then 17 / 45 else if j = 1 then 1 / 3 else 2 / 5 := by
    intro j hj
    have hu : exampleUntied.nrows = 2 := rfl
    have hc : exampleUntied.cols = 3 := rfl
    have e00 : exampleUntied.get 0 0 = 1 := by norm_num [exampleUntied, CSR.get, CSR.row, SpVec.get]
    have e01 : exampleUntied.get 0 1 = 2 := by norm_num [exampleUntied, CSR.get, CSR.row, SpVec.get]
    have e02 : exampleUntied.get 0 2 = 0 := by norm_num [exampleUntied, CSR.get, CSR.row, SpVec.get]
    have e10 : exampleUntied.get 1 0 = 2 := by norm_num [exampleUntied, CSR.get, CSR.row, SpVec.get]
    have e11 : exampleUntied.get 1 1 = 0 := by norm_num [exampleUntied, CSR.get, CSR.row, SpVec.get]
    have e12 : exampleUntied.get 1 2 = 3 := by norm_num [exampleUntied, CSR.get, CSR.row, SpVec.get]
    interval_cases j <;>
      norm_num [walkTo, toUser, toItem, pw, hu, hc, Finset.sum_range_succ, e00, e01, e02, e10, e11, e12]
  apply Untied.congr (f := fun j => if j = 0 then 17 / 45 else if j = 1 then 1 / 3 else 2 / 5)
    (fun j hj => (h0 j hj).symm)
  constructor
  · intro j hj; interval_cases j <;> norm_num
  · intro i j hi hj; interval_cases i <;> interval_cases j <;> norm_num

end Irspack.Props
