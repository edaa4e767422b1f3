import Verif.Model.ScoreEval
import Verif.Proofs.Score
import Verif.Props.PyEvaluator

/-!
# C50: the score functions of the recommenders

`NamesAll n idx us` says that the index array `idx` denotes the users `us` (negative indices count from the
end); `Seen X u j` that a non-zero interaction is stored.
-/

namespace Irspack.Score

open Spec.Score Props

variable {R : Type} [Semiring R] [DecidableEq R]

/-! ## Masking what was seen -/

open Classical in
/-- C50 (remove seen).  For every recommender whose `get_score` answers with an array of the documented
shape, `get_score_remove_seen` returns the same array with exactly the items the users have interacted with
in the training data set to `-inf`. -/
theorem C50_remove_seen (r : Recommender R) (hX : r.X.WF) (users : List Int) (us : List Nat)
    (hu : NamesAll r.X.nrows users us) (s : Dense R) (hs : r.getScore users = .ok s)
    (hc : s.cols = r.X.cols) (hl : s.rows.length = users.length) :
    ∃ t, r.getScoreRemoveSeen users = .ok t ∧ t.cols = r.X.cols ∧ t.rows.length = users.length ∧
      ∀ (k u : Nat) (srow : Nat → R) (trow : Nat → WithBot R), us[k]? = some u →
        s.rows[k]? = some srow → t.rows[k]? = some trow →
        ∀ j, trow j = if Seen r.X u j then ⊥ else (srow j : WithBot R) := by
  unfold Recommender.getScoreRemoveSeen
  rw [hs, pickRows_eq _ hu]
  simp only [bind, Except.bind]
  have hwf : (⟨r.X.cols, us.map r.X.row⟩ : CSR R).WF := by
    intro row hrow e he
    obtain ⟨u, _, rfl⟩ := List.mem_map.mp hrow
    exact row_wf hX u e he
  rw [maskSeen_eq _ _ hwf (by rw [hc]) (by
    unfold CSR.nrows
    rw [List.length_map, NamesAll.length hu, hl])]
  refine ⟨_, rfl, hc, by simp [hl], ?_⟩
  intro k u srow trow hk h1 h2 j
  simp only [List.getElem?_mapIdx, h1, Option.map_some, Option.some.injEq] at h2
  rw [← h2]
  have : Seen (⟨r.X.cols, us.map r.X.row⟩ : CSR R) k j ↔ Seen r.X u j := by
    unfold Seen CSR.row
    simp only [List.getD_eq_getElem?_getD, List.getElem?_map, hk, Option.map_some, Option.getD_some]
  by_cases hseen : Seen r.X u j
  · simp only [if_pos hseen, if_pos (this.mpr hseen)]
  · simp only [if_neg hseen, if_neg (fun h => hseen (this.mp h))]

/-- C50 (remove seen, invalid users).  A user index outside the training data raises `IndexError`, also for
recommenders such as TopPop whose `get_score` ignores the indices. -/
theorem C50_remove_seen_index_error (r : Recommender R) (users : List Int)
    (hu : ¬ ∃ us, NamesAll r.X.nrows users us) (s : Dense R) (hs : r.getScore users = .ok s) :
    r.getScoreRemoveSeen users = .error .indexError := by
  unfold Recommender.getScoreRemoveSeen
  rw [hs, pickRows_error _ hu]
  rfl

open Classical in
/-- C50 (remove seen, blocks).  The same for `get_score_remove_seen_block(begin, end)`. -/
theorem C50_remove_seen_block (r : Recommender R) (hX : r.X.WF) (b e : Nat) (he : e ≤ r.X.nrows)
    (s : Dense R) (hs : r.getScoreBlock b e = .ok s) (hc : s.cols = r.X.cols)
    (hl : s.rows.length = e - b) :
    ∃ t, r.getScoreRemoveSeenBlock b e = .ok t ∧ t.cols = r.X.cols ∧ t.rows.length = e - b ∧
      ∀ k srow trow, s.rows[k]? = some srow → t.rows[k]? = some trow →
        ∀ j, trow j = if Seen r.X (b + k) j then ⊥ else (srow j : WithBot R) := by
  unfold Recommender.getScoreRemoveSeenBlock
  rw [hs, sliceRows_eq _ _ _ he]
  simp only [bind, Except.bind]
  have hwf : (⟨r.X.cols, (List.range' b (e - b)).map r.X.row⟩ : CSR R).WF := by
    intro row hrow e he
    obtain ⟨u, _, rfl⟩ := List.mem_map.mp hrow
    exact row_wf hX u e he
  rw [maskSeen_eq _ _ hwf (by rw [hc]) (by
    unfold CSR.nrows
    rw [List.length_map, List.length_range', hl])]
  refine ⟨_, rfl, hc, by simp [hl], ?_⟩
  intro k srow trow h1 h2 j
  simp only [List.getElem?_mapIdx, h1, Option.map_some, Option.some.injEq] at h2
  rw [← h2]
  have hk : k < e - b := by
    have := (List.getElem?_eq_some_iff.mp h1).1
    omega
  have : Seen (⟨r.X.cols, (List.range' b (e - b)).map r.X.row⟩ : CSR R) k j ↔ Seen r.X (b + k) j := by
    unfold Seen CSR.row
    simp only [List.getD_eq_getElem?_getD, List.getElem?_map, List.getElem?_range' hk, Option.map_some,
      Option.getD_some, Nat.one_mul]
  by_cases hseen : Seen r.X (b + k) j
  · simp only [if_pos hseen, if_pos (this.mpr hseen)]
  · simp only [if_neg hseen, if_neg (fun h => hseen (this.mp h))]

open Classical in
/-- C50 (remove seen, cold users).  For new users the items of the given profiles are masked. -/
theorem C50_remove_seen_cold (r : Recommender R) (x : CSR R) (hx : x.WF) (s : Dense R)
    (hs : r.getScoreColdUser x = .ok s) (hc : s.cols = x.cols) (hl : s.rows.length = x.nrows) :
    ∃ t, r.getScoreColdUserRemoveSeen x = .ok t ∧ t.cols = x.cols ∧ t.rows.length = x.nrows ∧
      ∀ k srow trow, s.rows[k]? = some srow → t.rows[k]? = some trow →
        ∀ j, trow j = if Seen x k j then ⊥ else (srow j : WithBot R) := by
  unfold Recommender.getScoreColdUserRemoveSeen
  rw [hs]
  simp only [bind, Except.bind]
  rw [maskSeen_eq _ _ hx (by rw [hc]) (by rw [hl])]
  refine ⟨_, rfl, hc, by simp [hl], ?_⟩
  intro k srow trow h1 h2 j
  simp only [List.getElem?_mapIdx, h1, Option.map_some, Option.some.injEq] at h2
  rw [← h2]

/-- C50 (errors are passed on).  Whatever `get_score`, `get_score_block` or `get_score_cold_user` raise is
raised by the masking variants. -/
theorem C50_remove_seen_errors (r : Recommender R) (e : Err) :
    (∀ users, r.getScore users = .error e → r.getScoreRemoveSeen users = .error e) ∧
    (∀ a b, r.getScoreBlock a b = .error e → r.getScoreRemoveSeenBlock a b = .error e) ∧
    ∀ x, r.getScoreColdUser x = .error e → r.getScoreColdUserRemoveSeen x = .error e := by
  refine ⟨fun users h => ?_, fun a b h => ?_, fun x h => ?_⟩
  · unfold Recommender.getScoreRemoveSeen; rw [h]; rfl
  · unfold Recommender.getScoreRemoveSeenBlock; rw [h]; rfl
  · unfold Recommender.getScoreColdUserRemoveSeen; rw [h]; rfl

/-! ## Item similarity -/

omit [DecidableEq R] in
/-- C50 (item similarity).  A learnt item-similarity recommender gives each requested user the product of
their interactions with the weight matrix, in the order of the request. -/
theorem C50_similarity_score (X : CSR R) (hX : X.WF) (W : Dense R) (hW : W.rows.length = X.cols)
    (users : List Int) (us : List Nat) (hu : NamesAll X.nrows users us) :
    (similarity X (some W)).getScore users = .ok ⟨W.cols, us.map (itemBased X W.get)⟩ := by
  show (do let x ← pickRows X users; let w ← fitted (some W); dotSparse x w) = _
  rw [pickRows_eq _ hu]
  exact dotSparse_rows X W us hX hW.symm

omit [DecidableEq R] in
/-- C50 (item similarity, blocks).  `get_score_block(begin, end)` is `get_score` of `begin, …, end - 1`. -/
theorem C50_similarity_block (X : CSR R) (hX : X.WF) (W : Dense R) (hW : W.rows.length = X.cols)
    (b e : Nat) (he : e ≤ X.nrows) :
    (similarity X (some W)).getScoreBlock b e =
        .ok ⟨W.cols, (List.range' b (e - b)).map (itemBased X W.get)⟩ ∧
      (similarity X (some W)).getScoreBlock b e =
        (similarity X (some W)).getScore (List.map (fun u : Nat => (u : Int)) (List.range' b (e - b))) := by
  have h1 : (similarity X (some W)).getScoreBlock b e =
      .ok ⟨W.cols, (List.range' b (e - b)).map (itemBased X W.get)⟩ := by
    show (do let w ← fitted (some W); dotSparse (sliceRows X b e) w) = _
    rw [sliceRows_eq _ _ _ he]
    exact dotSparse_rows X W _ hX hW.symm
  exact ⟨h1, by rw [h1, C50_similarity_score X hX W hW _ _ (namesAll_range _ b e he)]⟩

omit [DecidableEq R] in
/-- C50 (item similarity, end beyond the last user).  A block that reaches beyond the last user is cut off
there without an exception, whereas `get_score` raises `IndexError`. -/
theorem C50_similarity_block_beyond (X : CSR R) (W : Option (Dense R)) (b e : Nat) (he : X.nrows < e)
    (hb : b < e) :
    (similarity X W).getScoreBlock b e = (similarity X W).getScoreBlock b X.nrows ∧
      (similarity X W).getScore (List.map (fun u : Nat => (u : Int)) (List.range' b (e - b))) =
        .error .indexError := by
  constructor
  · have : sliceRows X b e = sliceRows X b (X.nrows : Int) := by
      unfold sliceRows
      rw [clip_beyond X.nrows e (by omega), clip_beyond X.nrows X.nrows (by omega)]
    show (do let w ← fitted W; dotSparse (sliceRows X b e) w) =
      (do let w ← fitted W; dotSparse (sliceRows X b X.nrows) w)
    rw [this]
  · have hno : ¬ ∃ us, NamesAll X.nrows (List.map (fun u : Nat => (u : Int)) (List.range' b (e - b))) us := by
      rintro ⟨us, h⟩
      unfold NamesAll at h
      rw [List.forall₂_map_left_iff] at h
      have hmem : e - 1 ∈ List.range' b (e - b) := by
        rw [List.mem_range'_1]; omega
      obtain ⟨k, hk, hke⟩ := List.mem_iff_getElem.mp hmem
      have hlen := h.length_eq
      have := h.get hk (by rw [← hlen]; exact hk)
      simp only [List.get_eq_getElem, hke] at this
      obtain ⟨h1, h2⟩ := this
      omega
    show (do let x ← pickRows X _; let w ← fitted W; dotSparse x w) = _
    rw [pickRows_error _ hno]
    rfl

omit [DecidableEq R] in
/-- C50 (item similarity, cold users).  New profiles are scored by the same formula; the score of the
training rows given as new profiles is `get_score` of these users; a profile matrix with another number of
columns raises `ValueError`. -/
theorem C50_similarity_cold (X : CSR R) (hX : X.WF) (W : Dense R) (hW : W.rows.length = X.cols) :
    (∀ x : CSR R, x.WF → x.cols = X.cols → (similarity X (some W)).getScoreColdUser x =
      .ok ⟨W.cols, (List.range x.nrows).map (itemBased x W.get)⟩) ∧
    (∀ (users : List Int) (us : List Nat), NamesAll X.nrows users us →
      (similarity X (some W)).getScoreColdUser ⟨X.cols, us.map X.row⟩ =
        (similarity X (some W)).getScore users) ∧
    ∀ x : CSR R, x.cols ≠ X.cols → (similarity X (some W)).getScoreColdUser x = .error .valueError := by
  refine ⟨fun x hx hc => ?_, fun users us hu => ?_, fun x hc => ?_⟩
  · have h := dotSparse_rows x W (List.range x.nrows) hx (hc.trans hW.symm)
    have hrows : (List.range x.nrows).map x.row = x.rows := by
      apply List.ext_getElem
      · simp [CSR.nrows]
      · intro k h1 h2
        simp [CSR.row, h2]
    rw [hrows] at h
    exact h
  · rw [C50_similarity_score X hX W hW users us hu]
    exact dotSparse_rows X W us hX hW.symm
  · show dotSparse x W = _
    unfold dotSparse
    rw [if_neg (by rw [hW]; exact hc)]

omit [DecidableEq R] in
/-- C50 (item similarity, users outside the training data) raise `IndexError`. -/
theorem C50_similarity_index_error (X : CSR R) (W : Option (Dense R)) (users : List Int)
    (hu : ¬ ∃ us, NamesAll X.nrows users us) :
    (similarity X W).getScore users = .error .indexError := by
  show (do let x ← pickRows X users; let w ← fitted W; dotSparse x w) = _
  rw [pickRows_error _ hu]
  rfl

omit [DecidableEq R] in
/-- C50 (item similarity before `learn`).  Scoring raises `RuntimeError`. -/
theorem C50_similarity_before_learn (X : CSR R) (users : List Int) (us : List Nat)
    (hu : NamesAll X.nrows users us) (b e : Int) (x : CSR R) :
    (similarity X none).getScore users = .error .runtimeError ∧
      (similarity X none).getScoreBlock b e = .error .runtimeError ∧
      (similarity X none).getScoreColdUser x = .error .runtimeError := by
  refine ⟨?_, rfl, rfl⟩
  show (do let x ← pickRows X users; let w ← fitted none; dotSparse x w) = _
  rw [pickRows_eq _ hu]
  rfl

open Classical in
/-- C50 (item similarity, all together).  `get_score_remove_seen` of a learnt item-similarity recommender:
`-inf` for the items a user has interacted with, the product with the weights elsewhere. -/
theorem C50_similarity_remove_seen (X : CSR R) (hX : X.WF) (W : Dense R) (hW : W.rows.length = X.cols)
    (hc : W.cols = X.cols) (users : List Int) (us : List Nat) (hu : NamesAll X.nrows users us) :
    ∃ t, (similarity X (some W)).getScoreRemoveSeen users = .ok t ∧ t.cols = X.cols ∧
      t.rows.length = users.length ∧ ∀ (k u : Nat) (trow : Nat → WithBot R), us[k]? = some u →
        t.rows[k]? = some trow →
        ∀ j, trow j = if Seen X u j then ⊥ else ((itemBased X W.get u j : R) : WithBot R) := by
  obtain ⟨t, h1, h2, h3, h4⟩ := C50_remove_seen (similarity X (some W)) hX users us hu _
    (C50_similarity_score X hX W hW users us hu) hc (by simp [NamesAll.length hu])
  refine ⟨t, h1, h2, h3, fun k u trow hk ht j => ?_⟩
  exact h4 k u _ trow hk (by simp [hk]) ht j

/-- non-vacuity: three users, users asked for by positive and negative index -/
example : ∃ (X : CSR ℤ) (W : Dense ℤ), X.WF ∧ W.rows.length = X.cols ∧ W.cols = X.cols ∧
    NamesAll X.nrows [2, -3] [2, 0] ∧ Seen X 0 1 ∧ ¬ Seen X 0 0 ∧ itemBased X W.get 0 0 = 8 :=
  ⟨⟨2, [[(1, 4)], [], [(0, 1), (1, 1)]]⟩, ⟨2, [fun j => j, fun _ => 2]⟩, by
    intro row hrow e he
    simp only [List.mem_cons, List.not_mem_nil, or_false] at hrow
    rcases hrow with rfl | rfl | rfl <;> simp at he
    · subst he; decide
    · rcases he with rfl | rfl <;> decide, rfl, rfl,
    .cons ⟨by decide, .inl rfl⟩ (.cons ⟨by decide, .inr rfl⟩ .nil),
    ⟨4, by simp [CSR.row], by decide⟩, by rintro ⟨v, hv, -⟩; simp [CSR.row] at hv, by decide⟩

/-! ## User similarity -/

omit [DecidableEq R] in
/-- C50 (user similarity).  A learnt user-similarity recommender weights the interactions of the other
users; blocks are the same rows; cold users are not implemented; before `learn` it raises
`RuntimeError`. -/
theorem C50_user_similarity (X U : CSR R) (hU : U.WF) (hn : U.nrows = X.nrows) (hc : U.cols = X.nrows) :
    (∀ (users : List Int) (us : List Nat), NamesAll X.nrows users us →
      ∃ s, (userSimilarity X (some U)).getScore users = .ok s ∧ s.cols = X.cols ∧
        s.rows = us.map (userBased U X)) ∧
    (∀ b e : Nat, e ≤ X.nrows → (userSimilarity X (some U)).getScoreBlock b e =
      (userSimilarity X (some U)).getScore (List.map (fun u : Nat => (u : Int)) (List.range' b (e - b)))) ∧
    (∀ users, (¬ ∃ us, NamesAll X.nrows users us) →
      (userSimilarity X (some U)).getScore users = .error .indexError) ∧
    (∀ x, (userSimilarity X (some U)).getScoreColdUser x = .error .notImplemented) ∧
    ∀ users b e, (userSimilarity X none).getScore users = .error .runtimeError ∧
      (userSimilarity X none).getScoreBlock b e = .error .runtimeError := by
  have hrow : ∀ u, itemBased U (toDense X).get u = userBased U X u := by
    intro u
    funext j
    unfold itemBased userBased
    apply Finset.sum_congr rfl
    intro v hv
    rw [toDense_get X v j (by rw [← hc]; exact Finset.mem_range.mp hv)]
  have hpick : ∀ (users : List Int) (us : List Nat), NamesAll X.nrows users us →
      (userSimilarity X (some U)).getScore users =
        .ok ⟨(toDense X).cols, us.map (itemBased U (toDense X).get)⟩ := by
    intro users us hu
    show (do let m ← pickRows U users; dotSparse m (toDense X)) = _
    rw [pickRows_eq U (hn ▸ hu)]
    exact dotSparse_rows U (toDense X) us hU (by rw [toDense_length, hc])
  refine ⟨fun users us hu => ⟨_, hpick users us hu, rfl, ?_⟩, fun b e he => ?_, fun users hu => ?_,
    fun _ => rfl, fun _ _ _ => ⟨rfl, rfl⟩⟩
  · exact List.map_congr_left (fun u _ => hrow u)
  · rw [hpick _ _ (namesAll_range _ b e he)]
    show dotSparse (sliceRows U b e) (toDense X) = _
    rw [sliceRows_eq U b e (hn ▸ he)]
    exact dotSparse_rows U (toDense X) _ hU (by rw [toDense_length, hc])
  · show (do let m ← pickRows U users; dotSparse m (toDense X)) = _
    rw [pickRows_error U (hn ▸ hu)]
    rfl

example : ∃ U X : CSR ℤ, U.WF ∧ U.nrows = X.nrows ∧ U.cols = X.nrows ∧ NamesAll X.nrows [-1] [1] ∧
    userBased U X 1 0 = 21 :=
  ⟨⟨2, [[(1, 5)], [(0, 3)]]⟩, ⟨1, [[(0, 7)], []]⟩, by
    intro row hrow e he
    simp only [List.mem_cons, List.not_mem_nil, or_false] at hrow
    rcases hrow with rfl | rfl <;> simp at he <;> subst he <;> decide, rfl, rfl,
    .cons ⟨by decide, .inr rfl⟩ .nil, by decide⟩

/-! ## Popularity -/

omit [DecidableEq R] in
/-- C50 (TopPop).  After `learn` the score of item `j` is the sum of column `j` of the training data, for
every known user, every new user and whatever the profile; there is no `get_score_block`; before `learn`
scoring raises `RuntimeError`. -/
theorem C50_top_pop (X : CSR R) :
    (∀ j, popularity X j = ∑ u ∈ Finset.range X.nrows, X.get u j) ∧
    (∀ users : List Int, ∃ s, (topPop X (some (popularity X))).getScore users = .ok s ∧ s.cols = X.cols ∧
      s.rows.length = users.length ∧ ∀ row ∈ s.rows, row = popularity X) ∧
    (∀ x : CSR R, ∃ s, (topPop X (some (popularity X))).getScoreColdUser x = .ok s ∧ s.cols = X.cols ∧
      s.rows.length = x.nrows ∧ ∀ row ∈ s.rows, row = popularity X) ∧
    (∀ score b e, (topPop X score).getScoreBlock b e = .error .notImplemented) ∧
    ∀ users x, (topPop X none).getScore users = .error .runtimeError ∧
      (topPop X none).getScoreColdUser x = .error .runtimeError := by
  refine ⟨fun j => ?_, fun users => ⟨_, rfl, rfl, by simp, ?_⟩, fun x => ⟨_, rfl, rfl, by simp, ?_⟩,
    fun _ _ _ => rfl, fun _ _ => ⟨rfl, rfl⟩⟩
  · unfold popularity
    rw [Finset.sum_range, CSR.nrows]
    rw [← List.sum_ofFn]
    congr 1
    apply List.ext_getElem
    · simp
    · intro k h1 h2
      simp only [List.length_map] at h1
      simp [CSR.get, CSR.row]
  · intro row hrow; exact List.eq_of_mem_replicate hrow
  · intro row hrow; exact List.eq_of_mem_replicate hrow

example : popularity (⟨2, [[(1, 4)], [], [(0, 1), (1, 1)]]⟩ : CSR ℤ) 1 = 5 := by decide

/-! ## Embeddings -/

omit [DecidableEq R] in
/-- C50 (embeddings).  For a learnt factorisation (TruncatedSVD, BPRFM, IALS) the score of item `j` for a
user is the product of the two embeddings plus the item's bias; blocks are the same rows;
`get_score_from_user_embedding` of all user embeddings gives the scores of all users, and
`get_score_from_item_embedding` of the item embeddings gives the scores without the biases. -/
theorem C50_embedding (X : CSR R) (m : Embedding R) (tf : Option (CSR R → Except Err (Dense R)))
    (hk : m.user.cols = m.item.cols) (users : List Int) (us : List Nat)
    (hu : NamesAll m.user.rows.length users us) :
    (∃ s, (factorised X (some m) tf).getScore users = .ok s ∧ s.cols = m.item.rows.length ∧
      s.rows = us.map (fun u j => (∑ c ∈ Finset.range m.user.cols, m.user.get u c * m.item.get j c)
        + m.bias j)) ∧
    (∃ s, getScoreFromItemEmbedding (some m) users m.item = .ok s ∧ s.cols = m.item.rows.length ∧
      s.rows = us.map (fun u j => ∑ c ∈ Finset.range m.user.cols, m.user.get u c * m.item.get j c)) ∧
    (∀ b e : Nat, e ≤ m.user.rows.length → (factorised X (some m) tf).getScoreBlock b e =
      (factorised X (some m) tf).getScore (List.map (fun u : Nat => (u : Int)) (List.range' b (e - b)))) ∧
    getScoreFromUserEmbedding (some m) m.user = (factorised X (some m) tf).getScore
      (List.map (fun u : Nat => (u : Int)) (List.range' 0 m.user.rows.length)) := by
  have hT : m.user.cols = m.item.T.rows.length := by rw [T_length, hk]
  have hprod : ∀ us : List Nat, dotDense ⟨m.user.cols, us.map (fun u j => m.user.get u j)⟩ m.item.T =
      .ok ⟨m.item.rows.length, us.map (fun u j =>
        ∑ c ∈ Finset.range m.user.cols, m.user.get u c * m.item.get j c)⟩ := by
    intro us
    rw [dotDense_rows m.user m.item.T us hT, T_cols]
    congr 2
    apply List.map_congr_left
    intro u _
    funext j
    apply Finset.sum_congr rfl
    intro c hc
    rw [T_get m.item c j (by rw [← hk]; exact Finset.mem_range.mp hc)]
  have hscore : ∀ (users : List Int) (us : List Nat), NamesAll m.user.rows.length users us →
      (factorised X (some m) tf).getScore users =
        .ok ⟨m.item.rows.length, us.map (fun u j =>
          (∑ c ∈ Finset.range m.user.cols, m.user.get u c * m.item.get j c) + m.bias j)⟩ := by
    intro users us hu
    show (do let u ← m.user.pick users; let s ← dotDense u m.item.T; pure (s.addRow m.bias)) = _
    rw [pick_eq m.user hu]
    simp only [bind, Except.bind]
    rw [hprod us]
    simp only [pure, Except.pure, Dense.addRow, List.map_map]
    rfl
  refine ⟨⟨_, hscore users us hu, rfl, rfl⟩, ⟨⟨_, _⟩, ?_, rfl, rfl⟩, fun b e he => ?_, ?_⟩
  · show (do let u ← m.user.pick users; dotDense u m.item.T) = _
    rw [pick_eq m.user hu]
    exact hprod us
  · rw [hscore _ _ (namesAll_range _ b e he)]
    show (do let s ← dotDense (m.user.slice b e) m.item.T; pure (s.addRow m.bias)) = _
    rw [slice_eq m.user b e he, hprod]
    simp only [bind, Except.bind, pure, Except.pure, Dense.addRow, List.map_map]
    rfl
  · have h0 := namesAll_range m.user.rows.length 0 m.user.rows.length (Nat.le_refl _)
    rw [Nat.sub_zero] at h0
    rw [hscore _ _ h0]
    show (do let s ← dotDense m.user m.item.T; pure (s.addRow m.bias)) = _
    have hself : m.user = ⟨m.user.cols, (List.range' 0 m.user.rows.length).map
        (fun u j => m.user.get u j)⟩ := by
      have := slice_eq m.user 0 m.user.rows.length (Nat.le_refl _)
      rw [Nat.sub_zero] at this
      rw [← this]
      unfold Dense.slice
      rw [clip_nat, clip_nat]
      simp
    rw [show dotDense m.user m.item.T = _ from (congrArg (fun d => dotDense d m.item.T) hself).trans (hprod _)]
    simp only [bind, Except.bind, pure, Except.pure, Dense.addRow, List.map_map]
    rfl

omit [DecidableEq R] in
/-- C50 (embeddings, round trip).  The embeddings a learnt model hands out are those its scores are made
of: scoring the handed-out user embeddings gives the scores of all users, and scoring users against the
handed-out item embeddings gives their scores without the biases. -/
theorem C50_embedding_handed_out (X : CSR R) (m : Embedding R)
    (tf : Option (CSR R → Except Err (Dense R))) (hk : m.user.cols = m.item.cols) :
    ∃ eu ei, getUserEmbedding (some m) = .ok eu ∧ getItemEmbedding (some m) = .ok ei ∧
      getScoreFromUserEmbedding (some m) eu = (factorised X (some m) tf).getScore
        (List.map (fun u : Nat => (u : Int)) (List.range' 0 eu.rows.length)) ∧
      ∀ users us, NamesAll eu.rows.length users us →
        ∃ s, (factorised X (some m) tf).getScore users = .ok s ∧
          ∃ s', getScoreFromItemEmbedding (some m) users ei = .ok s' ∧ s'.cols = s.cols ∧
            s.rows = s'.rows.map (fun row j => row j + m.bias j) ∧
            s'.rows = us.map (fun u j => ∑ c ∈ Finset.range eu.cols, eu.get u c * ei.get j c) := by
  refine ⟨m.user, m.item, rfl, rfl, ?_, ?_⟩
  · have h0 := namesAll_range m.user.rows.length 0 m.user.rows.length (Nat.le_refl _)
    exact (C50_embedding X m tf hk _ _ h0).2.2.2
  · intro users us hu
    obtain ⟨⟨s, h1, h2, h3⟩, ⟨s', h4, h5, h6⟩, -, -⟩ := C50_embedding X m tf hk users us hu
    refine ⟨s, h1, s', h4, by rw [h5, h2], ?_, h6⟩
    rw [h3, h6, List.map_map]
    rfl

omit [DecidableEq R] in
/-- C50 (embeddings, errors).  Before `learn` every function raises `RuntimeError`; afterwards invalid user
indices raise `IndexError` and embeddings of another dimension `ValueError`. -/
theorem C50_embedding_errors (X : CSR R) (tf : CSR R → Except Err (Dense R)) (m : Embedding R) :
    (∀ users b e x (d : Dense R), (factorised X none (some tf)).getScore users = .error .runtimeError ∧
      (factorised X none (some tf)).getScoreBlock b e = .error .runtimeError ∧
      (factorised X none (some tf)).getScoreColdUser x = .error .runtimeError ∧
      getUserEmbedding (none : Option (Embedding R)) = .error .runtimeError ∧
      getItemEmbedding (none : Option (Embedding R)) = .error .runtimeError ∧
      getScoreFromUserEmbedding none d = .error .runtimeError ∧
      getScoreFromItemEmbedding none users d = .error .runtimeError) ∧
    (∀ users d, (¬ ∃ us, NamesAll m.user.rows.length users us) →
      (factorised X (some m) (some tf)).getScore users = .error .indexError ∧
      getScoreFromItemEmbedding (some m) users d = .error .indexError) ∧
    (∀ d : Dense R, d.cols ≠ m.item.cols → getScoreFromUserEmbedding (some m) d = .error .valueError) ∧
    ∀ (users : List Int) (us : List Nat) (d : Dense R), NamesAll m.user.rows.length users us →
      d.cols ≠ m.user.cols → getScoreFromItemEmbedding (some m) users d = .error .valueError := by
  refine ⟨fun _ _ _ _ _ => ⟨rfl, rfl, rfl, rfl, rfl, rfl, rfl⟩, fun users d hu => ⟨?_, ?_⟩,
    fun d hd => ?_, fun users us d hu hd => ?_⟩
  · show (do let u ← m.user.pick users; let s ← dotDense u m.item.T; pure (s.addRow m.bias)) = _
    rw [pick_error m.user hu]
    rfl
  · show (do let u ← m.user.pick users; dotDense u d.T) = _
    rw [pick_error m.user hu]
    rfl
  · show (do let s ← dotDense d m.item.T; pure (s.addRow m.bias)) = _
    unfold dotDense
    rw [if_neg (by rw [T_length]; exact hd)]
    rfl
  · show (do let u ← m.user.pick users; dotDense u d.T) = _
    rw [pick_eq m.user hu]
    simp only [bind, Except.bind]
    unfold dotDense
    rw [if_neg (by rw [T_length]; exact fun h => hd h.symm)]

omit [DecidableEq R] in
/-- C50 (embeddings, cold users).  New users are embedded by the factorisation and scored like known
users. -/
theorem C50_embedding_cold (X x : CSR R) (m : Embedding R) (tf : CSR R → Except Err (Dense R)) :
    (∀ e, tf x = .ok e → (factorised X (some m) (some tf)).getScoreColdUser x =
      getScoreFromUserEmbedding (some m) e) ∧
    (∀ err, tf x = .error err → (factorised X (some m) (some tf)).getScoreColdUser x = .error err) ∧
    (factorised X (some m) none).getScoreColdUser x = .error .notImplemented := by
  refine ⟨fun e h => ?_, fun err h => ?_, rfl⟩
  · show (do let e ← tf x; getScoreFromUserEmbedding (some m) e) = _
    rw [h]; rfl
  · show (do let e ← tf x; getScoreFromUserEmbedding (some m) e) = _
    rw [h]; rfl

/-- a factorisation of rank 2 with three users, two items and biases -/
example : ∃ m : Embedding ℤ, m.user.cols = m.item.cols ∧ NamesAll m.user.rows.length [1, -1] [1, 2] ∧
    (∑ c ∈ Finset.range m.user.cols, m.user.get 1 c * m.item.get 1 c) + m.bias 1 = 12 :=
  ⟨⟨⟨2, [fun _ => 0, fun c => 1 + c, fun _ => 1]⟩, ⟨2, [fun _ => 1, fun c => 3 + c]⟩, fun j => j⟩,
    rfl, .cons ⟨by decide, .inl rfl⟩ (.cons ⟨by decide, .inr rfl⟩ .nil), by decide⟩

omit [DecidableEq R] in
/-- C50 (NMF).  The scores of a learnt NMF recommender are the products of the factors, for known users
and for embedded new users; blocks are not implemented; before `learn` scoring raises `AttributeError`. -/
theorem C50_nmf (X : CSR R) (m : Embedding R) (tf : CSR R → Except Err (Dense R))
    (hk : m.user.cols = m.item.cols) :
    (∀ (users : List Int) (us : List Nat), NamesAll m.user.rows.length users us →
      (nmf X (some m) tf).getScore users = .ok ⟨m.item.rows.length, us.map (fun u j =>
        ∑ c ∈ Finset.range m.user.cols, m.user.get u c * m.item.get j c)⟩) ∧
    (∀ users, (¬ ∃ us, NamesAll m.user.rows.length users us) →
      (nmf X (some m) tf).getScore users = .error .indexError) ∧
    (∀ x, tf x = .ok m.user → (nmf X (some m) tf).getScoreColdUser x =
      (nmf X (some m) tf).getScore (List.map (fun u : Nat => (u : Int)) (List.range' 0 m.user.rows.length))) ∧
    (∀ m' b e, (nmf X m' tf).getScoreBlock b e = .error .notImplemented) ∧
    ∀ users x, (nmf X none tf).getScore users = .error .attributeError ∧
      (nmf X none tf).getScoreColdUser x = .error .attributeError := by
  have hpick : ∀ (users : List Int) (us : List Nat), NamesAll m.user.rows.length users us →
      (nmf X (some m) tf).getScore users = .ok ⟨m.item.rows.length, us.map (fun u j =>
        ∑ c ∈ Finset.range m.user.cols, m.user.get u c * m.item.get j c)⟩ := by
    intro users us hu
    obtain ⟨s, h1, h2, h3⟩ := (C50_embedding X m none hk users us hu).2.1
    show (do let u ← m.user.pick users; dotDense u m.item.T) = _
    have : s = ⟨m.item.rows.length, us.map (fun u j =>
        ∑ c ∈ Finset.range m.user.cols, m.user.get u c * m.item.get j c)⟩ := by
      cases s; simp only at h2 h3; rw [h2, h3]
    rw [← this, ← h1]
    rfl
  refine ⟨hpick, fun users hu => ?_, fun x hx => ?_, fun _ _ _ => rfl, fun _ _ => ⟨rfl, rfl⟩⟩
  · show (do let u ← m.user.pick users; dotDense u m.item.T) = _
    rw [pick_error m.user hu]
    rfl
  · have h0 := namesAll_range m.user.rows.length 0 m.user.rows.length (Nat.le_refl _)
    rw [Nat.sub_zero] at h0
    show (do let e ← tf x; dotDense e m.item.T) = (do let u ← m.user.pick _; dotDense u m.item.T)
    rw [hx, pick_eq m.user h0]
    simp only [bind, Except.bind]
    have := slice_eq m.user 0 m.user.rows.length (Nat.le_refl _)
    rw [Nat.sub_zero] at this
    rw [← this]
    unfold Dense.slice
    rw [clip_nat, clip_nat]
    simp

/-- C50 (TruncatedSVD, rank).  With more than one item the number of components used is the requested one
if that is below the number of items and the number of items minus one otherwise; with at most one item the
constructor raises. -/
theorem C50_truncated_components (nItems k : Nat) :
    (1 < nItems → truncatedComponents nItems k = .ok (min k (nItems - 1))) ∧
    (nItems ≤ 1 → truncatedComponents nItems k = .error .assertionError) := by
  unfold truncatedComponents
  constructor
  · intro h
    rw [if_pos h]
    congr 1
    split <;> omega
  · intro h
    rw [if_neg (by omega)]

/-! ## What the evaluator sees -/

section
variable {S : Type}

/-- C50 (evaluation of item similarity).  What the evaluator gets from a learnt item-similarity recommender
are the products of the interactions with the weights, so C10 (evaluating the recommender is evaluating
that matrix) applies. -/
theorem C50_similarity_evaluated (emb : R → S) (X : CSR R) (hX : X.WF) (W : Dense R)
    (hW : W.rows.length = X.cols) :
    ScoresBy ((similarity X (some W)).seenByEvaluator emb)
      (fun u j => emb (itemBased X W.get u j)) ∧
    ∀ u j, ((similarity X (some W)).seenByEvaluator emb).trainNz u j = true ↔ Seen X u j := by
  refine ⟨⟨fun a b hb => .inl ?_, fun idx hidx => ?_⟩, fun u j => nonzeroAt_iff X u j⟩
  · show ((similarity X (some W)).getScoreBlock a b).map _ = _
    rw [(C50_similarity_block X hX W hW a b hb).1]
    simp only [Except.map, List.map_map]
    rfl
  · show ((similarity X (some W)).getScore _).map _ = _
    rw [C50_similarity_score X hX W hW _ idx (by
      unfold NamesAll
      rw [List.forall₂_map_left_iff]
      exact List.forall₂_same.mpr (fun u hu => ⟨hidx u hu, .inl rfl⟩))]
    simp only [Except.map, List.map_map]
    rfl

/-- C50 (evaluation of TopPop).  The evaluator gets the item popularity for every user. -/
theorem C50_top_pop_evaluated (emb : R → S) (X : CSR R) :
    ScoresBy ((topPop X (some (popularity X))).seenByEvaluator emb)
      (fun _ j => emb (popularity X j)) := by
  refine ⟨fun a b _ => .inr rfl, fun idx _ => ?_⟩
  show Except.ok _ = Except.ok _
  simp [List.map_const']

end

end Irspack.Score
