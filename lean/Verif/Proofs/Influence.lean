import Verif.Proofs.Separate
import Verif.Spec.Influence
import Verif.Props.Weighting

/-!
# The history of one user and the similarities of items and users it does not touch
-/

namespace Irspack.Sim

open Spec.Sim Spec.Influence

theorem transpose_row_unused {X X' : CSR ℝ} {v j : Nat} (h : DifferAt X X' v) (h1 : Unused X v j) (h2 : Unused X' v j) :
    (transpose X').row j = (transpose X).row j := by
  unfold Sim.transpose
  rw [row_ofRange, row_ofRange, h.cols, h.nrows]
  split_ifs with hc
  · refine List.flatMap_congr (fun i _ => ?_)
    by_cases hi : i = v
    · subst hi
      have e1 : ∀ Y : CSR ℝ, Unused Y i j → (Y.row i).filterMap (fun e => if e.1 = j then some (i, e.2) else none) = [] := by
        intro Y hY
        rw [List.filterMap_eq_nil_iff]
        intro e he
        rw [if_neg (hY e he)]
      rw [e1 X h1, e1 X' h2]
    · rw [h.others i hi]
  · rfl

theorem docFreq_unused {X X' : CSR ℝ} {v j : Nat} (h : DifferAt X X' v) (h1 : Unused X v j) (h2 : Unused X' v j) :
    docFreq X' j = docFreq X j := by
  rw [docFreq_eq, docFreq_eq, h.nrows]
  congr 1
  refine List.map_congr_left (fun u _ => ?_)
  by_cases hu : u = v
  · subst hu
    have e1 : ∀ Y : CSR ℝ, Unused Y u j → (Y.row u).countP (fun e => decide (e.1 = j)) = 0 := by
      intro Y hY
      rw [List.countP_eq_zero]
      intro e he
      simpa using hY e he
    rw [e1 _ h1, e1 _ h2]
  · rw [h.others u hu]

/-- TF-IDF multiplies all entries of an item by the same number -/
theorem transpose_tfIdf_row (X : CSR ℝ) (j : Nat) : (transpose (tfIdf X true)).row j =
    ((transpose X).row j).map (fun e => (e.1, e.2 * Real.log (X.nrows / ((docFreq X j : ℝ) + if true then 1 else 0)))) := by
  have hrow : ∀ i, (tfIdf X true).row i = (X.row i).map (fun e => (e.1, e.2 * Real.log (X.nrows / ((docFreq X e.1 : ℝ) + if true then 1 else 0)))) := by
    intro i
    exact row_mapRows X.cols X.rows (fun row => row.map (fun e => (e.1, e.2 * Real.log (X.nrows / ((docFreq X e.1 : ℝ) + if true then 1 else 0)))))
      rfl i
  have hn : (tfIdf X true).nrows = X.nrows := by simp [tfIdf, CSR.nrows]
  have hc : (tfIdf X true).cols = X.cols := rfl
  unfold Sim.transpose
  rw [row_ofRange, row_ofRange, hc, hn]
  by_cases h : j < X.cols
  · rw [if_pos h, if_pos h, List.map_flatMap]
    refine List.flatMap_congr (fun i _ => ?_)
    rw [hrow, List.filterMap_map, List.map_filterMap]
    refine List.filterMap_congr (fun e _ => ?_)
    by_cases he : e.1 = j <;> simp [he]
  · rw [if_neg h, if_neg h]; rfl

theorem transpose_weighted_unused (w : Weighting) (hw : Local w) {X X' : CSR ℝ} {v j : Nat} (h : DifferAt X X' v)
    (h1 : Unused X v j) (h2 : Unused X' v j) : (transpose (w.apply X')).row j = (transpose (w.apply X)).row j := by
  cases w with
  | none => exact transpose_row_unused h h1 h2
  | bm25 _ _ => exact hw.elim
  | tfIdf =>
    show (transpose (tfIdf X' true)).row j = (transpose (tfIdf X true)).row j
    rw [transpose_tfIdf_row, transpose_tfIdf_row, transpose_row_unused h h1 h2, docFreq_unused h h1 h2, h.nrows]

/-! ## one entry of a row of similarities -/

theorem filter_range (n j : Nat) : (List.range n).filter (fun i => decide (i = j)) = if j < n then [j] else [] := by
  induction n with
  | zero => simp
  | succ n ih =>
    rw [List.range_succ, List.filter_append, ih]
    by_cases h1 : j < n
    · rw [if_pos h1, if_pos (by omega)]
      simp [show n ≠ j by omega]
    · rw [if_neg h1]
      by_cases h2 : n = j
      · simp [h2]
      · rw [if_neg (by omega)]
        simp [h2]

theorem filterMap_at {f : Nat → Option (Nat × ℝ)} (hf : ∀ i e, f i = some e → e.1 = i) (l : List Nat) (j : Nat) :
    (l.filterMap f).filter (fun e => decide (e.1 = j)) = (l.filter (fun i => decide (i = j))).filterMap f := by
  induction l with
  | nil => rfl
  | cons a l ih =>
    cases h : f a with
    | none =>
      rw [List.filterMap_cons_none h, ih, List.filter_cons]
      split_ifs
      · rw [List.filterMap_cons_none h]
      · rfl
    | some e =>
      have ha := hf a e h
      rw [List.filterMap_cons_some h, List.filter_cons, List.filter_cons, ih, ha]
      split_ifs
      · rw [List.filterMap_cons_some h]
      · rfl

theorem productRow_at {Y Y' : CSR ℝ} (t : SpVec ℝ) (hn : Y'.nrows = Y.nrows) {j : Nat} (hj : Y'.row j = Y.row j) :
    (productRow t Y').filter (fun e => decide (e.1 = j)) = (productRow t Y).filter (fun e => decide (e.1 = j)) := by
  unfold productRow
  rw [filterMap_at, filterMap_at, hn, filter_range]
  · split_ifs
    · simp only [List.filterMap_cons, List.filterMap_nil, hj]
    · rfl
  all_goals
    intro i e he
    split_ifs at he
    cases he
    rfl

theorem map_at {A A' : SpVec ℝ} {j : Nat} (h : A'.filter (fun e => decide (e.1 = j)) = A.filter (fun e => decide (e.1 = j)))
    (g g' : Nat × ℝ → ℝ) (hg : ∀ e, e.1 = j → g' e = g e) :
    (A'.map (fun e => (e.1, g' e))).filter (fun e => decide (e.1 = j)) = (A.map (fun e => (e.1, g e))).filter (fun e => decide (e.1 = j)) := by
  rw [List.filter_map, List.filter_map]
  show List.map _ (A'.filter (fun e => decide (e.1 = j))) = List.map _ (A.filter (fun e => decide (e.1 = j)))
  rw [h]
  refine List.map_congr_left (fun e he => ?_)
  rw [hg e (by simpa using (List.mem_filter.mp he).2)]

/-- the similarity to the row `t` of entity `j` depends on the row of `j` only -/
theorem simRow_at {Y Y' : CSR ℝ} (kind : Kind) (s : ℝ) (t : SpVec ℝ) (hn : Y'.nrows = Y.nrows) {j : Nat} (hj : Y'.row j = Y.row j) :
    SpVec.get (simRow kind s Y' t) j = SpVec.get (simRow kind s Y t) j := by
  have hb : ∀ c c', CSR.row ⟨c', Y'.rows.map binarize⟩ j = CSR.row ⟨c, Y.rows.map binarize⟩ j := by
    intro c c'
    rw [row_mapRows _ _ _ rfl, row_mapRows _ _ _ rfl]
    exact congrArg binarize hj
  have hbn : ∀ c c', CSR.nrows ⟨c', Y'.rows.map binarize⟩ = CSR.nrows ⟨c, Y.rows.map binarize⟩ := by
    intro c c'
    simpa [CSR.nrows] using hn
  have key : (simRow kind s Y' t).filter (fun e => decide (e.1 = j)) = (simRow kind s Y t).filter (fun e => decide (e.1 = j)) := by
    cases kind with
    | raw => exact productRow_at t hn hj
    | cosine b =>
      cases b with
      | false => exact productRow_at t hn hj
      | true => exact map_at (productRow_at t hn hj) _ _ (fun e he => by rw [he, hj])
    | asymmetric alpha => exact map_at (productRow_at t hn hj) _ _ (fun e he => by rw [he, hj])
    | jaccard => exact map_at (productRow_at _ (hbn _ _) (hb _ _)) _ _ (fun e he => by rw [he, hb Y.cols Y'.cols])
    | tversky alpha beta => exact map_at (productRow_at _ (hbn _ _) (hb _ _)) _ _ (fun e he => by rw [he, hb Y.cols Y'.cols])
  unfold SpVec.get
  have hbeq : (fun e : Nat × ℝ => e.1 == j) = fun e => decide (e.1 = j) := by funext e; by_cases h : e.1 = j <;> simp [h]
  rw [hbeq, key]

theorem simRow_length (kind : Kind) (s : ℝ) (Y : CSR ℝ) (t : SpVec ℝ) : (simRow kind s Y t).length ≤ Y.nrows := by
  have hp : ∀ (t : SpVec ℝ) (Y : CSR ℝ), (productRow t Y).length ≤ Y.nrows := by
    intro t Y
    unfold productRow
    exact (List.length_filterMap_le _ _).trans (by simp)
  have hb := hp (binarize t) ⟨Y.cols, Y.rows.map binarize⟩
  have hbn : CSR.nrows ⟨Y.cols, Y.rows.map binarize⟩ = Y.nrows := by simp [CSR.nrows]
  cases kind with
  | raw => exact hp t Y
  | cosine b => cases b <;> simpa [simRow] using hp t Y
  | asymmetric alpha => simpa [simRow] using hp t Y
  | jaccard => rw [← hbn]; simpa [simRow] using hb
  | tversky alpha beta => rw [← hbn]; simpa [simRow] using hb

/-- the whole similarity matrix of items, with `top_k` at least the number of items -/
theorem itemKnnW_untouched {nth : Nat → SpVec ℝ → List Nat} (hnth : NthOk nth) (w : Weighting) (hw : Local w) (kind : Kind)
    (s : ℝ) (hs : 0 ≤ s) (hp : kind.paramsOk) {X X' : CSR ℝ} {v : Nat} (h : DifferAt X X' v) (T k : Nat) (hT : 1 ≤ T) (hk : X.cols ≤ k) :
    ∃ W W', itemKnnW nth w kind s X T k = .ok W ∧ itemKnnW nth w kind s X' T k = .ok W' ∧ W.nrows = X.cols ∧ W.cols = X.cols ∧
      W'.nrows = X.cols ∧ W'.cols = X.cols ∧
      ∀ i j, Unused X v i → Unused X' v i → Unused X v j → Unused X' v j → W'.get i j = W.get i j := by
  have hsh : ∀ X : CSR ℝ, (w.apply X).cols = X.cols ∧ (w.apply X).nrows = X.nrows := by
    intro X
    cases w <;> simp [Weighting.apply, tfIdf, bm25, CSR.nrows]
  have hacc : ∀ X : CSR ℝ, Accepted kind s (transpose (w.apply X)) (transpose X) T 128 := fun X =>
    ⟨hs, hT, by norm_num, hp, by simp [Sim.transpose, (hsh X).2]⟩
  have hfit : ∀ Z : CSR ℝ, Z.cols ≤ k → itemKnnW nth w kind s Z T k = .ok ⟨Z.cols, ((List.range Z.cols).map
      (fun r => simRow kind s (transpose (w.apply Z)) ((transpose Z).row r))).mapIdx zeroAt⟩ := by
    intro Z hZ
    unfold itemKnnW
    have hn : (transpose (w.apply Z)).nrows = Z.cols := by simp [Sim.transpose, CSR.nrows, (hsh Z).1]
    have hn2 : (transpose Z).nrows = Z.cols := by simp [Sim.transpose, CSR.nrows]
    rw [computeSimilarity_eq hnth _ _ _ _ _ _ _ (hacc Z), hn, hn2]
    have : ∀ r, bestOf k (simRow kind s (transpose (w.apply Z)) ((transpose Z).row r)) =
        simRow kind s (transpose (w.apply Z)) ((transpose Z).row r) := fun r =>
      bestOf_all _ _ ((simRow_length _ _ _ _).trans (by rw [hn]; exact hZ))
    simp only [this]
    unfold removeDiagonal
    rw [if_neg (by simp [CSR.nrows])]
  refine ⟨_, _, hfit X hk, hfit X' (by rw [h.cols]; exact hk), by simp [CSR.nrows], rfl, by simp [CSR.nrows, h.cols], h.cols, ?_⟩
  intro i j hi hi' hj hj'
  have hrow : ∀ (Y : CSR ℝ) i, CSR.row ⟨Y.cols, Y.rows.mapIdx zeroAt⟩ i = zeroAt i (Y.row i) := by
    intro Y i
    simp only [CSR.row, List.getD_eq_getElem?_getD, List.getElem?_mapIdx]
    cases Y.rows[i]? <;> simp [zeroAt]
  have hz : ∀ (i j : Nat) (r : SpVec ℝ), SpVec.get (zeroAt i r) j = if i = j then 0 else SpVec.get r j :=
    fun i j r => Props.zeroAt_get i r j
  have e1 := hrow ⟨X.cols, (List.range X.cols).map (fun r => simRow kind s (transpose (w.apply X)) ((transpose X).row r))⟩ i
  have e2 := hrow ⟨X'.cols, (List.range X'.cols).map (fun r => simRow kind s (transpose (w.apply X')) ((transpose X').row r))⟩ i
  unfold CSR.get
  simp only at e1 e2
  rw [e1, e2, hz, hz, row_ofRange, row_ofRange, h.cols]
  split_ifs
  · rfl
  · rw [transpose_row_unused h hi hi']
    exact simRow_at kind s _ (by simp [Sim.transpose, CSR.nrows, (hsh _).1, h.cols]) (transpose_weighted_unused w hw h hj hj')
  · rfl

/-! ## similarities of users -/

/-- the rows of the entities that have something in common with `t` are all that matters -/
theorem productRow_shared {Y Y' : CSR ℝ} (t : SpVec ℝ) (hn : Y'.nrows = Y.nrows)
    (h : ∀ j, Y'.row j = Y.row j ∨ ((∀ a ∈ t, ∀ b ∈ Y.row j, b.1 ≠ a.1) ∧ (∀ a ∈ t, ∀ b ∈ Y'.row j, b.1 ≠ a.1))) :
    productRow t Y' = productRow t Y := by
  unfold productRow
  rw [hn]
  refine List.filterMap_congr (fun j _ => ?_)
  rcases h j with hj | ⟨h1, h2⟩
  · rw [hj]
  · have e1 : ∀ Z : CSR ℝ, (∀ a ∈ t, ∀ b ∈ Z.row j, b.1 ≠ a.1) →
        (t.any (fun e => (Z.row j).any (fun f => decide (f.1 = e.1)))) = false := by
      intro Z hZ
      rw [Bool.eq_false_iff]
      intro hany
      obtain ⟨a, ha, hb⟩ := List.any_eq_true.mp hany
      obtain ⟨b, hb, hab⟩ := List.any_eq_true.mp hb
      exact hZ a ha b hb (by simpa using hab)
    rw [e1 Y h1, e1 Y' h2, if_neg (by simp), if_neg (by simp)]

theorem simRow_shared {Y Y' : CSR ℝ} (kind : Kind) (s : ℝ) (t : SpVec ℝ) (hc : Y'.cols = Y.cols) (hn : Y'.nrows = Y.nrows)
    (h : ∀ j, Y'.row j = Y.row j ∨ ((∀ a ∈ t, ∀ b ∈ Y.row j, b.1 ≠ a.1) ∧ (∀ a ∈ t, ∀ b ∈ Y'.row j, b.1 ≠ a.1))) :
    simRow kind s Y' t = simRow kind s Y t := by
  have hrow : ∀ e ∈ productRow t Y, Y'.row e.1 = Y.row e.1 := by
    intro e he
    obtain ⟨a, ha, b, hb, hab⟩ := mem_productRow he
    rcases h e.1 with h | ⟨h, -⟩
    · exact h
    · exact absurd hab (h a ha b hb)
  have hb : ∀ j, CSR.row ⟨Y.cols, Y'.rows.map binarize⟩ j = CSR.row ⟨Y.cols, Y.rows.map binarize⟩ j ∨
      ((∀ a ∈ binarize t, ∀ b ∈ CSR.row ⟨Y.cols, Y.rows.map binarize⟩ j, b.1 ≠ a.1) ∧
        (∀ a ∈ binarize t, ∀ b ∈ CSR.row ⟨Y.cols, Y'.rows.map binarize⟩ j, b.1 ≠ a.1)) := by
    intro j
    rw [row_mapRows _ _ _ rfl, row_mapRows _ _ _ rfl]
    rcases h j with h | ⟨h1, h2⟩
    · exact .inl (congrArg binarize h)
    · refine .inr ⟨fun a ha b hb => ?_, fun a ha b hb => ?_⟩ <;>
      · obtain ⟨a', ha', g1⟩ := binarize_ids _ a ha
        obtain ⟨b', hb', g2⟩ := binarize_ids _ b hb
        rw [← g1, ← g2]
        first | exact h1 a' ha' b' hb' | exact h2 a' ha' b' hb'
  have hbn : CSR.nrows ⟨Y.cols, Y'.rows.map binarize⟩ = CSR.nrows ⟨Y.cols, Y.rows.map binarize⟩ := by simpa [CSR.nrows] using hn
  have hbrow : ∀ e ∈ productRow (binarize t) ⟨Y.cols, Y.rows.map binarize⟩,
      CSR.row ⟨Y.cols, Y'.rows.map binarize⟩ e.1 = CSR.row ⟨Y.cols, Y.rows.map binarize⟩ e.1 := by
    intro e he
    obtain ⟨a, ha, b, hb', hab⟩ := mem_productRow he
    rcases hb e.1 with h | ⟨h, -⟩
    · exact h
    · exact absurd hab (h a ha b hb')
  cases kind with
  | raw => exact productRow_shared t hn h
  | cosine b =>
    cases b with
    | false => exact productRow_shared t hn h
    | true =>
      simp only [simRow, productRow_shared t hn h]
      exact List.map_congr_left (fun e he => by rw [hrow e he])
  | asymmetric alpha =>
    simp only [simRow, productRow_shared t hn h]
    exact List.map_congr_left (fun e he => by rw [hrow e he])
  | jaccard =>
    simp only [simRow]
    rw [hc, productRow_shared _ hbn hb]
    exact List.map_congr_left (fun e he => by rw [hbrow e he])
  | tversky alpha beta =>
    simp only [simRow]
    rw [hc, productRow_shared _ hbn hb]
    exact List.map_congr_left (fun e he => by rw [hbrow e he])

/-- the similarities of a user to the others, for every `top_k` -/
theorem userKnnU_stranger {nth : Nat → SpVec ℝ → List Nat} (hnth : NthOk nth) (kind : Kind) (s : ℝ) (hs : 0 ≤ s)
    (hp : kind.paramsOk) {X X' : CSR ℝ} {v : Nat} (h : DifferAt X X' v) (T k : Nat) (hT : 1 ≤ T) :
    ∃ U U', userKnnU nth .none kind s X T k = .ok U ∧ userKnnU nth .none kind s X' T k = .ok U' ∧
      U.nrows = X.nrows ∧ U.cols = X.nrows ∧ U'.nrows = X.nrows ∧ U'.cols = X.nrows ∧
      ∀ u, u ≠ v → Strangers X u v → Strangers X' u v → U'.row u = U.row u ∧ U.get u v = 0 := by
  have hfit : ∀ Z : CSR ℝ, userKnnU nth .none kind s Z T k = .ok ⟨Z.nrows, ((List.range Z.nrows).map
      (fun r => bestOf k (simRow kind s Z (Z.row r)))).mapIdx zeroAt⟩ := by
    intro Z
    unfold userKnnU
    simp only [Weighting.apply]
    rw [computeSimilarity_eq hnth _ _ _ _ _ _ _ ⟨hs, hT, by norm_num, hp, rfl⟩]
    simp only [removeDiagonal]
    rw [if_neg (by simp [CSR.nrows])]
  refine ⟨_, _, hfit X, hfit X', by simp [CSR.nrows], rfl, by simpa [CSR.nrows] using h.nrows, h.nrows, ?_⟩
  intro u huv h1 h2
  have hrow : ∀ (Y : CSR ℝ) i, CSR.row ⟨Y.cols, Y.rows.mapIdx zeroAt⟩ i = zeroAt i (Y.row i) := by
    intro Y i
    simp only [CSR.row, List.getD_eq_getElem?_getD, List.getElem?_mapIdx]
    cases Y.rows[i]? <;> simp [zeroAt]
  have e1 := hrow ⟨X.nrows, (List.range X.nrows).map (fun r => bestOf k (simRow kind s X (X.row r)))⟩ u
  have e2 := hrow ⟨X'.nrows, (List.range X'.nrows).map (fun r => bestOf k (simRow kind s X' (X'.row r)))⟩ u
  simp only at e1 e2
  constructor
  · rw [e1, e2, row_ofRange, row_ofRange, h.nrows]
    split_ifs
    · rw [h.others u huv, simRow_shared kind s (X.row u) h.cols h.nrows]
      intro j
      by_cases hj : j = v
      · subst hj
        refine .inr ⟨fun a ha b hb => h1 a ha b hb, fun a ha b hb => ?_⟩
        exact h2 a (by rw [h.others u huv]; exact ha) b hb
      · exact .inl (h.others j hj)
    · rfl
  · unfold CSR.get
    rw [e1, row_ofRange]
    refine get_of_not_mem _ _ (fun e he => ?_)
    obtain ⟨e', he', rfl⟩ := List.mem_map.mp he
    have hid : ∀ f : Nat × ℝ, (if f.1 = u then (f.1, (0 : ℝ)) else f).1 = f.1 := by intro f; split_ifs <;> rfl
    split_ifs at he' with hu
    · obtain ⟨a, ha, b, hb, hab⟩ := mem_simRow ((bestOf_sublist _ _).subset he')
      intro hv
      have hv : e'.1 = v := by rw [← hv]; split_ifs <;> rfl
      rw [hv] at hb
      exact h1 a ha b hb hab
    · simp at he'

end Irspack.Sim
