import Verif.Proofs.Silent
import Verif.Spec.Separate

/-!
# Populations that share nothing do not influence each other
-/

namespace Irspack.Sim

open Spec.Sim Spec.Separate

theorem apart_compl {X : CSR ℝ} {P Q : Nat → Prop} (h : Apart X P Q) : Apart X (fun u => ¬ P u) (fun i => ¬ Q i) :=
  fun u e he => not_congr (h u e he)

theorem row_mapRows (c : Nat) (rows : List (SpVec ℝ)) (f : SpVec ℝ → SpVec ℝ) (hf : f [] = []) (i : Nat) :
    (CSR.row ⟨c, rows.map f⟩ i) = f (CSR.row ⟨c, rows⟩ i) := by
  simp only [CSR.row, List.getD_eq_getElem?_getD, List.getElem?_map]
  cases rows[i]? <;> simp [hf]

theorem row_ofRange (c n : Nat) (f : Nat → SpVec ℝ) (i : Nat) :
    (CSR.row ⟨c, (List.range n).map f⟩ i) = if i < n then f i else [] := by
  simp only [CSR.row, List.getD_eq_getElem?_getD, List.getElem?_map, List.getElem?_range]
  split_ifs with h
  · simp [List.getElem?_range, h]
  · rw [List.getElem?_eq_none (by simpa using h)]; rfl

/-- rows changed one by one, without new indices -/
theorem _root_.Irspack.Spec.Separate.SameInside.mapRows {X X' : CSR ℝ} {P Q : Nat → Prop} (h : SameInside X X' P Q) (c : Nat) (f f' : SpVec ℝ → SpVec ℝ)
    (hf : f [] = []) (hf' : f' [] = []) (h1 : ∀ row, ∀ e ∈ f row, ∃ e' ∈ row, e'.1 = e.1)
    (h2 : ∀ row, ∀ e ∈ f' row, ∃ e' ∈ row, e'.1 = e.1)
    (h3 : ∀ u, P u → f' (X.row u) = f (X.row u)) : SameInside ⟨c, X.rows.map f⟩ ⟨c, X'.rows.map f'⟩ P Q where
  cols := rfl
  nrows := by simpa [CSR.nrows] using h.nrows
  apart := by
    intro u e he
    rw [row_mapRows _ _ _ hf] at he
    obtain ⟨e', he', heq⟩ := h1 _ e he
    rw [← heq]
    exact h.apart u e' he'
  apart' := by
    intro u e he
    rw [row_mapRows _ _ _ hf'] at he
    obtain ⟨e', he', heq⟩ := h2 _ e he
    rw [← heq]
    exact h.apart' u e' he'
  inside := by
    intro u hu
    rw [row_mapRows _ _ _ hf, row_mapRows _ _ _ hf']
    have := h.inside u hu
    show f' (X'.row u) = f (X.row u)
    rw [this, h3 u hu]

theorem mem_transpose_row {X : CSR ℝ} {j : Nat} {e : Nat × ℝ} (he : e ∈ (transpose X).row j) : (j, e.2) ∈ X.row e.1 := by
  unfold transpose at he
  rw [row_ofRange] at he
  split_ifs at he with h
  · obtain ⟨i, -, hi⟩ := List.mem_flatMap.mp he
    obtain ⟨e', he', h1⟩ := List.mem_filterMap.mp hi
    split_ifs at h1 with h2
    cases h1
    rw [← h2]
    exact he'
  · simp at he

theorem _root_.Irspack.Spec.Separate.SameInside.transpose {X X' : CSR ℝ} {P Q : Nat → Prop} (h : SameInside X X' P Q) :
    SameInside (transpose X) (transpose X') Q P where
  cols := h.nrows
  nrows := by simp [Sim.transpose, CSR.nrows, h.cols]
  apart := fun j _ he => (h.apart _ _ (mem_transpose_row he)).symm
  apart' := fun j _ he => (h.apart' _ _ (mem_transpose_row he)).symm
  inside := by
    intro j hj
    unfold Sim.transpose
    rw [row_ofRange, row_ofRange, h.cols, h.nrows]
    split_ifs with hc
    · refine List.flatMap_congr (fun i _ => ?_)
      by_cases hi : P i
      · rw [h.inside i hi]
      · have e1 : ∀ Y : CSR ℝ, Apart Y P Q → (Y.row i).filterMap (fun e => if e.1 = j then some (i, e.2) else none) = [] := by
          intro Y hY
          rw [List.filterMap_eq_nil_iff]
          intro e he
          rw [if_neg]
          rintro rfl
          exact hi ((hY i e he).mpr hj)
        rw [e1 X h.apart, e1 X' h.apart']
    · rfl

theorem mem_productRow {t : SpVec ℝ} {Y : CSR ℝ} {e : Nat × ℝ} (he : e ∈ productRow t Y) :
    ∃ a ∈ t, ∃ b ∈ Y.row e.1, b.1 = a.1 := by
  unfold productRow at he
  obtain ⟨j, -, hj⟩ := List.mem_filterMap.mp he
  split_ifs at hj with h
  cases hj
  obtain ⟨a, ha, hb⟩ := List.any_eq_true.mp h
  obtain ⟨b, hb, hab⟩ := List.any_eq_true.mp hb
  exact ⟨a, ha, b, hb, by simpa using hab⟩

theorem productRow_inside {Y Y' : CSR ℝ} {P Q : Nat → Prop} (h : SameInside Y Y' Q P) (t : SpVec ℝ) (ht : ∀ e ∈ t, P e.1) :
    productRow t Y' = productRow t Y := by
  unfold productRow
  rw [h.nrows]
  refine List.filterMap_congr (fun j _ => ?_)
  by_cases hj : Q j
  · rw [h.inside j hj]
  · have e1 : ∀ Z : CSR ℝ, Apart Z Q P → (t.any (fun e => (Z.row j).any (fun f => decide (f.1 = e.1)))) = false := by
      intro Z hZ
      rw [Bool.eq_false_iff]
      intro hany
      obtain ⟨a, ha, hb⟩ := List.any_eq_true.mp hany
      obtain ⟨b, hb, hab⟩ := List.any_eq_true.mp hb
      have hab : b.1 = a.1 := by simpa using hab
      exact hj ((hZ j b hb).mpr (hab ▸ ht a ha))
    rw [e1 Y h.apart, e1 Y' h.apart', if_neg (by simp), if_neg (by simp)]

theorem mem_productRow_apart {Y : CSR ℝ} {P Q : Nat → Prop} (h : Apart Y Q P) {t : SpVec ℝ} (ht : ∀ e ∈ t, P e.1) :
    ∀ e ∈ productRow t Y, Q e.1 := by
  intro e he
  obtain ⟨a, ha, b, hb, hab⟩ := mem_productRow he
  exact (h e.1 b hb).mpr (hab ▸ ht a ha)

theorem binarize_ids (v : SpVec ℝ) : ∀ e ∈ binarize v, ∃ e' ∈ v, e'.1 = e.1 := by
  intro e he
  obtain ⟨e', he', rfl⟩ := List.mem_map.mp he
  exact ⟨e', he', rfl⟩

theorem _root_.Irspack.Spec.Separate.SameInside.binarized {Y Y' : CSR ℝ} {P Q : Nat → Prop} (h : SameInside Y Y' P Q) :
    SameInside ⟨Y.cols, Y.rows.map binarize⟩ ⟨Y.cols, Y'.rows.map binarize⟩ P Q :=
  h.mapRows Y.cols binarize binarize rfl rfl binarize_ids binarize_ids (fun _ _ => rfl)

theorem mem_simRow {kind : Kind} {s : ℝ} {Y : CSR ℝ} {t : SpVec ℝ} {e : Nat × ℝ} (he : e ∈ simRow kind s Y t) :
    ∃ a ∈ t, ∃ b ∈ Y.row e.1, b.1 = a.1 := by
  have key : ∀ (f : Nat × ℝ → ℝ), e ∈ (productRow t Y).map (fun e => (e.1, f e)) → ∃ a ∈ t, ∃ b ∈ Y.row e.1, b.1 = a.1 := by
    intro f hf
    obtain ⟨e', he', rfl⟩ := List.mem_map.mp hf
    exact mem_productRow (e := e') he'
  have keyb : ∀ (f : Nat × ℝ → ℝ), e ∈ (productRow (binarize t) ⟨Y.cols, Y.rows.map binarize⟩).map (fun e => (e.1, f e)) →
      ∃ a ∈ t, ∃ b ∈ Y.row e.1, b.1 = a.1 := by
    intro f hf
    obtain ⟨e', he', rfl⟩ := List.mem_map.mp hf
    obtain ⟨a, ha, b, hb, hab⟩ := mem_productRow (e := e') he'
    rw [row_mapRows _ _ _ rfl] at hb
    obtain ⟨a', ha', h1⟩ := binarize_ids _ a ha
    obtain ⟨b', hb', h2⟩ := binarize_ids _ b hb
    exact ⟨a', ha', b', hb', by rw [h1, h2, hab]⟩
  cases kind with
  | raw => exact mem_productRow he
  | cosine b =>
    cases b with
    | false => exact mem_productRow he
    | true => exact key _ he
  | asymmetric alpha => exact key _ he
  | jaccard => exact keyb _ he
  | tversky alpha beta => exact keyb _ he

theorem simRow_inside {Y Y' : CSR ℝ} {P Q : Nat → Prop} (h : SameInside Y Y' Q P) (kind : Kind) (s : ℝ) (t : SpVec ℝ)
    (ht : ∀ e ∈ t, P e.1) : simRow kind s Y' t = simRow kind s Y t := by
  have hb := h.binarized
  have htb : ∀ e ∈ binarize t, P e.1 := by
    intro e he
    obtain ⟨e', he', h1⟩ := binarize_ids t e he
    exact h1 ▸ ht e' he'
  have hrow : ∀ e ∈ productRow t Y, Y'.row e.1 = Y.row e.1 := fun e he => h.inside e.1 (mem_productRow_apart h.apart ht e he)
  cases kind with
  | raw => exact productRow_inside h t ht
  | cosine b =>
    cases b with
    | false => exact productRow_inside h t ht
    | true =>
      simp only [simRow, productRow_inside h t ht]
      exact List.map_congr_left (fun e he => by rw [hrow e he])
  | asymmetric alpha =>
    simp only [simRow, productRow_inside h t ht]
    exact List.map_congr_left (fun e he => by rw [hrow e he])
  | jaccard =>
    simp only [simRow]
    rw [h.cols, productRow_inside hb _ htb]
    exact List.map_congr_left (fun e he => by rw [hb.inside e.1 (mem_productRow_apart hb.apart htb e he)])
  | tversky alpha beta =>
    simp only [simRow]
    rw [h.cols, productRow_inside hb _ htb]
    exact List.map_congr_left (fun e he => by rw [hb.inside e.1 (mem_productRow_apart hb.apart htb e he)])

theorem row_apart {X : CSR ℝ} {P Q : Nat → Prop} (h : Apart X P Q) {u : Nat} (hu : P u) : ∀ e ∈ X.row u, Q e.1 :=
  fun e he => (h u e he).mp hu

/-- the similarities of the entities of both parts -/
theorem computeSimilarity_inside {nth : Nat → SpVec ℝ → List Nat} (hnth : NthOk nth) (kind : Kind) (s : ℝ)
    {Y Y' Z Z' : CSR ℝ} {P Q : Nat → Prop} (hY : SameInside Y Y' Q P) (hZ : SameInside Z Z' Q P) (T c k : Nat)
    (ha : Accepted kind s Y Z T c) :
    ∃ S S', computeSimilarity nth kind s Y Z T c k = .ok S ∧ computeSimilarity nth kind s Y' Z' T c k = .ok S' ∧
      SameInside S S' Q Q := by
  have ha' : Accepted kind s Y' Z' T c := ⟨ha.1, ha.2.1, ha.2.2.1, ha.2.2.2.1, by rw [hZ.cols, hY.cols]; exact ha.2.2.2.2⟩
  have hap : ∀ Y Z : CSR ℝ, Apart Y Q P → Apart Z Q P → Apart ⟨Y.nrows, (List.range Z.nrows).map
      (fun r => bestOf k (simRow kind s Y (Z.row r)))⟩ Q Q := by
    intro Y Z hY hZ i e he
    rw [row_ofRange] at he
    split_ifs at he with hi
    · have he := (bestOf_sublist _ _).subset he
      obtain ⟨a, ha, b, hb, hab⟩ := mem_simRow he
      have h1 := hY e.1 b hb
      have h2 := hZ i a ha
      rw [hab] at h1
      exact h2.trans h1.symm
    · simp at he
  refine ⟨_, _, computeSimilarity_eq hnth _ _ _ _ _ _ _ ha, computeSimilarity_eq hnth _ _ _ _ _ _ _ ha', ?_⟩
  refine ⟨hY.nrows, by simpa [CSR.nrows] using hZ.nrows, hap _ _ hY.apart hZ.apart, hap _ _ hY.apart' hZ.apart', ?_⟩
  intro i hi
  rw [row_ofRange, row_ofRange, hZ.nrows]
  split_ifs with hn
  · rw [hZ.inside i hi, simRow_inside hY kind s _ (row_apart hZ.apart hi)]
  · rfl

theorem removeDiagonal_inside {S S' : CSR ℝ} {Q : Nat → Prop} (h : SameInside S S' Q Q) (hs : S.nrows = S.cols) :
    ∃ W W', removeDiagonal S = .ok W ∧ removeDiagonal S' = .ok W' ∧ SameInside W W' Q Q ∧ W.nrows = S.nrows ∧ W.cols = S.cols := by
  have hrow : ∀ (Y : CSR ℝ) i, CSR.row ⟨Y.cols, Y.rows.mapIdx zeroAt⟩ i = zeroAt i (Y.row i) := by
    intro Y i
    simp only [CSR.row, List.getD_eq_getElem?_getD, List.getElem?_mapIdx]
    cases Y.rows[i]? <;> simp [zeroAt]
  have hap : ∀ Y : CSR ℝ, Apart Y Q Q → Apart ⟨Y.cols, Y.rows.mapIdx zeroAt⟩ Q Q := by
    intro Y hY i e he
    rw [hrow] at he
    obtain ⟨e', he', rfl⟩ := List.mem_map.mp he
    have := hY i e' he'
    split_ifs <;> exact this
  refine ⟨⟨S.cols, S.rows.mapIdx zeroAt⟩, ⟨S'.cols, S'.rows.mapIdx zeroAt⟩, by unfold removeDiagonal; rw [if_neg (by simpa using hs)],
    by unfold removeDiagonal; rw [if_neg (by rw [h.nrows, h.cols]; simpa using hs)], ⟨h.cols, by simpa [CSR.nrows] using h.nrows,
      hap _ h.apart, hap _ h.apart', ?_⟩, by simp [CSR.nrows], rfl⟩
  intro i hi
  rw [hrow, hrow, h.inside i hi]

/-- the weightings that look at one item at a time -/
def Local : Weighting → Prop
  | .bm25 _ _ => False
  | _ => True

theorem docFreq_eq (X : CSR ℝ) (j : Nat) :
    docFreq X j = ((List.range X.nrows).map (fun u => (X.row u).countP (fun e => decide (e.1 = j)))).sum := by
  unfold docFreq
  congr 1
  apply List.ext_getElem
  · simp [CSR.nrows]
  · intro i h1 h2
    have : i < X.rows.length := by simpa using h1
    simp [CSR.row, this]

theorem docFreq_inside {X X' : CSR ℝ} {P Q : Nat → Prop} (h : SameInside X X' P Q) {j : Nat} (hj : Q j) :
    docFreq X' j = docFreq X j := by
  rw [docFreq_eq, docFreq_eq, h.nrows]
  congr 1
  refine List.map_congr_left (fun u _ => ?_)
  by_cases hu : P u
  · rw [h.inside u hu]
  · have e1 : ∀ Y : CSR ℝ, Apart Y P Q → (Y.row u).countP (fun e => decide (e.1 = j)) = 0 := by
      intro Y hY
      rw [List.countP_eq_zero]
      intro e he
      simp only [decide_eq_true_eq]
      rintro rfl
      exact hu ((hY u e he).mpr hj)
    rw [e1 _ h.apart, e1 _ h.apart']

theorem _root_.Irspack.Spec.Separate.SameInside.weighted {X X' : CSR ℝ} {P Q : Nat → Prop} (h : SameInside X X' P Q) (w : Weighting) (hw : Local w) :
    SameInside (w.apply X) (w.apply X') P Q := by
  cases w with
  | none => exact h
  | bm25 _ _ => exact hw.elim
  | tfIdf =>
    have e1 : ∀ (g : Nat × ℝ → ℝ) (row : SpVec ℝ), ∀ e ∈ row.map (fun e => (e.1, g e)), ∃ e' ∈ row, e'.1 = e.1 := by
      intro g row e he
      obtain ⟨e', he', rfl⟩ := List.mem_map.mp he
      exact ⟨e', he', rfl⟩
    have := h.mapRows X.cols
      (fun row => row.map (fun e => (e.1, e.2 * Real.log (X.nrows / ((docFreq X e.1 : ℝ) + if true then 1 else 0)))))
      (fun row => row.map (fun e => (e.1, e.2 * Real.log (X'.nrows / ((docFreq X' e.1 : ℝ) + if true then 1 else 0)))))
      rfl rfl (e1 _) (e1 _) (fun u hu => List.map_congr_left (fun e he => by
        rw [docFreq_inside h (row_apart h.apart hu e he), h.nrows]))
    show SameInside (tfIdf X true) (tfIdf X' true) P Q
    unfold tfIdf
    rw [h.cols]
    exact this

theorem itemKnnW_inside {nth : Nat → SpVec ℝ → List Nat} (hnth : NthOk nth) (w : Weighting) (hw : Local w) (kind : Kind)
    (s : ℝ) (hs : 0 ≤ s) (hp : kind.paramsOk) {X X' : CSR ℝ} {P Q : Nat → Prop} (h : SameInside X X' P Q) (T k : Nat) (hT : 1 ≤ T) :
    ∃ W W', itemKnnW nth w kind s X T k = .ok W ∧ itemKnnW nth w kind s X' T k = .ok W' ∧ SameInside W W' Q Q ∧
      W.nrows = X.cols ∧ W.cols = X.cols := by
  have hsh : (w.apply X).cols = X.cols ∧ (w.apply X).nrows = X.nrows := by
    cases w <;> simp [Weighting.apply, tfIdf, bm25, CSR.nrows]
  obtain ⟨S, S', h1, h2, h3⟩ := computeSimilarity_inside hnth kind s (h.weighted w hw).transpose h.transpose T 128 k
    ⟨hs, hT, by norm_num, hp, by simp [Sim.transpose, hsh.2]⟩
  have hsq : S.nrows = X.cols ∧ S.cols = X.cols := by
    rw [computeSimilarity_eq hnth _ _ _ _ _ _ _ ⟨hs, hT, by norm_num, hp, by simp [Sim.transpose, hsh.2]⟩] at h1
    cases h1
    simp [CSR.nrows, Sim.transpose, hsh.1]
  obtain ⟨W, W', g1, g2, g3, g4, g5⟩ := removeDiagonal_inside h3 (by rw [hsq.1, hsq.2])
  refine ⟨W, W', ?_, ?_, g3, g4.trans hsq.1, g5.trans hsq.2⟩
  · unfold itemKnnW; rw [h1]; exact g1
  · unfold itemKnnW; rw [h2]; exact g2

theorem userKnnU_inside {nth : Nat → SpVec ℝ → List Nat} (hnth : NthOk nth) (w : Weighting) (hw : Local w) (kind : Kind)
    (s : ℝ) (hs : 0 ≤ s) (hp : kind.paramsOk) {X X' : CSR ℝ} {P Q : Nat → Prop} (h : SameInside X X' P Q) (T k : Nat) (hT : 1 ≤ T) :
    ∃ W W', userKnnU nth w kind s X T k = .ok W ∧ userKnnU nth w kind s X' T k = .ok W' ∧ SameInside W W' P P ∧
      W.nrows = X.nrows ∧ W.cols = X.nrows := by
  have hsh : (w.apply X).cols = X.cols ∧ (w.apply X).nrows = X.nrows := by
    cases w <;> simp [Weighting.apply, tfIdf, bm25, CSR.nrows]
  have hacc : Accepted kind s (w.apply X) X T 128 := ⟨hs, hT, by norm_num, hp, hsh.1.symm⟩
  obtain ⟨S, S', h1, h2, h3⟩ := computeSimilarity_inside hnth kind s (h.weighted w hw) h T 128 k hacc
  have hsq : S.nrows = X.nrows ∧ S.cols = X.nrows := by
    rw [computeSimilarity_eq hnth _ _ _ _ _ _ _ hacc] at h1
    cases h1
    exact ⟨by simp [CSR.nrows], hsh.2⟩
  obtain ⟨W, W', g1, g2, g3, g4, g5⟩ := removeDiagonal_inside h3 (by rw [hsq.1, hsq.2])
  refine ⟨W, W', ?_, ?_, g3, g4.trans hsq.1, g5.trans hsq.2⟩
  · unfold userKnnU; rw [h1]; exact g1
  · unfold userKnnU; rw [h2]; exact g2

/-! ## random walks -/

theorem userNorm_row_eq (alpha : ℝ) (Y : CSR ℝ) (u : Nat) : userNorm alpha Y u =
    ((List.range Y.nrows).map (fun j => (((Y.row j).filter (fun e => decide (e.1 = u))).map (fun e => e.2 ^ alpha)).sum)).sum := by
  unfold userNorm
  congr 1
  apply List.ext_getElem
  · simp [CSR.nrows]
  · intro i h1 h2
    have : i < Y.rows.length := by simpa using h1
    simp [CSR.row, this]

theorem userNorm_inside {Y Y' : CSR ℝ} {P Q : Nat → Prop} (h : SameInside Y Y' Q P) (alpha : ℝ) {u : Nat} (hu : P u) :
    userNorm alpha Y' u = userNorm alpha Y u := by
  rw [userNorm_row_eq, userNorm_row_eq, h.nrows]
  congr 1
  refine List.map_congr_left (fun j _ => ?_)
  by_cases hj : Q j
  · rw [h.inside j hj]
  · have e1 : ∀ Z : CSR ℝ, Apart Z Q P → (Z.row j).filter (fun e => decide (e.1 = u)) = [] := by
      intro Z hZ
      rw [List.filter_eq_nil_iff]
      intro e he
      simp only [decide_eq_true_eq]
      rintro rfl
      exact hj ((hZ j e he).mpr hu)
    rw [e1 _ h.apart, e1 _ h.apart']

theorem map_ids (g : Nat × ℝ → ℝ) (row : SpVec ℝ) : ∀ e ∈ row.map (fun e => (e.1, g e)), ∃ e' ∈ row, e'.1 = e.1 := by
  intro e he
  obtain ⟨e', he', rfl⟩ := List.mem_map.mp he
  exact ⟨e', he', rfl⟩

theorem itemToUser_inside {Y Y' : CSR ℝ} {P Q : Nat → Prop} (h : SameInside Y Y' Q P) (alpha : ℝ) :
    SameInside (itemToUser alpha Y) (itemToUser alpha Y') Q P := by
  have := h.mapRows Y.cols
    (fun row => row.map (fun e => (e.1, e.2 ^ alpha / (row.map (fun e => e.2 ^ alpha)).sum)))
    (fun row => row.map (fun e => (e.1, e.2 ^ alpha / (row.map (fun e => e.2 ^ alpha)).sum)))
    rfl rfl (fun row => map_ids _ row) (fun row => map_ids _ row) (fun _ _ => rfl)
  unfold itemToUser
  rw [h.cols]
  exact this

/-- a column-major matrix as the row-major matrix of its columns -/
def columns (W : CSC ℝ) : CSR ℝ := ⟨W.rows, W.cols⟩

theorem walk_inside {nth : Nat → SpVec ℝ → List Nat} (hnth : NthOk nth) {Y Y' : CSR ℝ} {P Q : Nat → Prop}
    (h : SameInside Y Y' Q P) (alpha : ℝ) (g : SpVec ℝ → ℝ) (T c k : Nat) (hT : 1 ≤ T) (hc : 1 ≤ c) :
    ∃ S S', computeSimilarity nth .raw 0 (itemToUser alpha Y) ⟨Y.cols, Y.rows.map (fun row =>
        row.map (fun e => (e.1, e.2 ^ alpha / (userNorm alpha Y e.1 * g row))))⟩ T c k = .ok S ∧
      computeSimilarity nth .raw 0 (itemToUser alpha Y') ⟨Y'.cols, Y'.rows.map (fun row =>
        row.map (fun e => (e.1, e.2 ^ alpha / (userNorm alpha Y' e.1 * g row))))⟩ T c k = .ok S' ∧
      SameInside S S' Q Q ∧ S.nrows = Y.nrows ∧ S.cols = Y.nrows := by
  have ht := h.mapRows Y.cols
    (fun row => row.map (fun e => (e.1, e.2 ^ alpha / (userNorm alpha Y e.1 * g row))))
    (fun row => row.map (fun e => (e.1, e.2 ^ alpha / (userNorm alpha Y' e.1 * g row))))
    rfl rfl (fun row => map_ids _ row) (fun row => map_ids _ row) (fun j hj => List.map_congr_left (fun e he => by
      rw [userNorm_inside h alpha (row_apart h.apart hj e he)]))
  have hacc : Accepted .raw 0 (itemToUser alpha Y) ⟨Y.cols, Y.rows.map (fun row =>
        row.map (fun e => (e.1, e.2 ^ alpha / (userNorm alpha Y e.1 * g row))))⟩ T c := ⟨le_rfl, hT, hc, trivial, rfl⟩
  obtain ⟨S, S', h1, h2, h3⟩ := computeSimilarity_inside hnth .raw 0 (itemToUser_inside h alpha) ht T c k hacc
  refine ⟨S, S', h1, by rw [h.cols]; exact h2, h3, ?_, ?_⟩ <;>
  · rw [computeSimilarity_eq hnth _ _ _ _ _ _ _ hacc] at h1
    cases h1
    simp [CSR.nrows, itemToUser]

theorem p3W_inside {nth : Nat → SpVec ℝ → List Nat} (hnth : NthOk nth) {Y Y' : CSR ℝ} {P Q : Nat → Prop}
    (h : SameInside Y Y' Q P) (alpha : ℝ) (ha : 0 ≤ alpha) (T c k : Nat) (hT : 1 ≤ T) (hc : 1 ≤ c) :
    ∃ W W', p3W nth alpha Y T c k = .ok W ∧ p3W nth alpha Y' T c k = .ok W' ∧ SameInside (columns W) (columns W') Q Q ∧
      W.cols.length = Y.nrows ∧ W.rows = Y.nrows := by
  obtain ⟨S, S', h1, h2, h3, h4, h5⟩ := walk_inside hnth h alpha (fun _ => 1) T c k hT hc
  simp only [mul_one] at h1 h2
  refine ⟨⟨S.cols, S.rows⟩, ⟨S'.cols, S'.rows⟩, ?_, ?_, h3, h4, h5⟩ <;>
  · unfold p3W
    rw [if_neg (not_lt.mpr ha)]
    simp only [h1, h2]

theorem rp3W_inside {nth : Nat → SpVec ℝ → List Nat} (hnth : NthOk nth) {Y Y' : CSR ℝ} {P Q : Nat → Prop}
    (h : SameInside Y Y' Q P) (alpha beta : ℝ) (ha : 0 ≤ alpha) (hb : 0 ≤ beta) (T c k : Nat) (hT : 1 ≤ T) (hc : 1 ≤ c) :
    ∃ W W', rp3W nth alpha beta Y T c k = .ok W ∧ rp3W nth alpha beta Y' T c k = .ok W' ∧
      SameInside (columns W) (columns W') Q Q ∧ W.cols.length = Y.nrows ∧ W.rows = Y.nrows := by
  obtain ⟨S, S', h1, h2, h3, h4, h5⟩ := walk_inside hnth h alpha (fun row => (rowTotal row) ^ beta) T c k hT hc
  refine ⟨⟨S.cols, S.rows⟩, ⟨S'.cols, S'.rows⟩, ?_, ?_, h3, h4, h5⟩ <;>
  · unfold rp3W
    rw [if_neg (by push Not; exact ⟨ha, hb⟩)]
    simp only [h1, h2]

theorem rowSum_eq (W : CSC ℝ) (i : Nat) :
    rowSum W i = ((List.range (columns W).nrows).map (fun j => SpVec.get ((columns W).row j) i)).sum := by
  unfold rowSum
  congr 1
  apply List.ext_getElem
  · simp [CSR.nrows, columns]
  · intro i h1 h2
    have : i < W.cols.length := by simpa using h1
    simp [CSR.row, columns, this]

theorem get_of_not_mem (v : SpVec ℝ) (i : Nat) (h : ∀ e ∈ v, e.1 ≠ i) : SpVec.get v i = 0 := by
  unfold SpVec.get
  rw [List.filter_eq_nil_iff.mpr (fun e he => by simpa using h e he)]
  rfl

theorem rowSum_inside {W W' : CSC ℝ} {Q : Nat → Prop} (h : SameInside (columns W) (columns W') Q Q) {i : Nat} (hi : Q i) :
    rowSum W' i = rowSum W i := by
  rw [rowSum_eq, rowSum_eq, h.nrows]
  congr 1
  refine List.map_congr_left (fun j _ => ?_)
  by_cases hj : Q j
  · rw [h.inside j hj]
  · have e1 : ∀ Z : CSR ℝ, Apart Z Q Q → SpVec.get (Z.row j) i = 0 := by
      intro Z hZ
      refine get_of_not_mem _ _ (fun e he => ?_)
      rintro rfl
      exact hj ((hZ j e he).mpr hi)
    rw [e1 _ h.apart, e1 _ h.apart']

theorem l1NormalizeRow_inside {W W' : CSC ℝ} {Q : Nat → Prop} (h : SameInside (columns W) (columns W') Q Q) :
    SameInside (columns (l1NormalizeRow W)) (columns (l1NormalizeRow W')) Q Q := by
  have e1 : ∀ (g : Nat × ℝ → ℝ) (row : SpVec ℝ), ∀ e ∈ (row.insertionSort (fun a b => a.1 ≤ b.1)).map (fun e => (e.1, g e)),
      ∃ e' ∈ row, e'.1 = e.1 := by
    intro g row e he
    obtain ⟨e', he', rfl⟩ := List.mem_map.mp he
    exact ⟨e', (List.perm_insertionSort _ _).mem_iff.mp he', rfl⟩
  have := h.mapRows W.rows
    (fun col => (col.insertionSort (fun a b => a.1 ≤ b.1)).map (fun e => (e.1, e.2 / rowSum W e.1)))
    (fun col => (col.insertionSort (fun a b => a.1 ≤ b.1)).map (fun e => (e.1, e.2 / rowSum W' e.1)))
    rfl rfl (e1 _) (e1 _) (fun j hj => List.map_congr_left (fun e he => by
      rw [rowSum_inside h (row_apart h.apart hj e ((List.perm_insertionSort _ _).mem_iff.mp he))]))
  have hc : W'.rows = W.rows := h.cols
  unfold l1NormalizeRow columns
  simp only
  rw [hc]
  exact this

end Irspack.Sim
