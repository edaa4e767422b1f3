import Verif.Proofs.Scale
import Verif.Spec.Silent

/-! # Users and items without interactions: lemmas -/

namespace Irspack.Sim

open Spec.Silent Spec.Sim

theorem withUsers_nrows {R : Type} (n : Nat) (X : CSR R) : (withUsers n X).nrows = X.nrows + n := by
  simp [withUsers, CSR.nrows]

theorem row_append_nil {R : Type} (rows : List (SpVec R)) (n i : Nat) :
    (rows ++ List.replicate n []).getD i [] = rows.getD i [] := by
  simp only [List.getD_eq_getElem?_getD, List.getElem?_append]
  by_cases h : i < rows.length
  · rw [if_pos h]
  · rw [if_neg h, List.getElem?_eq_none (by omega : rows.length ≤ i)]
    cases h' : (List.replicate n ([] : SpVec R))[i - rows.length]? with
    | none => rfl
    | some v =>
      rw [List.getElem?_replicate] at h'
      split at h' <;> simp_all

theorem withUsers_row {R : Type} (n : Nat) (X : CSR R) (i : Nat) : (withUsers n X).row i = X.row i :=
  row_append_nil X.rows n i

theorem withItems_row {R : Type} (n : Nat) (X : CSR R) (i : Nat) : (withItems n X).row i = X.row i := rfl

theorem row_nil_of_le {R : Type} (X : CSR R) {i : Nat} (h : X.nrows ≤ i) : X.row i = [] := by
  unfold CSR.row
  rw [List.getD_eq_getElem?_getD, List.getElem?_eq_none h]
  rfl

theorem transpose_withUsers (n : Nat) (X : CSR ℝ) : transpose (withUsers n X) = withItems n (transpose X) := by
  unfold transpose
  rw [withUsers_nrows]
  simp only [withItems, withUsers_row, CSR.mk.injEq]
  refine ⟨trivial, ?_⟩
  show (List.range X.cols).map _ = _
  apply List.map_congr_left
  intro j _
  rw [List.range_add, List.flatMap_append]
  have : (List.map (X.nrows + ·) (List.range n)).flatMap (fun i => (X.row i).filterMap
      (fun e => if e.1 = j then some (i, e.2) else none)) = [] := by
    rw [List.flatMap_eq_nil_iff]
    intro i hi
    obtain ⟨k, -, rfl⟩ := List.mem_map.mp hi
    rw [row_nil_of_le X (by omega)]
    rfl
  rw [this, List.append_nil]

theorem transpose_withItems (n : Nat) (X : CSR ℝ) (hX : X.WF) :
    transpose (withItems n X) = withUsers n (transpose X) := by
  unfold transpose
  simp only [withUsers, withItems_row, CSR.mk.injEq]
  refine ⟨rfl, ?_⟩
  show (List.range (X.cols + n)).map _ = _
  rw [List.range_add, List.map_append, List.map_map]
  congr 1
  rw [List.eq_replicate_iff]
  refine ⟨by simp, ?_⟩
  intro v hv
  obtain ⟨k, -, rfl⟩ := List.mem_map.mp hv
  simp only [Function.comp, List.flatMap_eq_nil_iff, List.filterMap_eq_nil_iff]
  intro i _ e he
  have hm : X.row i ∈ X.rows := by
    unfold CSR.row at he ⊢
    rw [List.getD_eq_getElem?_getD] at he ⊢
    cases h : X.rows[i]? with
    | none => rw [h] at he; simp at he
    | some r => exact List.mem_of_getElem? h
  have := hX _ hm e he
  rw [if_neg (by omega)]

/-! ## rows of similarities -/

theorem productRow_withItems (n : Nat) (t : SpVec ℝ) (X : CSR ℝ) : productRow t (withItems n X) = productRow t X := rfl

theorem productRow_withUsers (n : Nat) (t : SpVec ℝ) (X : CSR ℝ) : productRow t (withUsers n X) = productRow t X := by
  unfold productRow
  rw [withUsers_nrows]
  simp only [withUsers_row]
  rw [List.range_add, List.filterMap_append]
  have : (List.map (X.nrows + ·) (List.range n)).filterMap (fun j =>
      if t.any (fun e => (X.row j).any (fun f => decide (f.1 = e.1))) then
        some (j, (t.map (fun e => e.2 * (X.row j).get e.1)).sum) else none) = [] := by
    rw [List.filterMap_eq_nil_iff]
    intro j hj
    obtain ⟨k, -, rfl⟩ := List.mem_map.mp hj
    rw [row_nil_of_le X (by omega)]
    simp
  rw [this, List.append_nil]

theorem binarized_withUsers (n : Nat) (X : CSR ℝ) :
    (⟨(withUsers n X).cols, (withUsers n X).rows.map binarize⟩ : CSR ℝ) =
      withUsers n ⟨X.cols, X.rows.map binarize⟩ := by
  simp [withUsers, binarize]

theorem simRow_withItems (kind : Kind) (s : ℝ) (n : Nat) (X : CSR ℝ) (t : SpVec ℝ) :
    simRow kind s (withItems n X) t = simRow kind s X t := by
  cases kind with
  | cosine b => cases b <;> rfl
  | _ => rfl

theorem simRow_withUsers (kind : Kind) (s : ℝ) (n : Nat) (X : CSR ℝ) (t : SpVec ℝ) :
    simRow kind s (withUsers n X) t = simRow kind s X t := by
  cases kind with
  | cosine b => cases b <;> simp only [simRow, productRow_withUsers, withUsers_row]
  | asymmetric a => simp only [simRow, productRow_withUsers, withUsers_row]
  | raw => exact productRow_withUsers n t X
  | jaccard =>
    simp only [simRow]
    rw [binarized_withUsers]
    simp only [productRow_withUsers, withUsers_row]
  | tversky a b =>
    simp only [simRow]
    rw [binarized_withUsers]
    simp only [productRow_withUsers, withUsers_row]

theorem productRow_nil (X : CSR ℝ) : productRow [] X = [] := by simp [productRow]

theorem simRow_nil (kind : Kind) (s : ℝ) (X : CSR ℝ) : simRow kind s X [] = [] := by
  cases kind with
  | cosine b => cases b <;> simp [simRow, productRow_nil]
  | _ => simp [simRow, productRow_nil, binarize]

theorem bestOf_nil (k : Nat) : bestOf k [] = [] := rfl

/-! ## the computers -/

/-- entities that are compared with nothing because their rows have more (unused) columns -/
theorem computeSimilarity_withItems (nth : Nat → SpVec ℝ → List Nat) (kind : Kind) (s : ℝ) (n : Nat)
    (X target : CSR ℝ) (T chunk k : Nat) :
    computeSimilarity nth kind s (withItems n X) (withItems n target) T chunk k =
      computeSimilarity nth kind s X target T chunk k := by
  have hT : ∀ a b, triples nth (simRow kind s (withItems n X)) (withItems n target) chunk k a b =
      triples nth (simRow kind s X) target chunk k a b := by
    intro a b
    unfold triples simBlock
    simp only [simRow_withItems, withItems_row]
  unfold computeSimilarity
  by_cases h : s < 0 ∨ T < 1 ∨ chunk < 1 ∨ ¬ kind.paramsOk
  · rw [if_pos h, if_pos h]
  · rw [if_neg h, if_neg h]
    have e1 : (withItems n target).cols ≠ (withItems n X).cols ↔ target.cols ≠ X.cols := by
      simp [withItems]
    unfold similarityRows
    simp only [e1, hT]
    rfl

/-- more entities, with empty rows -/
theorem computeSimilarity_withUsers {nth : Nat → SpVec ℝ → List Nat} (hnth : NthOk nth) (kind : Kind) (s : ℝ) (n : Nat)
    (X target : CSR ℝ) (T chunk k : Nat) :
    computeSimilarity nth kind s (withUsers n X) (withUsers n target) T chunk k =
      (computeSimilarity nth kind s X target T chunk k).map (bordered n) := by
  by_cases h : Accepted kind s X target T chunk
  · rw [computeSimilarity_eq hnth _ _ _ _ _ _ _ h, computeSimilarity_eq hnth _ _ _ _ _ _ _ (by exact h)]
    simp only [Except.map, bordered, withUsers_nrows, withUsers_row, simRow_withUsers]
    congr 2
    rw [List.range_add, List.map_append, List.map_map]
    congr 1
    rw [List.eq_replicate_iff]
    refine ⟨by simp, ?_⟩
    intro v hv
    obtain ⟨j, -, rfl⟩ := List.mem_map.mp hv
    simp only [Function.comp]
    rw [row_nil_of_le target (by omega), simRow_nil]
    rfl
  · rw [computeSimilarity_error nth _ _ _ _ _ _ _ h, computeSimilarity_error nth _ _ _ _ _ _ _ (by exact h)]
    rfl

theorem removeDiagonal_bordered (n : Nat) (S : CSR ℝ) :
    removeDiagonal (bordered n S) = (removeDiagonal S).map (bordered n) := by
  have e1 : (bordered n S).nrows ≠ (bordered n S).cols ↔ S.nrows ≠ S.cols := by
    simp [bordered, CSR.nrows]
  unfold removeDiagonal
  by_cases h : S.nrows ≠ S.cols
  · rw [if_pos h, if_pos (e1.mpr h)]; rfl
  · rw [if_neg h, if_neg (fun h' => h (e1.mp h'))]
    simp only [Except.map, bordered, List.mapIdx_append]
    congr 3
    rw [List.eq_replicate_iff]
    refine ⟨by simp, ?_⟩
    intro v hv
    obtain ⟨i, hi, rfl⟩ := List.mem_mapIdx.mp hv
    simp [zeroAt]

/-! ## weighting -/

theorem apply_withItems (w : Weighting) (n : Nat) (X : CSR ℝ) : w.apply (withItems n X) = withItems n (w.apply X) := by
  cases w <;> rfl

theorem apply_wf (w : Weighting) (X : CSR ℝ) (hX : X.WF) : (w.apply X).WF := by
  have key : ∀ (f : SpVec ℝ → SpVec ℝ), (∀ row e, e ∈ f row → ∃ e' ∈ row, e'.1 = e.1) →
      CSR.WF ⟨X.cols, X.rows.map f⟩ := by
    intro f hf row hrow e he
    obtain ⟨row', hr', rfl⟩ := List.mem_map.mp hrow
    obtain ⟨e', he', h⟩ := hf row' e he
    rw [← h]
    exact hX row' hr' e' he'
  cases w with
  | none => exact hX
  | tfIdf =>
    apply key
    intro row e he
    obtain ⟨e', he', rfl⟩ := List.mem_map.mp he
    exact ⟨e', he', rfl⟩
  | bm25 k1 b =>
    apply key
    intro row e he
    obtain ⟨e', he', rfl⟩ := List.mem_map.mp he
    exact ⟨e', he', rfl⟩

/-! ## random walks -/

theorem userNorm_withUsers (alpha : ℝ) (n : Nat) (X : CSR ℝ) (u : Nat) :
    userNorm alpha (withUsers n X) u = userNorm alpha X u := by
  simp [userNorm, withUsers]

theorem itemToUser_withUsers (alpha : ℝ) (n : Nat) (X : CSR ℝ) :
    itemToUser alpha (withUsers n X) = withUsers n (itemToUser alpha X) := by
  simp [itemToUser, withUsers]

theorem productRow_length (t : SpVec ℝ) (X : CSR ℝ) : (productRow t X).length ≤ X.nrows := by
  unfold productRow
  exact (List.length_filterMap_le _ _).trans (by simp)

/-- a limit that is no limit -/
theorem computeSimilarity_large {nth : Nat → SpVec ℝ → List Nat} (hnth : NthOk nth) (s : ℝ) (X target : CSR ℝ) (T chunk k k' : Nat)
    (hk : X.nrows ≤ k) (hk' : X.nrows ≤ k') :
    computeSimilarity nth .raw s X target T chunk k = computeSimilarity nth .raw s X target T chunk k' := by
  by_cases h : Accepted .raw s X target T chunk
  · rw [computeSimilarity_eq hnth _ _ _ _ _ _ _ h, computeSimilarity_eq hnth _ _ _ _ _ _ _ h]
    congr 2
    refine List.map_congr_left (fun r _ => ?_)
    have : (simRow .raw s X (target.row r)).length ≤ X.nrows := productRow_length _ _
    rw [bestOf_all k _ (this.trans hk), bestOf_all k' _ (this.trans hk')]
  · rw [computeSimilarity_error nth _ _ _ _ _ _ _ h, computeSimilarity_error nth _ _ _ _ _ _ _ h]

theorem p3W_withUsers {nth : Nat → SpVec ℝ → List Nat} (hnth : NthOk nth) (alpha : ℝ) (n : Nat) (X : CSR ℝ) (T c k : Nat) :
    p3W nth alpha (withUsers n X) T c k = (p3W nth alpha X T c k).map (borderedCSC n) := by
  unfold p3W
  by_cases h : alpha < 0
  · rw [if_pos h, if_pos h]; rfl
  · rw [if_neg h, if_neg h]
    simp only [itemToUser_withUsers, userNorm_withUsers]
    have := computeSimilarity_withUsers hnth .raw 0 n (itemToUser alpha X) ⟨X.cols, X.rows.map (fun row =>
      row.map (fun e => (e.1, e.2 ^ alpha / userNorm alpha X e.1)))⟩ T c k
    simp only [withUsers, List.map_append, List.map_replicate, List.map_nil] at this ⊢
    rw [this]
    cases computeSimilarity nth .raw 0 (itemToUser alpha X) ⟨X.cols, X.rows.map (fun row =>
      row.map (fun e => (e.1, e.2 ^ alpha / userNorm alpha X e.1)))⟩ T c k <;> rfl

theorem rp3W_withUsers {nth : Nat → SpVec ℝ → List Nat} (hnth : NthOk nth) (alpha beta : ℝ) (n : Nat) (X : CSR ℝ) (T c k : Nat) :
    rp3W nth alpha beta (withUsers n X) T c k = (rp3W nth alpha beta X T c k).map (borderedCSC n) := by
  unfold rp3W
  by_cases h : alpha < 0 ∨ beta < 0
  · rw [if_pos h, if_pos h]; rfl
  · rw [if_neg h, if_neg h]
    simp only [itemToUser_withUsers, userNorm_withUsers]
    have := computeSimilarity_withUsers hnth .raw 0 n (itemToUser alpha X) ⟨X.cols, X.rows.map (fun row =>
      row.map (fun e => (e.1, e.2 ^ alpha / (userNorm alpha X e.1 * (rowTotal row) ^ beta))))⟩ T c k
    simp only [withUsers, List.map_append, List.map_replicate, List.map_nil] at this ⊢
    rw [this]
    cases computeSimilarity nth .raw 0 (itemToUser alpha X) ⟨X.cols, X.rows.map (fun row =>
      row.map (fun e => (e.1, e.2 ^ alpha / (userNorm alpha X e.1 * (rowTotal row) ^ beta))))⟩ T c k <;> rfl

theorem silent_itemToUser_nrows (alpha : ℝ) (X : CSR ℝ) : (itemToUser alpha X).nrows = X.nrows := by
  simp [itemToUser, CSR.nrows]

theorem p3W_large {nth : Nat → SpVec ℝ → List Nat} (hnth : NthOk nth) (alpha : ℝ) (X : CSR ℝ) (T c k k' : Nat)
    (hk : X.nrows ≤ k) (hk' : X.nrows ≤ k') : p3W nth alpha X T c k = p3W nth alpha X T c k' := by
  unfold p3W
  simp only
  rw [computeSimilarity_large hnth _ _ _ _ _ k k' (by rwa [silent_itemToUser_nrows]) (by rwa [silent_itemToUser_nrows])]

theorem rp3W_large {nth : Nat → SpVec ℝ → List Nat} (hnth : NthOk nth) (alpha beta : ℝ) (X : CSR ℝ) (T c k k' : Nat)
    (hk : X.nrows ≤ k) (hk' : X.nrows ≤ k') : rp3W nth alpha beta X T c k = rp3W nth alpha beta X T c k' := by
  unfold rp3W
  simp only
  rw [computeSimilarity_large hnth _ _ _ _ _ k k' (by rwa [silent_itemToUser_nrows]) (by rwa [silent_itemToUser_nrows])]

theorem l1NormalizeRow_bordered (n : Nat) (W : CSC ℝ) : l1NormalizeRow (borderedCSC n W) = borderedCSC n (l1NormalizeRow W) := by
  have h : ∀ i, rowSum (borderedCSC n W) i = rowSum W i := by
    intro i
    simp [rowSum, borderedCSC, SpVec.get]
  unfold l1NormalizeRow
  simp only [h]
  simp [borderedCSC]

end Irspack.Sim
