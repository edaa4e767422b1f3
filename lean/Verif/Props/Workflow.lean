import Verif.Model.Workflow
import Verif.Spec.Workflow
import Verif.Props.UserHoldout
import Verif.Props.Holdout
import Verif.Props.PyEvaluator
import Verif.Props.Score

/-!
# C73: the documented hold-out workflow

Split the users, train on stacked matrices, evaluate on the held-out interactions.
-/

namespace Irspack.Props
open Irspack Spec Split Evaluation Workflow Spec.Score

variable {U I T : Type} [LinearOrder U] [LinearOrder I] [LinearOrder T]

/-! ### The parts of one user group -/

/-- What is used of a validation or test pair. -/
structure PairOk (useRating : Bool) (df : List (Row U I T)) (items : List I) (P : UserPair U I) : Prop where
  nodup : P.userIds.Nodup
  rowsTrain : P.xTrain.rows.length = P.userIds.length
  rowsTest : P.xTest.rows.length = P.userIds.length
  colsTrain : P.xTrain.nCols = items.length
  colsTest : P.xTest.nCols = items.length
  heldOut : ∀ u i, HeldOut P items u i → Interacted df u i
  test : ∀ k (hk : k < P.userIds.length) j, j ∈ storedCols P.xTest k ↔
    ∃ hj : j < items.length, HeldOut P items P.userIds[k] items[j]
  entryTrain : ∀ k (hk : k < P.userIds.length) j (hj : j < items.length),
    (HeldOut P items P.userIds[k] items[j] → entry P.xTrain k j = 0) ∧
    (¬ HeldOut P items P.userIds[k] items[j] →
      entry P.xTrain k j = firstWeight useRating df P.userIds[k] items[j])
  entryAll : ∀ k (hk : k < P.userIds.length) j (hj : j < items.length),
    entry P.xTrain k j + entry P.xTest k j = firstWeight useRating df P.userIds[k] items[j]
  train : ∀ k (hk : k < P.userIds.length) j, j ∈ storedCols P.xTrain k → ∃ hj : j < items.length,
    Interacted df P.userIds[k] items[j] ∧ ¬ HeldOut P items P.userIds[k] items[j]

theorem entry_zero_of_not_stored {X : Csr ℝ} {k j : Nat} (h : j ∉ storedCols X k) : entry X k j = 0 := by
  rw [entry_eq]
  exact rowEntry_not_mem _ _ h

theorem firstWeight_zero {useRating : Bool} {df : List (Row U I T)} {u : U} {i : I}
    (h : ¬ Interacted df u i) : firstWeight useRating df u i = 0 := by
  have : eventsOf df u i = [] := by
    by_contra hne
    exact h ((events_ne_nil _ _ _).mp hne)
  unfold firstWeight
  rw [this]

theorem pairOk {fl : ℝ → ℝ} {o : Oracle U I T} (ho : ValidOracle o) {p : HoldoutParams}
    {df : List (Row U I T)} (hr : p.useRating = true → ∀ r ∈ df, ∃ z : ℤ, r.rating = z)
    {H : Holdout U I} (h : partialUserHoldout fl o p df = .ok H) (P : UserPair U I)
    (hP : P = H.val ∨ P = H.test) : PairOk p.useRating df H.items P := by
  obtain ⟨nVal, nTest, ratio, hsz, s, hs, -, -, -, -, gv, gt, h5, h6, -⟩ := partialUserHoldout_ok ho hr h
  obtain ⟨-, -, -, -, -, hall⟩ := C25_partition_without_leakage fl o ho p df hr H h
  have hfact := hall P hP
  have g : ∃ df' : List (Row U I T), GoodPair p.useRating df' H.items P := by
    rcases hP with rfl | rfl
    · exact ⟨_, gv⟩
    · exact ⟨_, gt⟩
  obtain ⟨df', g⟩ := g
  have hlt : ∀ k j, j ∈ storedCols P.xTest k → k < P.userIds.length := by
    intro k j hj
    by_contra hk
    unfold storedCols at hj
    rw [List.getD_eq_getElem?_getD, List.getElem?_eq_none (by rw [g.rowsTest]; omega)] at hj
    simp at hj
  have htest : ∀ k (hk : k < P.userIds.length) j (hj : j < H.items.length),
      HeldOut P H.items P.userIds[k] H.items[j] → j ∈ storedCols P.xTest k := by
    rintro k hk j hj ⟨k', j', a, b, c⟩
    obtain ⟨hk', a⟩ := List.getElem?_eq_some_iff.mp a
    obtain ⟨hj', b⟩ := List.getElem?_eq_some_iff.mp b
    have e1 : k' = k := (List.Nodup.getElem_inj_iff g.nodup).mp a
    have e2 : j' = j := (List.Nodup.getElem_inj_iff h5).mp b
    subst e1 e2
    exact c
  refine ⟨g.nodup, g.rowsTrain, g.rowsTest, g.colsTrain, g.colsTest, ?_, ?_, ?_, ?_, ?_⟩
  · rintro u i ⟨k, j, a, b, c⟩
    obtain ⟨hk', a⟩ := List.getElem?_eq_some_iff.mp a
    obtain ⟨hj', b⟩ := List.getElem?_eq_some_iff.mp b
    have := ((hfact k hk' j hj').2.1).mp (Or.inr c)
    rw [a, b] at this
    exact this
  · intro k hk j
    constructor
    · intro hj
      have hj' := g.inRange k j (Or.inr hj)
      exact ⟨hj', k, j, List.getElem?_eq_getElem hk, List.getElem?_eq_getElem hj', hj⟩
    · rintro ⟨hj, hh⟩
      exact htest k hk j hj hh
  · intro k hk j hj
    obtain ⟨f1, f2, f3⟩ := hfact k hk j hj
    constructor
    · intro hh
      have := htest k hk j hj hh
      exact entry_zero_of_not_stored (fun h => f3 ⟨h, this⟩)
    · intro hh
      have hn : j ∉ storedCols P.xTest k := fun hc =>
        hh ⟨k, j, List.getElem?_eq_getElem hk, List.getElem?_eq_getElem hj, hc⟩
      rw [← f1, entry_zero_of_not_stored hn, add_zero]
  · intro k hk j hj
    exact (hfact k hk j hj).1
  · intro k hk j hj
    have hj' := g.inRange k j (Or.inl hj)
    obtain ⟨f1, f2, f3⟩ := hfact k hk j hj'
    exact ⟨hj', f2.mp (Or.inl hj), fun hh => f3 ⟨hj, htest k hk j hj' hh⟩⟩

theorem stored_of_entry {X : Csr ℝ} {k j : Nat} (h : entry X k j ≠ 0) : Seen (toCSR X) k j := by
  by_contra hns
  apply h
  rw [entry_eq]
  unfold rowEntry
  apply List.sum_eq_zero
  intro v hv
  obtain ⟨q, hq, rfl⟩ := List.mem_map.mp hv
  obtain ⟨hq1, hq2⟩ := List.mem_filter.mp hq
  by_contra hne
  refine hns ⟨q.2, ?_, hne⟩
  have : q.1 = j := by simpa using hq2
  unfold CSR.row toCSR
  rw [← this]
  exact hq1

theorem PairOk.seen {useRating : Bool} {df : List (Row U I T)} {items : List I} {P : UserPair U I}
    (g : PairOk useRating df items P)
    (hr : useRating = true → ∀ r ∈ df, r.rating ≠ 0)
    (k : Nat) (hk : k < P.userIds.length) (j : Nat) :
    Seen (toCSR P.xTrain) k j ↔ ∃ hj : j < items.length,
      Interacted df P.userIds[k] items[j] ∧ ¬ HeldOut P items P.userIds[k] items[j] := by
  constructor
  · rintro ⟨v, hv, -⟩
    have hs : j ∈ storedCols P.xTrain k := List.mem_map.mpr ⟨(j, v), hv, rfl⟩
    exact g.train k hk j hs
  · rintro ⟨hj, hi, hh⟩
    apply stored_of_entry
    rw [(g.entryTrain k hk j hj).2 hh]
    unfold firstWeight
    cases he : eventsOf df P.userIds[k] items[j] with
    | nil => exact absurd he ((events_ne_nil _ _ _).mpr hi)
    | cons r rest =>
      have hmem : r ∈ df := by
        have : r ∈ eventsOf df P.userIds[k] items[j] := by rw [he]; simp
        exact (List.mem_filter.mp this).1
      simp only
      split
      · rename_i hu
        exact hr hu r hmem
      · norm_num

/-! ### Evaluation of one user group -/

/-- The stored columns as the evaluator gets them. -/
theorem storedRows_getD (X : Csr ℝ) (k : Nat) : (storedRows X).getD k [] = storedCols X k := by
  unfold storedRows storedCols
  simp only [List.getD_eq_getElem?_getD, List.getElem?_map]
  cases X.rows[k]? <;> rfl

/-- From masked scores to the report. -/
theorem group_report {useRating : Bool} {df : List (Row U I T)} {items : List I} {P : UserPair U I}
    (g : PairOk useRating df items P) (hr : useRating = true → ∀ r ∈ df, r.rating ≠ 0)
    {offset cutoff nThreads mb : Nat} {capped : Bool} {masked : Option Mask} {ev : Evaluator}
    (hev : Evaluator.make (storedRows P.xTest) P.xTest.nCols offset cutoff none none masked nThreads
      capped mb = .ok ev) (score : Nat → Nat → ℝ) (nz : Nat → Nat → Bool)
    (hnz : ∀ k < P.userIds.length, ∀ i, nz k i = true ↔ Seen (toCSR P.xTrain) k i)
    (cutoffs : List Nat) (ds : List PyDict)
    (hds : ev.reference (fun k i => if nz k i then ⊥ else (score k i : WithBot ℝ)) cutoffs = .ok ds)
    (j : Nat) (hj : j < cutoffs.length) (hj' : j < ds.length) :
    IsEvaluation P.userIds items capped cutoffs[j] score (HeldOut P items)
      (fun u i => ¬ (Interacted df u i ∧ ¬ HeldOut P items u i)) ds[j].base := by
  classical
  have hlen : (storedRows P.xTest).length = P.userIds.length := by
    unfold storedRows; rw [List.length_map, g.rowsTest]
  let G : Nat → Finset Nat := fun k => (storedCols P.xTest k).toFinset
  let C : Nat → Finset Nat := fun k => (Finset.range items.length).filter (fun i => nz k i = false)
  let R : Nat → ScoreRow (WithBot ℝ) := fun k i => if nz k i then ⊥ else (score k i : WithBot ℝ)
  let L : Nat → List Nat := fun k => topCutoff items.length none cutoffs[j] (R k)
  have hM : ∀ k, IsTopK (C k) (R k) cutoffs[j] (L k) := by
    intro k
    have h1 := topCutoff_isTopK items.length none (R k) cutoffs[j] (by simp)
    have h2 : candSet items.length none (R k) = C k := by
      unfold candSet
      apply Finset.filter_congr
      intro i _
      simp only [R]
      cases nz k i <;> simp
    rw [h2] at h1
    exact h1
  have hL : ∀ k, IsTopK (C k) (score k) cutoffs[j] (L k) := by
    intro k
    have hT := hM k
    have hsame : ∀ i ∈ C k, R k i = score k i := by
      intro i hi
      have : nz k i = false := by
        simp only [C, Finset.mem_filter] at hi
        exact hi.2
      simp only [R, this]
      rfl
    refine ⟨hT.mem, hT.length, ?_, ?_⟩
    · refine hT.sorted.imp_of_mem ?_
      intro a b ha hb hab
      unfold Before at *
      rw [hsame a (hT.mem a ha), hsame b (hT.mem b hb)] at hab
      exact_mod_cast hab
    · intro a ha b hb hbl
      have hab := hT.best a ha b hb hbl
      unfold Before at *
      rw [hsame a (hT.mem a ha), hsame b hb] at hab
      exact_mod_cast hab
  have hC : ∀ k (hk : k < P.userIds.length) i, i ∈ C k ↔ ∃ hi : i < items.length,
      ¬ (Interacted df P.userIds[k] items[i] ∧ ¬ HeldOut P items P.userIds[k] items[i]) := by
    intro k hk i
    simp only [C, Finset.mem_filter, Finset.mem_range]
    constructor
    · rintro ⟨hi, hz⟩
      refine ⟨hi, fun hc => ?_⟩
      have := (hnz k hk i).mpr ((g.seen hr k hk i).mpr ⟨hi, hc⟩)
      rw [hz] at this
      cases this
    · rintro ⟨hi, hc⟩
      refine ⟨hi, ?_⟩
      rw [Bool.eq_false_iff]
      intro hz
      obtain ⟨_, h⟩ := (g.seen hr k hk i).mp ((hnz k hk i).mp hz)
      exact hc h
  refine ⟨G, C, L, ?_, hC, fun k _ => hL k, ?_⟩
  · intro k hk i
    rw [List.mem_toFinset]
    exact g.test k hk i
  · have hrep := (reference_isReport hev _ cutoffs ds hds G C L j hj hj' ?_ ?_ ?_).1
    · rw [hlen, g.colsTest] at hrep
      exact hrep
    · intro k i
      rw [storedRows_getD, List.mem_toFinset]
      simp [recLists, RecommendableTo]
    · intro k hk i
      rw [g.colsTest]
      simp only [C, Finset.mem_filter, Finset.mem_range, recLists, RecommendableTo]
      cases hz : nz k i <;> simp
    · intro k hk
      exact hM k

/-! ### Stacked matrices -/

theorem vstack2 (A B : Csr ℝ) (h : B.nCols = A.nCols) :
    vstack [A, B] = .ok ⟨A.nCols, A.rows ++ B.rows⟩ := by
  simp [vstack, h]

theorem vstack3 (A B C : Csr ℝ) (h : B.nCols = A.nCols) (h' : C.nCols = A.nCols) :
    vstack [A, B, C] = .ok ⟨A.nCols, A.rows ++ (B.rows ++ C.rows)⟩ := by
  simp [vstack, h, h']

theorem entry_left {n : Nat} {a b : List (List (Nat × ℝ))} {k : Nat} (hk : k < a.length) (j : Nat) :
    entry ⟨n, a ++ b⟩ k j = entry ⟨n, a⟩ k j := by
  rw [entry_eq, entry_eq]
  simp only [List.getD_eq_getElem?_getD]
  rw [List.getElem?_append_left hk]

theorem entry_right {n : Nat} {a b : List (List (Nat × ℝ))} (k j : Nat) :
    entry ⟨n, a ++ b⟩ (a.length + k) j = entry ⟨n, b⟩ k j := by
  rw [entry_eq, entry_eq]
  simp only [List.getD_eq_getElem?_getD]
  rw [List.getElem?_append_right (by omega), Nat.add_sub_cancel_left]

/-- `X_all` of two matrices of the same shape. -/
theorem xAll_facts (P : UserPair U I) (h : P.userIds.length = P.xTrain.rows.length)
    (hs : P.xTrain.shape = P.xTest.shape) :
    P.xAll.rows.length = P.userIds.length ∧ P.xAll.nCols = P.xTrain.nCols ∧
      ∀ k j, entry P.xAll k j = entry P.xTrain k j + entry P.xTest k j := by
  have hlen : P.xTrain.rows.length = P.xTest.rows.length := congrArg Prod.fst hs
  obtain ⟨q, hq⟩ := make_total P.userIds P.xTrain (some P.xTest) (none : Option (List I)) h
    (by rintro _ ⟨⟩; exact hs) (by simp)
  have he : q = ⟨P.userIds, P.xTrain, P.xTest, none⟩ := (make_ok hq).2.2.2
  refine ⟨?_, rfl, fun k j => ?_⟩
  · show (List.zipWith _ P.xTrain.rows P.xTest.rows).length = _
    rw [List.length_zipWith, ← hlen, Nat.min_self, h]
  · have := (C29_all_is_sum _ _ _ _ _ hq k j).1
    rw [he] at this
    exact this

section
variable {fl : ℝ → ℝ} {o : Oracle U I T} {p : HoldoutParams} {df : List (Row U I T)} {H : Holdout U I}

/-- What is used of the train dataset. -/
structure TrainOk (df : List (Row U I T)) (items : List I) (P : UserPair U I) : Prop where
  rows : P.xTrain.rows.length = P.userIds.length
  cols : P.xTrain.nCols = items.length
  rowsAll : P.xAll.rows.length = P.userIds.length
  colsAll : P.xAll.nCols = items.length
  rowsTest : P.xTest.rows.length = P.userIds.length
  colsTest : P.xTest.nCols = items.length
  block : Block P.xTrain 0 P.userIds items (firstWeight false df)
  blockAll : Block P.xAll 0 P.userIds items (firstWeight false df)
  testZero : ∀ k j, entry P.xTest k j = 0

theorem trainOk (ho : ValidOracle o) (hr : p.useRating = true → ∀ r ∈ df, ∃ z : ℤ, r.rating = z)
    (h : partialUserHoldout fl o p df = .ok H) : TrainOk df H.items H.train := by
  obtain ⟨nVal, nTest, ratio, hsz, s, hs, h1, h2, h3, h4, -, -, -, -, -, -, h7, h8⟩ :=
    partialUserHoldout_ok ho hr h
  have hu : H.train.userIds.length = H.train.xTrain.rows.length := by rw [h1, h2]
  have hsh : H.train.xTrain.shape = H.train.xTest.shape := by rw [h8]; simp [Csr.empty, Csr.shape]
  obtain ⟨a1, a2, a3⟩ := xAll_facts H.train hu hsh
  have hb : Block H.train.xTrain 0 H.train.userIds H.items (firstWeight false df) := by
    intro k hk j hj
    rw [Nat.zero_add]
    simp only [h1]
    exact h3 k (by rw [← h1]; exact hk) j hj
  refine ⟨hu.symm, h7, a1, by rw [a2, h7], ?_, ?_, hb, ?_, h4⟩
  · rw [h8, hu]; simp [Csr.empty, Csr.shape]
  · rw [h8]; exact h7
  · intro k hk j hj
    rw [a3, h4, add_zero]
    exact hb k hk j hj

theorem PairOk.learnBlock {useRating : Bool} {items : List I} {P : UserPair U I}
    (g : PairOk useRating df items P) : Block P.xTrain 0 P.userIds items (learnWeight P items useRating df) := by
  intro k hk j hj
  rw [Nat.zero_add]
  unfold learnWeight
  split
  · exact (g.entryTrain k hk j hj).1 ‹_›
  · exact (g.entryTrain k hk j hj).2 ‹_›

theorem PairOk.all {useRating : Bool} {items : List I} {P : UserPair U I}
    (g : PairOk useRating df items P) : P.xAll.rows.length = P.userIds.length ∧ P.xAll.nCols = items.length ∧
      Block P.xAll 0 P.userIds items (firstWeight useRating df) := by
  obtain ⟨a1, a2, a3⟩ := xAll_facts P g.rowsTrain.symm (by
    unfold Csr.shape; rw [g.rowsTrain, g.rowsTest, g.colsTrain, g.colsTest])
  refine ⟨a1, by rw [a2, g.colsTrain], fun k hk j hj => ?_⟩
  rw [Nat.zero_add, a3]
  exact g.entryAll k hk j hj

theorem block_left {A : Csr ℝ} {us : List U} {items : List I} {w : U → I → ℝ} (h : Block A 0 us items w)
    (hl : A.rows.length = us.length) (n : Nat) (b : List (List (Nat × ℝ))) :
    Block ⟨n, A.rows ++ b⟩ 0 us items w := by
  intro k hk j hj
  have := h k hk j hj
  rw [Nat.zero_add] at this ⊢
  rw [entry_left (by omega)]
  exact this

theorem block_right {A : List (List (Nat × ℝ))} {n m off : Nat} {us : List U} {items : List I}
    {w : U → I → ℝ} (a : List (List (Nat × ℝ))) (h : Block ⟨n, A⟩ off us items w) :
    Block ⟨m, a ++ A⟩ (a.length + off) us items w := by
  intro k hk j hj
  rw [Nat.add_assoc, entry_right]
  exact h k hk j hj

/-- C73 (training data).  After a successful split the matrices that the documentation trains on exist, have
one column per item, and one row per user in the order train, validation (, test): the rows of the train
users hold all their interactions, the rows of validation users hold all but the held-out ones while tuning
and all of them for the final model, and the rows of test users never hold what is held out for them. -/
theorem C73_training_data (ho : ValidOracle o)
    (hr : p.useRating = true → ∀ r ∈ df, ∃ z : ℤ, r.rating = z)
    (h : partialUserHoldout fl o p df = .ok H) :
    (∃ X, tuningMatrix H = .ok X ∧ X.nCols = H.items.length ∧
      X.rows.length = H.train.userIds.length + H.val.userIds.length ∧
      Block X 0 H.train.userIds H.items (firstWeight false df) ∧
      Block X H.train.userIds.length H.val.userIds H.items (learnWeight H.val H.items p.useRating df)) ∧
    (∃ X, tuningMatrix3 H = .ok X ∧ X.nCols = H.items.length ∧
      X.rows.length = H.train.userIds.length + H.val.userIds.length + H.test.userIds.length ∧
      Block X 0 H.train.userIds H.items (firstWeight false df) ∧
      Block X H.train.userIds.length H.val.userIds H.items (learnWeight H.val H.items p.useRating df) ∧
      Block X (H.train.userIds.length + H.val.userIds.length) H.test.userIds H.items
        (learnWeight H.test H.items p.useRating df)) ∧
    ∃ X, finalMatrix H = .ok X ∧ X.nCols = H.items.length ∧
      X.rows.length = H.train.userIds.length + H.val.userIds.length + H.test.userIds.length ∧
      Block X 0 H.train.userIds H.items (firstWeight false df) ∧
      Block X H.train.userIds.length H.val.userIds H.items (firstWeight p.useRating df) ∧
      Block X (H.train.userIds.length + H.val.userIds.length) H.test.userIds H.items
        (learnWeight H.test H.items p.useRating df) := by
  have gt := trainOk ho hr h
  have gv := pairOk ho hr h H.val (.inl rfl)
  have ge := pairOk ho hr h H.test (.inr rfl)
  obtain ⟨v1, v2, v3⟩ := gv.all
  refine ⟨⟨_, vstack2 _ _ (by rw [gv.colsTrain, gt.colsAll]), gt.colsAll, ?_, block_left gt.blockAll gt.rowsAll _ _, ?_⟩,
    ⟨_, vstack3 _ _ _ (by rw [gv.colsTrain, gt.cols]) (by rw [ge.colsTrain, gt.cols]), gt.cols, ?_,
      block_left gt.block gt.rows _ _, ?_, ?_⟩,
    ⟨_, vstack3 _ _ _ (by rw [v2, gt.colsAll]) (by rw [ge.colsTrain, gt.colsAll]), gt.colsAll, ?_,
      block_left gt.blockAll gt.rowsAll _ _, ?_, ?_⟩⟩
  · simp only [List.length_append, gt.rowsAll, gv.rowsTrain]
  · have := block_right (m := H.train.xAll.nCols) H.train.xAll.rows gv.learnBlock
    rwa [gt.rowsAll] at this
  · simp only [List.length_append, gt.rows, gv.rowsTrain, ge.rowsTrain, Nat.add_assoc]
  · have := block_right (m := H.train.xTrain.nCols) H.train.xTrain.rows
      (block_left gv.learnBlock gv.rowsTrain H.items.length H.test.xTrain.rows)
    rwa [gt.rows] at this
  · have := block_right (m := H.train.xTrain.nCols) H.train.xTrain.rows
      (block_right (m := H.items.length) H.val.xTrain.rows ge.learnBlock)
    rwa [gt.rows, gv.rowsTrain] at this
  · simp only [List.length_append, gt.rowsAll, v1, ge.rowsTrain, Nat.add_assoc]
  · have := block_right (m := H.train.xAll.nCols) H.train.xAll.rows
      (block_left v3 v1 H.items.length H.test.xTrain.rows)
    rwa [gt.rowsAll] at this
  · have := block_right (m := H.train.xAll.nCols) H.train.xAll.rows
      (block_right (m := H.items.length) H.val.xAll.rows ge.learnBlock)
    rwa [gt.rowsAll, v1] at this

/-- C73 (`concat`).  Stacking by `train.concat(val)` gives a matrix with the same entries, and its `n_users`
is the offset of the test users. -/
theorem C73_concat (ho : ValidOracle o)
    (hr : p.useRating = true → ∀ r ∈ df, ∃ z : ℤ, r.rating = z)
    (h : partialUserHoldout fl o p df = .ok H) :
    ∃ X off, finalMatrixConcat H = .ok (X, off) ∧ X.nCols = H.items.length ∧
      off = H.train.userIds.length + H.val.userIds.length ∧
      X.rows.length = off + H.test.userIds.length ∧
      Block X 0 H.train.userIds H.items (firstWeight false df) ∧
      Block X H.train.userIds.length H.val.userIds H.items (firstWeight p.useRating df) ∧
      Block X off H.test.userIds H.items (learnWeight H.test H.items p.useRating df) := by
  have gt := trainOk ho hr h
  have gv := pairOk ho hr h H.val (.inl rfl)
  have ge := pairOk ho hr h H.test (.inr rfl)
  obtain ⟨q, hq⟩ := make_total (H.train.userIds ++ H.val.userIds)
    ⟨H.train.xTrain.nCols, H.train.xTrain.rows ++ H.val.xTrain.rows⟩
    (some ⟨H.train.xTest.nCols, H.train.xTest.rows ++ H.val.xTest.rows⟩) (none : Option (List I))
    (by simp only [List.length_append, gt.rows, gv.rowsTrain])
    (by
      rintro _ ⟨⟩
      simp only [Csr.shape, List.length_append, gt.rows, gt.cols, gv.rowsTrain, gt.rowsTest, gt.colsTest,
        gv.rowsTest])
    (by simp)
  have he := (make_ok hq).2.2.2
  have hs := (make_ok hq).2.1 _ rfl
  have hcat : H.train.concat H.val = .ok q := by
    unfold UserPair.concat
    rw [if_neg (by rw [gt.cols, gv.colsTrain]; simp), hq]
  have hall : q.xAll.rows.length = H.train.userIds.length + H.val.userIds.length ∧
      q.xAll.nCols = H.items.length ∧
      ∀ k j, entry q.xAll k j = entry q.xTrain k j + entry q.xTest k j := by
    obtain ⟨a1, a2, a3⟩ := xAll_facts q (by
      rw [he]; simp only [List.length_append, gt.rows, gv.rowsTrain]) (by rw [he]; exact hs)
    refine ⟨by rw [a1, he, List.length_append], by rw [a2, he]; exact gt.cols, a3⟩
  obtain ⟨a1, a2, a3⟩ := hall
  have qU : q.userIds.length = H.train.userIds.length + H.val.userIds.length := by
    rw [he]; exact List.length_append
  have qT : q.xTrain = ⟨H.train.xTrain.nCols, H.train.xTrain.rows ++ H.val.xTrain.rows⟩ := by rw [he]
  have qE : q.xTest = ⟨H.train.xTest.nCols, H.train.xTest.rows ++ H.val.xTest.rows⟩ := by rw [he]; rfl
  refine ⟨⟨q.xAll.nCols, q.xAll.rows ++ H.test.xTrain.rows⟩, q.userIds.length, ?_, a2, qU, ?_, ?_, ?_, ?_⟩
  · unfold finalMatrixConcat
    rw [hcat]
    simp only
    rw [vstack2 _ _ (by rw [a2, ge.colsTrain])]
  · simp only [List.length_append, a1, qU, ge.rowsTrain]
  · intro k hk j hj
    rw [Nat.zero_add, entry_left (by omega)]
    refine (a3 k j).trans ?_
    rw [qT, qE, entry_left (by rw [gt.rows]; exact hk), entry_left (by rw [gt.rowsTest]; exact hk)]
    have h0 := gt.testZero k j
    have h1 := gt.block k hk j hj
    rw [Nat.zero_add] at h1
    rw [← h1]
    show entry H.train.xTrain k j + entry H.train.xTest k j = _
    rw [h0, add_zero]
  · intro k hk j hj
    rw [entry_left (by rw [a1]; omega)]
    refine (a3 _ j).trans ?_
    have e1 := entry_right (n := H.train.xTrain.nCols) (a := H.train.xTrain.rows) (b := H.val.xTrain.rows) k j
    have e2 := entry_right (n := H.train.xTest.nCols) (a := H.train.xTest.rows) (b := H.val.xTest.rows) k j
    rw [gt.rows] at e1
    rw [gt.rowsTest] at e2
    rw [qT, qE, e1, e2]
    exact gv.entryAll k hk j hj
  · have := block_right (m := q.xAll.nCols) q.xAll.rows ge.learnBlock
    rw [a1] at this
    rw [qU]
    exact this

/-! ### Evaluation -/

/-- From a recommender trained on `X`, in which the learning part of the group starts at row `off`. -/
theorem group_model_report {useRating : Bool} {items : List I} {P : UserPair U I}
    (g : PairOk useRating df items P) (hr : useRating = true → ∀ r ∈ df, r.rating ≠ 0)
    (X : Csr ℝ) (hc : X.nCols = items.length) (off : Nat) (hl : off + P.userIds.length ≤ X.rows.length)
    (hrow : ∀ k < P.userIds.length, X.rows.getD (off + k) [] = P.xTrain.rows.getD k [])
    (r : Score.Recommender ℝ) (hX : r.X = toCSR X) (score : Nat → Nat → ℝ)
    (hs : ScoresBy (r.seenByEvaluator (fun x : ℝ => (x : WithBot ℝ))) (fun u i => (score u i : WithBot ℝ)))
    (cutoff nThreads mb : Nat) (capped : Bool) (hT : 0 < nThreads) (hmb : 0 < mb) (cutoffs : List Nat)
    (hcut : ∀ c ∈ cutoffs, 0 < c ∧ c ≤ items.length) :
    ∃ ev ds, Evaluator.make (storedRows P.xTest) P.xTest.nCols off cutoff none none none nThreads capped mb
        = .ok ev ∧ ev.scoresOfModel (r.seenByEvaluator (fun x : ℝ => (x : WithBot ℝ))) cutoffs = .ok ds ∧
      ds.length = cutoffs.length ∧
      ∀ j (hj : j < cutoffs.length) (hj' : j < ds.length),
        IsEvaluation P.userIds items capped cutoffs[j] (fun k => score (off + k)) (HeldOut P items)
          (fun u i => ¬ (Interacted df u i ∧ ¬ HeldOut P items u i)) ds[j].base := by
  have hlen : (storedRows P.xTest).length = P.userIds.length := by
    unfold storedRows; rw [List.length_map, g.rowsTest]
  obtain ⟨c, hcore⟩ := (make_ok_iff (storedRows P.xTest) P.xTest.nCols []).mpr (by simp)
  have hev : ∃ ev, Evaluator.make (storedRows P.xTest) P.xTest.nCols off cutoff none none none nThreads
      capped mb = .ok ev := by
    unfold Evaluator.make recommendableArg
    simp only
    rw [hcore]
    exact ⟨_, rfl⟩
  obtain ⟨ev, hev⟩ := hev
  obtain ⟨hw, -, hn, hi, hmk, hmbs, hth, -, hoff, -⟩ := evaluator_wf hev
  have hrn : (r.seenByEvaluator (fun x : ℝ => (x : WithBot ℝ))).nUsers = X.rows.length := by
    show r.X.nrows = _; rw [hX]; rfl
  have hri : (r.seenByEvaluator (fun x : ℝ => (x : WithBot ℝ))).nItems = X.nCols := by
    show r.X.cols = _; rw [hX]; rfl
  have heq := scoresOfModel_eq ev hw _ _ ⟨hs.block, hs.rows⟩ (by omega) (by rw [hrn]; omega)
    (by rw [hri, hi, g.colsTest, hc]) cutoffs
  have hok : ∀ c ∈ cutoffs, ev.ArgsOk c := by
    intro c hcc
    refine ⟨by omega, (hcut c hcc).1, ?_⟩
    rw [hi, g.colsTest]
    exact (hcut c hcc).2
  have hsome : ∃ ds, ev.scoresOfModel (r.seenByEvaluator (fun x : ℝ => (x : WithBot ℝ))) cutoffs = .ok ds ∧
      ds.length = cutoffs.length := by
    rw [heq]
    unfold Evaluator.reference
    rw [if_pos (Or.inr hok)]
    exact ⟨_, rfl, by simp⟩
  obtain ⟨ds, hds, hdl⟩ := hsome
  refine ⟨ev, ds, hev, hds, hdl, fun j hj hj' => ?_⟩
  rw [hds] at heq
  refine group_report g hr hev (fun k => score (off + k))
    (fun k i => (r.seenByEvaluator (fun x : ℝ => (x : WithBot ℝ))).trainNz (off + k) i) ?_ cutoffs ds ?_ j hj hj'
  · intro k hk i
    show Score.nonzeroAt r.X (off + k) i = true ↔ _
    rw [Score.nonzeroAt_iff, hX]
    unfold Seen CSR.row toCSR
    simp only
    rw [hrow k hk]
  · rw [heq]
    congr 1
    funext k i
    unfold Evaluator.modelMask
    rw [hmk, hoff]

/-- C73 (validation).  Split a frame, train any recommender on the tuning matrix (with or without the test
users' learning part) and evaluate it on the validation pair, as the documentation does: evaluation succeeds,
and the values reported for each cutoff are those of recommending to each validation user the best-scored
items among all items of the frame except the interactions the user is learnt with, judged by exactly the
interactions held out for that user.  Ratings, if used, must be integers other than zero. -/
theorem C73_validation_report (ho : ValidOracle o)
    (hr : p.useRating = true → ∀ r ∈ df, r.rating ≠ 0 ∧ ∃ z : ℤ, r.rating = z)
    (h : partialUserHoldout fl o p df = .ok H) (X : Csr ℝ)
    (hX : tuningMatrix H = .ok X ∨ tuningMatrix3 H = .ok X)
    (r : Score.Recommender ℝ) (hrX : r.X = toCSR X) (score : Nat → Nat → ℝ)
    (hs : ScoresBy (r.seenByEvaluator (fun x : ℝ => (x : WithBot ℝ))) (fun u i => (score u i : WithBot ℝ)))
    (cutoff nThreads mb : Nat) (capped : Bool) (hT : 0 < nThreads) (hmb : 0 < mb) (cutoffs : List Nat)
    (hcut : ∀ c ∈ cutoffs, 0 < c ∧ c ≤ H.items.length) :
    ∃ ev ds, valEvaluator H cutoff nThreads capped mb = .ok ev ∧
      ev.scoresOfModel (r.seenByEvaluator (fun x : ℝ => (x : WithBot ℝ))) cutoffs = .ok ds ∧
      ds.length = cutoffs.length ∧
      ∀ j (hj : j < cutoffs.length) (hj' : j < ds.length),
        IsEvaluation H.val.userIds H.items capped cutoffs[j]
          (fun k => score (H.train.userIds.length + k)) (HeldOut H.val H.items)
          (fun u i => ¬ (Interacted df u i ∧ ¬ HeldOut H.val H.items u i)) ds[j].base := by
  have hri : p.useRating = true → ∀ r ∈ df, ∃ z : ℤ, r.rating = z := fun hu r hm => (hr hu r hm).2
  have gt := trainOk ho hri h
  have gv := pairOk ho hri h H.val (.inl rfl)
  have ge := pairOk ho hri h H.test (.inr rfl)
  have hfacts : X.nCols = H.items.length ∧ H.train.userIds.length + H.val.userIds.length ≤ X.rows.length ∧
      ∀ k < H.val.userIds.length, X.rows.getD (H.train.userIds.length + k) [] = H.val.xTrain.rows.getD k [] := by
    rcases hX with hX | hX
    · rw [tuningMatrix, vstack2 _ _ (by rw [gv.colsTrain, gt.colsAll])] at hX
      injection hX with hX
      subst hX
      refine ⟨gt.colsAll, by simp only [List.length_append, gt.rowsAll, gv.rowsTrain]; omega, fun k hk => ?_⟩
      simp only [List.getD_eq_getElem?_getD]
      rw [← gt.rowsAll, List.getElem?_append_right (by omega), Nat.add_sub_cancel_left]
    · rw [tuningMatrix3, vstack3 _ _ _ (by rw [gv.colsTrain, gt.cols]) (by rw [ge.colsTrain, gt.cols])] at hX
      injection hX with hX
      subst hX
      refine ⟨gt.cols, by simp only [List.length_append, gt.rows, gv.rowsTrain]; omega, fun k hk => ?_⟩
      simp only [List.getD_eq_getElem?_getD]
      rw [← gt.rows, List.getElem?_append_right (by omega), Nat.add_sub_cancel_left,
        List.getElem?_append_left (by rw [gv.rowsTrain]; exact hk)]
  exact group_model_report gv (fun hu r hm => (hr hu r hm).1) X hfacts.1 _ hfacts.2.1 hfacts.2.2 r hrX score hs
    cutoff nThreads mb capped hT hmb cutoffs hcut

/-- C73 (test).  The same for the final model and the test pair, however the matrices were stacked. -/
theorem C73_test_report (ho : ValidOracle o)
    (hr : p.useRating = true → ∀ r ∈ df, r.rating ≠ 0 ∧ ∃ z : ℤ, r.rating = z)
    (h : partialUserHoldout fl o p df = .ok H) (X : Csr ℝ)
    (hX : finalMatrix H = .ok X ∨ tuningMatrix3 H = .ok X ∨ ∃ off, finalMatrixConcat H = .ok (X, off))
    (r : Score.Recommender ℝ) (hrX : r.X = toCSR X) (score : Nat → Nat → ℝ)
    (hs : ScoresBy (r.seenByEvaluator (fun x : ℝ => (x : WithBot ℝ))) (fun u i => (score u i : WithBot ℝ)))
    (cutoff nThreads mb : Nat) (capped : Bool) (hT : 0 < nThreads) (hmb : 0 < mb) (cutoffs : List Nat)
    (hcut : ∀ c ∈ cutoffs, 0 < c ∧ c ≤ H.items.length) :
    ∃ ev ds, testEvaluator H cutoff nThreads capped mb = .ok ev ∧
      ev.scoresOfModel (r.seenByEvaluator (fun x : ℝ => (x : WithBot ℝ))) cutoffs = .ok ds ∧
      ds.length = cutoffs.length ∧
      ∀ j (hj : j < cutoffs.length) (hj' : j < ds.length),
        IsEvaluation H.test.userIds H.items capped cutoffs[j]
          (fun k => score (H.train.userIds.length + H.val.userIds.length + k)) (HeldOut H.test H.items)
          (fun u i => ¬ (Interacted df u i ∧ ¬ HeldOut H.test H.items u i)) ds[j].base := by
  have hri : p.useRating = true → ∀ r ∈ df, ∃ z : ℤ, r.rating = z := fun hu r hm => (hr hu r hm).2
  have gt := trainOk ho hri h
  have gv := pairOk ho hri h H.val (.inl rfl)
  have ge := pairOk ho hri h H.test (.inr rfl)
  obtain ⟨v1, v2, -⟩ := gv.all
  have key : ∀ (n : Nat) (a : List (List (Nat × ℝ))), n = H.items.length →
      a.length = H.train.userIds.length + H.val.userIds.length → X = ⟨n, a ++ H.test.xTrain.rows⟩ →
      X.nCols = H.items.length ∧
      H.train.userIds.length + H.val.userIds.length + H.test.userIds.length ≤ X.rows.length ∧
      ∀ k < H.test.userIds.length, X.rows.getD (H.train.userIds.length + H.val.userIds.length + k) [] =
        H.test.xTrain.rows.getD k [] := by
    intro n a hn ha hXe
    subst hXe
    refine ⟨hn, by simp only [List.length_append, ha, ge.rowsTrain]; omega, fun k hk => ?_⟩
    simp only [List.getD_eq_getElem?_getD]
    rw [← ha, List.getElem?_append_right (by omega), Nat.add_sub_cancel_left]
  have hfacts : X.nCols = H.items.length ∧
      H.train.userIds.length + H.val.userIds.length + H.test.userIds.length ≤ X.rows.length ∧
      ∀ k < H.test.userIds.length, X.rows.getD (H.train.userIds.length + H.val.userIds.length + k) [] =
        H.test.xTrain.rows.getD k [] := by
    rcases hX with hX | hX | ⟨off, hX⟩
    · rw [finalMatrix, vstack3 _ _ _ (by rw [v2, gt.colsAll]) (by rw [ge.colsTrain, gt.colsAll])] at hX
      injection hX with hX
      exact key _ (H.train.xAll.rows ++ H.val.xAll.rows) gt.colsAll
        (by rw [List.length_append, gt.rowsAll, v1]) (by rw [← hX, List.append_assoc])
    · rw [tuningMatrix3, vstack3 _ _ _ (by rw [gv.colsTrain, gt.cols]) (by rw [ge.colsTrain, gt.cols])] at hX
      injection hX with hX
      exact key _ (H.train.xTrain.rows ++ H.val.xTrain.rows) gt.cols
        (by rw [List.length_append, gt.rows, gv.rowsTrain]) (by rw [← hX, List.append_assoc])
    · obtain ⟨X', off', hX', hc, hoff, hlen, -⟩ := C73_concat ho hri h
      rw [hX] at hX'
      injection hX' with hX'
      injection hX' with e1 e2
      subst e1 e2
      unfold finalMatrixConcat at hX
      cases hq : H.train.concat H.val with
      | error e => rw [hq] at hX; cases hX
      | ok q =>
        rw [hq] at hX
        simp only at hX
        cases hv : vstack [q.xAll, H.test.xTrain] with
        | error e => rw [hv] at hX; cases hX
        | ok Y =>
          rw [hv] at hX
          injection hX with hX
          injection hX with e1 e2
          subst e1
          have hYe : Y = ⟨q.xAll.nCols, q.xAll.rows ++ H.test.xTrain.rows⟩ := by
            simp only [vstack] at hv
            split at hv
            · injection hv with hv
              rw [← hv]; simp
            · cases hv
          refine key q.xAll.nCols q.xAll.rows ?_ ?_ hYe
          · rw [hYe] at hc; exact hc
          · rw [hYe] at hlen
            simp only [List.length_append, ge.rowsTrain] at hlen
            omega
  exact group_model_report ge (fun hu r hm => (hr hu r hm).1) X hfacts.1 _ hfacts.2.1 hfacts.2.2 r hrX score hs
    cutoff nThreads mb capped hT hmb cutoffs hcut

/-- C73 (cold users).  The same for `EvaluatorWithColdUser`, which scores the learning part of the group by
`get_score_cold_user`: any recommender for the same items whose answer for rows `a … b` of the learning part
are the rows `a … b` of `score`, whatever it was trained on. -/
theorem C73_cold_report (ho : ValidOracle o)
    (hr : p.useRating = true → ∀ r ∈ df, r.rating ≠ 0 ∧ ∃ z : ℤ, r.rating = z)
    (h : partialUserHoldout fl o p df = .ok H) (P : UserPair U I) (hP : P = H.val ∨ P = H.test)
    (r : Score.Recommender ℝ) (hrX : r.X.cols = H.items.length) (score : Nat → Nat → ℝ)
    (hs : ∀ a b : Nat, b ≤ P.userIds.length → r.getScoreColdUser (Score.sliceRows (toCSR P.xTrain) a b) =
      .ok ⟨H.items.length, (List.range' a (b - a)).map score⟩)
    (cutoff nThreads mb : Nat) (capped : Bool) (hT : 0 < nThreads) (hmb : 0 < mb) (cutoffs : List Nat)
    (hcut : ∀ c ∈ cutoffs, 0 < c ∧ c ≤ H.items.length) :
    ∃ ev ds, coldEvaluator P cutoff nThreads capped mb = .ok ev ∧
      ev.scoresOfModel (seenByColdEvaluator (fun x : ℝ => (x : WithBot ℝ)) r P.xTrain) cutoffs = .ok ds ∧
      ds.length = cutoffs.length ∧
      ∀ j (hj : j < cutoffs.length) (hj' : j < ds.length),
        IsEvaluation P.userIds H.items capped cutoffs[j] score (HeldOut P H.items)
          (fun u i => ¬ (Interacted df u i ∧ ¬ HeldOut P H.items u i)) ds[j].base := by
  classical
  have hri : p.useRating = true → ∀ r ∈ df, ∃ z : ℤ, r.rating = z := fun hu r hm => (hr hu r hm).2
  have g := pairOk ho hri h P hP
  have hlen : (storedRows P.xTest).length = P.userIds.length := by
    unfold storedRows; rw [List.length_map, g.rowsTest]
  obtain ⟨c, hcore⟩ := (make_ok_iff (storedRows P.xTest) P.xTest.nCols []).mpr (by simp)
  have hev : ∃ ev, coldEvaluator P cutoff nThreads capped mb = .ok ev := by
    unfold coldEvaluator ColdEvaluator.make
    rw [if_neg (by rw [hlen]; simp [nzMask, g.rowsTrain]), if_neg (by simp)]
    simp only
    unfold Evaluator.make recommendableArg
    simp only
    rw [hcore]
    exact ⟨_, rfl⟩
  obtain ⟨ev, hev⟩ := hev
  have hev' := hev
  unfold coldEvaluator at hev'
  obtain ⟨-, -, hwarm, hcold, hfeat, ⟨masked', hb⟩, hmask, -⟩ := coldEvaluator_make hev'
  obtain ⟨hw, -, hn, hi, -, hmbs, hth, -, hoff, -⟩ := evaluator_wf hb
  have hwc : ev.nWarm = H.items.length := by rw [hwarm]; exact g.colsTrain
  have heq := coldScores_eq ev hw hoff (seenByColdEvaluator (fun x : ℝ => (x : WithBot ℝ)) r P.xTrain)
    (fun k i => (score k i : WithBot ℝ)) (by omega) (by rw [hwc]; exact hrX) (Or.inr rfl) (by
      intro a b hb'
      show (r.getScoreColdUser _).map _ = _
      rw [hs a b (by omega)]
      simp only [Except.map, List.map_map, hwc]
      rfl) cutoffs
  have hok : ∀ c ∈ cutoffs, ev.base.ArgsOk c := by
    intro c hcc
    refine ⟨by omega, (hcut c hcc).1, ?_⟩
    rw [hi, g.colsTest]
    exact (hcut c hcc).2
  have hsome : ∃ ds, ev.scoresOfModel (seenByColdEvaluator (fun x : ℝ => (x : WithBot ℝ)) r P.xTrain) cutoffs
      = .ok ds ∧ ds.length = cutoffs.length := by
    rw [heq]
    unfold Evaluator.reference
    rw [if_pos (Or.inr hok)]
    exact ⟨_, rfl, by simp⟩
  obtain ⟨ds, hds, hdl⟩ := hsome
  refine ⟨ev, ds, hev, hds, hdl, fun j hj hj' => ?_⟩
  rw [hds] at heq
  refine group_report g (fun hu r hm => (hr hu r hm).1) hb score (fun k i => ev.mask.nz k i) ?_ cutoffs ds ?_
    j hj hj'
  · intro k hk i
    rw [hmask rfl]
    simp only [Option.getD_none, ne_eq, not_true_eq_false, if_false]
    exact Score.nonzeroAt_iff _ _ _
  · rw [heq, hcold]
    simp only [Option.getD_none, ne_eq, not_true_eq_false, if_false]

end

/-! ### Non-vacuity and the condition on ratings -/

/-- Twelve users, one for validation and two for test. -/
theorem example_split : ∃ H, partialUserHoldout id plainOracle (exampleParams (some 1) (some 2) (1 / 10))
    (exampleFrame 12) = .ok H := by
  apply C25_succeeds id plainOracle plainOracle_valid
  · rw [(exampleFrame_users 12).1]
    unfold holdoutSizes exampleParams
    simp only
    rw [if_neg (by norm_num), if_neg (by norm_num), if_neg (by norm_num), if_neg (by norm_num)]
    exact ⟨_, rfl⟩
  · simp [exampleParams]
  · intro _; unfold exampleParams; exact ⟨fun _ => by norm_num, fun m hm => by simp at hm⟩
  · intro _; unfold exampleParams; exact ⟨fun _ => by norm_num, fun m hm => by simp at hm⟩

/-- non-vacuity: the hypotheses of the reports are met by TopPop trained on the stacked matrices -/
example : ∃ H X, partialUserHoldout id plainOracle (exampleParams (some 1) (some 2) (1 / 10))
      (exampleFrame 12) = .ok H ∧ tuningMatrix H = .ok X ∧
    (Score.topPop (toCSR X) (some (Score.popularity (toCSR X)))).X = toCSR X ∧
    ScoresBy ((Score.topPop (toCSR X) (some (Score.popularity (toCSR X)))).seenByEvaluator
      (fun x : ℝ => (x : WithBot ℝ))) (fun _ i => ((Score.popularity (toCSR X) i : ℝ) : WithBot ℝ)) ∧
    (Score.topPop (toCSR X) (some (Score.popularity (toCSR X)))).X.cols = H.items.length ∧
    (∀ a b : Nat, b ≤ H.val.userIds.length →
      (Score.topPop (toCSR X) (some (Score.popularity (toCSR X)))).getScoreColdUser
        (Score.sliceRows (toCSR H.val.xTrain) a b) =
      .ok ⟨H.items.length, (List.range' a (b - a)).map (fun _ => Score.popularity (toCSR X))⟩) ∧
    (∀ c ∈ [1], 0 < c ∧ c ≤ H.items.length) := by
  obtain ⟨H, hH⟩ := example_split
  have hr : (exampleParams (some 1) (some 2) (1 / 10)).useRating = true →
      ∀ r ∈ exampleFrame 12, ∃ z : ℤ, r.rating = z := by simp [exampleParams]
  obtain ⟨X, hX, hc, -⟩ := (C73_training_data plainOracle_valid hr hH).1
  have g := pairOk plainOracle_valid hr hH H.val (.inl rfl)
  refine ⟨H, X, hH, hX, rfl, Score.C50_top_pop_evaluated _ _, hc, fun a b hb => ?_, ?_⟩
  · rw [Score.sliceRows_eq _ _ _ (by show b ≤ H.val.xTrain.rows.length; rw [g.rowsTrain]; exact hb)]
    show Except.ok _ = Except.ok _
    have : (toCSR X).cols = H.items.length := hc
    simp [List.map_const', this, CSR.nrows]
  · have h0 : (0 : Nat) ∈ H.items :=
      ((C25_partition_without_leakage id plainOracle plainOracle_valid _ _ hr H hH).2.2.2.1 0).mpr
        ⟨⟨0, 0, 0, 1⟩, by simp [exampleFrame], rfl⟩
    intro c hcc
    obtain rfl := List.mem_singleton.mp hcc
    exact ⟨by omega, List.length_pos_of_mem h0⟩

noncomputable def halfParams : HoldoutParams :=
  { exampleParams (some 1) (some 0) 0 with useRating := true, heldoutRatioVal := 0, heldoutRatioTest := 0 }

noncomputable def halfFrame : List (Row Nat Nat Nat) := [⟨0, 0, 0, 1 / 2⟩]

theorem trunc_half : truncZ (2⁻¹ : ℝ) = 0 := by
  unfold truncZ
  rw [if_pos (by norm_num), Int.floor_eq_iff]
  norm_num

theorem half_split : partialUserHoldout id plainOracle halfParams halfFrame =
    .ok ⟨⟨[], ⟨1, []⟩, ⟨1, []⟩, none⟩, ⟨[0], ⟨1, [[(0, 0)]]⟩, ⟨1, [[]]⟩, some [0]⟩,
      ⟨[], ⟨1, []⟩, ⟨1, []⟩, some [0]⟩, [0]⟩ := by
  have hsz : holdoutSizes id halfParams 1 = .ok (1, 0, 0) := by
    unfold holdoutSizes halfParams exampleParams
    norm_num
  unfold partialUserHoldout
  have h1 : (halfFrame.map Row.user).dedup = [0] := by simp [halfFrame]
  simp only [h1, List.length_singleton, hsz]
  have h2 : holdoutUsers id plainOracle [0] 1 0 0 = ([], [0], []) := by
    simp [holdoutUsers, splitList, pySplit, plainOracle]
  rw [h2]
  simp [dropDuplicates, halfFrame, plainOracle, dfToSparse, keepIn, categories, cooToCsr, UserPair.make,
    userwise, halfParams, exampleParams, userwiseRandom, rowwiseSplit, splitImple, splitRow, rowTriplets,
    collapse, rowEntry, nTestRatio, Csr.empty, Csr.shape, valueOf, trunc_half]

/-- C73: the condition on ratings is needed.  With a rating of one half the split rounds the value to zero:
the interaction is not held out, but the tuning matrix does not contain it, so the model is not trained on it
and the evaluator does not exclude it from the recommendations. -/
theorem C73_fractional_rating_counterexample :
    ∃ (p : HoldoutParams) (df : List (Row Nat Nat Nat)) (H : Holdout Nat Nat) (X : Csr ℝ),
      (∀ r ∈ df, 0 < r.rating) ∧ partialUserHoldout id plainOracle p df = .ok H ∧
      tuningMatrix H = .ok X ∧ H.val.userIds = [0] ∧ H.items = [0] ∧ Interacted df 0 0 ∧
      ¬ HeldOut H.val H.items 0 0 ∧
      ¬ Block X H.train.userIds.length H.val.userIds H.items (learnWeight H.val H.items p.useRating df) ∧
      ∀ r : Score.Recommender ℝ, r.X = toCSR X →
        (r.seenByEvaluator (fun x : ℝ => (x : WithBot ℝ))).trainNz H.train.userIds.length 0 = false := by
  have hno : ¬ HeldOut (⟨[0], ⟨1, [[(0, 0)]]⟩, ⟨1, [[]]⟩, some [0]⟩ : UserPair Nat Nat) [0] 0 0 := by
    rintro ⟨k, j, hk, -, hj⟩
    have : k = 0 := by
      have := (List.getElem?_eq_some_iff.mp hk).1
      simpa using this
    subst this
    simp [storedCols] at hj
  refine ⟨halfParams, halfFrame, _, ⟨1, [[(0, 0)]]⟩, ?_, half_split, ?_, rfl, rfl, ?_, hno, ?_, ?_⟩
  · intro r hr
    simp only [halfFrame, List.mem_singleton] at hr
    rw [hr]; norm_num
  · simp [tuningMatrix, vstack, UserPair.xAll, Csr.add]
  · exact ⟨⟨0, 0, 0, 1 / 2⟩, by simp [halfFrame], rfl, rfl⟩
  · intro hb
    have := hb 0 (by simp) 0 (by simp)
    simp only [List.getElem_cons_zero, learnWeight, if_neg hno] at this
    simp [entry, firstWeight, eventsOf, halfFrame, halfParams] at this
  · intro r hr
    show Score.nonzeroAt r.X 0 0 = false
    rw [hr, Bool.eq_false_iff]
    intro h
    obtain ⟨v, hv, hne⟩ := (Score.nonzeroAt_iff _ _ _).mp h
    simp [CSR.row, toCSR] at hv
    exact hne hv

end Irspack.Props
