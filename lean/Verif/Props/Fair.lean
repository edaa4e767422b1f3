import Verif.Proofs.Fair
import Verif.Props.Split
import Mathlib.Tactic.FinCases
import Mathlib.Algebra.BigOperators.Fin
import Verif.Props.UserHoldout
import Verif.Props.SpecificHoldout

/-!
# C105: random hold-outs favour nobody

The shuffles are taken as ideal: all orders are equally likely and independent.
-/

namespace Irspack.Props
open Irspack Spec Spec.Fair Split Irspack.Fair

/-! ## `rowwise_train_test_split` -/

theorem rowOrders_shuffle {X : Csr ℝ} (σ : RowShuffles X) : IsRowShuffle X (rowOrders σ) := by
  intro r hr
  unfold rowOrders
  rw [dif_pos hr]
  exact order_perm _

theorem rowwise_test {fl : ℝ → ℝ} {X : Csr ℝ} {ratio : ℝ} {n : Option Int} {ceil : Bool} {σ : RowShuffles X}
    {a b : Csr ℝ} (h : rowwiseSplit fl X ratio n ceil (rowOrders σ) = .ok (a, b)) (r : Fin X.rows.length) :
    storedCols b r = (splitRow (heldOutSize fl ratio n ceil) X.rows[r] (order (σ r))).2.map Prod.fst := by
  obtain ⟨nTest, hab, h1, h2⟩ := rowwiseSplit_ok h
  have hn : nTest X.rows[r].length = heldOutSize fl ratio n ceil X.rows[r].length := by
    cases n with
    | none => rw [(h1 rfl).1]; rfl
    | some m => rw [(h2 m rfl).2]; exact Nat.min_comm _ _
  unfold splitImple at hab
  injection hab with ha hb
  subst hb
  unfold storedCols
  simp only [List.getD_eq_getElem?_getD, List.getElem?_mapIdx, List.getElem?_eq_getElem r.2, Option.map_some,
    Option.getD_some, List.map_map]
  have ho : rowOrders σ r = order (σ r) := by unfold rowOrders; rw [dif_pos r.2]
  have hs : splitRow nTest X.rows[r] (order (σ r)) = splitRow (heldOutSize fl ratio n ceil) X.rows[r] (order (σ r)) := by
    unfold splitRow
    simp only
    rw [hn]
  rw [ho]
  change List.map _ (splitRow nTest X.rows[r] (order (σ r))).2 = _
  rw [hs]
  rfl

theorem heldOutSize_le {fl : ℝ → ℝ} (hfl : IsRounding fl) {X : Csr ℝ} {ratio : ℝ} {n : Option Int} {ceil : Bool}
    {shuf : Nat → List Nat} {a b : Csr ℝ} (h : rowwiseSplit fl X ratio n ceil shuf = .ok (a, b)) (len : Nat)
    (hbig : len ≤ 2 ^ 53) : heldOutSize fl ratio n ceil len ≤ len := by
  obtain ⟨nTest, -, h1, -⟩ := rowwiseSplit_ok h
  cases n with
  | none =>
    obtain ⟨-, h0, h1⟩ := h1 rfl
    exact nTestRatio_le hfl h0 h1 ceil _ hbig
  | some m => exact Nat.min_le_right _ _

/-- C105. Row-wise split: whatever sets of interactions (of the documented sizes) are named, one for each user, the
probability that exactly these are held out is the product of `1 / (number of such sets)`.  So all choices are equally
likely for each user, and the choices for different users are independent. -/
theorem C105_rowwise (fl : ℝ → ℝ) (hfl : IsRounding fl) (X : Csr ℝ) (hc : Canonical X)
    (hbig : ∀ row ∈ X.rows, row.length ≤ 2 ^ 53) (ratio : ℝ) (n : Option Int) (ceil : Bool)
    (train test : RowShuffles X → Csr ℝ)
    (h : ∀ σ, rowwiseSplit fl X ratio n ceil (rowOrders σ) = .ok (train σ, test σ))
    (C : Fin X.rows.length → Finset Nat) (hC : ∀ r, ∀ c ∈ C r, c ∈ storedCols X r)
    (hcard : ∀ r, (C r).card = heldOutSize fl ratio n ceil X.rows[r].length) :
    chance (fun σ => ∀ r : Fin X.rows.length, (storedCols (test σ) r).toFinset = C r) =
      ∏ r : Fin X.rows.length, (1 : ℚ) / (X.rows[r].length.choose (heldOutSize fl ratio n ceil X.rows[r].length)) := by
  classical
  have hnd : ∀ r : Fin X.rows.length, (X.rows[r].map Prod.fst).Nodup := fun r => hc _ (List.getElem_mem r.2)
  have hC' : ∀ r : Fin X.rows.length, ∀ c ∈ C r, c ∈ X.rows[r].map Prod.fst := by
    intro r c hcr
    have := hC r c hcr
    unfold storedCols at this
    rwa [List.getD_eq_getElem?_getD, List.getElem?_eq_getElem r.2] at this
  set F : Finset (RowShuffles X) := Fintype.piFinset (fun r : Fin X.rows.length =>
        putFirst X.rows[r].length (heldOutSize fl ratio n ceil X.rows[r].length) (positions X.rows[r] (C r))) with hF
  have hE : ∀ σ : RowShuffles X, (∀ r : Fin X.rows.length, (storedCols (test σ) r).toFinset = C r) ↔ σ ∈ F := by
    intro σ
    rw [hF, Fintype.mem_piFinset]
    refine forall_congr' (fun r => ?_)
    rw [rowwise_test (h σ) r]
    exact test_cols_eq (hnd r) (hC' r) _ _
  rw [chance_congr hE, chance_mem, hF, Fintype.card_piFinset, Fintype.card_pi, Nat.cast_prod, Nat.cast_prod, ← Finset.prod_div_distrib]
  refine Finset.prod_congr rfl (fun r _ => ?_)
  have hle : heldOutSize fl ratio n ceil X.rows[r].length ≤ X.rows[r].length :=
    heldOutSize_le hfl (h 1) _ (hbig _ (List.getElem_mem r.2))
  rw [← card_putFirst hle (positions X.rows[r] (C r)) (by rw [card_positions (hnd r) (hC' r), hcard])]
  have h1 : ((putFirst X.rows[r].length (heldOutSize fl ratio n ceil X.rows[r].length) (positions X.rows[r] (C r))).card : ℚ)
      ≠ 0 := by
    intro h0
    have hp := card_putFirst hle (positions X.rows[r] (C r)) (by rw [card_positions (hnd r) (hC' r), hcard])
    rw [Nat.cast_eq_zero.mp h0, Nat.zero_mul] at hp
    exact Fintype.card_ne_zero hp.symm
  have h2 : ((X.rows[r].length.choose (heldOutSize fl ratio n ceil X.rows[r].length) : ℕ) : ℚ) ≠ 0 := by
    exact_mod_cast (Nat.choose_pos hle).ne'
  push_cast
  field_simp

/-- C105. Row-wise split: each stored interaction of a user is held out with the same probability, the number of
interactions held out divided by the number of stored ones. -/
theorem C105_each_interaction (fl : ℝ → ℝ) (hfl : IsRounding fl) (X : Csr ℝ) (hc : Canonical X)
    (hbig : ∀ row ∈ X.rows, row.length ≤ 2 ^ 53) (ratio : ℝ) (n : Option Int) (ceil : Bool)
    (train test : RowShuffles X → Csr ℝ)
    (h : ∀ σ, rowwiseSplit fl X ratio n ceil (rowOrders σ) = .ok (train σ, test σ))
    (u : Fin X.rows.length) (i : Nat) (hi : i ∈ storedCols X u) :
    chance (fun σ => i ∈ storedCols (test σ) u) =
      (heldOutSize fl ratio n ceil X.rows[u].length : ℚ) / X.rows[u].length := by
  classical
  set k := heldOutSize fl ratio n ceil X.rows[u].length with hk
  have hnd : (X.rows[u].map Prod.fst).Nodup := hc _ (List.getElem_mem u.2)
  have hle : k ≤ X.rows[u].length := heldOutSize_le hfl (h 1) _ (hbig _ (List.getElem_mem u.2))
  have hinj : ∀ i j : Fin X.rows[u].length, (X.rows[u][i]).1 = (X.rows[u][j]).1 → i = j := by
    intro i j he
    have h1 : (X.rows[u].map Prod.fst)[i.val]'(by simp) = (X.rows[u].map Prod.fst)[j.val]'(by simp) := by simpa using he
    exact Fin.ext ((List.Nodup.getElem_inj_iff hnd).mp h1)
  have hi' : i ∈ X.rows[u].map Prod.fst := by
    unfold storedCols at hi
    rwa [List.getD_eq_getElem?_getD, List.getElem?_eq_getElem u.2] at hi
  obtain ⟨p, hp, rfl⟩ := List.mem_map.mp hi'
  obtain ⟨j, hj, rfl⟩ := List.getElem_of_mem hp
  set P : Fin X.rows[u].length → ℚ := fun j =>
    chance (fun σ : RowShuffles X => j ∈ (firstK X.rows[u].length k).map (σ u).toEmbedding) with hP
  have hgoal : chance (fun σ => (X.rows[u][j]).1 ∈ storedCols (test σ) u) = P ⟨j, hj⟩ := by
    refine chance_congr (fun σ => ?_)
    rw [rowwise_test (h σ) u, test_cols]
    constructor
    · rintro ⟨j', he, hm⟩
      rwa [hinj j' ⟨j, hj⟩ he] at hm
    · intro hm; exact ⟨⟨j, hj⟩, rfl, hm⟩
  have hsame : ∀ j', P j' = P ⟨j, hj⟩ := by
    intro j'
    refine chance_equiv (Equiv.mulLeft (Pi.mulSingle u (Equiv.swap j' ⟨j, hj⟩) : RowShuffles X)) (fun σ => ?_)
    have hval : (Equiv.mulLeft (Pi.mulSingle u (Equiv.swap j' ⟨j, hj⟩) : RowShuffles X) σ) u =
        Equiv.swap j' ⟨j, hj⟩ * σ u := by simp
    rw [hval]
    simp only [Finset.mem_map, Equiv.coe_toEmbedding, Equiv.Perm.mul_apply]
    constructor
    · rintro ⟨x, hx, rfl⟩; exact ⟨x, hx, Equiv.swap_apply_left _ _⟩
    · rintro ⟨x, hx, he⟩
      refine ⟨x, hx, ?_⟩
      have := congrArg (Equiv.swap j' ⟨j, hj⟩) he
      rwa [Equiv.swap_apply_self, Equiv.swap_apply_right] at this
  have hpos : (Fintype.card (RowShuffles X) : ℚ) ≠ 0 := by exact_mod_cast Fintype.card_ne_zero
  have hsum : ∑ j', P j' = k := by
    rw [Finset.sum_congr rfl (fun j' _ => chance_eq_sum _), ← Finset.sum_div, Finset.sum_comm]
    have : ∀ σ : RowShuffles X, (∑ j' : Fin X.rows[u].length,
        if j' ∈ (firstK X.rows[u].length k).map (σ u).toEmbedding then (1 : ℚ) else 0) = k := by
      intro σ
      rw [Finset.sum_boole]
      have : (Finset.univ.filter (fun j' => j' ∈ (firstK X.rows[u].length k).map (σ u).toEmbedding)) =
          (firstK X.rows[u].length k).map (σ u).toEmbedding := by ext; simp
      rw [this, Finset.card_map, card_firstK hle]
    rw [Finset.sum_congr rfl (g := fun _ => (k : ℚ)) (fun σ _ => by convert this σ), Finset.sum_const, Finset.card_univ,
      nsmul_eq_mul]
    field_simp
  rw [Finset.sum_congr rfl (fun j' _ => hsame j'), Finset.sum_const, Finset.card_univ, Fintype.card_fin, nsmul_eq_mul] at hsum
  have hn : (X.rows[u].length : ℚ) ≠ 0 := by
    have : 0 < X.rows[u].length := by omega
    exact_mod_cast this.ne'
  rw [hgoal, eq_div_iff hn, ← hsum, mul_comm]

/-- C105. The expected test matrix is the held-out part of the source: for integer values the mean of an entry of the
test matrix is the entry of the source times the held-out share of the user. -/
theorem C105_mean (fl : ℝ → ℝ) (hfl : IsRounding fl) (X : Csr ℝ) (hc : Canonical X) (hint : Integral X)
    (hbig : ∀ row ∈ X.rows, row.length ≤ 2 ^ 53) (ratio : ℝ) (n : Option Int) (ceil : Bool)
    (train test : RowShuffles X → Csr ℝ)
    (h : ∀ σ, rowwiseSplit fl X ratio n ceil (rowOrders σ) = .ok (train σ, test σ))
    (u : Fin X.rows.length) (i : Nat) :
    mean (fun σ => entry (test σ) u i) =
      (heldOutSize fl ratio n ceil X.rows[u].length : ℝ) / X.rows[u].length * entry X u i := by
  classical
  have hval : ∀ σ, entry (test σ) u i = if i ∈ storedCols (test σ) u then entry X u i else 0 := by
    intro σ
    obtain ⟨-, -, h1, h2, h3⟩ := C22_conserves fl X hc hint ratio n ceil _ (rowOrders_shuffle σ) _ _ (h σ)
    obtain ⟨-, h4, h5⟩ := h3 u u.2 (by rw [h1]; exact u.2) (by rw [h2]; exact u.2)
    have hg : ∀ Y : Csr ℝ, (hu : u.val < Y.rows.length) → storedCols Y u = Y.rows[u.val].map Prod.fst := by
      intro Y hu
      unfold storedCols
      rw [List.getD_eq_getElem?_getD, List.getElem?_eq_getElem hu, Option.getD_some]
    have hzero : ∀ Y : Csr ℝ, (hu : u.val < Y.rows.length) → i ∉ storedCols Y u → entry Y u i = 0 := by
      intro Y hu hm
      rw [hg Y hu] at hm
      unfold entry
      rw [List.getD_eq_getElem?_getD, List.getElem?_eq_getElem hu, Option.getD_some, List.filter_eq_nil_iff.mpr]
      · rfl
      · intro p hp
        simp only [decide_eq_true_eq]
        rintro rfl
        exact hm (List.mem_map_of_mem hp)
    by_cases hm : i ∈ storedCols (test σ) u
    · rw [if_pos hm, ← h5 i, hzero (train σ) (by rw [h1]; exact u.2) (fun hm' => h4 i ?_), zero_add]
      rw [hg _ (by rw [h1]; exact u.2)] at hm'
      rw [hg _ (by rw [h2]; exact u.2)] at hm
      exact ⟨hm', hm⟩
    · rw [if_neg hm, hzero _ (by rw [h2]; exact u.2) hm]
  by_cases hi : i ∈ storedCols X u
  · have hch := C105_each_interaction fl hfl X hc hbig ratio n ceil train test h u i hi
    unfold chance at hch
    unfold mean
    simp only [hval]
    rw [← Finset.sum_filter, Finset.sum_const, nsmul_eq_mul, mul_div_right_comm]
    congr 1
    have := congrArg (fun q : ℚ => (q : ℝ)) hch
    push_cast at this
    convert this
  · have hX : entry X u i = 0 := by
      unfold entry
      rw [List.filter_eq_nil_iff.mpr]
      · rfl
      · intro p hp
        simp only [decide_eq_true_eq]
        rintro rfl
        exact hi (List.mem_map_of_mem hp)
    unfold mean
    simp only [hval, hX, ite_self, Finset.sum_const_zero, zero_div, mul_zero]

/-! ## `split_dataframe_partial_user_holdout` -/

variable {U I T : Type} [LinearOrder U] [LinearOrder I] [LinearOrder T]

theorem withShuffles_valid {o : Oracle U I T} (ho : ValidOracle o) {n : Nat} (ω : ListShuffles n) :
    ValidOracle (withShuffles o ω) where
  shuffle := fun k l => shuffled_perm ω k l
  rowShuffle := ho.rowShuffle
  setOrderU := ho.setOrderU
  setOrderI := ho.setOrderI
  sortValues := ho.sortValues

theorem shuffled_length {A : Type} {n : Nat} (ω : ListShuffles n) (k : Nat) (l : List A) :
    (shuffled ω k l).length = l.length := (shuffled_perm ω k l).length_eq

theorem pySplit_lengths {A : Type} {l l' : List A} (h : l.length = l'.length) (t : Int) :
    (pySplit l t).1.length = (pySplit l' t).1.length ∧ (pySplit l t).2.length = (pySplit l' t).2.length := by
  unfold pySplit
  simp only [List.length_drop, List.length_take, h, and_self]

theorem holdoutUsers_rename (fl : ℝ → ℝ) (o : Oracle U I T) {n : Nat} (ω ω' : ListShuffles n) (uids : List U)
    (f : U → U) (h0 : shuffled ω' 0 uids = (shuffled ω 0 uids).map f) (h1 : ∀ l : List U, shuffled ω' 1 l = shuffled ω 1 l)
    (nVal nTest : Int) (ratio : ℝ) :
    holdoutUsers fl (withShuffles o ω') uids nVal nTest ratio =
      renameAll f (holdoutUsers fl (withShuffles o ω) uids nVal nTest ratio) := by
  unfold holdoutUsers splitList withShuffles
  simp only [h0, pySplit_map, h1, shuffled_map]
  split <;> rfl

theorem holdoutUsers_sizes (fl : ℝ → ℝ) (o : Oracle U I T) {n : Nat} (ω ω' : ListShuffles n) (uids : List U)
    (nVal nTest : Int) (ratio : ℝ) (part : Part) :
    (listOf (holdoutUsers fl (withShuffles o ω) uids nVal nTest ratio) part).length =
      (listOf (holdoutUsers fl (withShuffles o ω') uids nVal nTest ratio) part).length := by
  have a0 := pySplit_lengths ((shuffled_length ω 0 uids).trans (shuffled_length ω' 0 uids).symm) (nVal + nTest)
  have a1 := pySplit_lengths (((shuffled_length ω 1 (pySplit (shuffled ω 0 uids) (nVal + nTest)).2).trans a0.2).trans
    (shuffled_length ω' 1 (pySplit (shuffled ω' 0 uids) (nVal + nTest)).2).symm) nTest
  unfold holdoutUsers splitList withShuffles
  simp only
  split <;> cases part <;> simp only [listOf]
  · exact a0.1
  · exact a1.1
  · exact a1.2
  · exact a0.1
  · exact a0.2

theorem holdoutUsers_fair (fl : ℝ → ℝ) {o : Oracle U I T} (uids : List U) (hn : uids.Nodup) {n : Nat}
    (hlen : uids.length < n + 1) (nVal nTest : Int) (ratio : ℝ) :
    FairLists uids (fun ω : ListShuffles n => holdoutUsers fl (withShuffles o ω) uids nVal nTest ratio) := by
  refine ⟨hn, fun ω => ?_, fun f hf => ?_, fun ω ω' part => holdoutUsers_sizes fl o ω ω' uids nVal nTest ratio part⟩
  · exact holdoutUsers_perm (fl := fl) (o := withShuffles o ω) (fun k l => shuffled_perm ω k l) uids nVal nTest ratio
  · obtain ⟨π, hπ⟩ := exists_positions uids hn f hf
    refine ⟨act ⟨0, by omega⟩ ⟨uids.length, hlen⟩ π, fun ω => ?_⟩
    have h0 := shuffled_act_same ω ⟨0, by omega⟩ uids hlen π f hπ
    have h1 : ∀ l : List U, shuffled (act ⟨0, by omega⟩ ⟨uids.length, hlen⟩ π ω) 1 l = shuffled ω 1 l := fun l =>
      shuffled_act_other ω ⟨0, by omega⟩ ⟨uids.length, hlen⟩ π 1 (by simp) l
    exact holdoutUsers_rename fl o ω _ uids f h0 h1 nVal nTest ratio

/-- the users of the parts -/
theorem partialUserHoldout_users {fl : ℝ → ℝ} {o : Oracle U I T} (ho : ValidOracle o) {p : HoldoutParams}
    {df : List (Row U I T)} (hr : p.useRating = true → ∀ r ∈ df, ∃ z : ℤ, r.rating = z) {H : Holdout U I}
    (h : partialUserHoldout fl o p df = .ok H) :
    ∃ nVal nTest ratio, holdoutSizes fl p (userCount df) = .ok (nVal, nTest, ratio) ∧
      ∀ part, (usersIn H part).Perm (listOf (holdoutUsers fl o (df.map Row.user).dedup nVal nTest ratio) part) := by
  obtain ⟨nVal, nTest, ratio, hsz, s, hs, h1, -, -, -, gv, gt, -⟩ := partialUserHoldout_ok ho hr h
  refine ⟨nVal, nTest, ratio, hsz, ?_⟩
  rw [← hs]
  have hperm := holdoutUsers_perm (fl := fl) (o := o) ho.shuffle (df.map Row.user).dedup nVal nTest ratio
  simp only at hperm
  rw [← hs] at hperm
  have hnd : (s.1 ++ s.2.1 ++ s.2.2).Nodup := hperm.nodup_iff.mpr (List.nodup_dedup _)
  have husers : ∀ u, u ∈ s.1 ++ s.2.1 ++ s.2.2 ↔ ∃ r ∈ df, r.user = u := by
    intro u; rw [hperm.mem_iff, List.mem_dedup, List.mem_map]
  have key : ∀ (ids : List U) (P : UserPair U I), ids.Nodup → (∀ u ∈ ids, ∃ r ∈ df, r.user = u) →
      GoodPair p.useRating ((dropDuplicates df).filter (fun r => decide (r.user ∈ ids))) H.items P →
      P.userIds.Perm ids := by
    intro ids P hn hids g
    rw [List.perm_ext_iff_of_nodup g.nodup hn]
    intro u
    rw [g.users]
    constructor
    · rintro ⟨r, hr', rfl⟩
      have := (List.mem_filter.mp hr').2
      simpa using this
    · intro hu
      obtain ⟨r, hr', hru⟩ := (dropDuplicates_users df u).mpr (hids u hu)
      exact ⟨r, List.mem_filter.mpr ⟨hr', by simp [hru, hu]⟩, hru⟩
  intro part
  cases part
  · simp only [usersIn, listOf]; rw [h1]
  · exact key s.2.1 H.val (List.nodup_append.mp (List.nodup_append.mp hnd).1).2.1
      (fun u hu => (husers u).mp (by simp [hu])) gv
  · exact key s.2.2 H.test (List.nodup_append.mp hnd).2.1 (fun u hu => (husers u).mp (by simp [hu])) gt

/-- C105. `split_dataframe_partial_user_holdout`: the users are put into train, validation and test uniformly.  Every
assignment of the users to the three parts which makes the parts as large as the function makes them has the same
probability, one divided by the number of such assignments. -/
theorem C105_users (fl : ℝ → ℝ) (o : Oracle U I T) (ho : ValidOracle o) (p : HoldoutParams) (df : List (Row U I T))
    (hr : p.useRating = true → ∀ r ∈ df, ∃ z : ℤ, r.rating = z) (H : ListShuffles (userCount df) → Holdout U I)
    (h : ∀ ω, partialUserHoldout fl (withShuffles o ω) p df = .ok (H ω)) (a : {u // u ∈ users df} → Part)
    (ω₀ : ListShuffles (userCount df)) (ha : ∀ part, countIn a part = (usersIn (H ω₀) part).length) :
    chance (fun ω => ∀ u, u.1 ∈ usersIn (H ω) (a u)) * assignmentsLike a = 1 := by
  obtain ⟨nVal, nTest, ratio, hsz, -⟩ := partialUserHoldout_users (withShuffles_valid ho ω₀) hr (h ω₀)
  have hp : ∀ ω part, (usersIn (H ω) part).Perm
      (listOf (holdoutUsers fl (withShuffles o ω) (df.map Row.user).dedup nVal nTest ratio) part) := by
    intro ω part
    obtain ⟨nVal', nTest', ratio', hsz', hq⟩ := partialUserHoldout_users (withShuffles_valid ho ω) hr (h ω)
    rw [hsz] at hsz'
    injection hsz' with hsz'
    injection hsz' with e1 hsz'
    injection hsz' with e2 e3
    subst e1 e2 e3
    exact hq part
  have hf := holdoutUsers_fair fl (o := o) (df.map Row.user).dedup (List.nodup_dedup _)
    (n := userCount df) (Nat.lt_succ_self _) nVal nTest ratio
  have := hf.uniform (S := users df) (fun u => by rw [users, List.mem_toFinset, List.mem_dedup]) a ω₀
    (fun part => by rw [ha, (hp ω₀ part).length_eq])
  rw [← this]
  congr 1
  exact chance_congr (fun ω => forall_congr' (fun u => (hp ω _).mem_iff))

/-- C105. In particular each user is in a part with probability size of the part / number of users; the size of a part
does not depend on the shuffles. -/
theorem C105_each_user (fl : ℝ → ℝ) (o : Oracle U I T) (ho : ValidOracle o) (p : HoldoutParams)
    (df : List (Row U I T)) (hr : p.useRating = true → ∀ r ∈ df, ∃ z : ℤ, r.rating = z)
    (H : ListShuffles (userCount df) → Holdout U I)
    (h : ∀ ω, partialUserHoldout fl (withShuffles o ω) p df = .ok (H ω)) (r : Row U I T) (hrow : r ∈ df) (part : Part)
    (ω₀ : ListShuffles (userCount df)) :
    chance (fun ω => r.user ∈ usersIn (H ω) part) = ((usersIn (H ω₀) part).length : ℚ) / userCount df := by
  obtain ⟨nVal, nTest, ratio, hsz, -⟩ := partialUserHoldout_users (withShuffles_valid ho ω₀) hr (h ω₀)
  have hp : ∀ ω part, (usersIn (H ω) part).Perm
      (listOf (holdoutUsers fl (withShuffles o ω) (df.map Row.user).dedup nVal nTest ratio) part) := by
    intro ω part
    obtain ⟨nVal', nTest', ratio', hsz', hq⟩ := partialUserHoldout_users (withShuffles_valid ho ω) hr (h ω)
    rw [hsz] at hsz'
    injection hsz' with hsz'
    injection hsz' with e1 hsz'
    injection hsz' with e2 e3
    subst e1 e2 e3
    exact hq part
  have hf := holdoutUsers_fair fl (o := o) (df.map Row.user).dedup (List.nodup_dedup _)
    (n := userCount df) (Nat.lt_succ_self _) nVal nTest ratio
  have := hf.marginal (u := r.user) (List.mem_dedup.mpr (List.mem_map_of_mem hrow)) part ω₀
  rw [chance_congr (fun ω => (hp ω part).mem_iff), this, (hp ω₀ part).length_eq]
  rfl

/-! ## `holdout_specific_interactions` -/

/-- the three lists of `specificUsers` when it succeeds -/
noncomputable def specificLists (big : Prop) [Decidable big] (t t' : List U → Int) (sh0 sh1 : List U → List U) (l : List U) :
    List U × List U × List U :=
  let s := if big then (l, []) else splitList sh0 l (t l)
  let s' := splitList sh1 s.1 (t' s.1)
  (s.2, s'.2, s'.1)

open Classical in
theorem specificUsers_lists {fl : ℝ → ℝ} {o : Oracle U I T} {l : List U} {rv rt : ℝ} {s : List U × List U × List U}
    (h : specificUsers fl o l rv rt = .ok s) :
    s = specificLists (fl (1 - fl (fl (1 - rv) - rt)) ≥ 1) (fun l => truncZ (fl (fl (fl (1 - rv) - rt) * l.length)))
      (fun l => truncZ (fl (fl (l.length * rv) / fl (1 - fl (fl (1 - rv) - rt))))) (o.shuffle 0) (o.shuffle 1) l := by
  unfold specificUsers at h
  simp only at h
  split at h
  · cases h
  split at h
  · cases h
  injection h with h
  rw [← h]
  rfl

theorem specificLists_fair (big : Prop) [Decidable big] (t t' : List U → Int)
    (ht : ∀ l l', l.length = l'.length → t l = t l') (ht' : ∀ l l', l.length = l'.length → t' l = t' l')
    (l : List U) (hn : l.Nodup) {n : Nat} (hlen : l.length < n + 1) :
    FairLists l (fun ω : ListShuffles n => specificLists big t t' (fun l => shuffled ω 0 l) (fun l => shuffled ω 1 l) l) := by
  have hsp : ∀ (ω : ListShuffles n) (k : Nat) (l : List U) (t : Int),
      ((splitList (fun l => shuffled ω k l) l t).1 ++ (splitList (fun l => shuffled ω k l) l t).2).Perm l :=
    fun ω k l t => (pySplit_perm _ t).trans (shuffled_perm ω k l)
  refine ⟨hn, fun ω => ?_, fun f hf => ?_, fun ω ω' part => ?_⟩
  · have h2 : ∀ s : List U × List U, (s.1 ++ s.2).Perm l → ∀ t : Int,
        (s.2 ++ (splitList (fun l => shuffled ω 1 l) s.1 t).2 ++ (splitList (fun l => shuffled ω 1 l) s.1 t).1).Perm l := by
      intro s hs t
      refine List.Perm.trans ?_ hs
      rw [List.append_assoc]
      refine List.perm_append_comm.trans (List.Perm.append_right _ ?_)
      exact List.perm_append_comm.trans (hsp ω 1 s.1 t)
    unfold specificLists
    simp only
    split
    · exact h2 (l, []) (by simp) _
    · exact h2 _ (hsp ω 0 l _) _
  · obtain ⟨π, hπ⟩ := exists_positions l hn f hf
    by_cases hb : big
    · refine ⟨act ⟨1, by omega⟩ ⟨l.length, hlen⟩ π, fun ω => ?_⟩
      have h1 := shuffled_act_same ω ⟨1, by omega⟩ l hlen π f hπ
      simp only at h1
      unfold specificLists splitList renameAll
      simp only [if_pos hb, h1, pySplit_map, List.map_nil]
    · refine ⟨act ⟨0, by omega⟩ ⟨l.length, hlen⟩ π, fun ω => ?_⟩
      have h0 := shuffled_act_same ω ⟨0, by omega⟩ l hlen π f hπ
      simp only at h0
      have h1 : ∀ l' : List U, shuffled (act ⟨0, by omega⟩ ⟨l.length, hlen⟩ π ω) 1 l' = shuffled ω 1 l' := fun l' =>
        shuffled_act_other ω ⟨0, by omega⟩ ⟨l.length, hlen⟩ π 1 (by simp) l'
      unfold specificLists splitList renameAll
      simp only [if_neg hb, h0, h1, pySplit_map, shuffled_map]
      rw [ht' (List.map f _) (pySplit (shuffled ω 0 l) (t l)).1 (by simp)]
  · by_cases hb : big
    · have a1 := pySplit_lengths ((shuffled_length ω 1 l).trans (shuffled_length ω' 1 l).symm) (t' l)
      unfold specificLists splitList
      simp only [if_pos hb]
      cases part <;> simp only [listOf]
      · exact a1.2
      · exact a1.1
    · have a0 := pySplit_lengths ((shuffled_length ω 0 l).trans (shuffled_length ω' 0 l).symm) (t l)
      have a1 := fun z => pySplit_lengths (((shuffled_length ω 1 (pySplit (shuffled ω 0 l) (t l)).1).trans a0.1).trans
        (shuffled_length ω' 1 (pySplit (shuffled ω' 0 l) (t l)).1).symm) z
      have a2 := ht' _ _ a0.1
      unfold specificLists splitList
      simp only [if_neg hb]
      rw [a2]
      cases part <;> simp only [listOf]
      · exact a0.2
      · exact (a1 _).2
      · exact (a1 _).1

/-- the parts of the users with a flagged interaction -/
theorem holdoutSpecific_users {fl : ℝ → ℝ} {o : Oracle U I T} (ho : ValidOracle o) {df : List (Row U I T × Bool)}
    {rv rt : ℝ} {H : Holdout U I} (h : holdoutSpecific fl o df rv rt = .ok H) :
    ∃ s, specificUsers fl o (((df.filter (fun r => r.2)).map (fun r => r.1.user)).dedup.insertionSort (· ≤ ·)) rv rt = .ok s ∧
      ∀ part, (usersIn H part).Nodup ∧ ∀ u ∈ flaggedUsers df, u ∈ usersIn H part ↔ u ∈ listOf s part := by
  have hpart := C27_partition_by_flag fl o ho df rv rt H h
  unfold holdoutSpecific at h
  simp only at h
  set items := (df.map (fun r => r.1.item)).dedup.insertionSort (· ≤ ·) with hitems
  set vus := ((df.filter (fun r => r.2)).map (fun r => r.1.user)).dedup.insertionSort (· ≤ ·) with hvus
  cases hsu : specificUsers fl o vus rv rt with
  | error e => rw [hsu] at h; cases h
  | ok s =>
    obtain ⟨tr, va, te⟩ := s
    rw [hsu] at h
    simp only at h
    obtain ⟨hvn, hvm⟩ := sorted_dedup ((df.filter (fun r => r.2)).map (fun r => r.1.user))
    obtain ⟨hinn, him⟩ := sorted_dedup (df.map (fun r => r.1.item))
    rw [← hvus] at hvn hvm
    rw [← hitems] at hinn him
    have hflag : ∀ u, u ∈ flaggedUsers df ↔ u ∈ vus := by
      intro u
      rw [hvm, flaggedUsers, List.mem_toFinset]
    have hrow : ∀ u ∈ flaggedUsers df, ∃ r ∈ df, r.1.user = u := by
      intro u hu
      rw [flaggedUsers, List.mem_toFinset, List.mem_map] at hu
      obtain ⟨r, hr, he⟩ := hu
      exact ⟨r, (List.mem_filter.mp hr).1, he⟩
    have hit : ∀ r ∈ df, r.1.item ∈ items := fun r hr => (him _).mpr (List.mem_map_of_mem hr)
    set dfT := df.filter (fun r => decide (r.1.user ∈ tr)) ++
      df.filter (fun r => !decide (r.1.user ∈ vus)) with hdfT
    have hdfTi : ∀ r ∈ dfT, r.1.item ∈ items := by
      intro r hr
      rw [hdfT, List.mem_append] at hr
      rcases hr with hr | hr <;> exact hit r (List.mem_filter.mp hr).1
    cases ha : specificDataset dfT items true with
    | error e => rw [ha] at h; cases h
    | ok a =>
      rw [ha] at h
      simp only at h
      cases hb : specificDataset (df.filter (fun r => decide (r.1.user ∈ va))) items false with
      | error e => rw [hb] at h; cases h
      | ok b =>
        rw [hb] at h
        simp only at h
        cases hc : specificDataset (df.filter (fun r => decide (r.1.user ∈ te))) items false with
        | error e => rw [hc] at h; cases h
        | ok c =>
          rw [hc] at h
          simp only at h
          injection h with h
          subst h
          simp only at hpart
          have hnd := hpart.1
          refine ⟨_, rfl, fun part => ?_⟩
          have key : ∀ (ids : List U) (P : UserPair U I),
              specificDataset (df.filter (fun r => decide (r.1.user ∈ ids))) items false = .ok P →
              ∀ u ∈ flaggedUsers df, u ∈ P.userIds ↔ u ∈ ids := by
            intro ids P hP u hu
            obtain ⟨b1, b2, b3⟩ := specificDataset_ok hinn (fun r hr => hit r (List.mem_filter.mp hr).1) hP
            rw [b2]
            constructor
            · rintro ⟨r, hr, rfl⟩
              simpa using (List.mem_filter.mp hr).2
            · intro hi
              obtain ⟨r, hr, he⟩ := hrow u hu
              exact ⟨r, List.mem_filter.mpr ⟨hr, by simp [he, hi]⟩, he⟩
          cases part
          · refine ⟨(List.nodup_append.mp (List.nodup_append.mp hnd).1).1, fun u hu => ?_⟩
            obtain ⟨a1, a2, a3⟩ := specificDataset_ok hinn hdfTi ha
            simp only [usersIn, listOf]
            rw [a2]
            constructor
            · rintro ⟨r, hr, rfl⟩
              rw [hdfT, List.mem_append] at hr
              rcases hr with hr | hr
              · simpa using (List.mem_filter.mp hr).2
              · have h1 := (List.mem_filter.mp hr).2
                have h2 := (hflag _).mp hu
                simp [h2] at h1
            · intro hi
              obtain ⟨r, hr, he⟩ := hrow u hu
              exact ⟨r, List.mem_append_left _ (List.mem_filter.mpr ⟨hr, by simp [he, hi]⟩), he⟩
          · exact ⟨(List.nodup_append.mp (List.nodup_append.mp hnd).1).2.1, key va b hb⟩
          · exact ⟨(List.nodup_append.mp hnd).2.1, key te c hc⟩

theorem flagged_length (df : List (Row U I T × Bool)) :
    (((df.filter (fun r => r.2)).map (fun r => r.1.user)).dedup.insertionSort (· ≤ ·)).length = (flaggedUsers df).card := by
  rw [(List.perm_insertionSort (· ≤ ·) _).length_eq, flaggedUsers, List.card_toFinset]

/-- fair lists that determine the parts of the flagged users -/
theorem holdoutSpecific_fair (fl : ℝ → ℝ) (o : Oracle U I T) (ho : ValidOracle o) (df : List (Row U I T × Bool))
    (rv rt : ℝ) (H : ListShuffles (flaggedUsers df).card → Holdout U I)
    (h : ∀ ω, holdoutSpecific fl (withShuffles o ω) df rv rt = .ok (H ω)) :
    ∃ (l : List U) (s : ListShuffles (flaggedUsers df).card → List U × List U × List U), FairLists l s ∧
      (∀ u, u ∈ flaggedUsers df ↔ u ∈ l) ∧ (∀ ω part, (usersIn (H ω) part).Nodup) ∧
      ∀ ω part, ∀ u ∈ flaggedUsers df, u ∈ usersIn (H ω) part ↔ u ∈ listOf (s ω) part := by
  classical
  obtain ⟨hvn, hvm⟩ := sorted_dedup ((df.filter (fun r => r.2)).map (fun r => r.1.user))
  refine ⟨((df.filter (fun r => r.2)).map (fun r => r.1.user)).dedup.insertionSort (· ≤ ·), fun ω => specificLists
      (fl (1 - fl (fl (1 - rv) - rt)) ≥ 1) (fun l => truncZ (fl (fl (fl (1 - rv) - rt) * l.length)))
      (fun l => truncZ (fl (fl (l.length * rv) / fl (1 - fl (fl (1 - rv) - rt))))) (fun l => shuffled ω 0 l)
      (fun l => shuffled ω 1 l) _, specificLists_fair _ _ _ ?_ ?_ _ hvn ?_, ?_, ?_, ?_⟩
  · intro l l' hl; simp only [hl]
  · intro l l' hl; simp only [hl]
  · rw [flagged_length]; exact Nat.lt_succ_self _
  · intro u; rw [hvm, flaggedUsers, List.mem_toFinset]
  · intro ω part
    obtain ⟨s, -, hs⟩ := holdoutSpecific_users (withShuffles_valid ho ω) (h ω)
    exact (hs part).1
  · intro ω part u hu
    obtain ⟨s, hsu, hs⟩ := holdoutSpecific_users (withShuffles_valid ho ω) (h ω)
    rw [(hs part).2 u hu, specificUsers_lists hsu]
    rfl

/-- the flagged users of a part are those of the list -/
theorem flagged_sizes {fs : Finset U} {us l ls : List U} (hn : us.Nodup) (hl : ls.Nodup) (hsub : ∀ u ∈ ls, u ∈ l)
    (hfs : ∀ u, u ∈ fs ↔ u ∈ l) (hm : ∀ u ∈ fs, u ∈ us ↔ u ∈ ls) :
    (us.filter (fun u => decide (u ∈ fs))).length = ls.length := by
  apply List.Perm.length_eq
  rw [List.perm_ext_iff_of_nodup (hn.filter _) hl]
  intro u
  rw [List.mem_filter, decide_eq_true_eq]
  constructor
  · rintro ⟨h1, h2⟩; exact (hm u h2).mp h1
  · intro h1
    have h2 := (hfs u).mpr (hsub u h1)
    exact ⟨(hm u h2).mpr h1, h2⟩

theorem listOf_sublist (s : List U × List U × List U) (part : Part) :
    (listOf s part).Sublist (s.1 ++ s.2.1 ++ s.2.2) := by
  cases part <;> simp only [listOf]
  · rw [List.append_assoc]; exact List.sublist_append_left _ _
  · exact (List.sublist_append_right s.1 s.2.1).trans (List.sublist_append_left _ _)
  · exact List.sublist_append_right _ _

/-- C105. `holdout_specific_interactions`: the users with a flagged interaction are distributed uniformly over the three
parts. -/
theorem C105_specific (fl : ℝ → ℝ) (o : Oracle U I T) (ho : ValidOracle o) (df : List (Row U I T × Bool))
    (rv rt : ℝ) (H : ListShuffles (flaggedUsers df).card → Holdout U I)
    (h : ∀ ω, holdoutSpecific fl (withShuffles o ω) df rv rt = .ok (H ω)) (a : {u // u ∈ flaggedUsers df} → Part)
    (ω₀ : ListShuffles (flaggedUsers df).card)
    (ha : ∀ part, countIn a part = ((usersIn (H ω₀) part).filter (fun u => decide (u ∈ flaggedUsers df))).length) :
    chance (fun ω => ∀ u, u.1 ∈ usersIn (H ω) (a u)) * assignmentsLike a = 1 := by
  obtain ⟨l, s, hf, hS, hn, hm⟩ := holdoutSpecific_fair fl o ho df rv rt H h
  have hnl : ∀ ω part, (listOf (s ω) part).Nodup := fun ω part =>
    ((hf.perm ω).nodup_iff.mpr hf.nodup).sublist (listOf_sublist _ part)
  have := hf.uniform hS a ω₀ (fun part => by
    rw [ha]
    exact flagged_sizes (hn ω₀ part) (hnl ω₀ part)
      (fun u hu => (hf.perm ω₀).mem_iff.mp ((listOf_sublist _ part).subset hu)) hS (hm ω₀ part))
  rw [← this]
  congr 1
  exact chance_congr (fun ω => forall_congr' (fun u => hm ω _ u.1 u.2))

/-- C105. Each user with a flagged interaction is in a part with the same probability. -/
theorem C105_specific_each (fl : ℝ → ℝ) (o : Oracle U I T) (ho : ValidOracle o) (df : List (Row U I T × Bool))
    (rv rt : ℝ) (H : ListShuffles (flaggedUsers df).card → Holdout U I)
    (h : ∀ ω, holdoutSpecific fl (withShuffles o ω) df rv rt = .ok (H ω)) (u : U) (hu : u ∈ flaggedUsers df)
    (part : Part) (ω₀ : ListShuffles (flaggedUsers df).card) :
    chance (fun ω => u ∈ usersIn (H ω) part) =
      (((usersIn (H ω₀) part).filter (fun u => decide (u ∈ flaggedUsers df))).length : ℚ) / (flaggedUsers df).card := by
  obtain ⟨l, s, hf, hS, hn, hm⟩ := holdoutSpecific_fair fl o ho df rv rt H h
  have hnl : ∀ ω part, (listOf (s ω) part).Nodup := fun ω part =>
    ((hf.perm ω).nodup_iff.mpr hf.nodup).sublist (listOf_sublist _ part)
  have hc : (flaggedUsers df).card = l.length := by
    rw [← List.toFinset_card_of_nodup hf.nodup]
    congr 1
    ext v
    rw [hS, List.mem_toFinset]
  rw [chance_congr (fun ω => hm ω part u hu), hf.marginal ((hS u).mp hu) part ω₀, hc,
    flagged_sizes (hn ω₀ part) (hnl ω₀ part)
      (fun u hu => (hf.perm ω₀).mem_iff.mp ((listOf_sublist _ part).subset hu)) hS (hm ω₀ part)]

/-! ## Non-vacuity -/

/-- Two users with three and two interactions; one interaction of each is held out.  All hypotheses of the row-wise
theorems are met; the sets `{5}` and `{0}` are held out together with probability `1/3 · 1/2`. -/
example : ∃ train test : RowShuffles ⟨9, [[(2, 1), (5, 4), (7, 2)], [(0, 3), (8, 1)]]⟩ → Csr ℝ,
    (∀ σ, rowwiseSplit id ⟨9, [[(2, 1), (5, 4), (7, 2)], [(0, 3), (8, 1)]]⟩ 0 (some 1) false (rowOrders σ) =
      .ok (train σ, test σ)) ∧
    chance (fun σ => ∀ r : Fin 2, (storedCols (test σ) r).toFinset = if r.val = 0 then {5} else {0}) = 1 / 6 := by
  set X : Csr ℝ := ⟨9, [[(2, 1), (5, 4), (7, 2)], [(0, 3), (8, 1)]]⟩ with hX
  have hex : ∀ σ : RowShuffles X, ∃ r, rowwiseSplit id X 0 (some 1) false (rowOrders σ) = .ok r :=
    fun σ => (C23_accepts_iff id X 0 (some 1) false _).mpr (by simp)
  refine ⟨fun σ => (hex σ).choose.1, fun σ => (hex σ).choose.2, fun σ => (hex σ).choose_spec, ?_⟩
  have := C105_rowwise id ⟨monotone_id, fun _ _ => rfl⟩ X (by
      intro row hrow
      rw [hX] at hrow
      simp only [List.mem_cons, List.not_mem_nil, or_false] at hrow
      rcases hrow with rfl | rfl <;> decide) (by
      intro row hrow
      rw [hX] at hrow
      simp only [List.mem_cons, List.not_mem_nil, or_false] at hrow
      rcases hrow with rfl | rfl <;> norm_num) 0 (some 1) false _ _ (fun σ => (hex σ).choose_spec)
      (fun r => if r.val = 0 then {5} else {0}) (by
      intro r c hc
      fin_cases r <;> simp_all [storedCols]) (by
      intro r
      fin_cases r <;> rfl)
  refine Eq.trans this ?_
  change ∏ r : Fin 2, _ = _
  rw [Fin.prod_univ_two]
  change (1 : ℚ) / ((Nat.choose 3 1 : ℕ) : ℚ) * (1 / ((Nat.choose 2 1 : ℕ) : ℚ)) = 1 / 6
  norm_num

/-- Twelve users, one for validation and two for testing: the hypotheses of the theorems on users are met. -/
example : ∃ H : ListShuffles (userCount (exampleFrame 12)) → Holdout Nat Nat,
    ∀ ω, partialUserHoldout id (withShuffles plainOracle ω) (exampleParams (some 1) (some 2) (1 / 10))
      (exampleFrame 12) = .ok (H ω) := by
  have hex : ∀ ω : ListShuffles (userCount (exampleFrame 12)), ∃ H, partialUserHoldout id (withShuffles plainOracle ω)
      (exampleParams (some 1) (some 2) (1 / 10)) (exampleFrame 12) = .ok H := by
    intro ω
    apply C25_succeeds id _ (withShuffles_valid plainOracle_valid ω)
    · rw [(exampleFrame_users 12).1]
      unfold holdoutSizes exampleParams
      simp only
      rw [if_neg (by norm_num), if_neg (by norm_num), if_neg (by norm_num), if_neg (by norm_num)]
      exact ⟨_, rfl⟩
    · simp [exampleParams]
    · intro _; unfold exampleParams; exact ⟨fun _ => by norm_num, fun m hm => by simp at hm⟩
    · intro _; unfold exampleParams; exact ⟨fun _ => by norm_num, fun m hm => by simp at hm⟩
  exact ⟨fun ω => (hex ω).choose, fun ω => (hex ω).choose_spec⟩

/-- `holdout_specific_interactions` with half of the flagged users for validation and a quarter for testing. -/
example (df : List (Row Nat Nat Nat × Bool)) : ∃ H : ListShuffles (flaggedUsers df).card → Holdout Nat Nat,
    ∀ ω, holdoutSpecific id (withShuffles plainOracle ω) df (1 / 2) (1 / 4) = .ok (H ω) := by
  have hex := fun ω : ListShuffles (flaggedUsers df).card =>
    (C27_succeeds_iff id (withShuffles plainOracle ω) df (1 / 2) (1 / 4)).mpr (by norm_num)
  exact ⟨fun ω => (hex ω).choose, fun ω => (hex ω).choose_spec⟩

end Irspack.Props
