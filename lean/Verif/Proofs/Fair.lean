import Mathlib.GroupTheory.Perm.Basic
import Mathlib.Algebra.BigOperators.Field
import Mathlib.Data.Finset.Powerset
import Mathlib.Data.Fintype.BigOperators
import Mathlib.Data.Fintype.Powerset
import Mathlib.Tactic.FieldSimp
import Mathlib.Tactic.Positivity
import Mathlib.Algebra.Group.Pi.Lemmas
import Verif.Spec.Fair
import Verif.Proofs.Split

/-!
# Counting shuffles
-/

namespace Irspack.Fair

open Spec.Fair Split Spec

section chance
variable {Ω : Type} [Fintype Ω]

open Classical in
theorem chance_eq_sum (E : Ω → Prop) : chance E = (∑ ω, if E ω then (1 : ℚ) else 0) / Fintype.card Ω := by
  unfold chance
  rw [Finset.sum_boole]

theorem chance_congr {E F : Ω → Prop} (h : ∀ ω, E ω ↔ F ω) : chance E = chance F := by
  have : E = F := funext fun ω => propext (h ω)
  rw [this]

open Classical in
theorem chance_equiv {E F : Ω → Prop} (e : Ω ≃ Ω) (h : ∀ ω, E ω ↔ F (e ω)) : chance E = chance F := by
  rw [chance_eq_sum, chance_eq_sum]
  congr 1
  rw [← e.sum_comp (fun ω => if F ω then (1 : ℚ) else 0)]
  exact Finset.sum_congr rfl (fun ω _ => by simp only [h])

open Classical in
theorem chance_mem (F : Finset Ω) : chance (fun ω => ω ∈ F) = (F.card : ℚ) / Fintype.card Ω := by
  unfold chance
  congr 3
  ext ω
  simp

end chance

/-- functions whose fibres have the same sizes differ by a permutation -/
theorem exists_perm_fibers {A B : Type} [Fintype A] [DecidableEq B] (f g : A → B)
    (h : ∀ y, (Finset.univ.filter (fun x => f x = y)).card = (Finset.univ.filter (fun x => g x = y)).card) :
    ∃ π : Equiv.Perm A, ∀ x, g (π x) = f x := by
  have e : ∀ y, Nonempty ({x // f x = y} ≃ {x // g x = y}) := by
    intro y
    refine ⟨Fintype.equivOfCardEq ?_⟩
    rw [Fintype.card_subtype, Fintype.card_subtype, h]
  refine ⟨(Equiv.sigmaFiberEquiv f).symm.trans ((Equiv.sigmaCongrRight (fun y => (e y).some)).trans
    (Equiv.sigmaFiberEquiv g)), fun x => ?_⟩
  exact ((e (f x)).some ⟨x, rfl⟩).2

/-- the first `k` positions -/
def firstK (n k : Nat) : Finset (Fin n) := Finset.univ.filter (fun i => i.val < k)

theorem card_firstK {n k : Nat} (h : k ≤ n) : (firstK n k).card = k := by
  unfold firstK
  have : (Finset.univ.filter (fun i : Fin n => i.val < k)) = (Finset.univ : Finset (Fin k)).map (Fin.castLEEmb h) := by
    ext i
    simp only [Finset.mem_filter, Finset.mem_univ, true_and, Finset.mem_map]
    constructor
    · intro hi; exact ⟨⟨i, hi⟩, rfl⟩
    · rintro ⟨j, rfl⟩; exact j.2
  rw [this, Finset.card_map, Finset.card_univ, Fintype.card_fin]

/-- the orders that put the positions `S` first -/
def putFirst (n k : Nat) (S : Finset (Fin n)) : Finset (Equiv.Perm (Fin n)) :=
  Finset.univ.filter (fun σ => (firstK n k).map σ.toEmbedding = S)

theorem card_putFirst {n k : Nat} (h : k ≤ n) (S : Finset (Fin n)) (hS : S.card = k) :
    (putFirst n k S).card * n.choose k = Fintype.card (Equiv.Perm (Fin n)) := by
  have hsame : ∀ S' : Finset (Fin n), S'.card = k → (putFirst n k S').card = (putFirst n k S).card := by
    intro S' hS'
    obtain ⟨π, hπ⟩ := exists_perm_fibers (fun x => decide (x ∈ S')) (fun x => decide (x ∈ S)) (by
      have hc : ∀ T : Finset (Fin n), T.card = k → ∀ y : Bool,
          (Finset.univ.filter (fun x => decide (x ∈ T) = y)).card = if y then k else n - k := by
        intro T hT y
        cases y with
        | true => simp [hT]
        | false =>
          have : (Finset.univ.filter (fun x => decide (x ∈ T) = false)) = Tᶜ := by ext; simp
          rw [this, Finset.card_compl, hT]; simp
      intro y
      rw [hc S' hS', hc S hS])
    have hπ' : ∀ x, π x ∈ S ↔ x ∈ S' := by intro x; simpa using hπ x
    refine Finset.card_bij (fun σ _ => σ.trans π) ?_ ?_ ?_
    · intro σ hσ
      simp only [putFirst, Finset.mem_filter, Finset.mem_univ, true_and] at hσ ⊢
      ext x
      rw [show (x ∈ S ↔ π.symm x ∈ S') by rw [← hπ']; simp, ← hσ]
      simp only [Finset.mem_map, Equiv.coe_toEmbedding, Equiv.trans_apply]
      constructor
      · rintro ⟨i, hi, rfl⟩; exact ⟨i, hi, by simp⟩
      · rintro ⟨i, hi, he⟩; exact ⟨i, hi, by rw [he]; simp⟩
    · intro σ _ σ' _ he
      ext x
      have := Equiv.congr_fun he x
      simp only [Equiv.trans_apply] at this
      rw [π.injective this]
    · intro τ hτ
      refine ⟨τ.trans π.symm, ?_, by ext x; simp⟩
      simp only [putFirst, Finset.mem_filter, Finset.mem_univ, true_and] at hτ ⊢
      ext x
      rw [← hπ', ← hτ]
      simp only [Finset.mem_map, Equiv.coe_toEmbedding, Equiv.trans_apply]
      constructor
      · rintro ⟨i, hi, rfl⟩; exact ⟨i, hi, by simp⟩
      · rintro ⟨i, hi, he⟩; exact ⟨i, hi, by rw [he]; simp⟩
  have hsum := Finset.card_eq_sum_card_fiberwise (s := (Finset.univ : Finset (Equiv.Perm (Fin n))))
    (t := Finset.powersetCard k (Finset.univ : Finset (Fin n))) (f := fun σ => (firstK n k).map σ.toEmbedding) (by
      intro σ _
      simp [Finset.mem_powersetCard, card_firstK h])
  change _ = ∑ b ∈ Finset.powersetCard k Finset.univ, (putFirst n k b).card at hsum
  rw [Finset.sum_congr rfl (fun S' hS' => hsame S' (Finset.mem_powersetCard.mp hS').2), Finset.sum_const,
    Finset.card_powersetCard, Finset.card_univ, Finset.card_univ, Fintype.card_fin, smul_eq_mul, mul_comm] at hsum
  exact hsum.symm

/-! ### rows -/

theorem order_getElem? {n : Nat} (σ : Equiv.Perm (Fin n)) (i : Fin n) : (order σ)[i.val]? = some (σ i).val := by
  unfold order
  rw [List.getElem?_ofFn]
  simp

theorem order_length {n : Nat} (σ : Equiv.Perm (Fin n)) : (order σ).length = n := by simp [order]

theorem order_perm {n : Nat} (σ : Equiv.Perm (Fin n)) : (order σ).Perm (List.range n) := by
  have h : order σ = (List.ofFn σ).map Fin.val := by unfold order; rw [List.map_ofFn]; rfl
  rw [h, ← List.map_coe_finRange_eq_range]
  exact (Equiv.Perm.ofFn_comp_perm σ id).map Fin.val |>.trans (by rw [List.ofFn_id])

theorem mem_take_order {n k : Nat} (σ : Equiv.Perm (Fin n)) (j : Fin n) :
    j.val ∈ (order σ).take k ↔ j ∈ (firstK n k).map σ.toEmbedding := by
  rw [List.mem_take_iff_getElem]
  simp only [Finset.mem_map, firstK, Finset.mem_filter, Finset.mem_univ, true_and, Equiv.coe_toEmbedding]
  constructor
  · rintro ⟨i, hi, he⟩
    rw [order_length] at hi
    refine ⟨⟨i, by omega⟩, by simp; omega, ?_⟩
    apply Fin.ext
    rw [← he]
    have := order_getElem? σ ⟨i, by omega⟩
    rw [List.getElem?_eq_getElem (by rw [order_length]; simp; omega)] at this
    exact (Option.some.inj this).symm
  · rintro ⟨i, hi, rfl⟩
    refine ⟨i, by rw [order_length]; omega, ?_⟩
    have := order_getElem? σ i
    rw [List.getElem?_eq_getElem (by rw [order_length]; exact i.2)] at this
    exact Option.some.inj this

/-- the columns of the test entries of a row -/
theorem test_cols {row : List (Nat × ℝ)} (nTest : Nat → Nat)
    (σ : Equiv.Perm (Fin row.length)) (c : Nat) :
    c ∈ (splitRow nTest row (order σ)).2.map Prod.fst ↔
      ∃ j : Fin row.length, (row[j]).1 = c ∧ j ∈ (firstK row.length (nTest row.length)).map σ.toEmbedding := by
  unfold splitRow
  simp only
  rw [mem_collapse_cols]
  have ht : (rowTriplets row (order σ)).take (nTest row.length) =
      rowTriplets row ((order σ).take (nTest row.length)) := by
    unfold rowTriplets
    have : ∀ (l : List Nat) (k : Nat), (∀ x ∈ l, x < row.length) →
        (l.filterMap (fun k => (row[k]?).map (fun p => (p.1, truncZ p.2)))).take k =
          (l.take k).filterMap (fun k => (row[k]?).map (fun p => (p.1, truncZ p.2))) := by
      intro l
      induction l with
      | nil => intro k _; simp
      | cons x l ih =>
        intro k hx
        have hx0 := hx x (by simp)
        cases k with
        | zero => simp
        | succ k =>
          rw [List.take_succ_cons, List.filterMap_cons, List.filterMap_cons, List.getElem?_eq_getElem hx0]
          simp only [Option.map_some, List.take_succ_cons]
          rw [ih k (fun y hy => hx y (List.mem_cons_of_mem _ hy))]
    refine this _ _ (fun x hx => ?_)
    have := (order_perm σ).mem_iff.mp hx
    simpa using this
  rw [ht]
  unfold rowTriplets
  simp only [List.mem_map, List.mem_filterMap]
  constructor
  · rintro ⟨p, ⟨k, hk, hp⟩, rfl⟩
    have hlt : k < row.length := by
      have := (order_perm σ).mem_iff.mp (List.mem_of_mem_take hk)
      simpa using this
    rw [List.getElem?_eq_getElem hlt, Option.map_some, Option.some.injEq] at hp
    refine ⟨⟨k, hlt⟩, by rw [← hp]; rfl, (mem_take_order σ ⟨k, hlt⟩).mp hk⟩
  · rintro ⟨j, rfl, hj⟩
    refine ⟨((row[j]).1, truncZ (row[j]).2), ⟨j.val, (mem_take_order σ j).mpr hj, ?_⟩, rfl⟩
    rw [List.getElem?_eq_getElem j.2]
    rfl

/-- the positions of a set of columns -/
def positions (row : List (Nat × ℝ)) (C : Finset Nat) : Finset (Fin row.length) :=
  Finset.univ.filter (fun j => (row[j]).1 ∈ C)

theorem card_positions {row : List (Nat × ℝ)} (hc : (row.map Prod.fst).Nodup) {C : Finset Nat}
    (hC : ∀ c ∈ C, c ∈ row.map Prod.fst) : (positions row C).card = C.card := by
  refine Finset.card_bij (fun j _ => (row[j]).1) ?_ ?_ ?_
  · intro j hj; exact (Finset.mem_filter.mp hj).2
  · intro i _ j _ he
    have h1 : (row.map Prod.fst)[i.val]'(by simp) = (row.map Prod.fst)[j.val]'(by simp) := by simpa using he
    exact Fin.ext ((List.Nodup.getElem_inj_iff hc).mp h1)
  · intro c hcC
    obtain ⟨p, hp, rfl⟩ := List.mem_map.mp (hC c hcC)
    obtain ⟨j, hj, rfl⟩ := List.getElem_of_mem hp
    exact ⟨⟨j, hj⟩, Finset.mem_filter.mpr ⟨Finset.mem_univ _, hcC⟩, rfl⟩

/-- the test columns of a row are the set `C` -/
theorem test_cols_eq {row : List (Nat × ℝ)} (hc : (row.map Prod.fst).Nodup) {C : Finset Nat}
    (hC : ∀ c ∈ C, c ∈ row.map Prod.fst) (nTest : Nat → Nat) (σ : Equiv.Perm (Fin row.length)) :
    ((splitRow nTest row (order σ)).2.map Prod.fst).toFinset = C ↔
      σ ∈ putFirst row.length (nTest row.length) (positions row C) := by
  simp only [putFirst, Finset.mem_filter, Finset.mem_univ, true_and]
  have hinj : ∀ i j : Fin row.length, (row[i]).1 = (row[j]).1 → i = j := by
    intro i j he
    have h1 : (row.map Prod.fst)[i.val]'(by simp) = (row.map Prod.fst)[j.val]'(by simp) := by simpa using he
    exact Fin.ext ((List.Nodup.getElem_inj_iff hc).mp h1)
  constructor
  · intro h
    ext j
    unfold positions
    rw [Finset.mem_filter, ← h, List.mem_toFinset, test_cols]
    constructor
    · intro hj; exact ⟨Finset.mem_univ _, j, rfl, hj⟩
    · rintro ⟨-, i, hi, hj⟩; rwa [hinj i j hi] at hj
  · intro h
    ext c
    rw [List.mem_toFinset, test_cols, h]
    unfold positions
    constructor
    · rintro ⟨j, rfl, hj⟩; exact (Finset.mem_filter.mp hj).2
    · intro hcC
      obtain ⟨p, hp, rfl⟩ := List.mem_map.mp (hC c hcC)
      obtain ⟨j, hj, rfl⟩ := List.getElem_of_mem hp
      exact ⟨⟨j, hj⟩, rfl, Finset.mem_filter.mpr ⟨Finset.mem_univ _, hcC⟩⟩

/-! ### assignments to parts -/

section parts
variable {Ω V : Type} [Fintype Ω] [Nonempty Ω] [Fintype V] [DecidableEq V]

/-- A random assignment that is compatible with all permutations and always makes parts of the same sizes takes every
such assignment with the same probability. -/
theorem uniform_assignment (A : Ω → V → Part) (e : Equiv.Perm V → (Ω ≃ Ω))
    (hA : ∀ π ω v, A (e π ω) (π v) = A ω v) (c : Part → Nat) (hc : ∀ ω y, countIn (A ω) y = c y) (a : V → Part)
    (ha : ∀ y, countIn a y = c y) :
    chance (fun ω => A ω = a) * (Finset.univ.filter (fun a' : V → Part => ∀ y, countIn a' y = c y)).card = 1 := by
  classical
  have hsame : ∀ a', (∀ y, countIn a' y = c y) → chance (fun ω => A ω = a') = chance (fun ω => A ω = a) := by
    intro a' ha'
    obtain ⟨π, hπ⟩ := exists_perm_fibers a' a (fun y => (ha' y).trans (ha y).symm)
    refine chance_equiv (e π) (fun ω => ?_)
    constructor
    · intro h
      funext v
      have := hA π ω (π.symm v)
      rw [Equiv.apply_symm_apply] at this
      rw [this, h, ← hπ, Equiv.apply_symm_apply]
    · intro h
      funext v
      rw [← hA π ω v, h, hπ]
  have hsum : ∑ a' ∈ Finset.univ.filter (fun a' : V → Part => ∀ y, countIn a' y = c y), chance (fun ω => A ω = a') = 1 := by
    have hmaps := Finset.card_eq_sum_card_fiberwise (s := (Finset.univ : Finset Ω))
      (t := Finset.univ.filter (fun a' : V → Part => ∀ y, countIn a' y = c y)) (f := A) (by
        intro ω _
        simp [hc])
    unfold chance
    rw [← Finset.sum_div, ← Nat.cast_sum]
    have hpos : (Fintype.card Ω : ℚ) ≠ 0 := by exact_mod_cast Fintype.card_ne_zero
    rw [div_eq_one_iff_eq hpos]
    norm_cast
    rw [← Finset.card_univ, hmaps]
    refine Finset.sum_congr rfl (fun a' _ => ?_)
    congr 1
    ext ω
    simp
  rw [Finset.sum_congr rfl (fun a' ha' => hsame a' (Finset.mem_filter.mp ha').2), Finset.sum_const, nsmul_eq_mul,
    mul_comm] at hsum
  exact hsum

/-- Each element is in a part with probability size of the part / number of elements. -/
theorem uniform_marginal (A : Ω → V → Part) (e : Equiv.Perm V → (Ω ≃ Ω))
    (hA : ∀ π ω v, A (e π ω) (π v) = A ω v) (c : Part → Nat) (hc : ∀ ω y, countIn (A ω) y = c y) (v : V) (y : Part) :
    chance (fun ω => A ω v = y) * Fintype.card V = c y := by
  classical
  have hsame : ∀ v', chance (fun ω => A ω v' = y) = chance (fun ω => A ω v = y) := by
    intro v'
    refine chance_equiv (e (Equiv.swap v' v)) (fun ω => ?_)
    have := hA (Equiv.swap v' v) ω v'
    rw [Equiv.swap_apply_left] at this
    rw [this]
  have hpos : (Fintype.card Ω : ℚ) ≠ 0 := by exact_mod_cast Fintype.card_ne_zero
  have hsum : ∑ v', chance (fun ω => A ω v' = y) = c y := by
    rw [Finset.sum_congr rfl (fun v' _ => chance_eq_sum _)]
    rw [← Finset.sum_div, Finset.sum_comm]
    have : ∀ ω, (∑ v', if A ω v' = y then (1 : ℚ) else 0) = c y := by
      intro ω
      rw [Finset.sum_boole, ← hc ω y]
      rfl
    rw [Finset.sum_congr rfl (g := fun _ => (c y : ℚ)) (fun ω _ => by convert this ω), Finset.sum_const, Finset.card_univ,
      nsmul_eq_mul]
    field_simp
  rw [Finset.sum_congr rfl (fun v' _ => hsame v'), Finset.sum_const, Finset.card_univ, nsmul_eq_mul, mul_comm] at hsum
  exact hsum

end parts

/-! ### shuffled lists -/

section lists
variable {A : Type}

theorem arrange_map {A' : Type} (perm : List Nat) (l : List A) (f : A → A') :
    arrange perm (l.map f) = (arrange perm l).map f := by
  unfold arrange
  rw [List.map_filterMap]
  congr 1
  funext k
  rw [List.getElem?_map]

theorem arrange_order (l : List A) (σ : Equiv.Perm (Fin l.length)) :
    arrange (order σ) l = List.ofFn (fun i => l[σ i]) := by
  unfold arrange order
  rw [List.ofFn_eq_map, List.ofFn_eq_map, List.filterMap_map, ← List.filterMap_eq_map]
  refine List.filterMap_congr (fun i _ => ?_)
  simp

theorem arrange_mul (l : List A) (π σ : Equiv.Perm (Fin l.length)) (f : A → A) (h : ∀ j, l[π j] = f l[j]) :
    arrange (order (π * σ)) l = (arrange (order σ) l).map f := by
  rw [arrange_order, arrange_order, List.map_ofFn]
  congr 1
  funext i
  exact h (σ i)

theorem arrange_perm (l : List A) (σ : Equiv.Perm (Fin l.length)) : (arrange (order σ) l).Perm l := by
  rw [arrange_order]
  have := Equiv.Perm.ofFn_comp_perm σ (fun i => l[i])
  refine this.trans ?_
  have he : (List.ofFn fun i : Fin l.length => l[i]) = l := List.ofFn_getElem
  rw [he]

theorem pySplit_map {A' : Type} (l : List A) (t : Int) (f : A → A') :
    pySplit (l.map f) t = ((pySplit l t).1.map f, (pySplit l t).2.map f) := by
  unfold pySplit
  simp only [List.length_map, List.map_drop, List.map_take]

theorem shuffled_perm {n : Nat} (ω : ListShuffles n) (k : Nat) (l : List A) : (shuffled ω k l).Perm l := by
  unfold shuffled
  split
  · exact arrange_perm _ _
  · exact List.Perm.refl _

theorem shuffled_map {n : Nat} (ω : ListShuffles n) (k : Nat) (l : List A) (f : A → A) :
    shuffled ω k (l.map f) = (shuffled ω k l).map f := by
  have key : ∀ m, m = l.length →
      (if h : k < 2 ∧ m < n + 1 then arrange (order (ω ⟨k, h.1⟩ ⟨m, h.2⟩)) (l.map f) else l.map f) =
        (shuffled ω k l).map f := by
    rintro m rfl
    unfold shuffled
    split
    · exact arrange_map _ _ _
    · rfl
  exact key (l.map f).length (by simp)

/-- another order for one call and one length -/
def act {n : Nat} (k : Fin 2) (len : Fin (n + 1)) (π : Equiv.Perm (Fin len)) : ListShuffles n ≃ ListShuffles n :=
  Equiv.mulLeft (Pi.mulSingle k (Pi.mulSingle len π) : ListShuffles n)

theorem shuffled_act_same {n : Nat} (ω : ListShuffles n) (k : Fin 2) (l : List A) (hl : l.length < n + 1)
    (π : Equiv.Perm (Fin l.length)) (f : A → A) (h : ∀ j, l[π j] = f l[j]) :
    shuffled (act k ⟨l.length, hl⟩ π ω) k l = (shuffled ω k l).map f := by
  unfold shuffled
  rw [dif_pos ⟨k.2, hl⟩, dif_pos ⟨k.2, hl⟩, ← arrange_mul l π _ f h]
  congr 2
  unfold act
  simp

theorem shuffled_act_other {n : Nat} (ω : ListShuffles n) (k : Fin 2) (len : Fin (n + 1)) (π : Equiv.Perm (Fin len))
    (k' : Nat) (hk : k.val ≠ k') (l : List A) : shuffled (act k len π ω) k' l = shuffled ω k' l := by
  unfold shuffled
  split
  · rename_i h
    have hne : (⟨k', h.1⟩ : Fin 2) ≠ k := fun he => hk (by rw [← he])
    congr 2
    unfold act
    simp [Pi.mulSingle_eq_of_ne hne]
  · rfl

/-- a permutation of the values of a list without repetitions, as a permutation of the positions -/
theorem exists_positions (l : List A) (hl : l.Nodup) (f : Equiv.Perm A) (hf : ∀ x, f x ∈ l ↔ x ∈ l) :
    ∃ π : Equiv.Perm (Fin l.length), ∀ j, l[π j] = f l[j] := by
  classical
  let g := hl.getEquiv l
  refine ⟨(g.trans (f.subtypePerm hf)).trans g.symm, fun j => ?_⟩
  have : (g (((g.trans (f.subtypePerm hf)).trans g.symm) j)).1 = f l[j] := by simp [g]
  exact this

end lists

/-! ### three lists of users -/

section users
variable {Ω U : Type} [Fintype Ω] [Nonempty Ω] [DecidableEq U]

/-- the list of a part -/
def listOf (s : List U × List U × List U) : Part → List U
  | .train => s.1
  | .val => s.2.1
  | .test => s.2.2

/-- the part of a user -/
def partOf (s : List U × List U × List U) (u : U) : Part :=
  if u ∈ s.1 then .train else if u ∈ s.2.1 then .val else .test

/-- renaming the users of the lists -/
def renameAll (f : U → U) (s : List U × List U × List U) : List U × List U × List U :=
  (s.1.map f, s.2.1.map f, s.2.2.map f)

theorem mem_listOf {s : List U × List U × List U} {l : List U} (hl : l.Nodup)
    (hp : (s.1 ++ s.2.1 ++ s.2.2).Perm l) {u : U} (hu : u ∈ l) (part : Part) :
    u ∈ listOf s part ↔ partOf s u = part := by
  have hnd := hp.nodup_iff.mpr hl
  have hm := hp.mem_iff.mpr hu
  rw [List.nodup_append] at hnd
  obtain ⟨h1, -, h3⟩ := hnd
  rw [List.nodup_append] at h1
  obtain ⟨-, -, h4⟩ := h1
  simp only [List.mem_append] at hm
  have d12 : u ∈ s.1 → u ∉ s.2.1 := fun a b => h4 u a u b rfl
  have d13 : u ∈ s.1 → u ∉ s.2.2 := fun a b => h3 u (List.mem_append_left _ a) u b rfl
  have d23 : u ∈ s.2.1 → u ∉ s.2.2 := fun a b => h3 u (List.mem_append_right _ a) u b rfl
  unfold partOf
  cases part <;> simp only [listOf] <;> by_cases c1 : u ∈ s.1 <;> by_cases c2 : u ∈ s.2.1 <;> simp_all

theorem countIn_partOf {s : List U × List U × List U} {l : List U} (hl : l.Nodup)
    (hp : (s.1 ++ s.2.1 ++ s.2.2).Perm l) {S : Finset U} (hS : ∀ u, u ∈ S ↔ u ∈ l) (part : Part) :
    countIn (fun v : {u // u ∈ S} => partOf s v.1) part = (listOf s part).length := by
  have hnd := hp.nodup_iff.mpr hl
  have hsub : (listOf s part).Sublist (s.1 ++ s.2.1 ++ s.2.2) := by
    cases part <;> simp only [listOf]
    · rw [List.append_assoc]; exact List.sublist_append_left _ _
    · exact (List.sublist_append_right s.1 s.2.1).trans (List.sublist_append_left _ _)
    · exact List.sublist_append_right _ _
  have hn : (listOf s part).Nodup := hnd.sublist hsub
  rw [← List.toFinset_card_of_nodup hn]
  unfold countIn
  refine Finset.card_bij (fun v _ => v.1) ?_ ?_ ?_
  · intro v hv
    rw [List.mem_toFinset, mem_listOf hl hp ((hS _).mp v.2)]
    exact (Finset.mem_filter.mp hv).2
  · intro v _ w _ h; exact Subtype.ext h
  · intro u hu
    rw [List.mem_toFinset] at hu
    have hul : u ∈ l := hp.mem_iff.mp (hsub.subset hu)
    exact ⟨⟨u, (hS u).mpr hul⟩, Finset.mem_filter.mpr ⟨Finset.mem_univ _, (mem_listOf hl hp hul part).mp hu⟩, rfl⟩

theorem partOf_rename (f : Equiv.Perm U) (s : List U × List U × List U) (u : U) :
    partOf (renameAll f s) (f u) = partOf s u := by
  unfold partOf renameAll
  simp only [List.mem_map, EmbeddingLike.apply_eq_iff_eq, exists_eq_right]

/-- the conditions under which random lists are fair -/
structure FairLists (l : List U) (s : Ω → List U × List U × List U) : Prop where
  nodup : l.Nodup
  perm : ∀ ω, ((s ω).1 ++ (s ω).2.1 ++ (s ω).2.2).Perm l
  rename : ∀ f : Equiv.Perm U, (∀ x, f x ∈ l ↔ x ∈ l) → ∃ e : Ω ≃ Ω, ∀ ω, s (e ω) = renameAll f (s ω)
  sizes : ∀ ω ω' part, (listOf (s ω) part).length = (listOf (s ω') part).length

variable {l : List U} {s : Ω → List U × List U × List U}

omit [Fintype Ω] [Nonempty Ω] in
theorem FairLists.action (h : FairLists l s) {S : Finset U} (hS : ∀ u, u ∈ S ↔ u ∈ l) :
    ∃ e : Equiv.Perm {u // u ∈ S} → (Ω ≃ Ω), ∀ π ω v,
      partOf (s (e π ω)) (π v).1 = partOf (s ω) v.1 := by
  classical
  have : ∀ π : Equiv.Perm {u // u ∈ S}, ∃ e : Ω ≃ Ω, ∀ ω, s (e ω) = renameAll (Equiv.Perm.ofSubtype π) (s ω) := by
    intro π
    refine h.rename _ (fun x => ?_)
    rw [← hS, ← hS]
    exact Equiv.Perm.ofSubtype_apply_mem_iff_mem π x
  refine ⟨fun π => (this π).choose, fun π ω v => ?_⟩
  rw [(this π).choose_spec ω, ← Equiv.Perm.ofSubtype_apply_coe π v]
  exact partOf_rename _ _ _

theorem FairLists.uniform (h : FairLists l s) {S : Finset U} (hS : ∀ u, u ∈ S ↔ u ∈ l)
    (a : {u // u ∈ S} → Part) (ω₀ : Ω) (ha : ∀ part, countIn a part = (listOf (s ω₀) part).length) :
    chance (fun ω => ∀ u, u.1 ∈ listOf (s ω) (a u)) * assignmentsLike a = 1 := by
  obtain ⟨e, he⟩ := h.action hS
  have hu := uniform_assignment (fun ω (v : {u // u ∈ S}) => partOf (s ω) v.1) e he (countIn a)
    (fun ω y => by rw [countIn_partOf h.nodup (h.perm ω) hS, h.sizes ω ω₀, ha]) a (fun _ => rfl)
  rw [← hu]
  unfold assignmentsLike
  congr 1
  refine chance_congr (fun ω => ?_)
  rw [funext_iff]
  exact forall_congr' (fun u => mem_listOf h.nodup (h.perm ω) ((hS _).mp u.2) _)

theorem FairLists.marginal (h : FairLists l s) {u : U} (hu : u ∈ l) (part : Part) (ω₀ : Ω) :
    chance (fun ω => u ∈ listOf (s ω) part) = (listOf (s ω₀) part).length / (l.length : ℚ) := by
  have hS : ∀ u, u ∈ l.toFinset ↔ u ∈ l := fun u => List.mem_toFinset
  obtain ⟨e, he⟩ := h.action hS
  have hm := uniform_marginal (fun ω (v : {u // u ∈ l.toFinset}) => partOf (s ω) v.1) e he
    (fun y => (listOf (s ω₀) y).length)
    (fun ω y => by rw [countIn_partOf h.nodup (h.perm ω) hS, h.sizes ω ω₀]) ⟨u, (hS u).mpr hu⟩ part
  rw [Fintype.card_coe, List.toFinset_card_of_nodup h.nodup] at hm
  have hpos : (l.length : ℚ) ≠ 0 := by
    have := List.length_pos_of_mem hu
    exact_mod_cast this.ne'
  rw [eq_div_iff hpos, ← hm]
  congr 1
  exact chance_congr (fun ω => mem_listOf h.nodup (h.perm ω) hu _)

end users

end Irspack.Fair
