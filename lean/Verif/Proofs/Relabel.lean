import Verif.Proofs.Ranking
import Verif.Spec.Relabel
import Mathlib.Data.Finset.Card
import Mathlib.Algebra.BigOperators.Ring.Finset

/-! Helper lemmas for C87. -/

namespace Irspack.Spec.Relabel

theorem Renames.surj {n : Nat} {p : Nat → Nat} (h : Renames n p) (j : Nat) (hj : j < n) : ∃ i < n, p i = j := by
  have himg : (Finset.range n).image p = Finset.range n := by
    apply Finset.eq_of_subset_of_card_le
    · intro x hx
      obtain ⟨i, hi, rfl⟩ := Finset.mem_image.mp hx
      exact Finset.mem_range.mpr (h.bound i (Finset.mem_range.mp hi))
    · rw [Finset.card_image_of_injOn]
      intro a ha b hb hab
      exact h.inj a b (by simpa using ha) (by simpa using hb) hab
  have : j ∈ (Finset.range n).image p := by rw [himg]; exact Finset.mem_range.mpr hj
  obtain ⟨i, hi, rfl⟩ := Finset.mem_image.mp this
  exact ⟨i, Finset.mem_range.mp hi, rfl⟩

theorem Renames.id (n : Nat) : Renames n (fun i => i) := ⟨fun _ h => h, fun _ _ _ _ h => h⟩

/-- the renaming back -/
theorem Renames.inverse {n : Nat} {p : Nat → Nat} (h : Renames n p) :
    ∃ q, Renames n q ∧ (∀ i, i < n → q (p i) = i) ∧ ∀ i, i < n → p (q i) = i := by
  classical
  have hex : ∀ j, ∃ i, j < n → i < n ∧ p i = j := by
    intro j
    by_cases hj : j < n
    · obtain ⟨i, hi, e⟩ := h.surj j hj; exact ⟨i, fun _ => ⟨hi, e⟩⟩
    · exact ⟨0, fun h' => absurd h' hj⟩
  choose q hq using hex
  refine ⟨q, ⟨fun i hi => (hq i hi).1, fun i j hi hj e => ?_⟩, fun i hi => ?_, fun i hi => (hq i hi).2⟩
  · rw [← (hq i hi).2, ← (hq j hj).2, e]
  · have := hq (p i) (h.bound i hi)
    exact h.inj _ _ this.1 hi this.2

/-- a sum over all things does not depend on their numbers -/
theorem Renames.sum {A : Type} [AddCommMonoid A] {n : Nat} {p : Nat → Nat} (h : Renames n p) (f g : Nat → A)
    (hfg : ∀ i, i < n → f i = g (p i)) : ∑ i ∈ Finset.range n, f i = ∑ i ∈ Finset.range n, g i := by
  refine Finset.sum_bij (fun i _ => p i) ?_ ?_ ?_ ?_
  · intro i hi; exact Finset.mem_range.mpr (h.bound i (Finset.mem_range.mp hi))
  · intro i hi j hj; exact h.inj i j (Finset.mem_range.mp hi) (Finset.mem_range.mp hj)
  · intro j hj
    obtain ⟨i, hi, e⟩ := h.surj j (Finset.mem_range.mp hj)
    exact ⟨i, Finset.mem_range.mpr hi, e⟩
  · intro i hi; exact hfg i (Finset.mem_range.mp hi)

theorem Renames.perm_range {n : Nat} {p : Nat → Nat} (h : Renames n p) :
    ((List.range n).map p).Perm (List.range n) := by
  rw [List.perm_ext_iff_of_nodup]
  · intro a
    simp only [List.mem_map, List.mem_range]
    constructor
    · rintro ⟨i, hi, rfl⟩; exact h.bound i hi
    · exact h.surj a
  · refine List.Nodup.map_on ?_ List.nodup_range
    intro x hx y hy
    exact h.inj x y (List.mem_range.mp hx) (List.mem_range.mp hy)
  · exact List.nodup_range

end Irspack.Spec.Relabel

namespace Irspack.Evaluation
open Spec Spec.Relabel

/-- `p` is injective on a set of items -/
theorem relevant_rename (p : Nat → Nat) (recs : List Nat) (gt gt' : Finset Nat)
    (h : ∀ i ∈ recs, i ∈ gt ↔ p i ∈ gt') (j : Nat) : Relevant (recs.map p) gt' j ↔ Relevant recs gt j := by
  unfold Relevant
  rw [List.getElem?_map]
  constructor
  · rintro ⟨i, hi, hg⟩
    obtain ⟨a, ha, rfl⟩ := Option.map_eq_some_iff.mp hi
    exact ⟨a, ha, (h a (List.mem_of_getElem? ha)).mpr hg⟩
  · rintro ⟨i, hi, hg⟩
    exact ⟨p i, by rw [hi]; rfl, (h i (List.mem_of_getElem? hi)).mp hg⟩

/-- the values of a user do not depend on the numbers of the items -/
theorem contribution_rename (n : Nat) (p : Nat → Nat) (hp : Renames n p) (capped : Bool) (recs : List Nat)
    (gt gt' : Finset Nat) (hr : ∀ i ∈ recs, i < n) (hg : ∀ i ∈ gt, i < n) (hg' : gt' = gt.image p) :
    (contribution capped (recs.map p) gt').hit = (contribution capped recs gt).hit ∧
    (contribution capped (recs.map p) gt').recall = (contribution capped recs gt).recall ∧
    (contribution capped (recs.map p) gt').ndcg = (contribution capped recs gt).ndcg ∧
    (contribution capped (recs.map p) gt').precision = (contribution capped recs gt).precision ∧
    (contribution capped (recs.map p) gt').map = (contribution capped recs gt).map ∧
    ∀ i, i < n → (contribution capped (recs.map p) gt').itemCnt (p i) = (contribution capped recs gt).itemCnt i := by
  classical
  have hrel : ∀ j, Relevant (recs.map p) gt' j ↔ Relevant recs gt j := by
    refine relevant_rename p recs gt gt' (fun i hi => ?_)
    rw [hg']
    constructor
    · exact fun h => Finset.mem_image_of_mem p h
    · intro h
      obtain ⟨k, hk, e⟩ := Finset.mem_image.mp h
      rw [← hp.inj k i (hg k hk) (hr i hi) e]; exact hk
  have hcard : gt'.card = gt.card := by
    rw [hg']
    apply Finset.card_image_of_injOn
    intro a ha b hb
    exact hp.inj a b (hg a ha) (hg b hb)
  have hhits : ∀ k, hitsAt (recs.map p) gt' k = hitsAt recs gt k := by
    intro k; unfold hitsAt; congr 1; ext j; simp [hrel]
  have hnil : recs.map p = [] ↔ recs = [] := List.map_eq_nil_iff
  refine ⟨?_, ?_, ?_, ?_, ?_, ?_⟩
  · simp only [contribution, Spec.hit, hrel]
  · simp only [contribution, Spec.recall, hnil, hhits, hcard, List.length_map]
  · simp only [contribution, Spec.ndcg, hnil, hcard, List.length_map, Spec.dcg, hrel]
  · simp only [contribution, Spec.precision, hnil, hhits, List.length_map]
  · simp only [contribution, Spec.averagePrecision, hcard, List.length_map, hrel, hhits]
  · intro i hi
    simp only [contribution]
    rw [List.count_eq_countP, List.count_eq_countP, List.countP_map]
    apply List.countP_congr
    intro x hx
    simp only [Function.comp, beq_iff_eq]
    exact ⟨fun e => hp.inj x i (hr x hx) hi e, fun e => by rw [e]⟩

/-- two accumulators that differ in the numbers of the items only -/
structure SameUpTo (n : Nat) (p : Nat → Nat) (m m' : Metrics) : Prop where
  validUser : m'.validUser = m.validUser
  totalUser : m'.totalUser = m.totalUser
  hit : m'.hit = m.hit
  recall : m'.recall = m.recall
  ndcg : m'.ndcg = m.ndcg
  precision : m'.precision = m.precision
  map : m'.map = m.map
  itemCnt : ∀ i, i < n → m'.itemCnt (p i) = m.itemCnt i

theorem SameUpTo.zero (n : Nat) (p : Nat → Nat) : SameUpTo n p 0 0 :=
  ⟨rfl, rfl, rfl, rfl, rfl, rfl, rfl, fun _ _ => rfl⟩

theorem SameUpTo.add {n : Nat} {p : Nat → Nat} {a a' b b' : Metrics} (h : SameUpTo n p a a')
    (h' : SameUpTo n p b b') : SameUpTo n p (a + b) (a' + b') :=
  ⟨by simp [h.validUser, h'.validUser], by simp [h.totalUser, h'.totalUser], by simp [h.hit, h'.hit],
   by simp [h.recall, h'.recall], by simp [h.ndcg, h'.ndcg], by simp [h.precision, h'.precision],
   by simp [h.map, h'.map], fun i hi => by simp [h.itemCnt i hi, h'.itemCnt i hi]⟩

theorem SameUpTo.sum {n : Nat} {p : Nat → Nat} (s : Finset Nat) (f f' : Nat → Metrics)
    (h : ∀ u ∈ s, SameUpTo n p (f u) (f' u)) : SameUpTo n p (∑ u ∈ s, f u) (∑ u ∈ s, f' u) := by
  classical
  induction s using Finset.induction_on with
  | empty => exact SameUpTo.zero n p
  | insert a s ha ih =>
    rw [Finset.sum_insert ha, Finset.sum_insert ha]
    exact (h a (Finset.mem_insert_self _ _)).add (ih (fun u hu => h u (Finset.mem_insert_of_mem hu)))

theorem SameUpTo.asDict {n : Nat} {p : Nat → Nat} (hp : Renames n p) {m m' : Metrics} (h : SameUpTo n p m m') :
    m'.asDict n = m.asDict n := by
  have hperm : ((List.range n).map m'.itemCnt).Perm ((List.range n).map m.itemCnt) := by
    refine ((hp.perm_range.map m'.itemCnt).symm).trans ?_
    rw [List.map_map]
    apply List.Perm.of_eq
    apply List.map_congr_left
    intro i hi
    exact h.itemCnt i (List.mem_range.mp hi)
  have hsort : ((List.range n).map m'.itemCnt).mergeSort (fun a b => decide (a ≤ b)) =
      ((List.range n).map m.itemCnt).mergeSort (fun a b => decide (a ≤ b)) := by
    have tr : ∀ a b c : Nat, decide (a ≤ b) = true → decide (b ≤ c) = true → decide (a ≤ c) = true := by
      intro a b c h1 h2; simp at *; omega
    have tot : ∀ a b : Nat, (decide (a ≤ b) || decide (b ≤ a)) = true := by
      intro a b; simp; omega
    refine List.Perm.eq_of_pairwise (le := fun a b : Nat => decide (a ≤ b) = true) ?_ (List.pairwise_mergeSort tr tot _)
      (List.pairwise_mergeSort tr tot _) (((List.mergeSort_perm _ _).trans hperm).trans (List.mergeSort_perm _ _).symm)
    intro a b _ _ h1 h2
    simp at h1 h2; omega
  unfold Metrics.asDict
  simp only [hsort, hperm.sum_eq, h.validUser, h.totalUser, h.hit, h.recall, h.ndcg, h.precision, h.map]

section
variable {S : Type} [LinearOrder S] [OrderBot S]

/-- the best items are the same, under their new numbers -/
theorem topK_map {n : Nat} {p : Nat → Nat} (hp : Renames n p) {cand cand' : Finset Nat} {s s' : Nat → S} {k : Nat}
    {l l' : List Nat} (hb : ∀ i ∈ cand, i < n) (hc : cand' = cand.image p) (hs : ∀ i ∈ cand, s' (p i) = s i)
    (ht : ∀ i ∈ cand, ∀ j ∈ cand, i < j → s i = s j → p i < p j)
    (h : IsTopK cand s k l) (h' : IsTopK cand' s' k l') : l' = l.map p := by
  have hbef : ∀ i ∈ cand, ∀ j ∈ cand, Before s i j → Before s' (p i) (p j) := by
    intro i hi j hj hij
    unfold Before
    rw [hs i hi, hs j hj]
    rcases hij with h | ⟨h, hlt⟩
    · exact Or.inl h
    · exact Or.inr ⟨h, ht i hi j hj hlt h⟩
  have hm : IsTopK cand' s' k (l.map p) := by
    refine ⟨?_, ?_, ?_, ?_⟩
    · intro x hx
      obtain ⟨i, hi, rfl⟩ := List.mem_map.mp hx
      rw [hc]; exact Finset.mem_image_of_mem p (h.mem i hi)
    · rw [List.length_map, h.length, hc, Finset.card_image_of_injOn]
      intro a ha b hb' hab
      exact hp.inj a b (hb a ha) (hb b hb') hab
    · rw [List.pairwise_map]
      exact h.sorted.imp_of_mem (fun {a b} ha hb hab => hbef a (h.mem a ha) b (h.mem b hb) hab)
    · intro x hx y hy hyl
      obtain ⟨i, hi, rfl⟩ := List.mem_map.mp hx
      rw [hc] at hy
      obtain ⟨j, hj, rfl⟩ := Finset.mem_image.mp hy
      exact hbef i (h.mem i hi) j hj (h.best i hi j hj (fun hjl => hyl (List.mem_map_of_mem hjl)))
  exact isTopK_unique h' hm (fun _ _ _ _ => Iff.rfl)

end

end Irspack.Evaluation
