import Verif.Model.Retrieval
import Verif.Spec.Retrieval
import Verif.Props.Concurrency

namespace Irspack.Spec

/-! ### Top scores -/

section top
variable {A F : Type} [LinearOrder F]

theorem IsTopScores.congr {elig : List A} {s s' : A → F} {k : Nat} {out : List A}
    (h : IsTopScores elig s k out) (hs : ∀ a ∈ elig, s a = s' a) : IsTopScores elig s' k out := by
  obtain ⟨rest, hp, hl, h1, h2⟩ := h
  have hm : ∀ a, a ∈ out ∨ a ∈ rest → s a = s' a := fun a ha =>
    hs a (hp.mem_iff.mp (List.mem_append.mpr ha))
  refine ⟨rest, hp, hl, ?_, ?_⟩
  · refine h1.imp_of_mem ?_
    intro a b ha hb hab
    rwa [← hm a (Or.inl ha), ← hm b (Or.inl hb)]
  · intro a ha b hb
    rw [← hm a (Or.inl ha), ← hm b (Or.inr hb)]
    exact h2 a ha b hb

theorem IsTopScores.mono {F' : Type} [LinearOrder F'] {elig : List A} {s : A → F} {k : Nat}
    {out : List A} (h : IsTopScores elig s k out) {c : F → F'} (hc : Monotone c) :
    IsTopScores elig (fun a => c (s a)) k out := by
  obtain ⟨rest, hp, hl, h1, h2⟩ := h
  exact ⟨rest, hp, hl, h1.imp (fun h => hc h), fun a ha b hb => hc (h2 a ha b hb)⟩

theorem IsTopScores.map {B : Type} {elig : List A} {s : B → F} {k : Nat} {out : List A} (f : A → B)
    (h : IsTopScores elig (fun a => s (f a)) k out) : IsTopScores (elig.map f) s k (out.map f) := by
  obtain ⟨rest, hp, hl, h1, h2⟩ := h
  refine ⟨rest.map f, ?_, by simpa using hl, ?_, ?_⟩
  · rw [← List.map_append]; exact hp.map f
  · rw [List.pairwise_map]; exact h1
  · intro a ha b hb
    obtain ⟨a', ha', rfl⟩ := List.mem_map.mp ha
    obtain ⟨b', hb', rfl⟩ := List.mem_map.mp hb
    exact h2 a' ha' b' hb'

/-- a sublist-up-to-permutation of a mapped list is mapped -/
theorem exists_preimage {A B : Type} (f : A → B) (out : List B) (elig : List A)
    (h : ∀ b ∈ out, b ∈ elig.map f) : ∃ o : List A, out = o.map f ∧ ∀ a ∈ o, a ∈ elig := by
  induction out with
  | nil => exact ⟨[], rfl, by simp⟩
  | cons b out ih =>
    obtain ⟨o, h1, h2⟩ := ih (fun b hb => h b (by simp [hb]))
    obtain ⟨a, ha, rfl⟩ := List.mem_map.mp (h b (by simp))
    refine ⟨a :: o, by simp [h1], ?_⟩
    intro x hx
    rcases List.mem_cons.mp hx with rfl | hx
    · exact ha
    · exact h2 x hx

theorem IsTopScores.comap {B : Type} {elig : List A} {s : B → F} {k : Nat} {out : List A} (g : A → B)
    (f : B → Option A) (hf : ∀ a ∈ elig, f (g a) = some a)
    (hout : ∀ a ∈ out, a ∈ elig)
    (h : IsTopScores (elig.map g) s k (out.map g)) : IsTopScores elig (fun a => s (g a)) k out := by
  obtain ⟨rest, hp, hl, h1, h2⟩ := h
  obtain ⟨r, rfl, hr⟩ := exists_preimage g rest elig (fun b hb =>
    hp.mem_iff.mp (List.mem_append_right _ hb))
  refine ⟨r, ?_, by simpa using hl, ?_, ?_⟩
  · have h3 := hp.map f
    rw [← List.map_append, List.map_map, List.map_map] at h3
    have e1 : (out ++ r).map (f ∘ g) = (out ++ r).map some := by
      apply List.map_congr_left
      intro a ha
      rcases List.mem_append.mp ha with ha | ha
      · exact hf a (hout a ha)
      · exact hf a (hr a ha)
    have e2 : elig.map (f ∘ g) = elig.map some := List.map_congr_left (fun a ha => hf a ha)
    rw [e1, e2] at h3
    exact (List.map_perm_map_iff (Option.some_injective A)).mp h3
  · rw [List.pairwise_map] at h1; exact h1
  · intro a ha b hb
    exact h2 (g a) (List.mem_map_of_mem ha) (g b) (List.mem_map_of_mem hb)

theorem IsTopScores.perm {elig elig' : List A} {s : A → F} {k : Nat} {out : List A}
    (h : IsTopScores elig s k out) (hp : elig.Perm elig') : IsTopScores elig' s k out := by
  obtain ⟨rest, hp', hl, h1, h2⟩ := h
  exact ⟨rest, hp'.trans hp, by rw [hl, hp.length_eq], h1, h2⟩

theorem sorted_completion {elig : List A} {s : A → F} {k : Nat} {out : List A}
    (h : IsTopScores elig s k out) : ∃ r : List F, (out.map s ++ r).Perm (elig.map s) ∧
      (out.map s ++ r).Pairwise (fun a b => b ≤ a) := by
  obtain ⟨rest, hp, hl, h1, h2⟩ := h
  refine ⟨(rest.map s).mergeSort (fun a b => decide (b ≤ a)), ?_, ?_⟩
  · refine List.Perm.trans ((List.mergeSort_perm _ _).append_left _) ?_
    rw [← List.map_append]
    exact hp.map s
  · rw [List.pairwise_append]
    refine ⟨by rw [List.pairwise_map]; exact h1, ?_, ?_⟩
    · have := List.pairwise_mergeSort (le := fun a b : F => decide (b ≤ a))
        (by intro a b c h1 h2; simp only [decide_eq_true_eq] at *; exact h2.trans h1)
        (by intro a b; simp only [Bool.or_eq_true, decide_eq_true_eq]; exact le_total b a) (rest.map s)
      exact this.imp (by intro a b h; simpa using h)
    · intro a ha b hb
      rw [List.mem_mergeSort] at hb
      obtain ⟨a', ha', rfl⟩ := List.mem_map.mp ha
      obtain ⟨b', hb', rfl⟩ := List.mem_map.mp hb
      exact h2 a' ha' b' hb'

/-- The list of scores is determined. -/
theorem IsTopScores.scores_unique {elig : List A} {s : A → F} {k : Nat} {out out' : List A}
    (h : IsTopScores elig s k out) (h' : IsTopScores elig s k out') : out.map s = out'.map s := by
  obtain ⟨r, hp, hs⟩ := sorted_completion h
  obtain ⟨r', hp', hs'⟩ := sorted_completion h'
  have heq : out.map s ++ r = out'.map s ++ r' :=
    List.Perm.eq_of_pairwise (fun a b _ _ h1 h2 => le_antisymm h2 h1) hs hs' (hp.trans hp'.symm)
  have hl : (out.map s).length = (out'.map s).length := by
    obtain ⟨_, _, hl, _⟩ := h
    obtain ⟨_, _, hl', _⟩ := h'
    simp [hl, hl']
  exact (List.append_inj heq hl).1

theorem IsTopScores.subset {elig : List A} {s : A → F} {k : Nat} {out : List A}
    (h : IsTopScores elig s k out) : ∀ a ∈ out, a ∈ elig := by
  obtain ⟨rest, hp, -⟩ := h
  intro a ha
  exact hp.mem_iff.mp (List.mem_append_left _ ha)

/-- With distinct scores the list is determined. -/
theorem IsTopScores.unique {elig : List A} {s : A → F} {k : Nat} {out out' : List A}
    (h : IsTopScores elig s k out) (h' : IsTopScores elig s k out')
    (hinj : ∀ a ∈ elig, ∀ b ∈ elig, s a = s b → a = b) : out = out' := by
  have heq := h.scores_unique h'
  have hsub := h.subset
  have hsub' := h'.subset
  clear h h'
  induction out generalizing out' with
  | nil => cases out' with
    | nil => rfl
    | cons b l => simp at heq
  | cons a l ih => cases out' with
    | nil => simp at heq
    | cons b l' =>
      simp only [List.map_cons, List.cons.injEq] at heq
      rw [hinj a (hsub a (by simp)) b (hsub' b (by simp)) heq.1,
        ih heq.2 (fun a ha => hsub a (by simp [ha])) (fun a ha => hsub' a (by simp [ha]))]

end top

end Irspack.Spec

namespace Irspack.Retrieval
open Irspack Spec

/-! ### The C++ loop -/

section cpp
variable {S F : Type} [LinearOrder F] [OrderBot F]

theorem emit_spec (cutoff : Nat) (l : List (Nat × F)) : ∀ (n : Nat), n ≤ cutoff →
    ((l.take (cutoff - n)).Pairwise (fun a b => b.2 ≤ a.2)) →
    (∀ a ∈ l.take (cutoff - n), ∀ b ∈ l.drop (cutoff - n), b.2 ≤ a.2) →
    IsTopScores (l.filter (fun p => decide (p.2 ≠ ⊥))) Prod.snd (cutoff - n) (emit cutoff n l) := by
  induction l with
  | nil => intro n _ _ _; exact ⟨[], by simp [emit], by simp [emit], by simp [emit], by simp⟩
  | cons p l ih =>
    intro n hn hs hr
    unfold emit
    by_cases hc : n ≥ cutoff
    · rw [if_pos hc]
      refine ⟨_, by simp; exact List.Perm.refl _, by simp; omega, by simp, by simp⟩
    rw [if_neg hc]
    obtain ⟨k, hk⟩ : ∃ k, cutoff - n = k + 1 := ⟨cutoff - n - 1, by omega⟩
    have hk' : cutoff - (n + 1) = k := by omega
    rw [hk] at hs hr ⊢
    rw [List.take_succ_cons, List.pairwise_cons] at hs
    have hall : ∀ b ∈ l, b.2 ≤ p.2 := by
      intro b hb
      rw [← List.take_append_drop k l, List.mem_append] at hb
      rcases hb with hb | hb
      · exact hs.1 b hb
      · exact hr p (by simp) b (by simpa using hb)
    by_cases hb : p.2 = ⊥
    · rw [if_pos hb]
      have hnil : (p :: l).filter (fun p => decide (p.2 ≠ ⊥)) = [] := by
        rw [List.filter_eq_nil_iff]
        intro a ha
        rcases List.mem_cons.mp ha with rfl | ha
        · simp [hb]
        · have := hall a ha; rw [hb, le_bot_iff] at this; simp [this]
      rw [hnil]
      exact ⟨[], by simp, by simp, by simp, by simp⟩
    · rw [if_neg hb]
      have hfil : (p :: l).filter (fun p => decide (p.2 ≠ ⊥)) =
          p :: l.filter (fun p => decide (p.2 ≠ ⊥)) := by simp [hb]
      rw [hfil]
      obtain ⟨rest, hp, hl, h1, h2⟩ := ih (n + 1) (by omega) (by rw [hk']; exact hs.2) (by
        rw [hk']
        intro a ha b hb
        exact hr a (by rw [List.take_succ_cons]; simp [ha]) b (by rw [List.drop_succ_cons]; exact hb))
      rw [hk'] at hl
      have hmem : ∀ a, a ∈ emit cutoff (n + 1) l ∨ a ∈ rest → a ∈ l := fun a ha =>
        (List.mem_filter.mp (hp.mem_iff.mp (List.mem_append.mpr ha))).1
      refine ⟨rest, by simpa using hp, by simp [hl], ?_, ?_⟩
      · rw [List.pairwise_cons]
        exact ⟨fun b hb => hall b (hmem b (Or.inl hb)), h1⟩
      · intro a ha b hb'
        rcases List.mem_cons.mp ha with rfl | ha
        · exact hall b (hmem b (Or.inr hb'))
        · exact h2 a ha b hb'

/-- `psort` behaves like `std::partial_sort`. -/
def IsPSort (psort : Nat → List (Nat × F) → List (Nat × F)) : Prop :=
  ∀ k l, k ≤ l.length → IsPartialSort k Prod.snd l (psort k l)

theorem retrieveRow_spec {psort : Nat → List (Nat × F) → List (Nat × F)} (hps : IsPSort psort)
    (cast : S → F) (dflt : S) (nItems : Nat) (score : List (List S)) (allowed : List (List Int))
    (cutoff u : Nat) :
    IsTopScores ((holder nItems (allowedFor allowed u)
        (fun i => cast ((score.getD u []).getD i dflt))).filter (fun p => decide (p.2 ≠ ⊥)))
      Prod.snd cutoff (retrieveRow psort cast dflt nItems score allowed cutoff u) := by
  unfold retrieveRow
  set h := holder nItems (allowedFor allowed u) (fun i => cast ((score.getD u []).getD i dflt))
  simp only
  have hp := hps (min cutoff h.length) h (Nat.min_le_right _ _)
  have hlen := hp.perm.length_eq
  have htake : (psort (min cutoff h.length) h).take cutoff =
      (psort (min cutoff h.length) h).take (min cutoff h.length) := by
    rcases Nat.le_total cutoff h.length with hc | hc
    · rw [Nat.min_eq_left hc]
    · rw [Nat.min_eq_right hc, List.take_of_length_le (by simp only [Nat.min_eq_right hc] at hlen; omega),
        List.take_of_length_le (by simp only [Nat.min_eq_right hc] at hlen; omega)]
  have hdrop : (psort (min cutoff h.length) h).drop cutoff =
      (psort (min cutoff h.length) h).drop (min cutoff h.length) := by
    rcases Nat.le_total cutoff h.length with hc | hc
    · rw [Nat.min_eq_left hc]
    · rw [Nat.min_eq_right hc, List.drop_eq_nil_of_le (by simp only [Nat.min_eq_right hc] at hlen; omega),
        List.drop_eq_nil_of_le (by simp only [Nat.min_eq_right hc] at hlen; omega)]
  have := emit_spec cutoff (psort (min cutoff h.length) h) 0 (Nat.zero_le _)
    (by rw [Nat.sub_zero, htake]; exact hp.sorted)
    (by rw [Nat.sub_zero, htake, hdrop]; exact hp.rest)
  rw [Nat.sub_zero] at this
  exact this.perm (hp.perm.filter _)

end cpp

/-! ### The mapper -/

section mapper
variable {I S F : Type} [DecidableEq I]

theorem make_ok {ids : List I} {m : ItemIDMapper I} (h : ItemIDMapper.make ids = .ok m) :
    ids.Nodup ∧ m.itemIds = ids := by
  unfold ItemIDMapper.make at h
  split at h
  · cases h
  · rename_i hl
    injection h with h
    subst h
    rw [not_not] at hl
    refine ⟨?_, rfl⟩
    have := (List.dedup_sublist ids).eq_of_length hl.symm
    rw [← this]
    exact List.nodup_dedup ids

theorem getElem_idxOf {ids : List I} {x : I} (h : x ∈ ids) : ids[ids.idxOf x]? = some x := by
  rw [List.getElem?_eq_getElem (List.idxOf_lt_length_of_mem h), List.getElem_idxOf]

theorem toIndexList_eq (m : ItemIDMapper I) (l : List I) :
    m.toIndexList l = (l.filter (fun x => decide (x ∈ m.itemIds))).map (fun x => m.itemIds.idxOf x) := by
  unfold ItemIDMapper.toIndexList ItemIDMapper.index?
  induction l with
  | nil => rfl
  | cons a l ih =>
    rw [List.filterMap_cons, ih]
    by_cases h : a ∈ m.itemIds <;> simp [h]

theorem holder_ids (m : ItemIDMapper I) (hn : m.itemIds.Nodup) (alw : Option (List I)) (row : Nat → F) :
    holder m.itemIds.length (alw.map (fun l => (m.toIndexList l).map Int.ofNat)) row =
      ((alw.getD m.itemIds).filter (fun x => decide (x ∈ m.itemIds))).map
        (fun x => (m.itemIds.idxOf x, row (m.itemIds.idxOf x))) := by
  cases alw with
  | none =>
    simp only [Option.map_none, holder, Option.getD_none]
    have hf : m.itemIds.filter (fun x => decide (x ∈ m.itemIds)) = m.itemIds := by
      rw [List.filter_eq_self]; intro a ha; simpa using ha
    rw [hf]
    apply List.ext_getElem
    · simp
    · intro k h1 h2
      simp only [List.getElem_map, List.getElem_range]
      rw [hn.idxOf_getElem]
  | some l =>
    simp only [Option.map_some, holder, Option.getD_some]
    have hf : ((m.toIndexList l).map Int.ofNat).filter
        (fun i : Int => decide (i < m.itemIds.length) && decide (i ≥ 0)) =
        (m.toIndexList l).map Int.ofNat := by
      rw [List.filter_eq_self]
      intro a ha
      obtain ⟨k, hk, rfl⟩ := List.mem_map.mp ha
      rw [toIndexList_eq] at hk
      obtain ⟨x, hx, rfl⟩ := List.mem_map.mp hk
      have := List.idxOf_lt_length_of_mem (by simpa using (List.mem_filter.mp hx).2 : x ∈ m.itemIds)
      simpa using this
    rw [hf, List.map_map, toIndexList_eq, List.map_map]
    rfl

theorem allowedFor_eq (m : ItemIDMapper I) (allowed : Option (List I))
    (perUser : Option (List (List I))) (n u : Nat) (hu : u < n)
    (hlen : ∀ ls, perUser = some ls → ls.length = n) :
    allowedFor (m.allowedIndices allowed perUser) u =
      (allowedTo allowed perUser u).map (fun l => (m.toIndexList l).map Int.ofNat) := by
  unfold ItemIDMapper.allowedIndices allowedTo
  cases perUser with
  | none => cases allowed <;> rfl
  | some ls =>
    have := hlen ls rfl
    simp only [Option.map_some]
    match ls with
    | [] => simp at this; omega
    | [l] =>
      have : u = 0 := by simp at this; omega
      subst this
      rfl
    | l₁ :: l₂ :: ls =>
      simp only [List.map_cons, allowedFor, Option.some.injEq]
      rw [← List.map_cons (f := fun l => (m.toIndexList l).map Int.ofNat),
        ← List.map_cons (f := fun l => (m.toIndexList l).map Int.ofNat)]
      rw [List.getD_eq_getElem?_getD, List.getD_eq_getElem?_getD, List.getElem?_map]
      cases (l₁ :: l₂ :: ls)[u]? with
      | none => rfl
      | some l => rfl

variable [LinearOrder S] [BoundedOrder S]

theorem blank_length (row : List S) (idx : List Nat) : (blank row idx).length = row.length := by
  unfold blank
  induction idx generalizing row with
  | nil => rfl
  | cons i idx ih => rw [List.foldl_cons, ih]; simp

theorem blank_getElem? (row : List S) (idx : List Nat) (k : Nat) :
    (blank row idx)[k]? = if k ∈ idx then (row[k]?).map (fun _ => ⊥) else row[k]? := by
  unfold blank
  induction idx generalizing row with
  | nil => simp
  | cons i idx ih =>
    rw [List.foldl_cons, ih, List.getElem?_set]
    by_cases hik : i = k
    · subst hik
      by_cases hlt : i < row.length
      · simp [hlt]
      · simp [hlt]
    · simp only [hik, if_false, List.mem_cons, Ne.symm hik, false_or]

theorem blankForbidden_length (m : ItemIDMapper I) (score : List (List S))
    (forbidden : Option (List (List I))) : (m.blankForbidden score forbidden).length = score.length := by
  unfold ItemIDMapper.blankForbidden
  cases forbidden <;> simp

/-- value at the index of a known ID after blanking -/
theorem blankForbidden_get (m : ItemIDMapper I) (score : List (List S))
    (forbidden : Option (List (List I))) (u : Nat) (hu : u < score.length) (x : I)
    (hx : x ∈ m.itemIds) (hrow : score[u].length = m.itemIds.length) :
    ((m.blankForbidden score forbidden).getD u []).getD (m.itemIds.idxOf x) ⊥ =
      if x ∈ (forbidden.getD []).getD u [] then ⊥ else score[u].getD (m.itemIds.idxOf x) ⊥ := by
  have hlt : m.itemIds.idxOf x < score[u].length := by
    rw [hrow]; exact List.idxOf_lt_length_of_mem hx
  unfold ItemIDMapper.blankForbidden
  cases forbidden with
  | none =>
    simp only [Option.getD_none, List.getD_nil, List.not_mem_nil, if_false]
    rw [List.getD_eq_getElem?_getD (l := score), List.getElem?_eq_getElem hu, Option.getD_some]
  | some fs =>
    simp only [Option.getD_some]
    rw [List.getD_eq_getElem?_getD (l := List.mapIdx _ _), List.getElem?_eq_getElem (by simpa using hu),
      Option.getD_some, List.getElem_mapIdx, List.getD_eq_getElem?_getD, blank_getElem?]
    have hiff : m.itemIds.idxOf x ∈ m.toIndexList (fs.getD u []) ↔ x ∈ fs.getD u [] := by
      rw [toIndexList_eq, List.mem_map]
      constructor
      · rintro ⟨y, hy, hxy⟩
        rw [List.mem_filter] at hy
        have := (List.idxOf_inj (by simpa using hy.2)).mp hxy
        exact this ▸ hy.1
      · intro h
        exact ⟨x, List.mem_filter.mpr ⟨h, by simpa using hx⟩, rfl⟩
    simp only [hiff]
    by_cases hf : x ∈ fs.getD u []
    · rw [if_pos hf, if_pos hf, List.getElem?_eq_getElem hlt]
      rfl
    · rw [if_neg hf, if_neg hf, List.getD_eq_getElem?_getD]

theorem toIds_eq (m : ItemIDMapper I) (l : List I) (hl : ∀ x ∈ l, x ∈ m.itemIds) (g : I → F) :
    m.toIds (l.map (fun x => (m.itemIds.idxOf x, g x))) = l.map (fun x => (x, g x)) := by
  unfold ItemIDMapper.toIds
  induction l with
  | nil => rfl
  | cons a l ih =>
    rw [List.map_cons, List.filterMap_cons, ih (fun x hx => hl x (by simp [hx])),
      getElem_idxOf (hl a (by simp))]
    rfl

variable [LinearOrder F] [OrderBot F]

/-- One row of the batch retrieval, in terms of IDs. -/
theorem batch_row (m : ItemIDMapper I) (hn : m.itemIds.Nodup)
    {psort : Nat → List (Nat × F) → List (Nat × F)} (hps : IsPSort psort) (cast : S → F)
    (hcast : cast ⊥ = ⊥) (score : List (List S)) (hrows : ∀ row ∈ score, row.length = m.itemIds.length)
    (cutoff : Nat) (allowed : Option (List I)) (perUser forbidden : Option (List (List I)))
    (hpu : ∀ ls, perUser = some ls → ls.length = score.length)
    (u : Nat) (hu : u < score.length) (sc : I → F)
    (hsc : ∀ k (h : k < m.itemIds.length) (h' : k < score[u].length),
      sc m.itemIds[k] = cast score[u][k]) :
    ∃ out : List I, m.toIds (retrieveRow psort cast ⊥ m.itemIds.length
        (m.blankForbidden score forbidden) (m.allowedIndices allowed perUser) cutoff u) =
        out.map (fun x => (x, sc x)) ∧
      IsTopScores (eligible m.itemIds (allowedTo allowed perUser u)
        ((forbidden.getD []).getD u []) sc) sc cutoff out := by
  have hspec := retrieveRow_spec hps cast (⊥ : S) m.itemIds.length (m.blankForbidden score forbidden)
    (m.allowedIndices allowed perUser) cutoff u
  rw [allowedFor_eq m allowed perUser score.length u hu hpu, holder_ids m hn] at hspec
  set row : Nat → F := fun i => cast (((m.blankForbidden score forbidden).getD u []).getD i ⊥) with hrow
  set fb := (forbidden.getD []).getD u [] with hfb
  have hval : ∀ x ∈ m.itemIds, row (m.itemIds.idxOf x) = if x ∈ fb then ⊥ else sc x := by
    intro x hx
    rw [hrow]
    simp only
    have hlen : score[u].length = m.itemIds.length := hrows _ (List.getElem_mem hu)
    rw [blankForbidden_get m score forbidden u hu x hx hlen]
    split
    · exact hcast
    · have hlt := List.idxOf_lt_length_of_mem hx
      rw [List.getD_eq_getElem?_getD, List.getElem?_eq_getElem (by omega), Option.getD_some,
        ← hsc _ hlt (by omega), List.getElem_idxOf]
  rw [List.filter_map, List.filter_filter] at hspec
  set g : I → Nat × F := fun x => (m.itemIds.idxOf x, row (m.itemIds.idxOf x)) with hg
  have helig : List.filter (fun a => ((fun p : Nat × F => decide (p.2 ≠ ⊥)) ∘ g) a &&
      decide (a ∈ m.itemIds)) ((allowedTo allowed perUser u).getD m.itemIds) =
      eligible m.itemIds (allowedTo allowed perUser u) fb sc := by
    unfold eligible
    apply List.filter_congr
    intro x _
    by_cases hx : x ∈ m.itemIds
    · simp only [Function.comp, hg, hval x hx, hx, decide_true, Bool.and_true, true_and]
      by_cases hf : x ∈ fb <;> simp [hf]
    · simp [hx]
  rw [helig] at hspec
  obtain ⟨out, hout, hsub⟩ := exists_preimage g _ _ hspec.subset
  have hmem : ∀ x ∈ eligible m.itemIds (allowedTo allowed perUser u) fb sc,
      x ∈ m.itemIds ∧ x ∉ fb := by
    intro x hx
    unfold eligible at hx
    have := (List.mem_filter.mp hx).2
    simp only [decide_eq_true_eq] at this
    exact ⟨this.1, this.2.1⟩
  have hsnd : ∀ x ∈ eligible m.itemIds (allowedTo allowed perUser u) fb sc, (g x).2 = sc x := by
    intro x hx
    obtain ⟨h1, h2⟩ := hmem x hx
    rw [hg]; simp only
    rw [hval x h1, if_neg h2]
  refine ⟨out, ?_, ?_⟩
  · rw [hout, hg, toIds_eq m out (fun x hx => (hmem x (hsub x hx)).1)]
    apply List.map_congr_left
    intro x hx
    have := hsnd x (hsub x hx)
    rw [hg] at this
    simp only at this
    rw [this]
  · rw [hout] at hspec
    have h2 := hspec.comap g (fun p => m.itemIds[p.1]?)
      (fun a ha => getElem_idxOf (hmem a ha).1) hsub
    exact h2.congr hsnd

omit [LinearOrder F] [OrderBot F]

/-- `argsort` behaves like numpy's. -/
def IsASort (argsort : List S → List Nat) : Prop := ∀ a, IsArgsort a (argsort a)

theorem argsort_values {argsort : List S → List Nat} (h : IsASort argsort) (a : List S) :
    (argsort a).reverse.Pairwise (fun i j => a.getD j ⊥ ≤ a.getD i ⊥) := by
  rw [List.pairwise_reverse]
  have hs := (h a).sorted
  rw [List.pairwise_map] at hs
  refine hs.imp_of_mem ?_
  intro i j hi hj hij
  have hi' : i < a.length := by simpa using (h a).perm.mem_iff.mp hi
  have hj' : j < a.length := by simpa using (h a).perm.mem_iff.mp hj
  rw [List.getD_eq_getElem?_getD, List.getD_eq_getElem?_getD, List.getElem?_eq_getElem hi',
    List.getElem?_eq_getElem hj']
  exact hij _ _ (List.getElem?_eq_getElem hi') (List.getElem?_eq_getElem hj')

/-- The order in which the single-user method visits items. -/
theorem high_spec (m : ItemIDMapper I) (hn : m.itemIds.Nodup) {argsort : List S → List Nat}
    (ha : IsASort argsort) (score : List S) (hlen : score.length = m.itemIds.length)
    (allowed : Option (List I)) :
    let high := m.highScoreInds argsort score allowed
    ∃ L : List I, L.Perm ((allowed.getD m.itemIds).filter (fun x => decide (x ∈ m.itemIds))) ∧
      high = L.map (fun x => m.itemIds.idxOf x) ∧
      high.Pairwise (fun i j => score.getD j ⊥ ≤ score.getD i ⊥) := by
  intro high
  have hperm : high.Perm (((allowed.getD m.itemIds).filter (fun x => decide (x ∈ m.itemIds))).map
      (fun x => m.itemIds.idxOf x)) := by
    cases allowed with
    | none =>
      simp only [high, ItemIDMapper.highScoreInds, Option.getD_none]
      refine (List.reverse_perm _).trans ((ha score).perm.trans ?_)
      have hf : m.itemIds.filter (fun x => decide (x ∈ m.itemIds)) = m.itemIds := by
        rw [List.filter_eq_self]; intro a ha; simpa using ha
      rw [hf]
      apply List.Perm.of_eq
      apply List.ext_getElem
      · simp [hlen]
      · intro k h1 h2
        simp only [List.getElem_map, List.getElem_range]
        rw [hn.idxOf_getElem]
    | some ids =>
      simp only [high, ItemIDMapper.highScoreInds, Option.getD_some]
      rw [← toIndexList_eq]
      set idx := m.toIndexList ids
      have h1 : (argsort (idx.map (fun i => score.getD i ⊥))).reverse.Perm (List.range idx.length) := by
        refine (List.reverse_perm _).trans ?_
        have := (ha (idx.map (fun i => score.getD i ⊥))).perm
        rwa [List.length_map] at this
      refine (h1.map (fun k => idx.getD k 0)).trans (List.Perm.of_eq ?_)
      apply List.ext_getElem
      · simp
      · intro k h1 h2
        simp [List.getElem?_eq_getElem h2]
  have hsorted : high.Pairwise (fun i j => score.getD j ⊥ ≤ score.getD i ⊥) := by
    cases allowed with
    | none => exact argsort_values ha score
    | some ids =>
      simp only [high, ItemIDMapper.highScoreInds]
      set idx := m.toIndexList ids with hidx
      rw [List.pairwise_map]
      refine (argsort_values ha (idx.map (fun i => score.getD i ⊥))).imp_of_mem ?_
      intro i j hi hj hij
      have hp := (ha (idx.map (fun i => score.getD i ⊥))).perm
      have hi' : i < idx.length := by
        have := hp.mem_iff.mp (List.mem_reverse.mp hi); simpa using this
      have hj' : j < idx.length := by
        have := hp.mem_iff.mp (List.mem_reverse.mp hj); simpa using this
      simpa [List.getD_eq_getElem?_getD, List.getElem?_map, List.getElem?_eq_getElem hi',
        List.getElem?_eq_getElem hj'] using hij
  obtain ⟨L, hL, hsub⟩ := exists_preimage (fun x => m.itemIds.idxOf x) high _
    (fun b hb => hperm.mem_iff.mp hb)
  refine ⟨L, ?_, hL, hsorted⟩
  have hknown : ∀ x ∈ (allowed.getD m.itemIds).filter (fun x => decide (x ∈ m.itemIds)),
      x ∈ m.itemIds := fun x hx => by simpa using (List.mem_filter.mp hx).2
  rw [hL] at hperm
  have h3 := hperm.map (fun k => m.itemIds[k]?)
  rw [List.map_map, List.map_map] at h3
  have e1 : L.map ((fun k => m.itemIds[k]?) ∘ fun x => m.itemIds.idxOf x) = L.map some :=
    List.map_congr_left (fun x hx => getElem_idxOf (hknown x (hsub x hx)))
  have e2 : ((allowed.getD m.itemIds).filter (fun x => decide (x ∈ m.itemIds))).map
      ((fun k => m.itemIds[k]?) ∘ fun x => m.itemIds.idxOf x) =
      ((allowed.getD m.itemIds).filter (fun x => decide (x ∈ m.itemIds))).map some :=
    List.map_congr_left (fun x hx => getElem_idxOf (hknown x hx))
  rw [e1, e2] at h3
  exact (List.map_perm_map_iff (Option.some_injective I)).mp h3

/-- The single-user loop takes the first eligible items. -/
theorem pick_eq (m : ItemIDMapper I) (score : List S) (hlen : score.length = m.itemIds.length)
    (forbidden : Option (List I)) (sc : I → S)
    (hsc : ∀ k (h : k < m.itemIds.length) (h' : k < score.length), sc m.itemIds[k] = score[k])
    (cutoff : Nat) (L : List I) (hL : ∀ x ∈ L, x ∈ m.itemIds) : ∀ n, n < cutoff →
    m.pick score cutoff forbidden n (L.map (fun x => m.itemIds.idxOf x)) =
      .ok (((L.filter (fun x => decide (x ∉ forbidden.getD [] ∧ sc x ≠ ⊥ ∧ sc x ≠ ⊤))).take
        (cutoff - n)).map (fun x => (x, sc x))) := by
  induction L with
  | nil => intro n _; simp [ItemIDMapper.pick]
  | cons a L ih =>
    intro n hn
    have ih := ih (fun x hx => hL x (by simp [hx]))
    have ha := hL a (by simp)
    have hlt := List.idxOf_lt_length_of_mem ha
    have h1 : score[m.itemIds.idxOf a]? = some (sc a) := by
      rw [List.getElem?_eq_getElem (by omega), ← hsc _ hlt (by omega), List.getElem_idxOf]
    rw [List.map_cons]
    unfold ItemIDMapper.pick
    rw [h1, getElem_idxOf ha]
    simp only
    by_cases hinf : sc a = ⊥ ∨ sc a = ⊤
    · rw [if_pos hinf, ih n hn, List.filter_cons_of_neg]
      simp only [decide_eq_true_eq]
      rintro ⟨-, h1, h2⟩
      rcases hinf with h | h
      · exact h1 h
      · exact h2 h
    rw [if_neg hinf]
    push Not at hinf
    by_cases hf : ∃ f, forbidden = some f ∧ a ∈ f
    · rw [if_pos hf, ih n hn, List.filter_cons_of_neg]
      simp only [decide_eq_true_eq]
      rintro ⟨h, -⟩
      obtain ⟨f, rfl, hf⟩ := hf
      exact h hf
    rw [if_neg hf]
    have hnf : a ∉ forbidden.getD [] := by
      intro h
      cases forbidden with
      | none => simp at h
      | some f => exact hf ⟨f, rfl, h⟩
    rw [List.filter_cons_of_pos (by simpa using ⟨hnf, hinf.1, hinf.2⟩)]
    obtain ⟨j, hj⟩ : ∃ j, cutoff - n = j + 1 := ⟨cutoff - n - 1, by omega⟩
    rw [hj, List.take_succ_cons]
    by_cases hc : n + 1 ≥ cutoff
    · rw [if_pos hc]
      have : j = 0 := by omega
      subst this
      simp
    · rw [if_neg hc, ih (n + 1) (by omega), show cutoff - (n + 1) = j by omega]
      simp

omit [BoundedOrder S] in
theorem take_isTopScores {A : Type} (l : List A) (s : A → S) (k : Nat)
    (h : l.Pairwise (fun a b => s b ≤ s a)) : IsTopScores l s k (l.take k) := by
  refine ⟨l.drop k, by rw [List.take_append_drop], by simp, h.sublist (List.take_sublist _ _), ?_⟩
  rw [← List.take_append_drop k l, List.pairwise_append] at h
  exact h.2.2

/-- The single-user method, in terms of IDs. -/
theorem single_spec (m : ItemIDMapper I) (hn : m.itemIds.Nodup) {argsort : List S → List Nat}
    (ha : IsASort argsort) (score : List S) (hlen : score.length = m.itemIds.length)
    (cutoff : Nat) (hc : 0 < cutoff) (allowed forbidden : Option (List I)) (sc : I → S)
    (hsc : ∀ k (h : k < m.itemIds.length) (h' : k < score.length), sc m.itemIds[k] = score[k]) :
    ∃ out : List I, m.scoreToItems argsort score cutoff allowed forbidden =
        .ok (out.map (fun x => (x, sc x))) ∧
      IsTopScores ((eligible m.itemIds allowed (forbidden.getD []) sc).filter
        (fun x => decide (sc x ≠ ⊤))) sc cutoff out := by
  obtain ⟨L, hp, hh, hsrt⟩ := high_spec m hn ha score hlen allowed
  have hL : ∀ x ∈ L, x ∈ m.itemIds := fun x hx => by
    simpa using (List.mem_filter.mp (hp.mem_iff.mp hx)).2
  unfold ItemIDMapper.scoreToItems
  rw [if_neg (not_not.mpr hlen), hh, pick_eq m score hlen forbidden sc hsc cutoff L hL 0 hc, Nat.sub_zero]
  refine ⟨_, rfl, ?_⟩
  have hval : ∀ x ∈ L, score.getD (m.itemIds.idxOf x) ⊥ = sc x := by
    intro x hx
    have hlt := List.idxOf_lt_length_of_mem (hL x hx)
    rw [List.getD_eq_getElem?_getD, List.getElem?_eq_getElem (by omega), Option.getD_some,
      ← hsc _ hlt (by omega), List.getElem_idxOf]
  have hLs : L.Pairwise (fun a b => sc b ≤ sc a) := by
    rw [hh, List.pairwise_map] at hsrt
    refine hsrt.imp_of_mem ?_
    intro a b ha hb hab
    rwa [hval a ha, hval b hb] at hab
  refine (take_isTopScores _ sc cutoff (hLs.filter _)).perm ?_
  refine (hp.filter _).trans (List.Perm.of_eq ?_)
  unfold eligible
  rw [List.filter_filter, List.filter_filter]
  apply List.filter_congr
  intro x _
  by_cases h1 : x ∈ m.itemIds <;> by_cases h2 : x ∈ forbidden.getD [] <;> by_cases h3 : sc x = ⊥ <;>
    by_cases h4 : sc x = ⊤ <;> simp_all

end mapper

end Irspack.Retrieval
