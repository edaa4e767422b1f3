import Verif.Props.Paging
import Verif.Proofs.Cutoff

/-!
# C110: forbidding items that were shown
-/

namespace Irspack.Props
open Irspack Spec Retrieval

variable {I U S F : Type} [DecidableEq I] [DecidableEq U] [LinearOrder S] [BoundedOrder S]
  [LinearOrder F] [OrderBot F]

/-- helper: what is left of the best when some are left out -/
theorem topScores_keep {A : Type} [DecidableEq A] {elig : List A} {s : A → F} {k : Nat} {w : List A}
    (h : IsTopScores elig s k w) (g : List A) :
    IsTopScores (elig.filter (fun x => decide (x ∉ g))) s (w.filter (fun x => decide (x ∉ g))).length
      (w.filter (fun x => decide (x ∉ g))) := by
  obtain ⟨rest, hp, hl, h1, h2⟩ := h
  have hf := hp.filter (fun x => decide (x ∉ g))
  rw [List.filter_append] at hf
  refine ⟨rest.filter (fun x => decide (x ∉ g)), hf, ?_, h1.filter _, ?_⟩
  · have e1 := hf.length_eq
    rw [List.length_append] at e1
    omega
  · intro a ha b hb
    exact h2 a (List.mem_of_mem_filter ha) b (List.mem_of_mem_filter hb)

/-- C110 (forbidding what was shown). Forbidding a user further items leaves the rest of the list in place: the new list
begins with the scores of the items that are still permitted, in the same order; with distinct eligible scores it begins
with these items. -/
theorem C110_forbidding_listed (userIds : List U) (itemIds : List I) (m : IDMapper U I)
    (hm : IDMapper.make userIds itemIds = .ok m) {psort : Nat → List (Nat × F) → List (Nat × F)}
    (hps : IsPSort psort) (cast : S → F) (hcast : cast ⊥ = ⊥) (r : Rec S)
    (hru : r.nUsers = userIds.length) (hri : r.nItems = itemIds.length)
    (users : List U) (hu : ∀ u ∈ users, u ∈ userIds) (raw : List (List S))
    (hraw : r.getScore (users.map (fun u => userIds.idxOf u)) = .ok raw)
    (hlen : raw.length = users.length) (hrow : ∀ row ∈ raw, row.length = itemIds.length)
    (k : Nat) (allowed : Option (List I)) (perUser : Option (List (List I))) (forbidden more : List (List I))
    (hpu : ∀ ls, perUser = some ls → ls.length = users.length)
    (hf : forbidden.length = users.length) (hmore : more.length = users.length) (t : Nat) (ht : 0 < t) :
    ∃ res res',
      m.recommendKnownUserBatch psort cast r users k allowed perUser (some forbidden) t = .ok res ∧
      m.recommendKnownUserBatch psort cast r users k allowed perUser
        (some (List.zipWith (· ++ ·) forbidden more)) t = .ok res' ∧
      res.length = users.length ∧ res'.length = users.length ∧
      ∀ j (_ : j < users.length) (h1 : j < res.length) (h2 : j < res'.length),
        (res[j].filter (fun e => decide (e.1 ∉ more.getD j []))).map Prod.snd <+: res'[j].map Prod.snd ∧
        ((∀ x ∈ itemIds, ∀ y ∈ itemIds, r.trainNz (userIds.idxOf users[j]) (itemIds.idxOf x) = false →
            r.trainNz (userIds.idxOf users[j]) (itemIds.idxOf y) = false →
            cast ((raw.getD j []).getD (itemIds.idxOf x) ⊥) = cast ((raw.getD j []).getD (itemIds.idxOf y) ⊥) →
            x = y) → res[j].filter (fun e => decide (e.1 ∉ more.getD j [])) <+: res'[j]) := by
  obtain ⟨res, hp, hpl, hpb⟩ := C20_known_users_best userIds itemIds m hm hps cast hcast r hru hri users hu
    raw hraw hlen hrow k allowed perUser (some forbidden) hpu (by intro ls h; cases h; exact hf) t ht
  obtain ⟨res', hp', hpl', hpb'⟩ := C20_known_users_best userIds itemIds m hm hps cast hcast r hru hri users
    hu raw hraw hlen hrow k allowed perUser (some (List.zipWith (· ++ ·) forbidden more)) hpu
    (by intro ls h; cases h; simp [hf, hmore]) t ht
  refine ⟨res, res', hp, hp', hpl, hpl', ?_⟩
  intro j hj h1 h2
  have hnd : itemIds.Nodup := by
    obtain ⟨-, h2, h3⟩ := idmapper_make_ok hm
    exact h2 ▸ h3
  have hjr : j < raw.length := by omega
  set sc : I → F := fun x => if r.trainNz (userIds.idxOf users[j]) (itemIds.idxOf x) = true then ⊥
    else cast ((raw.getD j []).getD (itemIds.idxOf x) ⊥) with hsc
  have hval : ∀ k (h : k < itemIds.length) (h' : k < raw[j].length), sc itemIds[k] =
      if r.trainNz (userIds.idxOf users[j]) k = true then ⊥ else cast raw[j][k] := by
    intro k h h'
    simp only [hsc, hnd.idxOf_getElem]
    rw [List.getD_eq_getElem?_getD (l := raw), List.getElem?_eq_getElem hjr, Option.getD_some,
      List.getD_eq_getElem?_getD, List.getElem?_eq_getElem h', Option.getD_some]
  obtain ⟨p, e1, t1⟩ := hpb j hj h1 hjr sc hval
  obtain ⟨p', e2, t2⟩ := hpb' j hj h2 hjr sc hval
  have hz : ((some (List.zipWith (· ++ ·) forbidden more)).getD []).getD j [] =
      forbidden.getD j [] ++ more.getD j [] := by
    rw [Option.getD_some, List.getD_eq_getElem?_getD, List.getElem?_eq_getElem (by simp; omega),
      List.getD_eq_getElem?_getD, List.getElem?_eq_getElem (by omega : j < forbidden.length),
      List.getD_eq_getElem?_getD, List.getElem?_eq_getElem (by omega : j < more.length)]
    simp
  rw [hz, eligible_append] at t2
  rw [Option.getD_some] at t1
  have t3 := topScores_keep t1 (more.getD j [])
  have hle : (p.filter (fun x => decide (x ∉ more.getD j []))).length ≤ k := by
    obtain ⟨_, _, hl, _⟩ := t1
    have := List.length_filter_le (fun x => decide (x ∉ more.getD j [])) p
    omega
  have t4 := t2.take hle
  have hmap : (p.map (fun x => (x, sc x))).filter (fun e => decide (e.1 ∉ more.getD j [])) =
      (p.filter (fun x => decide (x ∉ more.getD j []))).map (fun x => (x, sc x)) := by
    rw [List.filter_map]; rfl
  rw [e1, e2, hmap, List.map_map, List.map_map]
  refine ⟨?_, ?_⟩
  · have := t3.scores_unique t4
    have h3 : (p.filter (fun x => decide (x ∉ more.getD j []))).map (Prod.snd ∘ fun x => (x, sc x)) =
      (p'.take (p.filter (fun x => decide (x ∉ more.getD j []))).length).map (Prod.snd ∘ fun x => (x, sc x)) := this
    rw [h3]
    exact (List.take_prefix _ _).map _
  intro hinj
  rw [t3.unique t4]
  · exact (List.take_prefix _ _).map _
  intro x hx y hy hxy
  have hx := List.mem_of_mem_filter hx
  have hy := List.mem_of_mem_filter hy
  unfold eligible at hx hy
  rw [List.mem_filter, decide_eq_true_eq] at hx hy
  have hun : ∀ z, sc z ≠ ⊥ → r.trainNz (userIds.idxOf users[j]) (itemIds.idxOf z) = false := by
    intro z hz
    by_contra hc
    rw [Bool.not_eq_false] at hc
    exact hz (by simp only [hsc]; rw [if_pos hc])
  have hx' := hun x hx.2.2.2
  have hy' := hun y hy.2.2.2
  refine hinj x hx.2.1 y hy.2.1 hx' hy' ?_
  simp only [hsc, hx', hy', Bool.false_eq_true, if_false] at hxy
  exact hxy

-- forbidding `c`, the first of the list, leaves `a` and adds `b`
example :
    threeMapper.recommendKnownUserBatch insSort id threeItems ["u"] 2 none none (some [[]]) 1
      = .ok [[("c", 3), ("a", 2)]] ∧
    threeMapper.recommendKnownUserBatch insSort id threeItems ["u"] 2 none none (some [["c"]]) 1
      = .ok [[("a", 2), ("b", 1)]] := by decide

end Irspack.Props
