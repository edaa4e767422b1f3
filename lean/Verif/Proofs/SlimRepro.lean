import Verif.Proofs.SlimOutput
import Mathlib.Data.List.Sort

/-! # Helper lemmas for C89: the order in which a worker processes its blocks, and one sweep over a
matrix in which only three items have been used -/

namespace Irspack.WorkQueue
variable {T : Nat} {L M : Type}

/-- where the next row of worker `t` lies at least -/
def lowest (s : State T L M) (t : Fin T) : Nat :=
  match s.pc t with
  | .work r _ => r
  | _ => s.cursor

/-- every worker has processed its rows in increasing order -/
def InOrder (s : State T L M) : Prop :=
  ∀ t, (rowsOf s t).Pairwise (· < ·) ∧ (∀ r ∈ rowsOf s t, r < lowest s t) ∧
    ∀ r hi, s.pc t = .work r hi → hi ≤ s.cursor ∧ r ≤ hi

theorem inOrder_step {n c : Nat} (body : Nat → L → M → L × M) {s : State T L M} (h : InOrder s)
    (t : Fin T) : InOrder (step n c body s t) := by
  intro t'
  obtain ⟨h1, h2, h3⟩ := h t'
  cases hpc : s.pc t with
  | fetch =>
    have e : step n c body s t = { s with
      cursor := s.cursor + c
      pc := Function.update s.pc t
        (if n ≤ s.cursor then .stopped else .work s.cursor (min (s.cursor + c) n)) } := by
      simp only [step, hpc]
    rw [e]
    refine ⟨h1, ?_, ?_⟩
    · intro r hr
      have := h2 r hr
      unfold lowest at this ⊢
      by_cases ht : t' = t
      · subst ht
        rw [hpc] at this
        simp only [Function.update_self]
        simp only at this
        split
        · rename_i heq
          split at heq
          · cases heq
          · cases heq; exact this
        · omega
      · simp only [Function.update_of_ne ht]
        split
        · rename_i heq; rw [heq] at this; exact this
        · rename_i hne
          split at this
          · rename_i r' hi' heq; exact absurd heq (hne r' hi')
          · omega
    · intro r hi hw
      by_cases ht : t' = t
      · subst ht
        simp only [Function.update_self] at hw
        split at hw
        · cases hw
        · cases hw; simp only; omega
      · simp only [Function.update_of_ne ht] at hw
        have := h3 r hi hw
        simp only; omega
  | work r hi =>
    by_cases hlt : r < hi
    · have e : step n c body s t = { s with
        pc := Function.update s.pc t (.work (r + 1) hi)
        loc := Function.update s.loc t (body r (s.loc t) s.mem).1
        mem := (body r (s.loc t) s.mem).2
        hist := s.hist ++ [(t, r)] } := by
        simp only [step, hpc, if_pos hlt]
      rw [e]
      by_cases ht : t' = t
      · subst ht
        have hr : rowsOf ({ s with
            pc := Function.update s.pc t' (.work (r + 1) hi)
            loc := Function.update s.loc t' (body r (s.loc t') s.mem).1
            mem := (body r (s.loc t') s.mem).2
            hist := s.hist ++ [(t', r)] } : State T L M) t' = rowsOf s t' ++ [r] := by
          simp [rowsOf, List.filter_append]
        rw [hr]
        have hb : ∀ x ∈ rowsOf s t', x < r := by
          intro x hx
          have := h2 x hx
          unfold lowest at this
          rw [hpc] at this
          exact this
        refine ⟨?_, ?_, ?_⟩
        · rw [List.pairwise_append]
          exact ⟨h1, by simp, fun a ha b hb' => by simp at hb'; subst hb'; exact hb a ha⟩
        · intro x hx
          unfold lowest
          simp only [Function.update_self]
          rw [List.mem_append] at hx
          rcases hx with hx | hx
          · have := hb x hx; omega
          · simp at hx; omega
        · intro r' hi' hw
          simp only [Function.update_self, PC.work.injEq] at hw
          have := h3 r hi hpc
          obtain ⟨rfl, rfl⟩ := hw
          simp only; omega
      · have hr : rowsOf ({ s with
            pc := Function.update s.pc t (.work (r + 1) hi)
            loc := Function.update s.loc t (body r (s.loc t) s.mem).1
            mem := (body r (s.loc t) s.mem).2
            hist := s.hist ++ [(t, r)] } : State T L M) t' = rowsOf s t' := by
          have : ¬ t = t' := fun e => ht e.symm
          simp [rowsOf, List.filter_append, this]
        rw [hr]
        refine ⟨h1, ?_, ?_⟩
        · intro x hx
          have := h2 x hx
          unfold lowest at this ⊢
          simp only [Function.update_of_ne ht]
          exact this
        · intro r' hi' hw
          simp only [Function.update_of_ne ht] at hw
          exact h3 r' hi' hw
    · have e : step n c body s t = { s with pc := Function.update s.pc t .fetch } := by
        simp only [step, hpc, if_neg hlt]
      rw [e]
      refine ⟨h1, ?_, ?_⟩
      · intro x hx
        have := h2 x hx
        unfold lowest at this ⊢
        by_cases ht : t' = t
        · subst ht
          rw [hpc] at this
          have h4 := h3 r hi hpc
          simp only [Function.update_self]
          simp only at this
          omega
        · simp only [Function.update_of_ne ht]
          exact this
      · intro r' hi' hw
        by_cases ht : t' = t
        · subst ht; simp at hw
        · simp only [Function.update_of_ne ht] at hw
          exact h3 r' hi' hw
  | stopped =>
    rw [step_stopped body s t hpc]
    exact ⟨h1, h2, h3⟩

theorem inOrder_run {n c : Nat} (body : Nat → L → M → L × M) (sched : List (Fin T)) :
    ∀ {s : State T L M}, InOrder s → InOrder (run n c body s sched) := by
  induction sched with
  | nil => intro s h; exact h
  | cons t ts ih => intro s h; exact ih (inOrder_step body h t)

theorem inOrder_init (l₀ : L) (m₀ : M) : InOrder (init l₀ m₀ : State T L M) := by
  intro t
  simp [init, rowsOf]

/-- two runs in which every worker processed the same rows processed them in the same order -/
theorem rowsOf_eq {s s' : State T L M} (h : InOrder s) (h' : InOrder s')
    (hm : ∀ t i, (t, i) ∈ s.hist ↔ (t, i) ∈ s'.hist) (t : Fin T) : rowsOf s t = rowsOf s' t := by
  have hmem : ∀ (q : State T L M) i, i ∈ rowsOf q t ↔ (t, i) ∈ q.hist := by
    intro q i
    unfold rowsOf
    simp only [List.mem_map, List.mem_filter, decide_eq_true_eq]
    constructor
    · rintro ⟨⟨t', i'⟩, ⟨h1, h2⟩, h3⟩
      simp only at h2 h3; subst h2; subst h3; exact h1
    · intro hi; exact ⟨(t, i), ⟨hi, rfl⟩, rfl⟩
  have hp : (rowsOf s t).Perm (rowsOf s' t) := by
    rw [List.perm_ext_iff_of_nodup ((h t).1.imp (fun hab => Nat.ne_of_lt hab))
      ((h' t).1.imp (fun hab => Nat.ne_of_lt hab))]
    intro i
    rw [hmem, hmem]
    exact hm t i
  exact hp.eq_of_pairwise (fun a b _ _ hab hba => absurd hab (Nat.lt_asymm hba)) (h t).1 (h' t).1

end Irspack.WorkQueue

namespace Irspack.Slim
open WorkQueue
variable {K : Type} [Field K] [LinearOrder K]

theorem slim_ok {T : Nat} {cfg : Config K} {X : CSC K} {shuffles : Nat → List Nat}
    {srt : List (K × Nat) → List (K × Nat)} {sched : List (Fin T)} {s : State T (Worker K) Unit}
    (hs : slim cfg X shuffles srt sched = .ok s) :
    s = WorkQueue.run (blockCount cfg X) 1 (fun i w m => (processBlock cfg X shuffles srt i w, m))
      (WorkQueue.init (freshWorker cfg X) ()) sched ∧ T ≠ 0 := by
  unfold slim at hs
  split at hs
  · simp at hs
  split at hs
  · simp at hs
  split at hs
  · simp at hs
  split at hs
  · simp at hs
  rw [Except.ok.injEq] at hs
  exact ⟨hs.symm, by assumption⟩

theorem slim_loc {T : Nat} {cfg : Config K} {X : CSC K} {shuffles : Nat → List Nat}
    {srt : List (K × Nat) → List (K × Nat)} {sched : List (Fin T)} {s : State T (Worker K) Unit}
    (hs : slim cfg X shuffles srt sched = .ok s) (t : Fin T) :
    s.loc t = (rowsOf s t).foldl (fun w i => processBlock cfg X shuffles srt i w) (freshWorker cfg X) := by
  have hloc := loc_run (T := T) (M := Unit) (n := blockCount cfg X) (c := 1)
    (fun i w => processBlock cfg X shuffles srt i w) sched (init (freshWorker cfg X) ())
    (freshWorker cfg X) (by intro t; rfl)
  rw [← (slim_ok hs).1] at hloc
  exact hloc t

theorem slim_inOrder {T : Nat} {cfg : Config K} {X : CSC K} {shuffles : Nat → List Nat}
    {srt : List (K × Nat) → List (K × Nat)} {sched : List (Fin T)} {s : State T (Worker K) Unit}
    (hs : slim cfg X shuffles srt sched = .ok s) : InOrder s := by
  rw [(slim_ok hs).1]
  exact inOrder_run _ sched (inOrder_init _ _)

theorem slim_rows {T : Nat} {cfg : Config K} {X : CSC K} {shuffles : Nat → List Nat}
    {srt : List (K × Nat) → List (K × Nat)} {sched : List (Fin T)} {s : State T (Worker K) Unit}
    (hs : slim cfg X shuffles srt sched = .ok s) (hfin : Finished s) :
    (s.hist.map Prod.snd).Perm (List.range (blockCount cfg X)) := by
  obtain ⟨e, hT⟩ := slim_ok hs
  have hinv := inv_run (T := T) (n := blockCount cfg X) (c := 1)
    (fun i w m => (processBlock cfg X shuffles srt i w, m)) sched
    (inv_init (blockCount cfg X) 1 (freshWorker cfg X) ())
  rw [← e] at hinv
  exact rows_perm hinv (fun t => Or.inl (hfin t)) ⟨⟨0, by omega⟩, hfin _⟩

/-- permutations of the same list that differ put some pair of entries in opposite orders -/
theorem discordant {l l' : List Nat} (hn : l.Nodup) (hp : l.Perm l') (hne : l ≠ l') :
    ∃ a b, a ≠ b ∧ [a, b].Sublist l ∧ [b, a].Sublist l' := by
  by_contra hno
  apply hne
  have hn' : l'.Nodup := hp.nodup_iff.mp hn
  have h1 : l.Pairwise (fun a b => [a, b].Sublist l) := List.pairwise_iff_forall_sublist.mpr (fun h => h)
  have two : ∀ (l : List Nat), ∀ x y, x ∈ l → y ∈ l → x ≠ y → [x, y].Sublist l ∨ [y, x].Sublist l := by
    intro l
    induction l with
    | nil => intro x y hx; simp at hx
    | cons z zs ih =>
      intro x y hx hy hxy
      rcases List.mem_cons.mp hx with rfl | hx'
      · rcases List.mem_cons.mp hy with rfl | hy'
        · exact absurd rfl hxy
        · exact Or.inl (List.Sublist.cons_cons _ (List.singleton_sublist.mpr hy'))
      · rcases List.mem_cons.mp hy with rfl | hy'
        · exact Or.inr (List.Sublist.cons_cons _ (List.singleton_sublist.mpr hx'))
        · rcases ih x y hx' hy' hxy with h | h
          · exact Or.inl (h.cons _)
          · exact Or.inr (h.cons _)
  have ne_of : ∀ {m : List Nat}, m.Nodup → ∀ {x y}, [x, y].Sublist m → x ≠ y := by
    intro m hm x y h
    have := List.Nodup.sublist h hm
    simpa using this
  have h2 : l'.Pairwise (fun a b => [a, b].Sublist l) := by
    rw [List.pairwise_iff_forall_sublist]
    intro x y hxy
    have hxn := ne_of hn' hxy
    have hx : x ∈ l := hp.mem_iff.mpr (hxy.subset (by simp))
    have hy : y ∈ l := hp.mem_iff.mpr (hxy.subset (by simp))
    rcases two l x y hx hy hxn with h | h
    · exact h
    · exact absurd ⟨y, x, fun e => hxn e.symm, h, hxy⟩ hno
  refine hp.eq_of_pairwise (fun a b _ _ hab hba => ?_) h1 h2
  exfalso
  have hab' := ne_of hn hab
  rw [List.cons_sublist_iff] at hab hba
  obtain ⟨p, q, e, ha, hb⟩ := hab
  obtain ⟨p', q', e', hb', ha'⟩ := hba
  rw [List.singleton_sublist] at hb ha'
  have hd := hn
  rw [e, List.nodup_append] at hd
  have hd' := hn
  rw [e', List.nodup_append] at hd'
  rcases List.append_eq_append_iff.mp (e.symm.trans e') with ⟨r, e1, e2⟩ | ⟨r, e1, e2⟩
  · exact hd'.2.2 a (by rw [e1]; simp [ha]) a ha' rfl
  · exact hd.2.2 b (by rw [e1]; simp [hb']) b hb rfl

end Irspack.Slim

namespace Irspack.Slim
open WorkQueue
variable {K : Type} [Field K] [LinearOrder K] [IsStrictOrderedRing K]

/-- one user who used only the items `a`, `b` and `j` of `F` items -/
def threeItems (F a b j : Nat) : CSC K where
  rows := 1
  cols := (List.range F).map (fun f => if f = a ∨ f = b ∨ f = j then [(0, 1)] else [])

omit [LinearOrder K] [IsStrictOrderedRing K] in
theorem threeItems_column (F a b j f : Nat) (hf : f < F) :
    column (threeItems F a b j : CSC K) f = if f = a ∨ f = b ∨ f = j then [(0, 1)] else [] := by
  simp [column, threeItems, hf]

/-- what lane `k` (column `j`) looks like while one sweep is going on -/
structure LaneIs (s : Block K) (k a b j : Nat) (ca cb : K) (r : K) : Prop where
  a : s.coef k a = ca
  b : s.coef k b = cb
  j : s.coef k j = 0
  rem : s.rem k 0 = r

theorem lane_other (cfg : Config K) (h2 : cfg.l2 = 1) (h1 : cfg.l1 = 0) (F a b j begin k f : Nat)
    (hj : begin + k = j) (hfF : f < F)
    (s : Block K) (ca cb r : K) (hs : LaneIs s k a b j ca cb r) (hfa : f ≠ a) (hfb : f ≠ b) :
    LaneIs (featureStep cfg (threeItems F a b j) begin s f) k a b j ca cb r := by
  have hc := threeItems_column (K := K) F a b j f hfF
  constructor
  · simp [featureStep, Ne.symm hfa, hs.a]
  · simp [featureStep, Ne.symm hfb, hs.b]
  · simp only [featureStep]
    split
    · rename_i h
      simp [newCoef, hj, h]
    · exact hs.j
  · simp only [featureStep]
    split
    · exact hs.rem
    · by_cases hfj : f = j
      · have : change cfg (threeItems F a b j) begin s f k = 0 := by
          simp [change, newCoef, hj, hfj, hs.j]
        rw [this]
        simp [hs.rem]
      · rw [hc, if_neg (by tauto)]
        simp [hs.rem]

/-- visiting an unvisited one of the two items -/
theorem lane_new (cfg : Config K) (h2 : cfg.l2 = 1) (h1 : cfg.l1 = 0) (F a b j begin k f : Nat)
    (hj : begin + k = j) (hfF : f < F) (hf : f = a ∨ f = b) (hfj : f ≠ j)
    (s : Block K) (r : K) (hr : r < 0) (hc0 : s.coef k f = 0) (hrem : s.rem k 0 = r) :
    newCoef cfg (threeItems F a b j) begin s f k = -r / 2 := by
  have hc := threeItems_column (K := K) F a b j f hfF
  rw [if_pos (by tauto)] at hc
  have hne : ¬ begin + k = f := by rw [hj]; exact Ne.symm hfj
  have hpos : (0 : K) < -r / 2 := by linarith [div_pos (neg_pos.mpr hr) (two_pos (α := K))]
  unfold newCoef
  simp only [hne, if_false, hc, linear, x2Sum, List.map_cons, List.map_nil, List.sum_cons, List.sum_nil, hc0, hrem,
    h2, h1, choose]
  have e : (-(1 * r + 0 - (1 * 1 + 0) * 0) - 0) / (1 * 1 + 0 + 1) = -r / 2 := by
    norm_num
  rw [e]
  split <;> simp [hpos]

theorem lane_first (cfg : Config K) (h2 : cfg.l2 = 1) (h1 : cfg.l1 = 0) (hp : cfg.prec < 1 / 2)
    (F a b j begin k : Nat) (hj : begin + k = j) (hk : k < cfg.blockSize) (haF : a < F) (hab : a ≠ b) (haj : a ≠ j)
    (s : Block K) (hs : LaneIs s k a b j 0 0 (-1)) :
    LaneIs (featureStep cfg (threeItems F a b j) begin s a) k a b j (1 / 2) 0 (-1 / 2) := by
  have hn := lane_new cfg h2 h1 F a b j begin k a hj haF (Or.inl rfl) haj s (-1) (by norm_num) hs.a hs.rem
  have hc := threeItems_column (K := K) F a b j a haF
  rw [if_pos (by tauto)] at hc
  have hch : change cfg (threeItems F a b j) begin s a k = 1 / 2 := by
    unfold change; rw [hn, hs.a]; norm_num
  have hz : isZero cfg (threeItems F a b j) begin s a = false := by
    rw [Bool.eq_false_iff]
    intro h
    unfold isZero at h
    rw [List.all_eq_true] at h
    have := h k (List.mem_range.mpr hk)
    rw [hch, decide_eq_true_eq, abs_of_pos (by norm_num : (0 : K) < 1 / 2)] at this
    exact absurd this (not_le.mpr hp)
  constructor
  · simp only [featureStep, if_true, hn]; norm_num
  · simp only [featureStep, if_neg (Ne.symm hab)]; exact hs.b
  · simp only [featureStep, if_neg (Ne.symm haj)]; exact hs.j
  · simp only [featureStep, hz, hc, hch, hs.rem]
    norm_num

theorem lane_foldl (cfg : Config K) (h2 : cfg.l2 = 1) (h1 : cfg.l1 = 0) (F a b j begin k : Nat)
    (hj : begin + k = j) (ca cb r : K) (l : List Nat) (hl : ∀ f ∈ l, f < F ∧ f ≠ a ∧ f ≠ b) :
    ∀ (s : Block K), LaneIs s k a b j ca cb r →
    LaneIs (l.foldl (featureStep cfg (threeItems F a b j) begin) s) k a b j ca cb r := by
  induction l with
  | nil => intro s h; exact h
  | cons f fs ih =>
    intro s h
    obtain ⟨hf, hfa, hfb⟩ := hl f (by simp)
    exact ih (fun g hg => hl g (by simp [hg])) _ (lane_other cfg h2 h1 F a b j begin k f hj hf s ca cb r h hfa hfb)

omit [IsStrictOrderedRing K] in
theorem step_coef_here (cfg : Config K) (X : CSC K) (begin k f : Nat) (s : Block K) :
    (featureStep cfg X begin s f).coef k f = newCoef cfg X begin s f k := by
  simp [featureStep]

omit [IsStrictOrderedRing K] in
/-- features other than `b` keep the coefficient of `b` -/
theorem foldl_keeps (cfg : Config K) (X : CSC K) (begin k b : Nat) (l : List Nat) (hl : b ∉ l) :
    ∀ (s : Block K), (l.foldl (featureStep cfg X begin) s).coef k b = s.coef k b := by
  induction l with
  | nil => intro s; rfl
  | cons f fs ih =>
    intro s
    rw [List.foldl_cons, ih (fun h => hl (by simp [h]))]
    have : b ≠ f := fun h => hl (by simp [h])
    simp [featureStep, this]

/-- The coefficients of column `j` after one sweep in which `a` comes before `b`. -/
theorem sweep_three (cfg : Config K) (h2 : cfg.l2 = 1) (h1 : cfg.l1 = 0) (hp : cfg.prec < 1 / 2)
    (F a b j begin k : Nat) (hj : begin + k = j) (hk : k < cfg.blockSize) (hab : a ≠ b) (haj : a ≠ j)
    (hbj : b ≠ j) (hjF : j < F) (order : List Nat) (ho : order.Perm (List.range F))
    (hsub : [a, b].Sublist order) :
    let s := (sweep cfg (threeItems F a b j) begin order (initBlock (threeItems F a b j) cfg.blockSize begin)).1
    s.coef k a = 1 / 2 ∧ s.coef k b = 1 / 4 := by
  intro s
  have hnd : order.Nodup := ho.nodup_iff.mpr List.nodup_range
  have hlt : ∀ f ∈ order, f < F := fun f hf => List.mem_range.mp (ho.mem_iff.mp hf)
  rw [List.cons_sublist_iff] at hsub
  obtain ⟨p, q, e, ha, hb⟩ := hsub
  rw [List.singleton_sublist] at hb
  obtain ⟨p1, p2, rfl⟩ := List.append_of_mem ha
  obtain ⟨q1, q2, rfl⟩ := List.append_of_mem hb
  subst e
  have haF : a < F := hlt a (by simp)
  have hbF : b < F := hlt b (by simp)
  have hs : s = q2.foldl (featureStep cfg (threeItems F a b j) begin)
      (featureStep cfg (threeItems F a b j) begin
        (q1.foldl (featureStep cfg (threeItems F a b j) begin)
          (p2.foldl (featureStep cfg (threeItems F a b j) begin)
            (featureStep cfg (threeItems F a b j) begin
              (p1.foldl (featureStep cfg (threeItems F a b j) begin)
                (initBlock (threeItems F a b j) cfg.blockSize begin)) a))) b) := by
    show (sweep _ _ _ _ _).1 = _
    rw [sweep_fst]
    simp [List.foldl_append]
  have hne : ∀ f, (f ∈ p1 ∨ f ∈ p2 ∨ f ∈ q1 ∨ f ∈ q2) → f < F ∧ f ≠ a ∧ f ≠ b := by
    intro f hf
    refine ⟨hlt f (by simp; tauto), ?_, ?_⟩
    · rintro rfl
      simp [List.nodup_append, List.nodup_cons] at hnd
      grind
    · rintro rfl
      simp [List.nodup_append, List.nodup_cons] at hnd
      grind
  have hlen : (threeItems F a b j : CSC K).cols.length = F := by simp [threeItems]
  have h0 : LaneIs (initBlock (threeItems F a b j : CSC K) cfg.blockSize begin) k a b j 0 0 (-1) := by
    refine ⟨rfl, rfl, rfl, ?_⟩
    simp only [initBlock, hlen, hj, hk, hjF, and_self, if_true]
    rw [threeItems_column F a b j j hjF, if_pos (by tauto)]
    simp [lastStored]
  have hA := lane_first cfg h2 h1 hp F a b j begin k hj hk haF hab haj _
    (lane_foldl cfg h2 h1 F a b j begin k hj 0 0 (-1) p1 (fun f hf => hne f (by tauto)) _ h0)
  have hA2 := lane_foldl cfg h2 h1 F a b j begin k hj _ _ _ p2 (fun f hf => hne f (by tauto)) _ hA
  have hA3 := lane_foldl cfg h2 h1 F a b j begin k hj _ _ _ q1 (fun f hf => hne f (by tauto)) _ hA2
  have hB := lane_new cfg h2 h1 F a b j begin k b hj hbF (Or.inr rfl) hbj _ (-1 / 2)
    (by norm_num) hA3.b hA3.rem
  have hq2 : b ∉ q2 ∧ a ∉ q2 :=
    ⟨fun h => (hne b (by tauto)).2.2 rfl, fun h => (hne a (by tauto)).2.1 rfl⟩
  rw [hs]
  constructor
  · rw [foldl_keeps _ _ _ _ _ _ hq2.2]
    simp only [featureStep, if_neg hab]
    exact hA3.a
  · rw [foldl_keeps _ _ _ _ _ _ hq2.1]
    rw [step_coef_here, hB]; norm_num

end Irspack.Slim
