import Verif.Model.WorkerFaults
import Verif.Proofs.WorkQueue
import Verif.Proofs.Region

namespace Irspack.WorkerFaults

variable {T : Nat} {ε L M : Type}

/-- a worker of the region with trouble as a worker of the region without -/
def plain : PC ε → WorkQueue.PC
  | .fetch => .fetch
  | .work r hi => .work r hi
  | .stopped => .stopped
  | .threw r hi _ => if r < hi then .work r hi else .fetch
  | .absent => .fetch

/-- the region without trouble that has got as far -/
structure Sim (n c : Nat) (s : State T ε L M) (a : WorkQueue.State T Unit Unit) : Prop where
  cursor : a.cursor = s.cursor
  hist : a.hist = s.hist
  pc : ∀ t, a.pc t = plain (s.pc t)

theorem plain_update (f : Fin T → PC ε) (g : Fin T → WorkQueue.PC) (hg : ∀ t, g t = plain (f t)) (t : Fin T) (p : PC ε)
    (q : WorkQueue.PC) (hq : q = plain p) : ∀ x, Function.update g t q x = plain (Function.update f t p x) := by
  intro x
  by_cases hx : x = t
  · subst hx; simp [hq]
  · simp [hx, hg]

theorem sim_step {n c : Nat} (body : Nat → L → M → L × M) (tr : Trouble T ε L M) {s : State T ε L M}
    {a : WorkQueue.State T Unit Unit} (h : Sim n c s a) (t : Fin T) :
    Sim n c (step n c body tr s t) a ∨
      Sim n c (step n c body tr s t) (WorkQueue.step n c (fun _ l m => (l, m)) a t) := by
  obtain ⟨h1, h2, h3⟩ := h
  have ht := h3 t
  cases hpc : s.pc t with
  | fetch =>
    right
    rw [hpc] at ht
    simp only [step, hpc, WorkQueue.step, ht, plain]
    refine ⟨by simp [h1], h2, ?_⟩
    apply plain_update _ _ h3
    rw [h1]
    by_cases hn : n ≤ s.cursor <;> simp [hn, plain]
  | work r hi =>
    rw [hpc] at ht
    by_cases hlt : r < hi
    · cases hrow : tr.row t r with
      | some e =>
        left
        simp only [step, hpc, hlt, if_true, hrow]
        refine ⟨h1, h2, ?_⟩
        intro x
        by_cases hx : x = t
        · subst hx; simp [ht, plain, hlt]
        · simp [hx, h3]
      | none =>
        right
        simp only [step, hpc, hlt, if_true, hrow, WorkQueue.step, ht, plain]
        refine ⟨h1, by simp [h2], ?_⟩
        exact plain_update _ _ h3 _ _ _ rfl
    · right
      simp only [step, hpc, hlt, if_false, WorkQueue.step, ht, plain]
      exact ⟨h1, h2, plain_update _ _ h3 _ _ _ rfl⟩
  | stopped => left; simp only [step, hpc]; exact ⟨h1, h2, h3⟩
  | threw r hi e => left; simp only [step, hpc]; exact ⟨h1, h2, h3⟩
  | absent => left; simp only [step, hpc]; exact ⟨h1, h2, h3⟩

theorem sim_init (n c : Nat) (k : Launch) (tr : Trouble T ε L M) (l₀ : L) (m₀ : M) :
    Sim n c (init k tr l₀ m₀) (WorkQueue.init () ()) := by
  refine ⟨rfl, rfl, ?_⟩
  intro t
  simp only [init, WorkQueue.init]
  cases present k tr t with
  | false => rfl
  | true =>
    cases tr.prologue t with
    | none => rfl
    | some e => simp [plain]

/-- what holds throughout a region in trouble -/
structure FInv (n c : Nat) (tr : Trouble T ε L M) (k : Launch) (s : State T ε L M) : Prop where
  sim : ∃ a : WorkQueue.State T Unit Unit, Sim n c s a ∧ WorkQueue.Inv n c a
  /-- the completed rows did not throw -/
  good : ∀ t r, (t, r) ∈ s.hist → tr.row t r = none
  /-- exceptions come from somewhere -/
  src : ∀ t r hi e, s.pc t = .threw r hi e →
    (hi ≤ r ∧ tr.prologue t = some e) ∨ (r < hi ∧ tr.row t r = some e)
  /-- a worker that has begun was started and its prologue did not throw -/
  begun : ∀ t, s.pc t = .absent ↔ present k tr t = false
  pro : ∀ t, tr.prologue t ≠ none → (s.pc t).ended = true ∧ s.pc t ≠ .stopped
  /-- blocks are of at most `c` rows -/
  block : ∀ t r hi, (s.pc t = .work r hi ∨ ∃ e, s.pc t = .threw r hi e) → hi ≤ r + c

theorem finv_init (n c : Nat) (tr : Trouble T ε L M) (k : Launch) (l₀ : L) (m₀ : M) :
    FInv n c tr k (init k tr l₀ m₀) := by
  refine ⟨⟨_, sim_init n c k tr l₀ m₀, WorkQueue.inv_init n c () ()⟩, ?_, ?_, ?_, ?_, ?_⟩
  · intro t r h; simp [init] at h
  · intro t r hi e h
    simp only [init] at h
    cases hp : present k tr t with
    | false => simp [hp] at h
    | true =>
      cases hq : tr.prologue t with
      | none => simp [hp, hq] at h
      | some e' => simp [hp, hq] at h; left; simp [← h.1, ← h.2.2, ← h.2.1]
  · intro t
    simp only [init]
    cases hp : present k tr t with
    | false => simp
    | true => cases hq : tr.prologue t <;> simp
  · intro t h
    simp only [init]
    cases hp : present k tr t with
    | false => simp [PC.ended]
    | true => cases hq : tr.prologue t with
      | none => exact absurd hq h
      | some e => simp [PC.ended]
  · intro t r hi h
    simp only [init] at h
    cases hp : present k tr t with
    | false => simp [hp] at h
    | true =>
      cases hq : tr.prologue t with
      | none => simp [hp, hq] at h
      | some e' => simp [hp, hq] at h; omega

theorem finv_step {n c : Nat} (body : Nat → L → M → L × M) {tr : Trouble T ε L M} {k : Launch} {s : State T ε L M}
    (h : FInv n c tr k s) (t : Fin T) : FInv n c tr k (step n c body tr s t) := by
  have hsim : ∃ a : WorkQueue.State T Unit Unit, Sim n c (step n c body tr s t) a ∧ WorkQueue.Inv n c a := by
    obtain ⟨a, ha, hi⟩ := h.sim
    rcases sim_step body tr ha t with h' | h'
    · exact ⟨a, h', hi⟩
    · exact ⟨_, h', WorkQueue.inv_step _ hi t⟩
  obtain ⟨_, hg, hs, hb, hp, hbl⟩ := h
  cases hpc : s.pc t with
  | fetch =>
    have e : step n c body tr s t = { s with
        cursor := s.cursor + c
        pc := Function.update s.pc t
          (if n ≤ s.cursor then .stopped else .work s.cursor (min (s.cursor + c) n)) } := by simp only [step, hpc]
    refine ⟨hsim, ?_, ?_, ?_, ?_, ?_⟩ <;> rw [e]
    · exact hg
    · intro t' r hi e' h'
      by_cases hx : t' = t
      · subst hx; simp at h'; split at h' <;> simp at h'
      · simp [hx] at h'; exact hs _ _ _ _ h'
    · intro t'
      by_cases hx : t' = t
      · subst hx
        have := hb t'
        rw [hpc] at this
        rw [← this]
        simp only [Function.update_self]
        split <;> simp
      · simp [hx, hb]
    · intro t' h'
      by_cases hx : t' = t
      · subst hx
        have := (hp t' h').1
        rw [hpc] at this; simp [PC.ended] at this
      · simpa [hx] using hp t' h'
    · intro t' r hi h'
      by_cases hx : t' = t
      · subst hx
        simp only [Function.update_self] at h'
        by_cases hn : n ≤ s.cursor
        · simp [hn] at h'
        · simp only [hn, if_false] at h'
          rcases h' with h' | ⟨e, h'⟩
          · simp at h'; omega
          · simp at h'
      · simp only [ne_eq, hx, not_false_eq_true, Function.update_of_ne] at h'; exact hbl _ _ _ h'
  | work r hi =>
    by_cases hlt : r < hi
    · cases hrow : tr.row t r with
      | some ex =>
        have e : step n c body tr s t = { s with
          pc := Function.update s.pc t (.threw r hi ex)
          loc := Function.update s.loc t (tr.partly r (s.loc t) s.mem).1
          mem := (tr.partly r (s.loc t) s.mem).2 } := by simp only [step, hpc, hlt, if_true, hrow]
        refine ⟨hsim, ?_, ?_, ?_, ?_, ?_⟩ <;> rw [e]
        · exact hg
        · intro t' r' hi' e' h'
          by_cases hx : t' = t
          · subst hx; simp at h'
            obtain ⟨h1, h2, h3⟩ := h'
            subst h1 h2 h3
            exact .inr ⟨hlt, hrow⟩
          · simp [hx] at h'; exact hs _ _ _ _ h'
        · intro t'
          by_cases hx : t' = t
          · subst hx
            have := hb t'
            rw [hpc] at this
            rw [← this]
            simp
          · simp [hx, hb]
        · intro t' h'
          by_cases hx : t' = t
          · subst hx; simp [PC.ended]
          · simpa [hx] using hp t' h'
        · intro t' r' hi' h'
          by_cases hx : t' = t
          · subst hx
            simp at h'
            have := hbl t' r hi (.inl hpc)
            omega
          · simp only [ne_eq, hx, not_false_eq_true, Function.update_of_ne] at h'; exact hbl _ _ _ h'
      | none =>
        have e : step n c body tr s t = { s with
          pc := Function.update s.pc t (.work (r + 1) hi)
          loc := Function.update s.loc t (body r (s.loc t) s.mem).1
          mem := (body r (s.loc t) s.mem).2
          hist := s.hist ++ [(t, r)] } := by simp only [step, hpc, hlt, if_true, hrow]
        refine ⟨hsim, ?_, ?_, ?_, ?_, ?_⟩ <;> rw [e]
        · intro t' r' h'
          simp only [List.mem_append, List.mem_singleton, Prod.mk.injEq] at h'
          rcases h' with h' | ⟨rfl, rfl⟩
          · exact hg _ _ h'
          · exact hrow
        · intro t' r' hi' e' h'
          by_cases hx : t' = t
          · subst hx; simp at h'
          · simp [hx] at h'; exact hs _ _ _ _ h'
        · intro t'
          by_cases hx : t' = t
          · subst hx
            have := hb t'
            rw [hpc] at this
            rw [← this]
            simp
          · simp [hx, hb]
        · intro t' h'
          by_cases hx : t' = t
          · subst hx
            have := (hp t' h').1
            rw [hpc] at this; simp [PC.ended] at this
          · simpa [hx] using hp t' h'
        · intro t' r' hi' h'
          by_cases hx : t' = t
          · subst hx
            simp at h'
            have := hbl t' r hi (.inl hpc)
            omega
          · simp only [ne_eq, hx, not_false_eq_true, Function.update_of_ne] at h'; exact hbl _ _ _ h'
    · have e : step n c body tr s t = { s with pc := Function.update s.pc t .fetch } := by
        simp only [step, hpc, hlt, if_false]
      refine ⟨hsim, ?_, ?_, ?_, ?_, ?_⟩ <;> rw [e]
      · exact hg
      · intro t' r' hi' e' h'
        by_cases hx : t' = t
        · subst hx; simp at h'
        · simp [hx] at h'; exact hs _ _ _ _ h'
      · intro t'
        by_cases hx : t' = t
        · subst hx
          have := hb t'
          rw [hpc] at this
          rw [← this]
          simp
        · simp [hx, hb]
      · intro t' h'
        by_cases hx : t' = t
        · subst hx
          have := (hp t' h').1
          rw [hpc] at this; simp [PC.ended] at this
        · simpa [hx] using hp t' h'
      · intro t' r' hi' h'
        by_cases hx : t' = t
        · subst hx; simp at h'
        · simp only [ne_eq, hx, not_false_eq_true, Function.update_of_ne] at h'; exact hbl _ _ _ h'
  | stopped =>
    have e : step n c body tr s t = s := by simp only [step, hpc]
    rw [e] at hsim ⊢
    exact ⟨hsim, hg, hs, hb, hp, hbl⟩
  | threw r hi ex =>
    have e : step n c body tr s t = s := by simp only [step, hpc]
    rw [e] at hsim ⊢
    exact ⟨hsim, hg, hs, hb, hp, hbl⟩
  | absent =>
    have e : step n c body tr s t = s := by simp only [step, hpc]
    rw [e] at hsim ⊢
    exact ⟨hsim, hg, hs, hb, hp, hbl⟩

theorem finv_run {n c : Nat} (body : Nat → L → M → L × M) {tr : Trouble T ε L M} {k : Launch} (sched : List (Fin T)) :
    ∀ {s : State T ε L M}, FInv n c tr k s → FInv n c tr k (run n c body tr s sched) := by
  induction sched with
  | nil => intro s h; exact h
  | cons t ts ih => intro s h; exact ih (finv_step body h t)

/-! ## A region in which nothing has been thrown -/

theorem threw_stays {n c : Nat} (body : Nat → L → M → L × M) (tr : Trouble T ε L M) (sched : List (Fin T)) :
    ∀ (s : State T ε L M) (t : Fin T) (e : ε), (s.pc t).thrown = some e →
      ((run n c body tr s sched).pc t).thrown = some e := by
  induction sched with
  | nil => intro s t e h; exact h
  | cons u us ih =>
    intro s t e h
    apply ih
    cases hp : s.pc t with
    | threw r hi e' =>
      rw [hp] at h
      by_cases hx : t = u
      · subst hx
        have : step n c body tr s t = s := by simp only [step, hp]
        rw [this, hp]; exact h
      · have : (step n c body tr s u).pc t = s.pc t := by
          cases hu : s.pc u with
          | fetch => simp [step, hu, hx]
          | work r hi =>
            by_cases hlt : r < hi
            · cases hrow : tr.row u r <;> simp [step, hu, hlt, hrow, hx]
            · simp [step, hu, hlt, hx]
          | stopped => simp [step, hu]
          | threw r hi e => simp [step, hu]
          | absent => simp [step, hu]
        rw [this, hp]; exact h
    | fetch => rw [hp] at h; simp [PC.thrown] at h
    | work r hi => rw [hp] at h; simp [PC.thrown] at h
    | stopped => rw [hp] at h; simp [PC.thrown] at h
    | absent => rw [hp] at h; simp [PC.thrown] at h

/-- the same state in both models -/
structure Same (s : State T ε L M) (a : WorkQueue.State T L M) : Prop where
  cursor : a.cursor = s.cursor
  hist : a.hist = s.hist
  loc : a.loc = s.loc
  mem : a.mem = s.mem
  pc : ∀ t, a.pc t = plain (s.pc t)
  here : ∀ t, s.pc t ≠ .absent

theorem same_step {n c : Nat} (body : Nat → L → M → L × M) (tr : Trouble T ε L M) {s : State T ε L M}
    {a : WorkQueue.State T L M} (h : Same s a) (t : Fin T) (hno : ∀ t', ((step n c body tr s t).pc t').thrown = none) :
    Same (step n c body tr s t) (WorkQueue.step n c body a t) := by
  obtain ⟨h1, h2, h3, h4, h5, h6⟩ := h
  have ht := h5 t
  cases hpc : s.pc t with
  | fetch =>
    rw [hpc] at ht
    simp only [step, hpc, WorkQueue.step, ht, plain]
    refine ⟨by simp [h1], h2, h3, h4, ?_, ?_⟩
    · apply plain_update _ _ h5
      rw [h1]
      by_cases hn : n ≤ s.cursor <;> simp [hn, plain]
    · intro x
      by_cases hx : x = t
      · subst hx; simp; split <;> simp
      · simpa [hx] using h6 x
  | work r hi =>
    rw [hpc] at ht
    by_cases hlt : r < hi
    · cases hrow : tr.row t r with
      | some e =>
        have := hno t
        simp [step, hpc, hlt, hrow, PC.thrown] at this
      | none =>
        simp only [step, hpc, hlt, if_true, hrow, WorkQueue.step, ht, plain]
        refine ⟨h1, by simp [h2], by simp [h3, h4], by simp [h3, h4], plain_update _ _ h5 _ _ _ rfl, ?_⟩
        intro x
        by_cases hx : x = t
        · subst hx; simp
        · simpa [hx] using h6 x
    · simp only [step, hpc, hlt, if_false, WorkQueue.step, ht, plain]
      refine ⟨h1, h2, h3, h4, plain_update _ _ h5 _ _ _ rfl, ?_⟩
      intro x
      by_cases hx : x = t
      · subst hx; simp
      · simpa [hx] using h6 x
  | stopped =>
    rw [hpc] at ht
    simp only [step, hpc, WorkQueue.step, ht, plain]; exact ⟨h1, h2, h3, h4, h5, h6⟩
  | threw r hi e =>
    have := hno t
    simp [step, hpc, PC.thrown] at this
  | absent => exact absurd hpc (h6 t)

theorem same_run {n c : Nat} (body : Nat → L → M → L × M) (tr : Trouble T ε L M) (sched : List (Fin T)) :
    ∀ {s : State T ε L M} {a : WorkQueue.State T L M}, Same s a →
      (∀ t, ((run n c body tr s sched).pc t).thrown = none) →
      Same (run n c body tr s sched) (WorkQueue.run n c body a sched) := by
  induction sched with
  | nil => intro s a h _; exact h
  | cons t ts ih =>
    intro s a h hno
    refine ih (same_step body tr h t ?_) hno
    intro t'
    cases he : ((step n c body tr s t).pc t').thrown with
    | none => rfl
    | some e =>
      have := threw_stays (n := n) (c := c) body tr ts _ t' e he
      have h2 := hno t'
      simp only [run, List.foldl_cons] at h2 this
      rw [h2] at this; cases this

theorem firstThrown_none {s : State T ε L M} : firstThrown s = none ↔ ∀ t, (s.pc t).thrown = none := by
  unfold firstThrown
  rw [List.findSome?_eq_none_iff]
  constructor
  · intro h t
    exact h _ ((List.mem_ofFn' _ _).mpr ⟨t, rfl⟩)
  · intro h x hx
    obtain ⟨t, rfl⟩ := (List.mem_ofFn' _ x).mp hx
    exact h t

theorem firstThrown_some {s : State T ε L M} {e : ε} (h : firstThrown s = some e) : ∃ t, (s.pc t).thrown = some e := by
  obtain ⟨l, hl, hle⟩ := List.exists_of_findSome?_eq_some h
  obtain ⟨t, rfl⟩ := (List.mem_ofFn' _ l).mp hl
  exact ⟨t, hle⟩

theorem all_starts {tr : Trouble T ε L M} : (List.finRange T).all tr.starts = true ↔ ∀ t, tr.starts t = true := by
  simp

theorem present_of_starts {tr : Trouble T ε L M} (k : Launch) (h : ∀ t, tr.starts t = true) (t : Fin T) :
    present k tr t = true := by
  cases k <;> simp [present, h]

/-! ## Rows -/

/-- the rows that have been completed, and those that a worker owns (or owned when it ended), are different rows -/
theorem owned_nodup {n c : Nat} {s : State T ε L M} {a : WorkQueue.State T Unit Unit} (hs : Sim n c s a)
    (hi : WorkQueue.Inv n c a) :
    (((s.hist.map Prod.snd : List Nat) : Multiset Nat) + ∑ t, WorkQueue.pending (plain (s.pc t))).Nodup ∧
    ((s.hist.map Prod.snd : List Nat) : Multiset Nat) + ∑ t, WorkQueue.pending (plain (s.pc t))
      = ((List.range (min s.cursor n) : List Nat) : Multiset Nat) := by
  have h := hi.rows
  rw [hs.hist, hs.cursor] at h
  simp only [hs.pc] at h
  refine ⟨?_, h⟩
  rw [h]
  simpa using List.nodup_range

theorem mem_pending {p : PC ε} {r : Nat} : r ∈ WorkQueue.pending (plain p) ↔
    ∃ lo hi, (p = .work lo hi ∨ ∃ e, p = .threw lo hi e) ∧ lo ≤ r ∧ r < hi := by
  cases p with
  | fetch => simp [plain, WorkQueue.pending]
  | work lo hi =>
    simp [plain, WorkQueue.pending, List.mem_range'_1]
    omega
  | stopped => simp [plain, WorkQueue.pending]
  | threw lo hi e =>
    by_cases h : lo < hi
    · simp [plain, h, WorkQueue.pending, List.mem_range'_1]
      omega
    · simp [plain, h, WorkQueue.pending]; omega
  | absent => simp [plain, WorkQueue.pending]

theorem mem_sum_pending {f : Fin T → PC ε} {r : Nat} : r ∈ ∑ t, WorkQueue.pending (plain (f t)) ↔
    ∃ t, r ∈ WorkQueue.pending (plain (f t)) := by
  simp [Multiset.mem_sum]

/-- an owned row has not been completed -/
theorem owned_not_done {n c : Nat} {s : State T ε L M} {a : WorkQueue.State T Unit Unit} (hs : Sim n c s a)
    (hi : WorkQueue.Inv n c a) {t : Fin T} {r : Nat} (hr : r ∈ WorkQueue.pending (plain (s.pc t))) :
    r ∉ s.hist.map Prod.snd := by
  intro h
  have := (owned_nodup hs hi).1
  rw [Multiset.nodup_add] at this
  exact Multiset.disjoint_left.mp this.2.2 (by simpa using h) (mem_sum_pending.mpr ⟨t, hr⟩)

/-- an owned row has one owner -/
theorem owner_unique {n c : Nat} {s : State T ε L M} {a : WorkQueue.State T Unit Unit} (hs : Sim n c s a)
    (hi : WorkQueue.Inv n c a) {t t' : Fin T} {r : Nat} (hr : r ∈ WorkQueue.pending (plain (s.pc t)))
    (hr' : r ∈ WorkQueue.pending (plain (s.pc t'))) : t = t' := by
  by_contra hne
  have h1 := (owned_nodup hs hi).1
  rw [Multiset.nodup_add] at h1
  have h2 := h1.2.1
  rw [← Finset.add_sum_erase _ _ (Finset.mem_univ t)] at h2
  rw [Multiset.nodup_add] at h2
  refine Multiset.disjoint_left.mp h2.2.2 hr ?_
  rw [Multiset.mem_sum]
  exact ⟨t', by simp [Ne.symm hne], hr'⟩

/-- when somebody has found the queue empty, every row has been completed or is owned -/
theorem covered {n c : Nat} {s : State T ε L M} {a : WorkQueue.State T Unit Unit} (hs : Sim n c s a)
    (hi : WorkQueue.Inv n c a) {t₀ : Fin T} (h0 : s.pc t₀ = .stopped) {r : Nat} (hr : r < n) :
    r ∈ s.hist.map Prod.snd ∨ ∃ t, r ∈ WorkQueue.pending (plain (s.pc t)) := by
  have hn : n ≤ s.cursor := by
    have := hi.stop t₀ (by rw [hs.pc, h0]; rfl)
    rwa [hs.cursor] at this
  have h := (owned_nodup hs hi).2
  have hmem : r ∈ ((List.range (min s.cursor n) : List Nat) : Multiset Nat) := by
    simp; omega
  rw [← h, Multiset.mem_add] at hmem
  rcases hmem with h' | h'
  · left; simpa using h'
  · right; exact mem_sum_pending.mp h'

/-! ## Memory, for regions in which every row writes only itself -/

section memory
variable {A : Type}

/-- the memory of a region whose rows compute `g` and, when they throw, leave `p` -/
structure RowMem (g p : Nat → A → A) (m₀ : Nat → A) (s : State T ε L (Nat → A)) : Prop where
  done : ∀ r, r ∈ s.hist.map Prod.snd → s.mem r = g r (m₀ r)
  broken : ∀ t r hi e, s.pc t = .threw r hi e → r < hi → s.mem r = p r (m₀ r)
  other : ∀ r, r ∉ s.hist.map Prod.snd → (∀ t hi e, s.pc t = .threw r hi e → hi ≤ r) → s.mem r = m₀ r

theorem rowMem_step {n c : Nat} (g p : Nat → A → A) (up : Nat → L → L) {tr : Trouble T ε L (Nat → A)} {k : Launch}
    (hpartly : ∀ r l m, (tr.partly r l m).2 = Function.update m r (p r (m r))) {m₀ : Nat → A}
    {s : State T ε L (Nat → A)} (hf : FInv n c tr k s) (h : RowMem g p m₀ s) (t : Fin T) :
    RowMem g p m₀ (step n c (fun r l m => (up r l, Function.update m r (g r (m r)))) tr s t) := by
  obtain ⟨a, hs, hi⟩ := hf.sim
  obtain ⟨h1, h2, h3⟩ := h
  cases hpc : s.pc t with
  | fetch =>
    simp only [step, hpc]
    refine ⟨h1, ?_, ?_⟩
    · intro t' r hi e h' hlt
      by_cases hx : t' = t
      · subst hx; simp at h'; split at h' <;> simp at h'
      · simp [hx] at h'; exact h2 _ _ _ _ h' hlt
    · intro r hr hno
      apply h3 r hr
      intro t' hi e h'
      have hx : t' ≠ t := by rintro rfl; rw [hpc] at h'; cases h'
      exact hno t' hi e (by simpa [hx] using h')
  | work r hi =>
    by_cases hlt : r < hi
    · have hown : r ∈ WorkQueue.pending (plain (s.pc t)) :=
        mem_pending.mpr ⟨r, hi, .inl hpc, le_refl _, hlt⟩
      have hnd := owned_not_done hs ‹_› hown
      have hclean : ∀ t' hi' e, s.pc t' = .threw r hi' e → hi' ≤ r := by
        intro t' hi' e h'
        by_contra hlt'
        have : t = t' := owner_unique hs ‹_› hown (mem_pending.mpr ⟨r, hi', .inr ⟨e, h'⟩, le_refl _, by omega⟩)
        subst this
        rw [hpc] at h'; cases h'
      have hold : s.mem r = m₀ r := h3 r hnd hclean
      cases hrow : tr.row t r with
      | some ex =>
        simp only [step, hpc, hlt, if_true, hrow, hpartly]
        refine ⟨?_, ?_, ?_⟩
        · intro r' hr'
          have hne : r' ≠ r := by rintro rfl; exact hnd hr'
          simp only [ne_eq, hne, not_false_eq_true, Function.update_of_ne]
          exact h1 r' hr'
        · intro t' r' hi' e h' hlt'
          by_cases hx : t' = t
          · subst hx; simp at h'
            obtain ⟨rfl, _, _⟩ := h'
            simp [hold]
          · simp [hx] at h'
            have hne : r' ≠ r := by rintro rfl; have := hclean _ _ _ h'; omega
            simp only [ne_eq, hne, not_false_eq_true, Function.update_of_ne]
            exact h2 _ _ _ _ h' hlt'
        · intro r' hr' hno
          have hne : r' ≠ r := by
            rintro rfl
            have := hno t hi ex (by simp)
            omega
          simp only [ne_eq, hne, not_false_eq_true, Function.update_of_ne]
          apply h3 r' hr'
          intro t' hi' e h'
          have hx : t' ≠ t := by rintro rfl; rw [hpc] at h'; cases h'
          exact hno t' hi' e (by simpa [hx] using h')
      | none =>
        simp only [step, hpc, hlt, if_true, hrow]
        refine ⟨?_, ?_, ?_⟩
        · intro r' hr'
          simp only [List.map_append, List.map_cons, List.map_nil, List.mem_append, List.mem_singleton] at hr'
          by_cases hne : r' = r
          · subst hne; simp [hold]
          · simp only [ne_eq, hne, not_false_eq_true, Function.update_of_ne]
            exact h1 r' (by simpa [hne] using hr')
        · intro t' r' hi' e h' hlt'
          by_cases hx : t' = t
          · subst hx; simp at h'
          · simp [hx] at h'
            have hne : r' ≠ r := by rintro rfl; have := hclean _ _ _ h'; omega
            simp only [ne_eq, hne, not_false_eq_true, Function.update_of_ne]
            exact h2 _ _ _ _ h' hlt'
        · intro r' hr' hno
          simp only [List.map_append, List.map_cons, List.map_nil, List.mem_append, List.mem_singleton, not_or] at hr'
          simp only [ne_eq, hr'.2, not_false_eq_true, Function.update_of_ne]
          apply h3 r' hr'.1
          intro t' hi' e h'
          have hx : t' ≠ t := by rintro rfl; rw [hpc] at h'; cases h'
          exact hno t' hi' e (by simpa [hx] using h')
    · simp only [step, hpc, hlt, if_false]
      refine ⟨h1, ?_, ?_⟩
      · intro t' r' hi' e h' hlt'
        by_cases hx : t' = t
        · subst hx; simp at h'
        · simp [hx] at h'; exact h2 _ _ _ _ h' hlt'
      · intro r' hr hno
        apply h3 r' hr
        intro t' hi' e h'
        have hx : t' ≠ t := by rintro rfl; rw [hpc] at h'; cases h'
        exact hno t' hi' e (by simpa [hx] using h')
  | stopped => simp only [step, hpc]; exact ⟨h1, h2, h3⟩
  | threw r hi e => simp only [step, hpc]; exact ⟨h1, h2, h3⟩
  | absent => simp only [step, hpc]; exact ⟨h1, h2, h3⟩

theorem rowMem_run {n c : Nat} (g p : Nat → A → A) (up : Nat → L → L) {tr : Trouble T ε L (Nat → A)} {k : Launch}
    (hpartly : ∀ r l m, (tr.partly r l m).2 = Function.update m r (p r (m r))) {m₀ : Nat → A} (sched : List (Fin T)) :
    ∀ {s : State T ε L (Nat → A)}, FInv n c tr k s → RowMem g p m₀ s →
      RowMem g p m₀ (run n c (fun r l m => (up r l, Function.update m r (g r (m r)))) tr s sched) := by
  induction sched with
  | nil => intro s _ h; exact h
  | cons t ts ih => intro s hf h; exact ih (finv_step _ hf t) (rowMem_step g p up hpartly hf h t)

theorem rowMem_init (g p : Nat → A → A) (k : Launch) (tr : Trouble T ε L (Nat → A)) (l₀ : L) (m₀ : Nat → A) :
    RowMem g p m₀ (init k tr l₀ m₀) := by
  refine ⟨by intro r h; simp [init] at h, ?_, fun r _ _ => rfl⟩
  intro t r hi e h hlt
  simp only [init] at h
  cases hp : present k tr t with
  | false => simp [hp] at h
  | true =>
    cases hq : tr.prologue t with
    | none => simp [hp, hq] at h
    | some e' => simp [hp, hq] at h; omega

end memory

/-! ## Survivors -/

/-- If fewer workers are missing at the start than there are workers left over by the rows that can fail, some worker comes
to the end of the queue. -/
theorem survivor {n c : Nat} {tr : Trouble T ε L M} {k : Launch} {s : State T ε L M} (hf : FInv n c tr k s)
    (hfin : Finished s) (F : Finset Nat) (hF : ∀ t r, tr.row t r ≠ none → r ∈ F)
    (hfew : (Finset.univ.filter (fun t => present k tr t = false ∨ tr.prologue t ≠ none)).card + F.card < T) :
    ∃ t, s.pc t = .stopped := by
  classical
  by_contra hno
  have hno' : ∀ t, s.pc t ≠ .stopped := fun t ht => hno ⟨t, ht⟩
  obtain ⟨a, hs, hi⟩ := hf.sim
  -- the workers ended by a row
  let D : Finset (Fin T) := Finset.univ.filter (fun t => present k tr t = false ∨ tr.prologue t ≠ none)
  have key : ∀ t : Fin T, t ∉ D → ∃ r hi e, s.pc t = .threw r hi e ∧ r < hi ∧ tr.row t r = some e := by
    intro t ht
    have hD : ¬ (present k tr t = false ∨ tr.prologue t ≠ none) := by simpa [D] using ht
    rw [not_or] at hD
    have hend := hfin t
    cases hp : s.pc t with
    | fetch => rw [hp] at hend; simp [PC.ended] at hend
    | work r hi => rw [hp] at hend; simp [PC.ended] at hend
    | stopped => exact absurd hp (hno' t)
    | absent => exact absurd ((hf.begun t).mp hp) hD.1
    | threw r hi e =>
      rcases hf.src t r hi e hp with ⟨_, hq⟩ | ⟨hlt, hrow⟩
      · exact absurd (by rw [hq]; simp) hD.2
      · exact ⟨r, hi, e, rfl, hlt, hrow⟩
  let f : Fin T → Nat := fun t => match s.pc t with
    | .threw r _ _ => r
    | _ => 0
  have hcard : (Finset.univ \ D).card ≤ F.card := by
    apply Finset.card_le_card_of_injOn f
    · intro t ht
      obtain ⟨r, hi, e, hp, _, hrow⟩ := key t (by simpa using ht)
      have : f t = r := by simp only [f, hp]
      rw [this]
      exact hF t r (by rw [hrow]; simp)
    · intro t ht t' ht' heq
      obtain ⟨r, hi', e, hp, hlt, _⟩ := key t (by simpa using ht)
      obtain ⟨r', hi'', e', hp', hlt', _⟩ := key t' (by simpa using ht')
      have e1 : f t = r := by simp only [f, hp]
      have e2 : f t' = r' := by simp only [f, hp']
      have hrr : r = r' := by rw [← e1, ← e2]; exact heq
      subst hrr
      exact owner_unique hs hi (mem_pending.mpr ⟨r, hi', .inr ⟨e, hp⟩, le_refl _, hlt⟩)
        (mem_pending.mpr ⟨r, hi'', .inr ⟨e', hp'⟩, le_refl _, hlt'⟩)
  have := Finset.card_sdiff_add_card_eq_card (Finset.subset_univ D)
  rw [Finset.card_univ, Fintype.card_fin] at this
  have hD' : D.card + F.card < T := hfew
  omega

end Irspack.WorkerFaults
