import Verif.Model.WorkQueue
import Mathlib.Algebra.BigOperators.Fin
import Mathlib.Algebra.BigOperators.Group.Finset.Basic
import Mathlib.Algebra.BigOperators.Group.Finset.Piecewise
import Mathlib.Data.Multiset.Range
import Mathlib.Data.Multiset.AddSub
import Mathlib.Algebra.Order.BigOperators.Group.Finset

namespace Irspack.WorkQueue

variable {T : Nat} {L M : Type}

/-- rows a worker has reserved and not yet processed -/
def pending : PC → Multiset Nat
  | .fetch => 0
  | .work r hi => (List.range' r (hi - r) : List Nat)
  | .stopped => 0

/-- Invariant of the parallel region. -/
structure Inv (n c : Nat) (s : State T L M) : Prop where
  rows : ((s.hist.map Prod.snd : List Nat) : Multiset Nat) + ∑ t, pending (s.pc t)
    = ((List.range (min s.cursor n) : List Nat) : Multiset Nat)
  stop : ∀ t, s.pc t = .stopped → n ≤ s.cursor
  hi : ∀ t r hi, s.pc t = .work r hi → r ≤ hi ∧ hi ≤ n

theorem inv_init (n c : Nat) (l₀ : L) (m₀ : M) : Inv n c (init l₀ m₀ : State T L M) := by
  constructor
  · simp [init, pending]
  · simp [init]
  · simp [init]

private theorem sum_update (f : Fin T → PC) (t : Fin T) (p : PC) :
    ∑ x, pending (Function.update f t p x) + pending (f t) = ∑ x, pending (f x) + pending p := by
  have h1 : ∑ x, pending (Function.update f t p x)
      = pending p + ∑ x ∈ Finset.univ \ {t}, pending (f x) := by
    have := Finset.sum_update_of_mem (Finset.mem_univ t) (fun x => pending (f x)) (pending p)
    rw [← this]
    apply Finset.sum_congr rfl
    intro x _
    by_cases hx : x = t
    · subst hx; simp
    · simp [hx]
  have h2 : ∑ x, pending (f x) = pending (f t) + ∑ x ∈ Finset.univ \ {t}, pending (f x) := by
    rw [Finset.sdiff_singleton_eq_erase]
    exact (Finset.add_sum_erase _ (fun x => pending (f x)) (Finset.mem_univ t)).symm
  rw [h1, h2]
  ac_rfl

theorem inv_step {n c : Nat} (body : Nat → L → M → L × M) {s : State T L M}
    (h : Inv n c s) (t : Fin T) : Inv n c (step n c body s t) := by
  obtain ⟨hr, hs, hh⟩ := h
  cases hpc : s.pc t with
  | fetch =>
    have e : step n c body s t = { s with
      cursor := s.cursor + c
      pc := Function.update s.pc t
        (if n ≤ s.cursor then .stopped else .work s.cursor (min (s.cursor + c) n)) } := by
      simp only [step, hpc]
    rw [e]
    by_cases hn : n ≤ s.cursor
    · simp only [hn, if_true]
      refine ⟨?_, ?_, ?_⟩
      · have := sum_update s.pc t .stopped
        rw [hpc, show pending .fetch = 0 from rfl, show pending .stopped = 0 from rfl,
          add_zero, add_zero] at this
        show _ + ∑ x, pending (Function.update s.pc t .stopped x) = _
        rw [this, hr]
        congr 2
        show min s.cursor n = min (s.cursor + c) n
        omega
      · intro t' h'
        show n ≤ s.cursor + c
        omega
      · intro t' r hi h'
        by_cases hx : t' = t
        · subst hx; simp at h'
        · simp [hx] at h'; exact hh _ _ _ h'
    · simp only [hn, if_false]
      refine ⟨?_, ?_, ?_⟩
      · have := sum_update s.pc t (.work s.cursor (min (s.cursor + c) n))
        rw [hpc, show pending .fetch = 0 from rfl, add_zero] at this
        show _ + ∑ x, pending (Function.update s.pc t (.work s.cursor (min (s.cursor + c) n)) x) = _
        rw [this, ← add_assoc, hr]
        simp only [pending]
        rw [Multiset.coe_add, Nat.min_eq_left (by omega), List.range_eq_range',
          List.range_eq_range', Multiset.coe_eq_coe]
        have e2 : min (s.cursor + c) n = s.cursor + (min (s.cursor + c) n - s.cursor) := by omega
        conv_rhs => rw [e2]
        have := List.range'_append (s := 0) (m := s.cursor) (n := min (s.cursor + c) n - s.cursor) (step := 1)
        simp only [Nat.zero_add, Nat.one_mul] at this
        rw [this]
      · intro t' h'
        by_cases hx : t' = t
        · subst hx; simp at h'
        · simp [hx] at h'
          have := hs _ h'
          show n ≤ s.cursor + c
          omega
      · intro t' r hi h'
        by_cases hx : t' = t
        · subst hx; simp at h'; omega
        · simp [hx] at h'; exact hh _ _ _ h'
  | work r hi =>
    by_cases hlt : r < hi
    · have e : step n c body s t = { s with
        pc := Function.update s.pc t (.work (r + 1) hi)
        loc := Function.update s.loc t (body r (s.loc t) s.mem).1
        mem := (body r (s.loc t) s.mem).2
        hist := s.hist ++ [(t, r)] } := by
        simp only [step, hpc, hlt, if_true]
      rw [e]
      refine ⟨?_, ?_, ?_⟩
      · have := sum_update s.pc t (.work (r + 1) hi)
        rw [hpc] at this
        have e3 : pending (.work r hi) = (r ::ₘ pending (.work (r + 1) hi)) := by
          simp only [pending]
          rw [show hi - r = (hi - (r + 1)) + 1 by omega, List.range'_succ]
          simp
        rw [e3] at this
        have h4 : ∑ x, pending (Function.update s.pc t (.work (r + 1) hi) x) + {r}
            = ∑ x, pending (s.pc x) := by
          rw [← Multiset.singleton_add] at this
          rw [← add_assoc] at this
          exact add_right_cancel this
        simp only [List.map_append, List.map_cons, List.map_nil]
        rw [← Multiset.coe_add]
        rw [← hr, ← h4]
        simp only [Multiset.coe_singleton]
        ac_rfl
      · intro t' h'
        by_cases hx : t' = t
        · subst hx; simp at h'
        · simp [hx] at h'; exact hs _ h'
      · intro t' r' hi' h'
        by_cases hx : t' = t
        · subst hx; simp at h'
          have := hh _ _ _ hpc
          omega
        · simp [hx] at h'; exact hh _ _ _ h'
    · have e : step n c body s t = { s with pc := Function.update s.pc t .fetch } := by
        simp only [step, hpc, hlt, if_false]
      rw [e]
      refine ⟨?_, ?_, ?_⟩
      · have := sum_update s.pc t .fetch
        rw [hpc] at this
        have e3 : pending (.work r hi) = 0 := by
          simp only [pending]
          rw [show hi - r = 0 by omega]
          simp
        rw [e3, show pending .fetch = 0 from rfl, add_zero, add_zero] at this
        show _ + ∑ x, pending (Function.update s.pc t .fetch x) = _
        rw [this, hr]
      · intro t' h'
        by_cases hx : t' = t
        · subst hx; simp at h'
        · simp [hx] at h'; exact hs _ h'
      · intro t' r' hi' h'
        by_cases hx : t' = t
        · subst hx; simp at h'
        · simp [hx] at h'; exact hh _ _ _ h'
  | stopped =>
    have e : step n c body s t = s := by simp only [step, hpc]
    rw [e]; exact ⟨hr, hs, hh⟩

theorem inv_run {n c : Nat} (body : Nat → L → M → L × M) (sched : List (Fin T)) :
    ∀ {s : State T L M}, Inv n c s → Inv n c (run n c body s sched) := by
  induction sched with
  | nil => intro s h; exact h
  | cons t ts ih => intro s h; exact ih (inv_step body h t)

/-- If no worker holds reserved rows and at least one has returned, the processed rows are
exactly `0 .. n-1`, each once. -/
theorem rows_perm {n c : Nat} {s : State T L M} (h : Inv n c s)
    (hq : ∀ t, s.pc t = .stopped ∨ s.pc t = .fetch) (h1 : ∃ t, s.pc t = .stopped) :
    (s.hist.map Prod.snd).Perm (List.range n) := by
  obtain ⟨t, ht⟩ := h1
  have hn := h.stop t ht
  have hz : ∑ t, pending (s.pc t) = 0 := by
    apply Finset.sum_eq_zero
    intro x _
    rcases hq x with hx | hx <;> rw [hx] <;> rfl
  have := h.rows
  rw [hz, add_zero, Nat.min_eq_right hn, Multiset.coe_eq_coe] at this
  exact this

/-- The processed rows of every reachable state are distinct and inside the matrix. -/
theorem rows_nodup {n c : Nat} {s : State T L M} (h : Inv n c s) :
    (s.hist.map Prod.snd).Nodup ∧ ∀ r ∈ s.hist.map Prod.snd, r < n := by
  have hle : ((s.hist.map Prod.snd : List Nat) : Multiset Nat) ≤
      ((List.range (min s.cursor n) : List Nat) : Multiset Nat) := by
    rw [← h.rows]; exact Multiset.le_add_right _ _
  constructor
  · have := Multiset.nodup_of_le hle (by simpa using List.nodup_range)
    simpa using this
  · intro r hr
    have : r ∈ ((List.range (min s.cursor n) : List Nat) : Multiset Nat) :=
      Multiset.mem_of_le hle (by simpa using hr)
    simp at this
    omega

/-- rows processed by worker `t`, in order -/
def rowsOf (s : State T L M) (t : Fin T) : List Nat :=
  (s.hist.filter (fun e => decide (e.1 = t))).map Prod.snd

/-- Semantics of the ghost history when the body does not touch local state:
the shared memory is the fold of the writes. -/
theorem mem_run {n c : Nat} (wr : Nat → M → M) (sched : List (Fin T)) :
    ∀ (s : State T L M) (m₀ : M), s.mem = (s.hist.map Prod.snd).foldl (fun m r => wr r m) m₀ →
      (run n c (fun r l m => (l, wr r m)) s sched).mem =
        ((run n c (fun r l m => (l, wr r m)) s sched).hist.map Prod.snd).foldl
          (fun m r => wr r m) m₀ := by
  induction sched with
  | nil => intro s m₀ h; exact h
  | cons t ts ih =>
    intro s m₀ h
    apply ih
    unfold step
    split
    · exact h
    · split
      · simp only [List.map_append, List.foldl_append, List.map_cons, List.map_nil,
          List.foldl_cons, List.foldl_nil, h]
      · exact h
    · exact h

/-- … and when the body touches only local state, each local accumulator is the fold over the
rows its worker processed. -/
theorem loc_run {n c : Nat} (up : Nat → L → L) (sched : List (Fin T)) :
    ∀ (s : State T L M) (l₀ : L), (∀ t, s.loc t = (rowsOf s t).foldl (fun l r => up r l) l₀) →
      ∀ t, (run n c (fun r l m => (up r l, m)) s sched).loc t =
        (rowsOf (run n c (fun r l m => (up r l, m)) s sched) t).foldl (fun l r => up r l) l₀ := by
  induction sched with
  | nil => intro s l₀ h; exact h
  | cons t ts ih =>
    intro s l₀ h
    apply ih
    unfold step
    split
    · exact h
    · split
      · rename_i r hi hpc hlt
        intro t'
        by_cases hx : t' = t
        · subst hx
          simp [rowsOf, List.filter_append, h]
        · have hx' : ¬ t = t' := fun e => hx e.symm
          simp [rowsOf, List.filter_append, hx, hx', h]
      · exact h
    · exact h

/-- Flattening the per-worker rows gives back all processed rows. -/
theorem rowsOf_flatten (s : State T L M) :
    ∑ t, ((rowsOf s t : List Nat) : Multiset Nat) = ((s.hist.map Prod.snd : List Nat) : Multiset Nat) := by
  unfold rowsOf
  induction s.hist with
  | nil => simp
  | cons e es ih =>
    have : ∀ t : Fin T, (((List.filter (fun e => decide (e.1 = t)) (e :: es)).map Prod.snd : List Nat) : Multiset Nat)
      = (if t = e.1 then {e.2} else 0) +
        (((List.filter (fun e => decide (e.1 = t)) es).map Prod.snd : List Nat) : Multiset Nat) := by
      intro t
      by_cases h : e.1 = t
      · subst h; simp
      · have h' : ¬ t = e.1 := fun x => h x.symm
        simp [h, h']
    simp only [this, Finset.sum_add_distrib, ih]
    simp

/-! ### Termination -/

/-- weight of a worker position -/
def weight : PC → Nat
  | .fetch => 1
  | .work r hi => (hi - r) + 2
  | .stopped => 0

/-- Upper bound on the number of steps still to be taken. -/
def measure (n : Nat) (s : State T L M) : Nat := 3 * (n - s.cursor) + ∑ t, weight (s.pc t)

private theorem weight_update (f : Fin T → PC) (t : Fin T) (p : PC) :
    ∑ x, weight (Function.update f t p x) + weight (f t) = ∑ x, weight (f x) + weight p := by
  have h1 : ∑ x, weight (Function.update f t p x)
      = weight p + ∑ x ∈ Finset.univ \ {t}, weight (f x) := by
    have := Finset.sum_update_of_mem (Finset.mem_univ t) (fun x => weight (f x)) (weight p)
    rw [← this]
    apply Finset.sum_congr rfl
    intro x _
    by_cases hx : x = t
    · subst hx; simp
    · simp [hx]
  have h2 : ∑ x, weight (f x) = weight (f t) + ∑ x ∈ Finset.univ \ {t}, weight (f x) := by
    rw [Finset.sdiff_singleton_eq_erase]
    exact (Finset.add_sum_erase _ (fun x => weight (f x)) (Finset.mem_univ t)).symm
  rw [h1, h2]
  ac_rfl

theorem measure_step {n c : Nat} (hc : 0 < c) (body : Nat → L → M → L × M) (s : State T L M)
    (t : Fin T) (ht : s.pc t ≠ .stopped) :
    measure n (step n c body s t) < measure n s := by
  cases hpc : s.pc t with
  | fetch =>
    have e : step n c body s t = { s with
      cursor := s.cursor + c
      pc := Function.update s.pc t
        (if n ≤ s.cursor then .stopped else .work s.cursor (min (s.cursor + c) n)) } := by
      simp only [step, hpc]
    rw [e]
    simp only [measure]
    have hw := weight_update s.pc t
      (if n ≤ s.cursor then .stopped else .work s.cursor (min (s.cursor + c) n))
    rw [hpc] at hw
    by_cases hn : n ≤ s.cursor
    · simp only [hn, if_true, weight] at hw ⊢
      omega
    · simp only [hn, if_false, weight] at hw ⊢
      omega
  | work r hi =>
    by_cases hlt : r < hi
    · have e : (step n c body s t).pc = Function.update s.pc t (.work (r + 1) hi) ∧
        (step n c body s t).cursor = s.cursor := by
        simp only [step, hpc, hlt, if_true, and_self]
      simp only [measure, e.1, e.2]
      have hw := weight_update s.pc t (.work (r + 1) hi)
      rw [hpc] at hw
      simp only [weight] at hw ⊢
      omega
    · have e : (step n c body s t).pc = Function.update s.pc t .fetch ∧
        (step n c body s t).cursor = s.cursor := by
        simp only [step, hpc, hlt, if_false, and_self]
      simp only [measure, e.1, e.2]
      have hw := weight_update s.pc t .fetch
      rw [hpc] at hw
      simp only [weight] at hw ⊢
      omega
  | stopped => exact absurd hpc ht

theorem step_stopped {n c : Nat} (body : Nat → L → M → L × M) (s : State T L M) (t : Fin T)
    (ht : s.pc t = .stopped) : step n c body s t = s := by
  simp only [step, ht]

theorem measure_step_le {n c : Nat} (hc : 0 < c) (body : Nat → L → M → L × M) (s : State T L M)
    (t : Fin T) : measure n (step n c body s t) ≤ measure n s := by
  by_cases ht : s.pc t = .stopped
  · rw [step_stopped body s t ht]
  · exact Nat.le_of_lt (measure_step hc body s t ht)

theorem stopped_step {n c : Nat} (body : Nat → L → M → L × M) (s : State T L M) (t t' : Fin T)
    (ht : s.pc t = .stopped) : (step n c body s t').pc t = .stopped := by
  by_cases hx : t = t'
  · subst hx; rw [step_stopped body s t ht]; exact ht
  · unfold step
    split
    · simp [hx, ht]
    · split <;> simp [hx, ht]
    · exact ht

theorem measure_init (n : Nat) (l₀ : L) (m₀ : M) :
    measure n (init l₀ m₀ : State T L M) = 3 * n + T := by
  simp [measure, init, weight]

/-- the number of steps of a schedule that are taken by workers that have not returned -/
def effective (n c : Nat) (body : Nat → L → M → L × M) : State T L M → List (Fin T) → Nat
  | _, [] => 0
  | s, t :: ts =>
    (if s.pc t = .stopped then 0 else 1) + effective n c body (step n c body s t) ts

theorem effective_le {n c : Nat} (hc : 0 < c) (body : Nat → L → M → L × M) (sched : List (Fin T)) :
    ∀ s : State T L M, effective n c body s sched ≤ measure n s := by
  induction sched with
  | nil => intro s; exact Nat.zero_le _
  | cons t ts ih =>
    intro s
    simp only [effective]
    have := ih (step n c body s t)
    split
    · rename_i h; rw [step_stopped body s t h] at this ⊢; omega
    · rename_i h
      have := measure_step hc body s t h (n := n)
      omega

/-- Running the schedule `σ 0, σ 1, …, σ (k-1)`. -/
def runStream (n c : Nat) (body : Nat → L → M → L × M) (s : State T L M) (σ : Nat → Fin T) :
    Nat → State T L M
  | 0 => s
  | k + 1 => step n c body (runStream n c body s σ k) (σ k)

theorem runStream_eq (n c : Nat) (body : Nat → L → M → L × M) (s : State T L M) (σ : Nat → Fin T)
    (k : Nat) : runStream n c body s σ k = run n c body s ((List.range k).map σ) := by
  induction k with
  | zero => rfl
  | succ k ih => simp [runStream, ih, run, List.range_succ]

theorem measure_stream_le {n c : Nat} (hc : 0 < c) (body : Nat → L → M → L × M) (s : State T L M)
    (σ : Nat → Fin T) (k j : Nat) :
    measure n (runStream n c body s σ (k + j)) ≤ measure n (runStream n c body s σ k) := by
  induction j with
  | zero => exact Nat.le_refl _
  | succ j ih =>
    exact Nat.le_trans (measure_step_le hc body _ _) ih

theorem stopped_stream {n c : Nat} (body : Nat → L → M → L × M) (s : State T L M)
    (σ : Nat → Fin T) (t : Fin T) (k j : Nat) (h : (runStream n c body s σ k).pc t = .stopped) :
    (runStream n c body s σ (k + j)).pc t = .stopped := by
  induction j with
  | zero => exact h
  | succ j ih => exact stopped_step body _ _ _ ih

/-- One worker, scheduled infinitely often, eventually returns. -/
theorem worker_stops {n c : Nat} (hc : 0 < c) (body : Nat → L → M → L × M) (s : State T L M)
    (σ : Nat → Fin T) (t : Fin T) (hfair : ∀ k, ∃ j, k ≤ j ∧ σ j = t) :
    ∃ k, (runStream n c body s σ k).pc t = .stopped := by
  by_contra hne
  have hne : ∀ k, (runStream n c body s σ k).pc t ≠ .stopped := fun k h => hne ⟨k, h⟩
  have key : ∀ m, ∃ k, measure n (runStream n c body s σ k) + m ≤ measure n s := by
    intro m
    induction m with
    | zero => exact ⟨0, Nat.le_refl _⟩
    | succ m ih =>
      obtain ⟨k, hk⟩ := ih
      obtain ⟨j, hj, ht⟩ := hfair k
      refine ⟨j + 1, ?_⟩
      have h1 : measure n (runStream n c body s σ (j + 1)) < measure n (runStream n c body s σ j) := by
        show measure n (step n c body (runStream n c body s σ j) (σ j)) < _
        rw [ht]
        exact measure_step hc body _ _ (hne j)
      have h2 := measure_stream_le hc body s σ k (j - k) (n := n)
      rw [show k + (j - k) = j by omega] at h2
      omega
  obtain ⟨k, hk⟩ := key (measure n s + 1)
  omega

end Irspack.WorkQueue
