import Verif.Model.Region
import Verif.Proofs.WorkQueue

namespace Irspack

open WorkQueue

variable {T : Nat} {A L M L' M' : Type}

/-- The control flow of a region does not depend on its body. -/
theorem run_pc (n c : Nat) (body : Nat → L → M → L × M) (body' : Nat → L' → M' → L' × M')
    (sched : List (Fin T)) :
    ∀ (s : State T L M) (s' : State T L' M'), s.pc = s'.pc → s.cursor = s'.cursor →
      (run n c body s sched).pc = (run n c body' s' sched).pc := by
  induction sched with
  | nil => intro s s' h _; exact h
  | cons t ts ih =>
    intro s s' hpc hcur
    have hp : (step n c body s t).pc = (step n c body' s' t).pc ∧
        (step n c body s t).cursor = (step n c body' s' t).cursor := by
      unfold step
      rw [← hpc, ← hcur]
      cases h : s.pc t with
      | fetch => simp
      | work r hi => by_cases hr : r < hi <;> simp [hr, hpc, hcur]
      | stopped => simp [hpc, hcur]
    exact ih _ _ hp.1 hp.2

theorem finished_of_complete {ω : Oracle T} (hω : ω.Complete) (lab : List Nat) (n c : Nat) (hc : 0 < c)
    (body : Nat → L → M → L × M) (l₀ : L) (m₀ : M) :
    Finished (run n c body (init l₀ m₀ : State T L M) (ω lab n c)) := by
  intro t
  have := congrFun (run_pc n c body (fun _ l m => (l, m)) (ω lab n c)
    (init l₀ m₀ : State T L M) (init () () : State T Unit Unit) rfl rfl) t
  rw [this]
  exact hω lab n c hc t

theorem Oracle.Complete.at {ω : Oracle T} (hω : ω.Complete) (k : Nat) : (ω.at k).Complete :=
  fun lab n c hc => hω (k :: lab) n c hc

theorem parSum_eq [AddCommMonoid A] {ω : Oracle T} (hω : ω.Complete) (hT : 0 < T) (n c : Nat)
    (hc : 0 < c) (g : Nat → A) : parSum ω n c g = ∑ r ∈ Finset.range n, g r := by
  unfold parSum
  have hfin := finished_of_complete hω [] n c hc (fun r (l : A) (m : Unit) => (l + g r, m)) 0 ()
  have hl := loc_run (T := T) (M := Unit) (n := n) (c := c) (fun r (l : A) => l + g r) (ω [] n c)
    (init 0 ()) 0 (fun t => by simp [rowsOf, init])
  set s := run n c (fun r (l : A) (m : Unit) => (l + g r, m)) (init 0 ()) (ω [] n c) with hs
  have hfold : ∀ (l : List Nat) (a : A), l.foldl (fun l r => l + g r) a = a + (l.map g).sum := by
    intro l
    induction l with
    | nil => simp
    | cons x xs ih => intro a; simp [ih, add_assoc]
  have hp := rows_perm (inv_run _ (ω [] n c) (inv_init n c (0 : A) ()))
    (fun t => Or.inl (hfin t)) ⟨⟨0, hT⟩, hfin _⟩
  have hloc : ∀ t, s.loc t = (Multiset.map g ((rowsOf s t : List Nat) : Multiset Nat)).sum := by
    intro t
    rw [hl t, hfold]
    simp
  rw [Finset.sum_congr rfl (fun t _ => hloc t)]
  have h1 : ∑ t, (Multiset.map g ((rowsOf s t : List Nat) : Multiset Nat)).sum
      = (Multiset.map g (∑ t, ((rowsOf s t : List Nat) : Multiset Nat))).sum := by
    have := (map_sum (Multiset.sumAddMonoidHom.comp (Multiset.mapAddMonoidHom g))
      (fun t => ((rowsOf s t : List Nat) : Multiset Nat)) Finset.univ)
    exact this.symm
  rw [h1, rowsOf_flatten]
  rw [Multiset.coe_eq_coe.mpr hp]
  rw [Finset.sum_eq_multiset_sum, Finset.range_val, Multiset.coe_range]

/-- invariant of `parRows` -/
structure RowsInv (f : Nat → A → Except Err A) (m₀ : Nat → A)
    (s : State T (Option Err) (Nat → A)) : Prop where
  untouched : ∀ r, r ∉ s.hist.map Prod.snd → s.mem r = m₀ r
  done : ∀ t r, (t, r) ∈ s.hist → s.loc t = none → f r (m₀ r) = .ok (s.mem r)
  thrown : ∀ t e, s.loc t = some e → ∃ r ∈ s.hist.map Prod.snd, f r (m₀ r) = .error e

theorem rowsInv_step (n c : Nat) (f : Nat → A → Except Err A) (m₀ : Nat → A)
    (s : State T (Option Err) (Nat → A)) (t : Fin T) (h : Inv n c s) (hj : RowsInv f m₀ s) :
    RowsInv f m₀ (step n c (rowBody f) s t) := by
  have hnd := (rows_nodup (inv_step (rowBody f) h t)).1
  revert hnd
  unfold step
  cases hpc : s.pc t with
  | fetch => intro _; exact ⟨hj.untouched, hj.done, hj.thrown⟩
  | stopped => intro _; exact hj
  | work r hi =>
    by_cases hr : r < hi
    · simp only [hr, if_true]
      intro hnd
      have hnew : r ∉ s.hist.map Prod.snd := by
        simp only [List.map_append, List.map_cons, List.map_nil] at hnd
        have := List.nodup_append.mp hnd
        intro hmem
        exact this.2.2 r hmem r (by simp) rfl
      have hm0 : s.mem r = m₀ r := hj.untouched r hnew
      cases hl : s.loc t with
      | some e =>
        simp only [rowBody]
        refine ⟨?_, ?_, ?_⟩
        · intro r' hr'
          exact hj.untouched r' (fun hx => hr' (by simp at hx ⊢; tauto))
        · intro t' r' hmem hloc
          simp only [List.mem_append, List.mem_singleton, Prod.mk.injEq] at hmem
          rcases hmem with hmem | ⟨rfl, rfl⟩
          · refine hj.done t' r' hmem ?_
            by_cases ht : t' = t
            · subst ht; simp at hloc
            · simpa [ht] using hloc
          · simp at hloc
        · intro t' e' hloc
          have : s.loc t' = some e' := by
            by_cases ht : t' = t
            · subst ht; simp at hloc; rw [hl, hloc]
            · simpa [ht] using hloc
          obtain ⟨r', h1, h2⟩ := hj.thrown t' e' this
          exact ⟨r', by simp at h1 ⊢; tauto, h2⟩
      | none =>
        simp only [rowBody, hm0]
        cases hf : f r (m₀ r) with
        | ok y =>
          simp only
          refine ⟨?_, ?_, ?_⟩
          · intro r' hr'
            simp only [List.map_append, List.map_cons, List.map_nil, List.mem_append,
              List.mem_singleton, not_or] at hr'
            simp only [Function.update_of_ne hr'.2]
            exact hj.untouched r' hr'.1
          · intro t' r' hmem hloc
            simp only [List.mem_append, List.mem_singleton, Prod.mk.injEq] at hmem
            rcases hmem with hmem | ⟨rfl, rfl⟩
            · have hne : r' ≠ r := by
                rintro rfl
                exact hnew (List.mem_map.mpr ⟨(t', r'), hmem, rfl⟩)
              simp only [Function.update_of_ne hne]
              refine hj.done t' r' hmem ?_
              by_cases ht : t' = t
              · subst ht; exact hl
              · simpa [ht] using hloc
            · simp [hf]
          · intro t' e' hloc
            have : s.loc t' = some e' := by
              by_cases ht : t' = t
              · subst ht; simp at hloc
              · simpa [ht] using hloc
            obtain ⟨r', h1, h2⟩ := hj.thrown t' e' this
            exact ⟨r', by simp at h1 ⊢; tauto, h2⟩
        | error e =>
          simp only
          refine ⟨?_, ?_, ?_⟩
          · intro r' hr'
            exact hj.untouched r' (fun hx => hr' (by simp at hx ⊢; tauto))
          · intro t' r' hmem hloc
            simp only [List.mem_append, List.mem_singleton, Prod.mk.injEq] at hmem
            rcases hmem with hmem | ⟨rfl, rfl⟩
            · refine hj.done t' r' hmem ?_
              by_cases ht : t' = t
              · subst ht; simp at hloc
              · simpa [ht] using hloc
            · simp at hloc
          · intro t' e' hloc
            by_cases ht : t' = t
            · subst ht
              simp at hloc
              subst hloc
              exact ⟨r, by simp, hf⟩
            · have : s.loc t' = some e' := by simpa [ht] using hloc
              obtain ⟨r', h1, h2⟩ := hj.thrown t' e' this
              exact ⟨r', by simp at h1 ⊢; tauto, h2⟩
    · simp only [hr, if_false]
      intro _
      exact ⟨hj.untouched, hj.done, hj.thrown⟩

theorem rowsInv_run (n c : Nat) (f : Nat → A → Except Err A) (m₀ : Nat → A) (sched : List (Fin T)) :
    ∀ (s : State T (Option Err) (Nat → A)), Inv n c s → RowsInv f m₀ s →
      RowsInv f m₀ (run n c (rowBody f) s sched) := by
  induction sched with
  | nil => intro s _ hj; exact hj
  | cons t ts ih =>
    intro s h hj
    exact ih _ (inv_step (rowBody f) h t) (rowsInv_step n c f m₀ s t h hj)

/-- the rows as a plain loop would leave them -/
def rowsResult (n : Nat) (f : Nat → A → Except Err A) (m : Nat → A) (m' : Nat → A) : Prop :=
  (∀ r, r < n → f r (m r) = .ok (m' r)) ∧ ∀ r, n ≤ r → m' r = m r

theorem parRows_cases {ω : Oracle T} (hω : ω.Complete) (hT : 0 < T) (n c : Nat) (hc : 0 < c)
    (f : Nat → A → Except Err A) (m : Nat → A) :
    (∃ m', parRows ω n c f m = .ok m' ∧ rowsResult n f m m') ∨
    (∃ e r, parRows ω n c f m = .error e ∧ r < n ∧ f r (m r) = .error e) := by
  unfold parRows
  have hfin := finished_of_complete hω [] n c hc (rowBody f) none m
  have hinv := inv_run (rowBody f) (ω [] n c) (inv_init n c (none : Option Err) m (T := T))
  have hp := rows_perm hinv (fun t => Or.inl (hfin t)) ⟨⟨0, hT⟩, hfin _⟩
  have hj := rowsInv_run n c f m (ω [] n c) (init none m : State T (Option Err) (Nat → A))
    (inv_init n c _ _) ⟨fun r _ => rfl, fun t r h => by simp [init] at h,
      fun t e h => by simp [init] at h⟩
  set s := run n c (rowBody f) (init none m : State T (Option Err) (Nat → A)) (ω [] n c) with hs
  simp only
  cases hx : (List.ofFn s.loc).findSome? id with
  | some e =>
    right
    obtain ⟨l, hl, hle⟩ := List.exists_of_findSome?_eq_some hx
    obtain ⟨t, rfl⟩ := (List.mem_ofFn' s.loc l).mp hl
    obtain ⟨r, hr, hfr⟩ := hj.thrown t e (by simpa using hle)
    refine ⟨e, r, rfl, ?_, hfr⟩
    have := hp.mem_iff.mp hr
    simpa using this
  | none =>
    left
    have hnone : ∀ t, s.loc t = none := by
      intro t
      have := List.findSome?_eq_none_iff.mp hx (s.loc t) ((List.mem_ofFn' s.loc _).mpr ⟨t, rfl⟩)
      simpa using this
    refine ⟨s.mem, rfl, ?_, ?_⟩
    · intro r hr
      have : r ∈ s.hist.map Prod.snd := hp.mem_iff.mpr (by simpa using hr)
      obtain ⟨⟨t, r'⟩, hmem, rfl⟩ := List.mem_map.mp this
      exact hj.done t r' hmem (hnone t)
    · intro r hr
      apply hj.untouched
      intro hmem
      have := hp.mem_iff.mp hmem
      simp at this
      omega

theorem parRows_ok {ω : Oracle T} (hω : ω.Complete) (hT : 0 < T) {n c : Nat} (hc : 0 < c)
    {f : Nat → A → Except Err A} {m m' : Nat → A} (h : parRows ω n c f m = .ok m') :
    rowsResult n f m m' := by
  rcases parRows_cases hω hT n c hc f m with ⟨m'', h1, h2⟩ | ⟨e, r, h1, _⟩
  · rw [h] at h1; cases h1; exact h2
  · rw [h] at h1; cases h1

theorem parRows_error {ω : Oracle T} (hω : ω.Complete) (hT : 0 < T) {n c : Nat} (hc : 0 < c)
    {f : Nat → A → Except Err A} {m : Nat → A} {e : Err} (h : parRows ω n c f m = .error e) :
    ∃ r, r < n ∧ f r (m r) = .error e := by
  rcases parRows_cases hω hT n c hc f m with ⟨m'', h1, h2⟩ | ⟨e', r, h1, h2, h3⟩
  · rw [h] at h1; cases h1
  · rw [h] at h1; cases h1; exact ⟨r, h2, h3⟩

/-- A row that throws makes the region throw. -/
theorem parRows_throws {ω : Oracle T} (hω : ω.Complete) (hT : 0 < T) {n c : Nat} (hc : 0 < c)
    {f : Nat → A → Except Err A} {m : Nat → A} {r : Nat} (hr : r < n) {e : Err}
    (h : f r (m r) = .error e) : ∃ e', parRows ω n c f m = .error e' := by
  rcases parRows_cases hω hT n c hc f m with ⟨m'', h1, h2⟩ | ⟨e', r, h1, h2, h3⟩
  · have := h2.1 r hr
    rw [h] at this; cases this
  · exact ⟨e', h1⟩

/-- A region none of whose rows throws leaves every row as the plain loop would. -/
theorem parRows_total {ω : Oracle T} (hω : ω.Complete) (hT : 0 < T) {n c : Nat} (hc : 0 < c)
    {f : Nat → A → Except Err A} {m : Nat → A} (g : Nat → A) (h : ∀ r, r < n → f r (m r) = .ok (g r)) :
    parRows ω n c f m = .ok (fun r => if r < n then g r else m r) := by
  rcases parRows_cases hω hT n c hc f m with ⟨m'', h1, h2⟩ | ⟨e', r, h1, h2, h3⟩
  · rw [h1]
    congr 1
    funext r
    by_cases hr : r < n
    · have := h2.1 r hr
      rw [h r hr] at this
      simp only [Except.ok.injEq] at this
      simp [hr, this]
    · simp [hr, h2.2 r (by omega)]
  · rw [h r h2] at h3; cases h3

end Irspack
