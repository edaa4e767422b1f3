import Verif.Spec.WorkerFaults
import Verif.Proofs.WorkerFaults

/-!
# C108: a failure inside a parallel computation is reported
-/

namespace Irspack.WorkerFaults

open Irspack.Spec.WorkerFaults

variable {T : Nat} {ε L M R : Type}

theorem launch_reporting {ρ : Routine} (h : ρ ∈ reporting) : launchOf ρ = .collected := by
  cases ρ <;> first | rfl | (exfalso; revert h; decide)

theorem launch_plain {ρ : Routine} (h : ρ ∈ plainThreads) : launchOf ρ = .threads := by
  cases ρ <;> first | rfl | (exfalso; revert h; decide)

theorem launch_whole {ρ : Routine} (h : ρ ∈ reporting ++ plainThreads) : launchOf ρ ≠ .dropped := by
  rcases List.mem_append.mp h with h | h
  · rw [launch_reporting h]; simp
  · rw [launch_plain h]; simp

/-- the end of the region as the model runs it -/
theorem finv_final (ρ : Routine) (n c : Nat) (body : Nat → L → M → L × M) (l₀ : L) (m₀ : M) (tr : Trouble T ε L M)
    (sched : List (Fin T)) :
    FInv n c tr (launchOf ρ) (run n c body tr (init (launchOf ρ) tr l₀ m₀) sched) :=
  finv_run body sched (finv_init n c tr (launchOf ρ) l₀ m₀)

theorem same_init {k : Launch} {tr : Trouble T ε L M} (l₀ : L) (m₀ : M) (h : ∀ t, tr.starts t = true)
    (hp : ∀ t, tr.prologue t = none) : Same (init k tr l₀ m₀) (WorkQueue.init l₀ m₀) := by
  refine ⟨rfl, rfl, rfl, rfl, ?_, ?_⟩
  · intro t; simp [init, WorkQueue.init, present_of_starts k h t, hp, plain]
  · intro t; simp [init, present_of_starts k h t, hp]

/-- A routine that collects its workers, or joins its threads, returns a value only if every worker was started, none
failed, and the value is the one that the region without any trouble would have given under the same schedule. -/
theorem C108_value_is_whole (ρ : Routine) (hw : ρ ∈ reporting ++ plainThreads) (n c : Nat) (body : Nat → L → M → L × M) (l₀ : L)
    (m₀ : M) (tr : Trouble T ε L M) (sched : List (Fin T)) (result : (Fin T → L) → M → R)
    (hfin : Finished (run n c body tr (init (launchOf ρ) tr l₀ m₀) sched)) (v : R)
    (h : region ρ n c body l₀ m₀ tr sched result = .value v) :
    (∀ t, tr.starts t = true) ∧ (∀ t, tr.prologue t = none) ∧
    WorkQueue.Finished (WorkQueue.run n c body (WorkQueue.init l₀ m₀) sched) ∧
    v = result (WorkQueue.run n c body (WorkQueue.init l₀ m₀) sched).loc
      (WorkQueue.run n c body (WorkQueue.init l₀ m₀) sched).mem ∧
    ∀ t r, (t, r) ∈ (WorkQueue.run n c body (WorkQueue.init l₀ m₀) sched).hist → tr.row t r = none := by
  have hρ := launch_whole hw
  have hf := finv_final ρ n c body l₀ m₀ tr sched
  set s := run n c body tr (init (launchOf ρ) tr l₀ m₀) sched with hs
  have hkey : (∀ t, tr.starts t = true) ∧ firstThrown s = none ∧ v = result s.loc s.mem := by
    simp only [region, ← hs] at h
    cases hk : launchOf ρ with
    | dropped => exact absurd hk hρ
    | collected =>
      rw [hk] at h
      simp only [collect] at h
      by_cases ha : (List.finRange T).all tr.starts = true
      · rw [if_pos ha] at h
        cases hx : firstThrown s with
        | some e => rw [hx] at h; simp at h
        | none => rw [hx] at h; simp at h; exact ⟨all_starts.mp ha, rfl, h.symm⟩
      · rw [if_neg ha] at h; simp at h
    | threads =>
      rw [hk] at h
      simp only [collect] at h
      by_cases ha : (List.finRange T).all tr.starts = true
      · rw [if_pos ha] at h
        cases hx : firstThrown s with
        | some e => rw [hx] at h; simp at h
        | none => rw [hx] at h; simp at h; exact ⟨all_starts.mp ha, rfl, h.symm⟩
      · rw [if_neg ha] at h
        split at h <;> simp at h
  obtain ⟨hst, hno, hv⟩ := hkey
  rw [firstThrown_none] at hno
  have hpro : ∀ t, tr.prologue t = none := by
    intro t
    by_contra hne
    obtain ⟨h1, h2⟩ := hf.pro t hne
    have h3 := hno t
    have h4 := hf.begun t
    cases hp : s.pc t with
    | fetch => rw [hp] at h1; simp [PC.ended] at h1
    | work r hi => rw [hp] at h1; simp [PC.ended] at h1
    | stopped => exact h2 hp
    | threw r hi e => rw [hp] at h3; simp [PC.thrown] at h3
    | absent => have := h4.mp hp; rw [present_of_starts _ hst] at this; simp at this
  have hsame := same_run body tr sched (same_init (k := launchOf ρ) l₀ m₀ hst hpro) (by rw [← hs]; exact hno)
  rw [← hs] at hsame
  refine ⟨hst, hpro, ?_, ?_, ?_⟩
  · intro t
    rw [hsame.pc]
    have h1 := hfin t
    have h3 := hno t
    cases hp : s.pc t with
    | fetch => rw [hp] at h1; simp [PC.ended] at h1
    | work r hi => rw [hp] at h1; simp [PC.ended] at h1
    | stopped => rfl
    | threw r hi e => rw [hp] at h3; simp [PC.thrown] at h3
    | absent => exact absurd hp (hsame.here t)
  · rw [hsame.loc, hsame.mem]; exact hv
  · intro t r h
    rw [hsame.hist] at h
    exact hf.good t r h

theorem not_value_of_fails (ρ : Routine) (hρ : ρ ∈ reporting ++ plainThreads) (n c : Nat) (hT : 0 < T) (body : Nat → L → M → L × M)
    (l₀ : L) (m₀ : M) (tr : Trouble T ε L M) (sched : List (Fin T)) (result : (Fin T → L) → M → R)
    (hfin : Finished (run n c body tr (init (launchOf ρ) tr l₀ m₀) sched)) (hfail : Fails n tr) (v : R) :
    region ρ n c body l₀ m₀ tr sched result ≠ .value v := by
  intro h
  obtain ⟨h1, h2, h3, _, h5⟩ := C108_value_is_whole ρ hρ n c body l₀ m₀ tr sched result hfin v h
  rcases hfail with ⟨t, ht⟩ | ⟨t, ht⟩ | ⟨r, hr, hall⟩
  · rw [h1 t] at ht; cases ht
  · exact ht (h2 t)
  · have hp := WorkQueue.rows_perm
      (WorkQueue.inv_run body sched (WorkQueue.inv_init n c l₀ m₀ (T := T)))
      (fun t => Or.inl (h3 t)) ⟨⟨0, hT⟩, h3 _⟩
    have : r ∈ (WorkQueue.run n c body (WorkQueue.init l₀ m₀) sched).hist.map Prod.snd :=
      hp.mem_iff.mpr (by simpa using hr)
    obtain ⟨⟨t, r'⟩, hmem, rfl⟩ := List.mem_map.mp this
    exact hall t (h5 t r' hmem)

theorem genuine_thrown (ρ : Routine) (n c : Nat) (body : Nat → L → M → L × M) (l₀ : L) (m₀ : M) (tr : Trouble T ε L M)
    (sched : List (Fin T)) {t : Fin T} {e : ε}
    (h : ((run n c body tr (init (launchOf ρ) tr l₀ m₀) sched).pc t).thrown = some e) : Genuine n tr e := by
  have hf := finv_final ρ n c body l₀ m₀ tr sched
  cases hp : (run n c body tr (init (launchOf ρ) tr l₀ m₀) sched).pc t with
  | threw r hi e' =>
    rw [hp] at h; simp only [PC.thrown, Option.some.injEq] at h; subst h
    rcases hf.src t r hi e' hp with ⟨_, h'⟩ | ⟨hlt, h'⟩
    · exact .inr (.inl ⟨t, h'⟩)
    · obtain ⟨a, hs, hi'⟩ := hf.sim
      have := hi'.hi t r hi (by rw [hs.pc, hp]; simp [plain, hlt])
      exact .inr (.inr ⟨t, r, by omega, h'⟩)
  | fetch => rw [hp] at h; simp [PC.thrown] at h
  | work r hi => rw [hp] at h; simp [PC.thrown] at h
  | stopped => rw [hp] at h; simp [PC.thrown] at h
  | absent => rw [hp] at h; simp [PC.thrown] at h

theorem refused_of_not_all {tr : Trouble T ε L M} (ha : ¬ (List.finRange T).all tr.starts = true) :
    ∃ t, tr.starts t = false := by
  by_contra hno
  apply ha
  rw [all_starts]
  intro t
  cases hx : tr.starts t with
  | true => rfl
  | false => exact absurd ⟨t, hx⟩ hno

/-- In the routines that collect their workers — SLIM, both kinds of metrics, the Gram matrix, the conjugate-gradient and
Cholesky steps with and without features, the feature weights and the loss — a failure raises an exception, under every
schedule, and it is the exception of one of the failures. -/
theorem C108_failure_raised (ρ : Routine) (hw : ρ ∈ reporting) (n c : Nat) (hT : 0 < T)
    (body : Nat → L → M → L × M) (l₀ : L) (m₀ : M) (tr : Trouble T ε L M) (sched : List (Fin T))
    (result : (Fin T → L) → M → R) (hfin : Finished (run n c body tr (init (launchOf ρ) tr l₀ m₀) sched))
    (hfail : Fails n tr) : ∃ e, region ρ n c body l₀ m₀ tr sched result = .raised e ∧ Genuine n tr e := by
  have hρ := launch_reporting hw
  have hnv := not_value_of_fails ρ (List.mem_append_left _ hw) n c hT body l₀ m₀ tr sched result hfin hfail
  unfold region collect at hnv ⊢
  rw [hρ] at hnv ⊢
  by_cases ha : (List.finRange T).all tr.starts = true
  · simp only [ha, if_true] at hnv ⊢
    cases hx : firstThrown (run n c body tr (init .collected tr l₀ m₀) sched) with
    | none => rw [hx] at hnv; exact absurd rfl (hnv _)
    | some e =>
      obtain ⟨t, ht⟩ := firstThrown_some hx
      exact ⟨e, rfl, genuine_thrown ρ n c body l₀ m₀ tr sched (by rw [hρ]; exact ht)⟩
  · simp only [ha]
    exact ⟨tr.refusal, rfl, .inl ⟨rfl, refused_of_not_all ha⟩⟩

/-- No routine raises an exception, or ends the process, without a failure. -/
theorem C108_no_false_alarm (ρ : Routine) (n c : Nat) (body : Nat → L → M → L × M) (l₀ : L) (m₀ : M) (tr : Trouble T ε L M)
    (sched : List (Fin T)) (result : (Fin T → L) → M → R) :
    (∀ e, region ρ n c body l₀ m₀ tr sched result = .raised e → Genuine n tr e) ∧
    (region ρ n c body l₀ m₀ tr sched result = .terminated → ¬ Sound tr) ∧
    (Sound tr → region ρ n c body l₀ m₀ tr sched result =
      .value (result (WorkQueue.run n c body (WorkQueue.init l₀ m₀) sched).loc
        (WorkQueue.run n c body (WorkQueue.init l₀ m₀) sched).mem)) := by
  have hsound : Sound tr → region ρ n c body l₀ m₀ tr sched result =
      .value (result (WorkQueue.run n c body (WorkQueue.init l₀ m₀) sched).loc
        (WorkQueue.run n c body (WorkQueue.init l₀ m₀) sched).mem) := by
    rintro ⟨h1, h2, h3⟩
    have hno : ∀ t, ((run n c body tr (init (launchOf ρ) tr l₀ m₀) sched).pc t).thrown = none := by
      intro t
      cases hx : ((run n c body tr (init (launchOf ρ) tr l₀ m₀) sched).pc t).thrown with
      | none => rfl
      | some e =>
        rcases genuine_thrown ρ n c body l₀ m₀ tr sched hx with ⟨_, t', h'⟩ | ⟨t', h'⟩ | ⟨t', r', _, h'⟩
        · rw [h1] at h'; cases h'
        · rw [h2] at h'; cases h'
        · rw [h3] at h'; cases h'
    have hsame := same_run body tr sched (same_init (k := launchOf ρ) l₀ m₀ h1 h2) hno
    unfold region collect
    rw [hsame.loc, hsame.mem]
    have ha := all_starts.mpr h1
    cases hk : launchOf ρ with
    | dropped => rfl
    | collected =>
      rw [hk] at hno
      simp only [ha, if_true, firstThrown_none.mpr hno]
    | threads =>
      rw [hk] at hno
      simp only [ha, if_true, firstThrown_none.mpr hno]
  refine ⟨?_, ?_, hsound⟩
  · intro e h
    unfold region collect at h
    cases hk : launchOf ρ with
    | dropped => rw [hk] at h; simp at h
    | collected =>
      rw [hk] at h
      by_cases ha : (List.finRange T).all tr.starts = true
      · simp only [ha, if_true] at h
        cases hx : firstThrown (run n c body tr (init .collected tr l₀ m₀) sched) with
        | none => rw [hx] at h; simp at h
        | some e' =>
          rw [hx] at h; simp at h; subst h
          obtain ⟨t, ht⟩ := firstThrown_some hx
          exact genuine_thrown ρ n c body l₀ m₀ tr sched (by rw [hk]; exact ht)
      · simp only [ha] at h
        simp at h; subst h
        exact .inl ⟨rfl, refused_of_not_all ha⟩
    | threads =>
      rw [hk] at h
      by_cases ha : (List.finRange T).all tr.starts = true
      · simp only [ha, if_true] at h
        cases hx : firstThrown (run n c body tr (init .threads tr l₀ m₀) sched) with
        | none => rw [hx] at h; simp at h
        | some e' => rw [hx] at h; simp at h
      · simp only [ha] at h
        simp only [Bool.false_eq_true, if_false] at h
        split at h
        · simp at h
        · simp at h; subst h
          exact .inl ⟨rfl, refused_of_not_all ha⟩
  · intro h hs
    rw [hsound hs] at h
    cases h

/-- In the routines on plain threads — sparse products, the subspace and single-coordinate steps with their predictions,
and the scores of users — a failure is never returned as a value.  Missing: it does not raise, either.  A refused first
thread raises; every other failure ends the process (`C108_threads_terminate`). -/
theorem C108_threads_partial (ρ : Routine) (hw : ρ ∈ plainThreads) (n c : Nat) (hT : 0 < T)
    (body : Nat → L → M → L × M) (l₀ : L) (m₀ : M) (tr : Trouble T ε L M) (sched : List (Fin T))
    (result : (Fin T → L) → M → R) (hfin : Finished (run n c body tr (init (launchOf ρ) tr l₀ m₀) sched))
    (hfail : Fails n tr) :
    region ρ n c body l₀ m₀ tr sched result = .terminated ∨
    (region ρ n c body l₀ m₀ tr sched result = .raised tr.refusal ∧ tr.starts ⟨0, hT⟩ = false) := by
  have hρ := launch_plain hw
  have hnv := not_value_of_fails ρ (List.mem_append_right _ hw) n c hT body l₀ m₀ tr sched result hfin hfail
  unfold region collect at hnv ⊢
  rw [hρ] at hnv ⊢
  by_cases ha : (List.finRange T).all tr.starts = true
  · left
    simp only [ha, if_true] at hnv ⊢
    cases hx : firstThrown (run n c body tr (init .threads tr l₀ m₀) sched) with
    | none => rw [hx] at hnv; exact absurd rfl (hnv _)
    | some e => rfl
  · simp only [ha]
    by_cases hb : (List.finRange T).any (present .threads tr) = true
    · left; simp [hb]
    · right
      refine ⟨by simp [hb], ?_⟩
      cases h0 : tr.starts ⟨0, hT⟩ with
      | false => rfl
      | true =>
        exfalso
        apply hb
        rw [List.any_eq_true]
        refine ⟨⟨0, hT⟩, List.mem_finRange _, ?_⟩
        simp only [present, List.all_eq_true, List.mem_finRange, forall_const, Bool.or_eq_true, decide_eq_true_eq]
        intro x
        by_cases hx : x = ⟨0, hT⟩
        · right; rw [hx]; exact h0
        · left
          rw [Fin.lt_def]
          have : x.val ≠ 0 := fun h => hx (Fin.ext h)
          show 0 < x.val
          omega

/-- A row that fails, or a worker that fails before its first row, ends the process in these routines. -/
theorem C108_threads_terminate (ρ : Routine) (hρ : ρ ∈ plainThreads) (n c : Nat) (hT : 0 < T)
    (body : Nat → L → M → L × M) (l₀ : L) (m₀ : M) (tr : Trouble T ε L M) (sched : List (Fin T))
    (result : (Fin T → L) → M → R) (hfin : Finished (run n c body tr (init (launchOf ρ) tr l₀ m₀) sched))
    (hstart : tr.starts ⟨0, hT⟩ = true) (hfail : Fails n tr) :
    region ρ n c body l₀ m₀ tr sched result = .terminated := by
  rcases C108_threads_partial ρ hρ n c hT body l₀ m₀ tr sched result hfin hfail with h | ⟨_, h⟩
  · exact h
  · rw [hstart] at h; cases h

/-! ## What is left in memory -/

/-- After a region whose rows write only themselves has ended, with or without an exception: every row that is not behind a
failing row of its own block is complete, as long as the failing rows, the refused workers and the workers that fail before
their first row are fewer than the workers.  (`p` is what a failing row leaves of itself.) -/
theorem C108_other_rows {A : Type} (ρ : Routine) (n c : Nat) (g p : Nat → A → A) (m₀ : Nat → A)
    (tr : Trouble T ε Unit (Nat → A)) (hp : ∀ r l m, tr.partly r l m = (l, Function.update m r (p r (m r))))
    (sched : List (Fin T))
    (hfin : Finished (run n c (fun r l m => (l, Function.update m r (g r (m r)))) tr (init (launchOf ρ) tr () m₀) sched))
    (F : Finset Nat) (hF : ∀ t r, tr.row t r ≠ none → r ∈ F)
    (hfew : (Finset.univ.filter (fun t => present (launchOf ρ) tr t = false ∨ tr.prologue t ≠ none)).card + F.card < T)
    (r : Nat) (hr : r < n) (hclear : ∀ r' ∈ F, ¬ (r' ≤ r ∧ r < r' + c)) :
    (run n c (fun r l m => (l, Function.update m r (g r (m r)))) tr (init (launchOf ρ) tr () m₀) sched).mem r
      = g r (m₀ r) := by
  have hf := finv_final ρ n c (fun r l m => (l, Function.update m r (g r (m r)))) () m₀ tr sched
  have hm := rowMem_run (n := n) (c := c) g p (fun _ (l : Unit) => l) (k := launchOf ρ)
    (fun r l m => by rw [hp]) sched (finv_init n c tr (launchOf ρ) () m₀) (rowMem_init g p (launchOf ρ) tr () m₀)
  obtain ⟨t₀, h0⟩ := survivor hf hfin F hF hfew
  obtain ⟨a, hs, hi⟩ := hf.sim
  apply hm.done
  rcases covered hs hi h0 hr with h | ⟨t, ht⟩
  · exact h
  · exfalso
    obtain ⟨lo, hi', hpc, h1, h2⟩ := mem_pending.mp ht
    rcases hpc with hpc | ⟨e, hpc⟩
    · have := hfin t
      rw [hpc] at this; simp [PC.ended] at this
    · rcases hf.src t lo hi' e hpc with ⟨h3, _⟩ | ⟨h3, h4⟩
      · omega
      · have hb := hf.block t lo hi' (.inr ⟨e, hpc⟩)
        exact hclear lo (hF t lo (by rw [h4]; simp)) ⟨h1, by omega⟩

/-- In every case a row is complete, untouched, or what a failure at this very row leaves. -/
theorem C108_each_row {A : Type} (ρ : Routine) (n c : Nat) (g p : Nat → A → A) (m₀ : Nat → A)
    (tr : Trouble T ε Unit (Nat → A)) (hp : ∀ r l m, tr.partly r l m = (l, Function.update m r (p r (m r))))
    (sched : List (Fin T)) (r : Nat) :
    let X := (run n c (fun r l m => (l, Function.update m r (g r (m r)))) tr (init (launchOf ρ) tr () m₀) sched).mem r
    X = m₀ r ∨ (r < n ∧ X = g r (m₀ r)) ∨ (r < n ∧ (∃ t, tr.row t r ≠ none) ∧ X = p r (m₀ r)) := by
  intro X
  have hf := finv_final ρ n c (fun r l m => (l, Function.update m r (g r (m r)))) () m₀ tr sched
  have hm := rowMem_run (n := n) (c := c) g p (fun _ (l : Unit) => l) (k := launchOf ρ)
    (fun r l m => by rw [hp]) sched (finv_init n c tr (launchOf ρ) () m₀) (rowMem_init g p (launchOf ρ) tr () m₀)
  obtain ⟨a, hs, hi⟩ := hf.sim
  by_cases h1 : r ∈ (run n c (fun r l m => (l, Function.update m r (g r (m r)))) tr
      (init (launchOf ρ) tr () m₀) sched).hist.map Prod.snd
  · right; left
    have hlt := (WorkQueue.rows_nodup hi).2 r (by rw [hs.hist]; exact h1)
    exact ⟨hlt, hm.done r h1⟩
  · by_cases h2 : ∀ t hi e, (run n c (fun r l m => (l, Function.update m r (g r (m r)))) tr
      (init (launchOf ρ) tr () m₀) sched).pc t = .threw r hi e → hi ≤ r
    · left; exact hm.other r h1 h2
    · right; right
      push Not at h2
      obtain ⟨t, hi', e, hpc, hlt⟩ := h2
      have hn := hi.hi t r hi' (by rw [hs.pc, hpc]; simp [plain, hlt])
      rcases hf.src t r hi' e hpc with ⟨h3, _⟩ | ⟨_, h4⟩
      · omega
      · exact ⟨by omega, ⟨t, by rw [h4]; simp⟩, hm.broken t r hi' e hpc hlt⟩

/-! ## The routines that drop their workers -/

section retrieve
variable {S F : Type}

/-- `get_recommendation_for_known_user_batch` and the other bulk recommendations: a user whose own row does not fail gets
the right list, as long as the failing rows, the workers that could not be started and those that fail before their first
row are fewer than the workers.  Missing: a user whose row fails, and everybody when all workers fail
(`C108_retrieve_counterexample`). -/
theorem C108_retrieve_partial [LinearOrder F] [OrderBot F] (psort : Nat → List (Nat × F) → List (Nat × F)) (cast : S → F)
    (dflt : S) (nItems : Nat) (score : List (List S)) (allowed : List (List Int)) (cutoff nThreads : Nat)
    (tr : Trouble (min nThreads score.length) ε Unit (Nat → List (Nat × F)))
    (p : Nat → List (Nat × F) → List (Nat × F))
    (hp : ∀ r l m, tr.partly r l m = (l, Function.update m r (p r (m r))))
    (sched : List (Fin (min nThreads score.length)))
    (hfin : Finished (run score.length 1
      (fun u l X => (l, Function.update X u (Retrieval.retrieveRow psort cast dflt nItems score allowed cutoff u))) tr
      (init .dropped tr () (fun _ => [])) sched))
    (G : Finset Nat) (hG : ∀ t r, tr.row t r ≠ none → r ∈ G)
    (hfew : (Finset.univ.filter (fun t => tr.starts t = false ∨ tr.prologue t ≠ none)).card + G.card
      < min nThreads score.length)
    (good : List (List (Nat × F)))
    (hgood : Retrieval.retrieve psort cast dflt nItems score allowed cutoff nThreads = .ok good) :
    ∃ lists, retrieveFaulty psort cast dflt nItems score allowed cutoff nThreads tr sched = .value lists ∧
      lists.length = good.length ∧ ∀ u, u ∉ G → lists[u]? = good[u]? := by
  refine ⟨_, rfl, ?_, ?_⟩
  · unfold Retrieval.retrieve at hgood
    cases hc : Retrieval.checkRetrieve score.length allowed.length nThreads with
    | error e => rw [hc] at hgood; cases hgood
    | ok _ =>
      rw [hc] at hgood
      simp only [Except.ok.injEq] at hgood
      rw [← hgood]; simp
  · intro u hu
    unfold Retrieval.retrieve at hgood
    cases hc : Retrieval.checkRetrieve score.length allowed.length nThreads with
    | error e => rw [hc] at hgood; cases hgood
    | ok _ =>
      rw [hc] at hgood
      simp only [Except.ok.injEq] at hgood
      rw [← hgood]
      by_cases hlt : u < score.length
      · have := C108_other_rows .retrieve score.length 1
          (fun u _ => Retrieval.retrieveRow psort cast dflt nItems score allowed cutoff u) p (fun _ => []) tr hp sched
          hfin G hG hfew u hlt (by
            intro r' hr' ⟨h1, h2⟩
            have : r' = u := by omega
            exact hu (this ▸ hr'))
        simp only [List.getElem?_map]
        rw [List.getElem?_range hlt]
        simp only [Option.map_some]
        exact congrArg some this
      · simp [hlt]

/-- It reports nothing: whatever fails, a list of lists is returned.  With one user, one thread and a failing row the
recommendations are empty although there is an item to recommend. -/
theorem C108_retrieve_counterexample :
    (∀ (ε S F : Type) [LinearOrder F] [OrderBot F] (psort : Nat → List (Nat × F) → List (Nat × F)) (cast : S → F) (dflt : S)
      (nItems : Nat) (score : List (List S)) (allowed : List (List Int)) (cutoff nThreads : Nat)
      (tr : Trouble (min nThreads score.length) ε Unit (Nat → List (Nat × F)))
      (sched : List (Fin (min nThreads score.length))),
      ∃ lists, retrieveFaulty psort cast dflt nItems score allowed cutoff nThreads tr sched = .value lists) ∧
    ∃ (tr : Trouble 1 Err Unit (Nat → List (Nat × Nat))) (sched : List (Fin 1)),
      Fails 1 tr ∧
      Finished (run 1 1 (fun u l X => (l, Function.update X u
        (Retrieval.retrieveRow (fun _ l => l) (fun x : Nat => x) 0 1 [[5]] [] 1 u))) tr (init .dropped tr () (fun _ => [])) sched) ∧
      Retrieval.retrieve (fun _ l => l) (fun x : Nat => x) 0 1 [[5]] [] 1 1 = .ok [[(0, 5)]] ∧
      retrieveFaulty (fun _ l => l) (fun x : Nat => x) 0 1 [[5]] [] 1 1 tr sched = .value [[]] := by
  refine ⟨fun _ _ _ _ _ _ _ _ _ _ _ _ _ _ _ => ⟨_, rfl⟩, ?_⟩
  refine ⟨⟨fun _ => true, .osError, fun _ => none, fun _ _ => some .runtimeError, fun _ l m => (l, m)⟩, [0, 0], ?_, ?_, ?_, ?_⟩
  · exact .inr (.inr ⟨0, by omega, by simp⟩)
  · intro t
    rw [Subsingleton.elim t 0]
    rfl
  · rfl
  · rfl

end retrieve

/-- The sets of relevant items of an evaluator: the set of a user is right if the row of the user does not fail, as long as
the failures are fewer than the workers.  Missing: the other users (`C108_ground_truth_counterexample`). -/
theorem C108_ground_truth_partial (o : Evaluation.CoreObj) (hnew : o.cache = none) (nThreads : Nat)
    (tr : Trouble nThreads ε Unit (Nat → Finset Nat)) (p : Nat → Finset Nat → Finset Nat)
    (hp : ∀ r l m, tr.partly r l m = (l, Function.update m r (p r (m r)))) (sched : List (Fin nThreads))
    (hfin : Finished (run o.core.nUsers 1 (fun u l X => (l, Function.update X u (o.core.gtSet u))) tr
      (init .dropped tr () (fun _ => ∅)) sched))
    (G : Finset Nat) (hG : ∀ t r, tr.row t r ≠ none → r ∈ G)
    (hfew : (Finset.univ.filter (fun t => tr.starts t = false ∨ tr.prologue t ≠ none)).card + G.card < nThreads) :
    ∃ o' X, cacheFaulty o nThreads tr sched = .value o' ∧ o'.core = o.core ∧ o'.cache = some X ∧
      ∀ u, u < o.core.nUsers → u ∉ G → X u = o.core.gtSet u := by
  unfold cacheFaulty
  rw [hnew]
  refine ⟨_, _, rfl, rfl, rfl, ?_⟩
  intro u hu hG'
  exact C108_other_rows .cacheGroundTruth o.core.nUsers 1 (fun u _ => o.core.gtSet u) p (fun _ => ∅) tr hp sched hfin G hG
    hfew u hu (by
      intro r' hr' ⟨h1, h2⟩
      have : r' = u := by omega
      exact hG' (this ▸ hr'))

theorem loc_stays {T : Nat} {L M : Type} {n c : Nat} (body : Nat → L → M → L × M) (P : L → Prop)
    (hP : ∀ r l m, P l → P (body r l m).1) (sched : List (Fin T)) :
    ∀ (s : WorkQueue.State T L M), (∀ t, P (s.loc t)) → ∀ t, P ((WorkQueue.run n c body s sched).loc t) := by
  induction sched with
  | nil => intro s h; exact h
  | cons u us ih =>
    intro s h
    apply ih
    intro t
    unfold WorkQueue.step
    split
    · exact h t
    · split
      · by_cases hx : t = u
        · subst hx; simpa using hP _ _ _ (h t)
        · simpa [hx] using h t
      · exact h t
    · exact h t

/-- One failure for good: an evaluator with one user, whose one relevant item is item 0, and a worker that fails before its
first row.  No exception is raised, and from then on every evaluation that this evaluator does, of any scores, counts no
user as having relevant items and no hit. -/
theorem C108_ground_truth_counterexample :
    ∃ (o o' : Evaluation.CoreObj) (tr : Trouble 1 Err Unit (Nat → Finset Nat)),
      Fails 1 tr ∧ o.core.nUsers = 1 ∧ o.core.gtSet 0 = {0} ∧ cacheFaulty o 1 tr [] = .value o' ∧
      ∀ (S : Type) [LinearOrder S] [OrderBot S] (rows : List (Evaluation.ScoreRow S)) (cutoff offset nThreads : Nat)
        (recallWithCutoff : Bool) (fill sched : List (Fin nThreads)) (s : WorkQueue.State nThreads Evaluation.Metrics Unit),
        (o'.getMetrics rows cutoff offset nThreads recallWithCutoff fill sched).2 = .ok s →
        (o'.getMetrics rows cutoff offset nThreads recallWithCutoff fill sched).1 = o' ∧
        ∀ t, (s.loc t).validUser = 0 ∧ (s.loc t).hit = 0 := by
  refine ⟨⟨⟨1, [[0]], []⟩, none⟩, ⟨⟨1, [[0]], []⟩, some (fun _ => ∅)⟩,
    ⟨fun _ => true, .osError, fun _ => some .runtimeError, fun _ _ => none, fun _ l m => (l, m)⟩, ?_, rfl, ?_, ?_, ?_⟩
  · exact .inr (.inl ⟨0, by simp⟩)
  · simp [Evaluation.Core.gtSet, Evaluation.Core.recommendableFor]
  · rfl
  · intro S _ _ rows cutoff offset nThreads rwc fill sched s h
    unfold Evaluation.CoreObj.getMetrics Evaluation.CoreObj.cacheXMap at h ⊢
    by_cases hn : nThreads > 0
    · simp only [hn, not_true_eq_false, if_false] at h ⊢
      refine ⟨trivial, ?_⟩
      split at h
      · cases h
      · simp only [Except.ok.injEq] at h
        subst h
        apply loc_stays (P := fun m : Evaluation.Metrics => m.validUser = 0 ∧ m.hit = 0)
        · intro r l m hl
          simpa [Evaluation.Core.evalRowCached, Evaluation.Metrics.incrementTotalUser] using hl
        · intro t
          simp [WorkQueue.init, Evaluation.Metrics.empty]
    · simp only [hn, not_false_eq_true, if_true] at h
      cases h

/-! ## The model of the other claims -/

/-- The regions with rows that may throw are simplified elsewhere in this model (`parRows`: a worker that has thrown goes on
taking blocks and leaves them alone).  The simplification changes neither the values nor whether there is an exception. -/
theorem C108_simplification {A : Type} (ρ : Routine) (hw : ρ ∈ reporting) {ω : Oracle T} (hω : ω.Complete)
    (hT : 0 < T) (n c : Nat) (hc : 0 < c) (f : Nat → A → Except Err A) (m₀ : Nat → A) (refusal : Err)
    (sched : List (Fin T)) (tr : Trouble T Err Unit (Nat → A)) (body : Nat → Unit → (Nat → A) → Unit × (Nat → A))
    (htr : tr = ⟨fun _ => true, refusal, fun _ => none,
      fun _ r => match f r (m₀ r) with
        | .error e => some e
        | .ok _ => none, fun _ l m => (l, m)⟩)
    (hbody : body = fun r l m => (l, Function.update m r (match f r (m r) with
      | .ok y => y
      | .error _ => m r)))
    (hfin : Finished (run n c body tr (init (launchOf ρ) tr () m₀) sched)) :
    (∀ X, region ρ n c body () m₀ tr sched (fun _ m => m) = .value X ↔ parRows ω n c f m₀ = .ok X) ∧
    ((∃ e, region ρ n c body () m₀ tr sched (fun _ m => m) = .raised e) ↔ ∃ e, parRows ω n c f m₀ = .error e) := by
  have hρ := launch_reporting hw
  have hrow : ∀ t r, tr.row t r = match f r (m₀ r) with
      | .error e => some e
      | .ok _ => none := by intro t r; rw [htr]
  have hpro : ∀ t, tr.prologue t = none := by intro t; rw [htr]
  have hstart : ∀ t, tr.starts t = true := by intro t; rw [htr]
  have hpart : ∀ r l m, tr.partly r l m = (l, Function.update m r (m r)) := by
    intro r l m; rw [htr]; simp
  set g : Nat → A → A := fun r x => match f r x with
    | .ok y => y
    | .error _ => x with hg
  have hb' : body = fun r l m => (l, Function.update m r (g r (m r))) := hbody
  -- either outcome
  have hval : ∀ X, region ρ n c body () m₀ tr sched (fun _ m => m) = .value X → parRows ω n c f m₀ = .ok X := by
    intro X hX
    obtain ⟨_, _, h3, h4, h5⟩ := C108_value_is_whole ρ (List.mem_append_left _ hw) n c body () m₀ tr sched _ hfin X hX
    have hp := WorkQueue.rows_perm (WorkQueue.inv_run body sched (WorkQueue.inv_init n c () m₀ (T := T)))
      (fun t => Or.inl (h3 t)) ⟨⟨0, hT⟩, h3 _⟩
    have hok : ∀ r, r < n → f r (m₀ r) = .ok (g r (m₀ r)) := by
      intro r hr
      have : r ∈ (WorkQueue.run n c body (WorkQueue.init () m₀) sched).hist.map Prod.snd :=
        hp.mem_iff.mpr (by simpa using hr)
      obtain ⟨⟨t, r'⟩, hmem, rfl⟩ := List.mem_map.mp this
      have := h5 t r' hmem
      rw [hrow] at this
      simp only [hg]
      cases hf : f r' (m₀ r') with
      | ok y => rfl
      | error e => rw [hf] at this; cases this
    have hX' : X = fun r => if r < n then g r (m₀ r) else m₀ r := by
      have hnf : ∀ t r, r < n → tr.row t r = none := by
        intro t r hr; rw [hrow, hok r hr]
      have hm := rowMem_run (n := n) (c := c) g (fun _ x => x) (fun _ (l : Unit) => l) (k := launchOf ρ)
        (fun r l m => by rw [hpart]) sched (finv_init n c tr (launchOf ρ) () m₀)
        (rowMem_init g (fun _ x => x) (launchOf ρ) tr () m₀)
      have hno : ∀ t, ((run n c body tr (init (launchOf ρ) tr () m₀) sched).pc t).thrown = none := by
        intro t
        cases hx : ((run n c body tr (init (launchOf ρ) tr () m₀) sched).pc t).thrown with
        | none => rfl
        | some e =>
          rcases genuine_thrown ρ n c body () m₀ tr sched hx with ⟨_, t', h'⟩ | ⟨t', h'⟩ | ⟨t', r', hlt, h'⟩
          · rw [hstart] at h'; cases h'
          · rw [hpro] at h'; cases h'
          · rw [hnf t' r' hlt] at h'; cases h'
      have hsame := same_run body tr sched (same_init (k := launchOf ρ) () m₀ hstart hpro) hno
      rw [← hb'] at hm
      funext r
      rw [h4, hsame.mem]
      by_cases hr : r < n
      · simp only [hr, if_true]
        apply hm.done
        rw [← hsame.hist]
        exact hp.mem_iff.mpr (by simpa using hr)
      · simp only [hr, if_false]
        apply hm.other
        · intro hmem
          rw [← hsame.hist] at hmem
          have := hp.mem_iff.mp hmem
          simp at this; omega
        · intro t hi e hpc
          have := hno t
          rw [hpc] at this
          simp [PC.thrown] at this
    rw [hX']
    exact parRows_total hω hT hc (fun r => g r (m₀ r)) hok
  have hrai : ∀ e, region ρ n c body () m₀ tr sched (fun _ m => m) = .raised e → ∃ e', parRows ω n c f m₀ = .error e' := by
    intro e he
    rcases (C108_no_false_alarm ρ n c body () m₀ tr sched (fun _ m => m)).1 e he with ⟨_, t, h⟩ | ⟨t, h⟩ | ⟨t, r, hr, h⟩
    · rw [hstart] at h; cases h
    · rw [hpro] at h; cases h
    · rw [hrow] at h
      cases hf : f r (m₀ r) with
      | ok y => rw [hf] at h; cases h
      | error e' => exact parRows_throws hω hT hc hr hf
  have hcases : (∃ X, region ρ n c body () m₀ tr sched (fun _ m => m) = .value X) ∨
      ∃ e, region ρ n c body () m₀ tr sched (fun _ m => m) = .raised e := by
    unfold region collect
    rw [hρ, if_pos (all_starts.mpr hstart)]
    cases firstThrown (run n c body tr (init .collected tr () m₀) sched) with
    | none => exact .inl ⟨_, rfl⟩
    | some e => exact .inr ⟨e, rfl⟩
  refine ⟨fun X => ⟨hval X, ?_⟩, ⟨fun ⟨e, he⟩ => hrai e he, ?_⟩⟩
  · intro h
    rcases hcases with ⟨X', hX'⟩ | ⟨e, he⟩
    · have := hval X' hX'
      rw [h] at this
      simp only [Except.ok.injEq] at this
      rw [hX', this]
    · obtain ⟨e', he'⟩ := hrai e he
      rw [h] at he'; cases he'
  · rintro ⟨e, he⟩
    rcases hcases with ⟨X', hX'⟩ | h
    · have := hval X' hX'
      rw [he] at this; cases this
    · exact h

/-! ## The nearest-neighbour computers -/

theorem mapM_ok_iff {α : Type} (f : α → Except ε R) : ∀ (l : List α) (rs : List R),
    l.mapM f = .ok rs ↔ List.Forall₂ (fun a r => f a = .ok r) l rs
  | [], rs => by
    cases rs with
    | nil => simp [pure, Except.pure]
    | cons r rs => simp [pure, Except.pure]
  | a :: l, rs => by
    rw [List.mapM_cons]
    cases hf : f a with
    | error e =>
      simp only [bind, Except.bind]
      constructor
      · intro h; cases h
      · intro h; cases h with
        | cons h1 _ => rw [hf] at h1; cases h1
    | ok r =>
      simp only [bind, Except.bind]
      cases hl : l.mapM f with
      | error e =>
        simp only [reduceCtorEq, false_iff]
        intro h; cases h with
        | cons h1 h2 => rw [← mapM_ok_iff f l, hl] at h2; cases h2
      | ok rs' =>
        simp only [pure, Except.pure, Except.ok.injEq]
        constructor
        · rintro rfl; exact .cons hf ((mapM_ok_iff f l rs').mp hl)
        · intro h; cases h with
          | cons h1 h2 =>
            rw [hf] at h1; cases h1
            rw [← mapM_ok_iff f l, hl] at h2; cases h2; rfl

theorem mapM_error_iff {α : Type} (f : α → Except ε R) : ∀ (l : List α) (e : ε),
    l.mapM f = .error e ↔ ∃ k : Nat, ∃ a, l[k]? = some a ∧ f a = .error e ∧ ∀ k' < k, ∀ a', l[k']? = some a' → ∃ r, f a' = .ok r
  | [], e => by simp [pure, Except.pure]
  | a :: l, e => by
    rw [List.mapM_cons]
    cases hf : f a with
    | error e' =>
      simp only [bind, Except.bind, Except.error.injEq]
      constructor
      · rintro rfl; exact ⟨0, a, rfl, hf, fun k' h => by omega⟩
      · rintro ⟨k, b, hb, he, hall⟩
        cases k with
        | zero => simp at hb; subst hb; rw [hf] at he; cases he; rfl
        | succ k =>
          obtain ⟨r, hr⟩ := hall 0 (by omega) a rfl
          rw [hf] at hr; cases hr
    | ok r =>
      simp only [bind, Except.bind]
      have ih := mapM_error_iff f l e
      have hshift : (∃ k : Nat, ∃ b, (a :: l)[k]? = some b ∧ f b = .error e ∧
          ∀ k' < k, ∀ a', (a :: l)[k']? = some a' → ∃ r, f a' = .ok r) ↔
          ∃ k : Nat, ∃ b, l[k]? = some b ∧ f b = .error e ∧ ∀ k' < k, ∀ a', l[k']? = some a' → ∃ r, f a' = .ok r := by
        constructor
        · rintro ⟨k, b, hb, he, hall⟩
          cases k with
          | zero => simp at hb; subst hb; rw [hf] at he; cases he
          | succ k =>
            exact ⟨k, b, by simpa using hb, he, fun k' hk' a' ha' => hall (k' + 1) (by omega) a' (by simpa using ha')⟩
        · rintro ⟨k, b, hb, he, hall⟩
          refine ⟨k + 1, b, by simpa using hb, he, ?_⟩
          intro k' hk' a' ha'
          cases k' with
          | zero => simp at ha'; subst ha'; exact ⟨r, hf⟩
          | succ k' => exact hall k' (by omega) a' (by simpa using ha')
      rw [hshift, ← ih]
      cases hl : l.mapM f with
      | error e' => simp
      | ok rs' => simp [pure, Except.pure]

/-- `compute_similarity` with several threads returns only when every worker was started and computed its block, and then
the blocks in order; otherwise it raises the refusal or the first exception in the order of the blocks. -/
theorem C108_similarity_blocks (starts : Fin T → Bool) (refusal : ε) (job : Fin T → Except ε R) :
    (∀ rs, collectJobs starts refusal job = .value rs ↔
      (∀ t, starts t = true) ∧ rs.length = T ∧ ∀ t : Fin T, ∃ r, job t = .ok r ∧ rs[t.val]? = some r) ∧
    (∀ e, collectJobs starts refusal job = .raised e ↔
      ((∃ t, starts t = false) ∧ e = refusal) ∨
      ((∀ t, starts t = true) ∧ ∃ t, job t = .error e ∧ ∀ t', t' < t → ∃ r, job t' = .ok r)) ∧
    collectJobs starts refusal job ≠ .terminated := by
  by_cases ha : ∀ t, starts t = true
  · have ha' : (List.finRange T).all starts = true := by simpa using ha
    have hnf : ¬ ∃ t, starts t = false := by rintro ⟨t, h⟩; rw [ha] at h; cases h
    have hmain : collectJobs starts refusal job = (match (List.finRange T).mapM job with
      | .ok rs => .value rs
      | .error e => .raised e) := by
      unfold collectJobs; rw [if_pos ha']
      cases (List.finRange T).mapM job <;> rfl
    rw [hmain]
    refine ⟨?_, ?_, ?_⟩
    · intro rs
      have hiff : (match (List.finRange T).mapM job with
        | .ok rs => (Outcome.value rs : Outcome ε (List R))
        | .error e => .raised e) = .value rs ↔ (List.finRange T).mapM job = .ok rs := by
        cases (List.finRange T).mapM job <;> simp
      rw [hiff, mapM_ok_iff]
      constructor
      · intro h
        have hlen := h.length_eq
        rw [List.length_finRange] at hlen
        refine ⟨ha, hlen.symm, ?_⟩
        intro t
        have ht : t.val < rs.length := by rw [← hlen]; exact t.isLt
        refine ⟨rs[t.val], ?_, by simp [ht]⟩
        have := (List.forall₂_iff_get.mp h).2 t.val (by simp) ht
        simpa using this
      · rintro ⟨_, hlen, hall⟩
        rw [List.forall₂_iff_get]
        refine ⟨by simp [hlen], ?_⟩
        intro i h1 h2
        obtain ⟨r, hr, hrs⟩ := hall ⟨i, by simpa using h1⟩
        have : rs[i] = r := by
          rw [List.getElem?_eq_getElem h2] at hrs
          simpa using hrs
        simp only [List.get_eq_getElem, List.getElem_finRange]
        rw [this]
        exact hr
    · intro e
      have hiff : (match (List.finRange T).mapM job with
        | .ok rs => (Outcome.value rs : Outcome ε (List R))
        | .error e => .raised e) = .raised e ↔ (List.finRange T).mapM job = .error e := by
        cases (List.finRange T).mapM job <;> simp
      rw [hiff, mapM_error_iff]
      constructor
      · rintro ⟨k, t, hk, he, hall⟩
        right
        refine ⟨ha, t, he, ?_⟩
        intro t' ht'
        have hkt : k = t.val := by
          obtain ⟨hlt, hget⟩ := List.getElem?_eq_some_iff.mp hk
          rw [← hget]; simp
        exact hall t'.val (by rw [hkt]; exact ht') t' (by simp)
      · rintro (⟨h, _⟩ | ⟨_, t, he, hall⟩)
        · exact absurd h hnf
        · refine ⟨t.val, t, by simp, he, ?_⟩
          intro k' hk' a' ha''
          obtain ⟨hlt, hget⟩ := List.getElem?_eq_some_iff.mp ha''
          apply hall
          rw [← hget]
          simp only [List.getElem_finRange]
          exact hk'
    · cases (List.finRange T).mapM job <;> simp
  · have ha' : ¬ (List.finRange T).all starts = true := by simpa using ha
    have hex : ∃ t, starts t = false := by
      by_contra hno
      apply ha
      intro t
      cases hx : starts t with
      | true => rfl
      | false => exact absurd ⟨t, hx⟩ hno
    have hmain : collectJobs starts refusal job = .raised refusal := by unfold collectJobs; rw [if_neg ha']
    rw [hmain]
    refine ⟨?_, ?_, by simp⟩
    · intro rs
      constructor
      · intro h; cases h
      · rintro ⟨h, _⟩; exact absurd h ha
    · intro e
      constructor
      · intro h; cases h; exact .inl ⟨hex, rfl⟩
      · rintro (⟨_, rfl⟩ | ⟨h, _⟩)
        · rfl
        · exact absurd h ha

/-! ## Examples -/

/-- two workers; row 1 fails whoever gets it -/
def exampleTrouble : Trouble 2 Err Unit (Nat → Nat) :=
  ⟨fun _ => true, .osError, fun _ => none, fun _ r => if r = 1 then some .runtimeError else none,
    fun r l m => (l, Function.update m r 77)⟩

/-- worker 0 takes row 0, worker 1 row 1, which fails, worker 0 row 2 and finds the queue empty -/
def exampleSchedule : List (Fin 2) := [0, 1, 0, 1, 0, 0, 0, 0, 0]

def exampleBody : Nat → Unit → (Nat → Nat) → Unit × (Nat → Nat) := fun r l m => (l, Function.update m r (m r + 10))

theorem example_finished : Finished (run 3 1 exampleBody exampleTrouble (init .collected exampleTrouble () (fun r => r))
    exampleSchedule) := by
  intro t
  match t with
  | ⟨0, _⟩ => rfl
  | ⟨1, _⟩ => rfl

example : Fails 3 exampleTrouble := .inr (.inr ⟨1, by omega, by intro t; simp [exampleTrouble]⟩)

example : region .stepCholesky 3 1 exampleBody () (fun r => r) exampleTrouble exampleSchedule
    (fun _ m => (List.range 3).map m) = .raised .runtimeError := rfl

example : region .userScores 3 1 exampleBody () (fun r => r) exampleTrouble exampleSchedule
    (fun _ m => (List.range 3).map m) = .terminated := rfl

example : region .retrieve 3 1 exampleBody () (fun r => r) exampleTrouble exampleSchedule
    (fun _ m => (List.range 3).map m) = .value [10, 77, 12] := rfl

/-- `C108_other_rows` applies: one failing row, two workers -/
example : (Finset.univ.filter (fun t => present (launchOf .stepCholesky) exampleTrouble t = false ∨
      exampleTrouble.prologue t ≠ none)).card + ({1} : Finset Nat).card < 2 ∧
    (∀ t r, exampleTrouble.row t r ≠ none → r ∈ ({1} : Finset Nat)) ∧
    ∀ r l m, exampleTrouble.partly r l m = (l, Function.update m r ((fun _ _ => 77) r (m r))) := by
  refine ⟨?_, ?_, fun r l m => rfl⟩
  · have : (Finset.univ.filter (fun t => present (launchOf .stepCholesky) exampleTrouble t = false ∨
      exampleTrouble.prologue t ≠ none)) = ∅ := by
      apply Finset.filter_eq_empty_iff.mpr
      intro t _
      simp [exampleTrouble, present_of_starts]
    rw [this]; simp
  · intro t r h
    by_contra hr
    apply h
    have : r ≠ 1 := by simpa using hr
    simp [exampleTrouble, this]

/-- a refused second thread of a routine on plain threads -/
example : region .userScores 3 1 exampleBody () (fun r => r)
    ({ exampleTrouble with starts := fun t => decide (t = 0) } : Trouble 2 Err Unit (Nat → Nat)) [0, 0, 0]
    (fun _ m => (List.range 3).map m) = .terminated := rfl

/-- … and of one that collects its workers -/
example : region .stepCholesky 3 1 exampleBody () (fun r => r)
    ({ exampleTrouble with starts := fun t => decide (t = 0) } : Trouble 2 Err Unit (Nat → Nat)) [0, 0, 0]
    (fun _ m => (List.range 3).map m) = .raised .osError := rfl

example : collectJobs (fun _ : Fin 2 => true) Err.osError (fun t => if t = 0 then .ok [1] else .error Err.runtimeError)
    = .raised .runtimeError := rfl

end Irspack.WorkerFaults
