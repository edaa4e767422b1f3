import Verif.Model.ScoreHistory
import Mathlib.Data.List.Nodup
import Mathlib.Data.List.Induction
import Mathlib.Tactic.Common

/-! # C64: the score history under concurrent trials -/

namespace Irspack.Tuning.Shared

variable {S : Type}

/-- A possible schedule: every trial reads and writes at most once, and reads before it writes. -/
def Schedule (evs : List Event) : Prop :=
  evs.Nodup ∧ ∀ a b n, evs = a ++ .write n :: b → .read n ∈ a

/-- between the read and the write of a trial no other trial writes -/
def NonOverlapping (evs : List Event) : Prop :=
  ∀ a b c n m, evs = a ++ .read n :: b ++ .write n :: c → .write m ∉ b

theorem run_append (score : Nat → S) (a b : List Event) (s : State S) :
    run score (a ++ b) s = run score b (run score a s) := by
  unfold run; rw [List.foldl_append]

theorem schedule_prefix {a b : List Event} (h : Schedule (a ++ b)) : Schedule a := by
  refine ⟨(List.nodup_append.mp h.1).1, ?_⟩
  rintro a' b' n rfl
  exact h.2 a' (b' ++ b) n (by simp)

theorem nonOverlapping_prefix {a b : List Event} (h : NonOverlapping (a ++ b)) : NonOverlapping a := by
  rintro a' b' c n m rfl
  exact h a' b' (c ++ b) n m (by simp)

theorem run_reads (score : Nat → S) (b : List Event) : ∀ s : State S, (∀ m, .write m ∉ b) →
    (run score b s).stored = s.stored := by
  induction b with
  | nil => intro s _; rfl
  | cons e b ih =>
    intro s h
    have := ih (step score s e) (fun m hm => h m (by simp [hm]))
    rw [show run score (e :: b) s = run score b (step score s e) from rfl, this]
    cases e with
    | read n => rfl
    | write n => exact absurd (by simp) (h n)

theorem run_held (score : Nat → S) (n : Nat) (b : List Event) : ∀ s : State S, .read n ∉ b →
    (run score b s).held n = s.held n := by
  induction b with
  | nil => intro s _; rfl
  | cons e b ih =>
    intro s h
    rw [show run score (e :: b) s = run score b (step score s e) from rfl,
      ih (step score s e) (fun hm => h (by simp [hm]))]
    cases e with
    | read m =>
      have hne : n ≠ m := fun he => h (by simp [he])
      simp [step, hne]
    | write m => rfl

/-- what a trial writes back: what it has read, and its own scores -/
theorem run_write (score : Nat → S) {a : List Event} {n : Nat} (h : Schedule (a ++ [.write n])) :
    ∃ a₁ b, a = a₁ ++ .read n :: b ∧
      (run score (a ++ [.write n]) initial).stored = (run score a₁ initial).stored ++ [(n, score n)] := by
  have hr := h.2 a [] n (by simp)
  obtain ⟨a₁, b, rfl⟩ := List.append_of_mem hr
  refine ⟨a₁, b, rfl, ?_⟩
  have hb : .read n ∉ b := by
    have hnd := (List.nodup_append.mp h.1).1
    have := (List.nodup_append.mp hnd).2.1
    exact (List.nodup_cons.mp this).1
  rw [run_append]
  show ((run score (a₁ ++ .read n :: b) initial).held n ++ [(n, score n)]) = _
  rw [run_append, show run score (.read n :: b) (run score a₁ initial) =
    run score b (step score (run score a₁ initial) (.read n)) from rfl, run_held score n b _ hb]
  simp [step]

/-- C64 (nothing is invented).  Under every schedule, each entry of the stored history holds the scores of
a trial that has written them, and no trial has two entries. -/
theorem C64_genuine (score : Nat → S) (evs : List Event) (h : Schedule evs) :
    (∀ n sc, (n, sc) ∈ (run score evs initial).stored → sc = score n ∧ .write n ∈ evs) ∧
    ((run score evs initial).stored.map (·.1)).Nodup := by
  generalize hk : evs.length = k
  induction k using Nat.strong_induction_on generalizing evs with
  | _ k ih =>
    rcases List.eq_nil_or_concat evs with rfl | ⟨a, e, rfl⟩
    · refine ⟨?_, ?_⟩
      · intro n sc hm; simp [run, initial] at hm
      · simp [run, initial]
    · rw [List.concat_eq_append] at h hk ⊢
      simp only [List.length_append, List.length_singleton] at hk
      cases e with
      | read n =>
        obtain ⟨h1, h2⟩ := ih a.length (by omega) a (schedule_prefix h) rfl
        have heq : (run score (a ++ [.read n]) initial).stored = (run score a initial).stored := by
          rw [run_append]; rfl
        rw [heq]
        refine ⟨fun m sc hm => ?_, h2⟩
        obtain ⟨h3, h4⟩ := h1 m sc hm
        exact ⟨h3, by simp [h4]⟩
      | write n =>
        obtain ⟨a₁, b, rfl, heq⟩ := run_write score h
        have hs : Schedule a₁ := by
          have : Schedule (a₁ ++ (.read n :: b ++ [.write n])) := by simpa using h
          exact schedule_prefix this
        have hlt : a₁.length < k := by
          simp only [List.length_append, List.length_cons] at hk; omega
        obtain ⟨h1, h2⟩ := ih a₁.length hlt a₁ hs rfl
        rw [heq]
        constructor
        · intro m sc hm
          rcases List.mem_append.mp hm with hm | hm
          · obtain ⟨h3, h4⟩ := h1 m sc hm
            exact ⟨h3, by simp [h4]⟩
          · obtain ⟨rfl, rfl⟩ := Prod.mk.inj (List.mem_singleton.mp hm)
            exact ⟨rfl, by simp⟩
        · rw [List.map_append, List.nodup_append]
          refine ⟨h2, by simp, ?_⟩
          intro x hx y hy hxy
          simp only [List.map_cons, List.map_nil, List.mem_singleton] at hy
          subst hy
          subst hxy
          obtain ⟨e, he, rfl⟩ := List.mem_map.mp hx
          have hw := (h1 e.1 e.2 he).2
          have hnd := (List.nodup_append.mp h.1).2.2 (.write e.1) (by simp [hw]) (.write e.1) (by simp)
          exact hnd rfl

/-- C64 (completeness).  If no trial writes between the read and the write of another one, as when trials
run one after another, every trial that has written is in the stored history, with its scores.  Missing:
overlapping trials; there it is false, see the counterexample. -/
theorem C64_complete_partial (score : Nat → S) (evs : List Event) (h : Schedule evs) (hn : NonOverlapping evs)
    (n : Nat) (hw : .write n ∈ evs) : (n, score n) ∈ (run score evs initial).stored := by
  induction evs using List.reverseRecOn with
  | nil => simp at hw
  | append_singleton a e ih =>
    cases e with
    | read m =>
      have hw' : .write n ∈ a := by simpa using hw
      have := ih (schedule_prefix h) (nonOverlapping_prefix hn) hw'
      rw [run_append]
      exact this
    | write m =>
      obtain ⟨a₁, b, rfl, heq⟩ := run_write score h
      rw [heq]
      by_cases hnm : n = m
      · subst hnm; simp
      · have hw' : .write n ∈ a₁ ++ .read m :: b := by
          rcases List.mem_append.mp hw with hw | hw
          · exact hw
          · simp at hw; exact absurd hw hnm
        have hnone : ∀ x, .write x ∉ b := fun x => hn a₁ b [] m x rfl
        have hrec := ih (schedule_prefix h) (nonOverlapping_prefix hn) hw'
        rw [run_append] at hrec
        rw [show run score (.read m :: b) (run score a₁ initial) =
          run score b (step score (run score a₁ initial) (.read m)) from rfl, run_reads score b _ hnone] at hrec
        exact List.mem_append.mpr (.inl hrec)

/-- C64 (counterexample).  Two overlapping trials: the scores of trial 0 are lost although both trials have
written theirs. -/
theorem C64_lost_update_counterexample (score : Nat → S) :
    Schedule [.read 0, .read 1, .write 0, .write 1] ∧
    (run score [.read 0, .read 1, .write 0, .write 1] initial).stored = [(1, score 1)] := by
  refine ⟨⟨by decide, ?_⟩, rfl⟩
  intro a b n h
  match a, h with
  | [], h => simp at h
  | [_], h => simp at h
  | [x, y], h =>
    simp at h
    obtain ⟨rfl, rfl, rfl, -⟩ := h
    simp
  | [x, y, z], h =>
    simp at h
    obtain ⟨rfl, rfl, rfl, rfl, -⟩ := h
    simp
  | x :: y :: z :: w :: a, h =>
    have := congrArg List.length h
    simp at this

/-- two trials one after the other meet the hypotheses -/
example : Schedule [.read 0, .write 0, .read 1, .write 1] ∧ NonOverlapping [.read 0, .write 0, .read 1, .write 1] := by
  constructor
  · refine ⟨by decide, ?_⟩
    intro a b n h
    match a, h with
    | [], h => simp at h
    | [x], h =>
      simp at h
      obtain ⟨rfl, rfl, -⟩ := h
      simp
    | [x, y], h => simp at h
    | [x, y, z], h =>
      simp at h
      obtain ⟨rfl, rfl, rfl, rfl, -⟩ := h
      simp
    | x :: y :: z :: w :: a, h =>
      have := congrArg List.length h
      simp at this
  · intro a b c n m h hm
    have hl := congrArg List.length h
    have hb : b.length ≤ 2 := by simp at hl; omega
    match a, b, h, hm with
    | _, [], _, hm => simp at hm
    | [], [x], h, hm => simp at h
    | [y], [x], h, hm => simp at h
    | y :: z :: a, [x], h, hm => simp at hl <;> omega
    | [], [x, x'], h, hm => simp at h; obtain ⟨rfl, -, -, h4, -⟩ := h; cases h4
    | y :: a, [x, x'], h, hm => simp at hl <;> omega
    | _, x :: x' :: x'' :: b, h, hm => simp at hb

end Irspack.Tuning.Shared
