import Verif.Model.Download
import Mathlib.Tactic.Set
import Mathlib.Tactic.Common

namespace Irspack.Download

variable {B : Type}

/-- the temporary name a process will remove -/
def owns : Proc B → Option Nat
  | .copying _ _ n _ _ _ => some n
  | .copied _ _ n _ _ => some n
  | .tidying _ n _ => some n
  | .unwinding n => some n
  | _ => none

/-- temporary name and inode that a process is filling -/
def holds : Proc B → Option (Nat × Nat)
  | .copying _ _ n i _ _ => some (n, i)
  | .copied _ _ n i _ => some (n, i)
  | _ => none

/-- what remains to be written, with the archive and the inode -/
def pending : Proc B → Option (Nat × Nat × List B)
  | .copying _ k _ i body _ => some (k, i, body)
  | .copied _ k _ i _ => some (k, i, [])
  | _ => none

/-- the open archives -/
def handles : Proc B → List (Nat × Nat)
  | .opening _ _ hs => hs
  | .ready hs => hs
  | _ => []

theorem holds_owns {p : Proc B} {n i : Nat} (h : holds p = some (n, i)) : owns p = some n := by
  cases p <;> simp_all [holds, owns]

theorem pending_holds {p : Proc B} {k i : Nat} {b : List B} (h : pending p = some (k, i, b)) :
    ∃ n, holds p = some (n, i) := by
  cases p <;> simp_all [holds, pending]

/-- an inode with the content of the archive, or the file that was there from the beginning -/
def Good (remote : Nat → List B) (s₀ : FS B) (data : Nat → List B) (k i : Nat) : Prop :=
  data i = remote k ∨ (s₀.dir (.archive k) = some i ∧ data i = s₀.data i)

structure Inv (remote : Nat → List B) (s₀ : FS B) (s : Sys B) : Prop where
  ino : ∀ name i, s.fs.dir name = some i → i < s.fs.nextIno
  arch : ∀ k i, s.fs.dir (.archive k) = some i → Good remote s₀ s.fs.data k i
  hand : ∀ p k i, (k, i) ∈ handles (s.procs p) → Good remote s₀ s.fs.data k i ∧ i < s.fs.nextIno
  ownLt : ∀ p n, owns (s.procs p) = some n → n < s.fs.nextTemp
  ownUniq : ∀ p q n, owns (s.procs p) = some n → owns (s.procs q) = some n → p = q
  heldDir : ∀ p n i, holds (s.procs p) = some (n, i) → s.fs.dir (.temp n) = some i
  heldUniq : ∀ p q n m i, holds (s.procs p) = some (n, i) → holds (s.procs q) = some (m, i) → p = q
  heldArch : ∀ p n i k, holds (s.procs p) = some (n, i) → s.fs.dir (.archive k) ≠ some i
  heldHand : ∀ p q n i k, holds (s.procs p) = some (n, i) → (k, i) ∉ handles (s.procs q)
  pend : ∀ p k i body, pending (s.procs p) = some (k, i, body) → s.fs.data i ++ body = remote k

theorem inv_initial (remote : Nat → List B) (s : Sys B) (h : Initial s) : Inv remote s.fs s := by
  refine ⟨h.ino, fun k i hk => .inr ⟨hk, rfl⟩, ?_, ?_, ?_, ?_, ?_, ?_, ?_, ?_⟩ <;>
    (intro p; simp [h.idle p, handles, owns, holds, pending])

/-- a process changes its own state only -/
theorem inv_local {remote : Nat → List B} {s₀ : FS B} {s : Sys B} (h : Inv remote s₀ s) (p : Nat) (q : Proc B)
    (ho : owns q = none ∨ owns q = owns (s.procs p)) (hh : holds q = none ∨ holds q = holds (s.procs p))
    (hp : pending q = none ∨ pending q = pending (s.procs p))
    (hd : ∀ k i, (k, i) ∈ handles q → (k, i) ∈ handles (s.procs p) ∨ s.fs.dir (.archive k) = some i) :
    Inv remote s₀ ⟨s.fs, Function.update s.procs p q⟩ := by
  have ho' : ∀ p' n, owns (Function.update s.procs p q p') = some n → owns (s.procs p') = some n := by
    intro p' n
    by_cases hpp : p' = p
    · subst hpp
      rw [Function.update_self]
      rcases ho with h | h
      · rw [h]; intro h; cases h
      · rw [h]; exact id
    · rw [Function.update_of_ne hpp]; exact id
  have hh' : ∀ p' x, holds (Function.update s.procs p q p') = some x → holds (s.procs p') = some x := by
    intro p' n
    by_cases hpp : p' = p
    · subst hpp
      rw [Function.update_self]
      rcases hh with h | h
      · rw [h]; intro h; cases h
      · rw [h]; exact id
    · rw [Function.update_of_ne hpp]; exact id
  have hp' : ∀ p' x, pending (Function.update s.procs p q p') = some x → pending (s.procs p') = some x := by
    intro p' n
    by_cases hpp : p' = p
    · subst hpp
      rw [Function.update_self]
      rcases hp with h | h
      · rw [h]; intro h; cases h
      · rw [h]; exact id
    · rw [Function.update_of_ne hpp]; exact id
  have hd' : ∀ p' k i, (k, i) ∈ handles (Function.update s.procs p q p') →
      (k, i) ∈ handles (s.procs p') ∨ s.fs.dir (.archive k) = some i := by
    intro p' k i
    by_cases hpp : p' = p
    · subst hpp
      rw [Function.update_self]
      exact hd k i
    · rw [Function.update_of_ne hpp]; exact .inl
  refine ⟨h.ino, h.arch, ?_, ?_, ?_, ?_, ?_, ?_, ?_, ?_⟩
  · intro p' k i hm
    rcases hd' p' k i hm with hm | hm
    · exact h.hand p' k i hm
    · exact ⟨h.arch k i hm, h.ino _ i hm⟩
  · intro p' n hn; exact h.ownLt p' n (ho' p' n hn)
  · intro p' q' n h1 h2; exact h.ownUniq p' q' n (ho' p' n h1) (ho' q' n h2)
  · intro p' n i h1; exact h.heldDir p' n i (hh' p' _ h1)
  · intro p' q' n m i h1 h2; exact h.heldUniq p' q' n m i (hh' p' _ h1) (hh' q' _ h2)
  · intro p' n i k h1; exact h.heldArch p' n i k (hh' p' _ h1)
  · intro p' q' n i k h1 h2
    rcases hd' q' k i h2 with hm | hm
    · exact h.heldHand p' q' n i k (hh' p' _ h1) hm
    · exact h.heldArch p' n i k (hh' p' _ h1) hm
  · intro p' k i body h1; exact h.pend p' k i body (hp' p' _ h1)

/-- a temporary name that nobody is filling is removed -/
theorem inv_unlink {remote : Nat → List B} {s₀ : FS B} {s : Sys B} (h : Inv remote s₀ s) (n : Nat)
    (hn : ∀ p i, holds (s.procs p) ≠ some (n, i)) :
    Inv remote s₀ ⟨{ s.fs with dir := Function.update s.fs.dir (.temp n) none }, s.procs⟩ := by
  have hdir : ∀ name i, Function.update s.fs.dir (.temp n) none name = some i → s.fs.dir name = some i := by
    intro name i
    by_cases hnn : name = .temp n
    · subst hnn; rw [Function.update_self]; intro h; cases h
    · rw [Function.update_of_ne hnn]; exact id
  refine ⟨fun name i hi => h.ino name i (hdir _ _ hi), fun k i hi => h.arch k i (hdir _ _ hi), h.hand, h.ownLt,
    h.ownUniq, ?_, h.heldUniq, fun p m i k hp hi => h.heldArch p m i k hp (hdir _ _ hi), h.heldHand, h.pend⟩
  intro p m i hp
  show Function.update s.fs.dir (.temp n) none (.temp m) = some i
  have hm : m ≠ n := fun hmn => hn p i (hmn ▸ hp)
  rw [Function.update_of_ne (by simpa using hm)]
  exact h.heldDir p m i hp

theorem inv_remove {remote : Nat → List B} {s₀ : FS B} {s : Sys B} (h : Inv remote s₀ s) (k : Nat) :
    Inv remote s₀ ⟨{ s.fs with dir := Function.update s.fs.dir (.archive k) none }, s.procs⟩ := by
  have hdir : ∀ name i, Function.update s.fs.dir (.archive k) none name = some i → s.fs.dir name = some i := by
    intro name i
    by_cases hnn : name = .archive k
    · subst hnn; rw [Function.update_self]; intro h; cases h
    · rw [Function.update_of_ne hnn]; exact id
  refine ⟨fun name i hi => h.ino name i (hdir _ _ hi), fun k i hi => h.arch k i (hdir _ _ hi), h.hand, h.ownLt,
    h.ownUniq, ?_, h.heldUniq, fun p m i k hp hi => h.heldArch p m i k hp (hdir _ _ hi), h.heldHand, h.pend⟩
  intro p m i hp
  show Function.update s.fs.dir (.archive k) none (.temp m) = some i
  rw [Function.update_of_ne (by simp)]
  exact h.heldDir p m i hp

/-- a process creates its temporary file -/
theorem inv_create {remote : Nat → List B} {s₀ : FS B} {s : Sys B} (h : Inv remote s₀ s) (p : Nat)
    (ks : List Nat) (k : Nat) (missing : List Nat) :
    Inv remote s₀ ⟨⟨Function.update s.fs.dir (.temp s.fs.nextTemp) (some s.fs.nextIno),
      Function.update s.fs.data s.fs.nextIno [], s.fs.nextIno + 1, s.fs.nextTemp + 1⟩,
      Function.update s.procs p (.copying ks k s.fs.nextTemp s.fs.nextIno (remote k) missing)⟩ := by
  set q : Proc B := .copying ks k s.fs.nextTemp s.fs.nextIno (remote k) missing with hq
  have hgood : ∀ k i, i < s.fs.nextIno → Good remote s₀ s.fs.data k i →
      Good remote s₀ (Function.update s.fs.data s.fs.nextIno []) k i := by
    intro k i hi hg
    unfold Good
    rw [Function.update_of_ne (by omega)]
    exact hg
  have hdirA : ∀ k, Function.update s.fs.dir (.temp s.fs.nextTemp) (some s.fs.nextIno) (.archive k) =
      s.fs.dir (.archive k) := by
    intro k; rw [Function.update_of_ne (by simp)]
  refine ⟨?_, ?_, ?_, ?_, ?_, ?_, ?_, ?_, ?_, ?_⟩
  · intro name i hi
    simp only at hi ⊢
    by_cases hn : name = .temp s.fs.nextTemp
    · subst hn; rw [Function.update_self] at hi; cases hi; omega
    · rw [Function.update_of_ne hn] at hi
      have := h.ino name i hi; omega
  · intro k' i hi
    simp only [hdirA] at hi
    exact hgood k' i (h.ino _ i hi) (h.arch k' i hi)
  · intro p' k' i hm
    by_cases hpp : p' = p
    · subst hpp; simp only [Function.update_self] at hm; simp [hq, handles] at hm
    · simp only [Function.update_of_ne hpp] at hm
      obtain ⟨h1, h2⟩ := h.hand p' k' i hm
      exact ⟨hgood k' i h2 h1, Nat.lt_succ_of_lt h2⟩
  · intro p' n hn
    by_cases hpp : p' = p
    · subst hpp
      simp only [Function.update_self] at hn
      simp only [hq, owns, Option.some.injEq] at hn
      simp only; omega
    · simp only [Function.update_of_ne hpp] at hn
      have := h.ownLt p' n hn
      simp only; omega
  · intro p' q' n h1 h2
    by_cases hpp : p' = p
    · by_cases hqq : q' = p
      · rw [hpp, hqq]
      · exfalso
        subst hpp
        simp only [Function.update_self] at h1
        simp only [Function.update_of_ne hqq] at h2
        simp only [hq, owns, Option.some.injEq] at h1
        have := h.ownLt q' n h2; omega
    · by_cases hqq : q' = p
      · exfalso
        subst hqq
        simp only [Function.update_self] at h2
        simp only [Function.update_of_ne hpp] at h1
        simp only [hq, owns, Option.some.injEq] at h2
        have := h.ownLt p' n h1; omega
      · simp only [Function.update_of_ne hpp] at h1
        simp only [Function.update_of_ne hqq] at h2
        exact h.ownUniq p' q' n h1 h2
  · intro p' n i h1
    by_cases hpp : p' = p
    · subst hpp
      simp only [Function.update_self] at h1
      simp only [hq, holds, Option.some.injEq, Prod.mk.injEq] at h1
      obtain ⟨rfl, rfl⟩ := h1
      simp
    · simp only [Function.update_of_ne hpp] at h1
      have hlt' := h.ownLt p' n (holds_owns h1)
      simp only
      rw [Function.update_of_ne (by simp; omega)]
      exact h.heldDir p' n i h1
  · intro p' q' n m i h1 h2
    have hnew : ∀ p' n, holds (s.procs p') = some (n, s.fs.nextIno) → False := by
      intro p' n hh
      have := h.ino _ _ (h.heldDir p' n _ hh); omega
    by_cases hpp : p' = p
    · by_cases hqq : q' = p
      · rw [hpp, hqq]
      · exfalso
        subst hpp
        simp only [Function.update_self] at h1
        simp only [Function.update_of_ne hqq] at h2
        simp only [hq, holds, Option.some.injEq, Prod.mk.injEq] at h1
        rw [← h1.2] at h2
        exact hnew q' m h2
    · by_cases hqq : q' = p
      · exfalso
        subst hqq
        simp only [Function.update_self] at h2
        simp only [Function.update_of_ne hpp] at h1
        simp only [hq, holds, Option.some.injEq, Prod.mk.injEq] at h2
        rw [← h2.2] at h1
        exact hnew p' n h1
      · simp only [Function.update_of_ne hpp] at h1
        simp only [Function.update_of_ne hqq] at h2
        exact h.heldUniq p' q' n m i h1 h2
  · intro p' n i k' h1
    simp only [hdirA]
    by_cases hpp : p' = p
    · subst hpp
      simp only [Function.update_self] at h1
      simp only [hq, holds, Option.some.injEq, Prod.mk.injEq] at h1
      intro hd
      have := h.ino _ _ hd; omega
    · simp only [Function.update_of_ne hpp] at h1
      exact h.heldArch p' n i k' h1
  · intro p' q' n i k' h1 h2
    by_cases hqq : q' = p
    · subst hqq; simp only [Function.update_self] at h2; simp [hq, handles] at h2
    · simp only [Function.update_of_ne hqq] at h2
      by_cases hpp : p' = p
      · subst hpp
        simp only [Function.update_self] at h1
        simp only [hq, holds, Option.some.injEq, Prod.mk.injEq] at h1
        have := (h.hand q' k' i h2).2; omega
      · simp only [Function.update_of_ne hpp] at h1
        exact h.heldHand p' q' n i k' h1 h2
  · intro p' k' i body h1
    by_cases hpp : p' = p
    · subst hpp
      simp only [Function.update_self] at h1
      simp only [hq, pending, Option.some.injEq, Prod.mk.injEq] at h1
      obtain ⟨rfl, rfl, rfl⟩ := h1
      simp
    · simp only [Function.update_of_ne hpp] at h1
      obtain ⟨n, hn⟩ := pending_holds h1
      have hi := h.ino _ _ (h.heldDir p' n i hn)
      simp only
      rw [Function.update_of_ne (by omega)]
      exact h.pend p' k' i body h1

/-- a process writes a piece -/
theorem inv_write {remote : Nat → List B} {s₀ : FS B} {s : Sys B} (h : Inv remote s₀ s) (p : Nat)
    (ks : List Nat) (k n i : Nat) (piece rest : List B) (missing : List Nat)
    (hp : s.procs p = .copying ks k n i (piece ++ rest) missing) :
    Inv remote s₀ ⟨{ s.fs with data := Function.update s.fs.data i (s.fs.data i ++ piece) },
      Function.update s.procs p (.copying ks k n i rest missing)⟩ := by
  have hheld : holds (s.procs p) = some (n, i) := by rw [hp]; rfl
  have howns : ∀ p', owns (Function.update s.procs p (.copying ks k n i rest missing) p') = owns (s.procs p') := by
    intro p'
    by_cases hpp : p' = p
    · subst hpp; rw [Function.update_self, hp]; rfl
    · rw [Function.update_of_ne hpp]
  have hholds : ∀ p', holds (Function.update s.procs p (.copying ks k n i rest missing) p') = holds (s.procs p') := by
    intro p'
    by_cases hpp : p' = p
    · subst hpp; rw [Function.update_self, hp]; rfl
    · rw [Function.update_of_ne hpp]
  have hhand : ∀ p', handles (Function.update s.procs p (.copying ks k n i rest missing) p') = handles (s.procs p') := by
    intro p'
    by_cases hpp : p' = p
    · subst hpp; rw [Function.update_self, hp]; rfl
    · rw [Function.update_of_ne hpp]
  have hgood : ∀ k j, j ≠ i → Good remote s₀ s.fs.data k j →
      Good remote s₀ (Function.update s.fs.data i (s.fs.data i ++ piece)) k j := by
    intro k j hj hg
    unfold Good
    rw [Function.update_of_ne hj]
    exact hg
  refine ⟨h.ino, ?_, ?_, ?_, ?_, ?_, ?_, ?_, ?_, ?_⟩
  · intro k' j hj
    exact hgood k' j (fun e => h.heldArch p n i k' hheld (e ▸ hj)) (h.arch k' j hj)
  · intro p' k' j hj
    simp only [hhand] at hj
    obtain ⟨h1, h2⟩ := h.hand p' k' j hj
    exact ⟨hgood k' j (fun e => h.heldHand p p' n i k' hheld (e ▸ hj)) h1, h2⟩
  · intro p' m hm; simp only [howns] at hm; exact h.ownLt p' m hm
  · intro p' q' m h1 h2; simp only [howns] at h1 h2; exact h.ownUniq p' q' m h1 h2
  · intro p' m j h1; simp only [hholds] at h1; exact h.heldDir p' m j h1
  · intro p' q' m m' j h1 h2; simp only [hholds] at h1 h2; exact h.heldUniq p' q' m m' j h1 h2
  · intro p' m j k' h1; simp only [hholds] at h1; exact h.heldArch p' m j k' h1
  · intro p' q' m j k' h1; simp only [hholds, hhand] at h1 ⊢; exact h.heldHand p' q' m j k' h1
  · intro p' k' j body h1
    by_cases hpp : p' = p
    · subst hpp
      simp only [Function.update_self, pending, Option.some.injEq, Prod.mk.injEq] at h1
      obtain ⟨rfl, rfl, rfl⟩ := h1
      simp only [Function.update_self]
      rw [List.append_assoc]
      exact h.pend p' k i (piece ++ rest) (by rw [hp]; rfl)
    · simp only [Function.update_of_ne hpp] at h1
      obtain ⟨m, hm⟩ := pending_holds h1
      have hj : j ≠ i := fun e => hpp (h.heldUniq p' p m n i (e ▸ hm) hheld)
      simp only
      rw [Function.update_of_ne hj]
      exact h.pend p' k' j body h1

/-- a complete temporary file becomes the archive -/
theorem inv_replace {remote : Nat → List B} {s₀ : FS B} {s : Sys B} (h : Inv remote s₀ s) (p : Nat)
    (ks : List Nat) (k n i j : Nat) (missing : List Nat) (hp : s.procs p = .copied ks k n i missing)
    (hj : s.fs.dir (.temp n) = some j) :
    Inv remote s₀ ⟨{ s.fs with dir := Function.update (Function.update s.fs.dir (.archive k) (some j)) (.temp n) none },
      Function.update s.procs p (.tidying ks n missing)⟩ := by
  have hheld : holds (s.procs p) = some (n, i) := by rw [hp]; rfl
  have hij : i = j := by
    have := h.heldDir p n i hheld
    rw [hj] at this
    exact (Option.some.inj this).symm
  subst hij
  have hdata : s.fs.data i = remote k := by
    have := h.pend p k i [] (by rw [hp]; rfl)
    rwa [List.append_nil] at this
  -- the process lets go of the inode
  have hinv := inv_local h p (.tidying ks n missing) (.inr (by rw [hp]; rfl)) (.inl rfl) (.inl rfl)
    (by intro k i hm; simp [handles] at hm)
  have hdirA : ∀ k', Function.update (Function.update s.fs.dir (.archive k) (some i)) (.temp n) none (.archive k') =
      if k' = k then some i else s.fs.dir (.archive k') := by
    intro k'
    rw [Function.update_of_ne (by simp)]
    by_cases hk : k' = k
    · subst hk; simp
    · rw [Function.update_of_ne (by simpa using hk), if_neg hk]
  refine ⟨?_, ?_, hinv.hand, hinv.ownLt, hinv.ownUniq, ?_, hinv.heldUniq, ?_, hinv.heldHand, hinv.pend⟩
  · intro name x hx
    simp only at hx ⊢
    by_cases h1 : name = .temp n
    · subst h1; rw [Function.update_self] at hx; cases hx
    · rw [Function.update_of_ne h1] at hx
      by_cases h2 : name = .archive k
      · subst h2; rw [Function.update_self] at hx; cases hx; exact h.ino _ _ hj
      · rw [Function.update_of_ne h2] at hx; exact h.ino name x hx
  · intro k' x hx
    simp only [hdirA] at hx
    by_cases hk : k' = k
    · rw [if_pos hk] at hx; cases hx; subst hk; exact .inl hdata
    · rw [if_neg hk] at hx; exact h.arch k' x hx
  · intro p' m x hm
    have hpp : p' ≠ p := by
      intro e; subst e
      simp only [Function.update_self, holds] at hm
      cases hm
    have hm' : holds (s.procs p') = some (m, x) := by simpa only [Function.update_of_ne hpp] using hm
    have hmn : m ≠ n := by
      intro e; subst e
      exact hpp (h.ownUniq p' p m (holds_owns hm') (holds_owns hheld))
    simp only
    rw [Function.update_of_ne (by simpa using hmn), Function.update_of_ne (by simp)]
    exact h.heldDir p' m x hm'
  · intro p' m x k' hm
    have hpp : p' ≠ p := by
      intro e; subst e
      simp only [Function.update_self, holds] at hm
      cases hm
    have hm' : holds (s.procs p') = some (m, x) := by simpa only [Function.update_of_ne hpp] using hm
    simp only [hdirA]
    by_cases hk : k' = k
    · rw [if_pos hk]
      intro e
      exact hpp (h.heldUniq p' p m n i (by rw [hm', Option.some.inj e]) hheld)
    · rw [if_neg hk]
      exact h.heldArch p' m x k' hm'

theorem inv_step {remote : Nat → List B} {Response : Nat → List B → Prop}
    (honest : ∀ k b, Response k b → b = remote k) {s₀ : FS B} {s t : Sys B} (h : Inv remote s₀ s)
    (hst : Step Response s t) : Inv remote s₀ t := by
  cases hst with
  | kill p =>
    exact inv_local h p .dead (.inl rfl) (.inl rfl) (.inl rfl) (by intro k i hm; simp [handles] at hm)
  | live hst =>
    cases hst with
    | start p ks hp =>
      exact inv_local h p _ (.inl rfl) (.inl rfl) (.inl rfl) (by intro k i hm; simp [handles] at hm)
    | remove k => exact inv_remove h k
    | proc p fs' q hps =>
      generalize ho : s.procs p = o at hps
      have hnone : ∀ q : Proc B, owns q = none → holds q = none → pending q = none → handles q = [] →
          Inv remote s₀ ⟨s.fs, Function.update s.procs p q⟩ := by
        intro q h1 h2 h3 h4
        exact inv_local h p q (.inl h1) (.inl h2) (.inl h3) (by intro k i hm; rw [h4] at hm; simp at hm)
      -- a process that is about to unlink `n` is the only one with this name
      have hfree : ∀ n, owns (s.procs p) = some n → holds (s.procs p) = none →
          ∀ p' i, holds (s.procs p') ≠ some (n, i) := by
        intro n h1 h2 p' i h3
        have := h.ownUniq p' p n (holds_owns h3) h1
        subst this
        rw [h2] at h3; cases h3
      cases hps with
      | check ks k rest missing => exact hnone _ rfl rfl rfl rfl
      | checked ks missing => exact hnone _ rfl rfl rfl rfl
      | refused ks missing _ => exact hnone _ rfl rfl rfl rfl
      | unreachable ks k missing => exact hnone _ rfl rfl rfl rfl
      | create ks k missing body hr =>
        rw [honest k body hr]
        exact inv_create h p ks k missing
      | write ks k n i piece rest missing => exact inv_write h p ks k n i piece rest missing ho
      | broken ks k n i body missing =>
        exact inv_local h p _ (.inr (by rw [ho]; rfl)) (.inl rfl) (.inl rfl) (by intro k i hm; simp [handles] at hm)
      | close ks k n i missing =>
        exact inv_local h p _ (.inr (by rw [ho]; rfl)) (.inr (by rw [ho]; rfl)) (.inr (by rw [ho]; rfl))
          (by intro k i hm; simp [handles] at hm)
      | replace ks k n i j missing hj => exact inv_replace h p ks k n i j missing ho hj
      | notReplaced ks k n i missing =>
        exact inv_local h p _ (.inr (by rw [ho]; rfl)) (.inl rfl) (.inl rfl) (by intro k i hm; simp [handles] at hm)
      | tidy ks n missing =>
        have h1 := inv_unlink h n (hfree n (by rw [ho]; rfl) (by rw [ho]; rfl))
        exact inv_local h1 p _ (.inl rfl) (.inl rfl) (.inl rfl) (by intro k i hm; simp [handles] at hm)
      | unwind n =>
        have h1 := inv_unlink h n (hfree n (by rw [ho]; rfl) (by rw [ho]; rfl))
        exact inv_local h1 p _ (.inl rfl) (.inl rfl) (.inl rfl) (by intro k i hm; simp [handles] at hm)
      | fetched ks => exact hnone _ rfl rfl rfl rfl
      | openFile ks k rest hs i hd =>
        refine inv_local h p _ (.inl rfl) (.inl rfl) (.inl rfl) ?_
        intro k' i' hm
        simp only [handles] at hm
        rcases List.mem_append.mp hm with hm | hm
        · left; rw [ho]; exact hm
        · right
          obtain ⟨rfl, rfl⟩ := Prod.mk.inj (List.mem_singleton.mp hm)
          exact hd
      | notFound ks k rest hs _ => exact hnone _ rfl rfl rfl rfl
      | done ks hs =>
        refine inv_local h p _ (.inl rfl) (.inl rfl) (.inl rfl) ?_
        intro k' i' hm
        left; rw [ho]; exact hm

theorem inv_many {remote : Nat → List B} {Response : Nat → List B → Prop}
    (honest : ∀ k b, Response k b → b = remote k) {s t : Sys B} (hi : Initial s)
    (h : Many (Step Response) s t) : Inv remote s.fs t := by
  induction h with
  | refl => exact inv_initial remote _ hi
  | tail _ hst ih => exact inv_step honest ih hst

/-! ## Without kills, temporary files have an owner -/

theorem temps_step {Response : Nat → List B → Prop} {s t : Sys B}
    (h : ∀ n i, s.fs.dir (.temp n) = some i → ∃ p, owns (s.procs p) = some n)
    (hst : LiveStep Response s t) : ∀ n i, t.fs.dir (.temp n) = some i → ∃ p, owns (t.procs p) = some n := by
  -- a process that keeps its name
  have keep : ∀ (p : Nat) (q : Proc B), (∀ n, owns (s.procs p) = some n → owns q = some n) →
      ∀ n, (∃ p', owns (s.procs p') = some n) → ∃ p', owns (Function.update s.procs p q p') = some n := by
    intro p q hq n ⟨p', hp'⟩
    by_cases hpp : p' = p
    · subst hpp; exact ⟨p', by rw [Function.update_self]; exact hq n hp'⟩
    · exact ⟨p', by rw [Function.update_of_ne hpp]; exact hp'⟩
  cases hst with
  | start p ks hp =>
    intro n i hn
    exact keep p _ (by intro n hn; rw [hp] at hn; cases hn) n (h n i hn)
  | remove k =>
    intro n i hn
    simp only at hn
    rw [Function.update_of_ne (by simp)] at hn
    exact h n i hn
  | proc p fs' q hps =>
    generalize ho : s.procs p = o at hps
    have other : ∀ (m : Nat) (q : Proc B), owns o = some m → ∀ n, n ≠ m →
        (∃ p', owns (s.procs p') = some n) → ∃ p', owns (Function.update s.procs p q p') = some n := by
      intro m q hm n hn ⟨p', hp'⟩
      by_cases hpp : p' = p
      · subst hpp; rw [ho, hm] at hp'; exact absurd (Option.some.inj hp').symm hn
      · exact ⟨p', by rw [Function.update_of_ne hpp]; exact hp'⟩
    intro n i hn
    cases hps with
    | check ks k rest missing => exact keep p _ (by intro n hn; rw [ho] at hn; cases hn) n (h n i hn)
    | checked ks missing => exact keep p _ (by intro n hn; rw [ho] at hn; cases hn) n (h n i hn)
    | refused ks missing _ => exact keep p _ (by intro n hn; rw [ho] at hn; cases hn) n (h n i hn)
    | unreachable ks k missing => exact keep p _ (by intro n hn; rw [ho] at hn; cases hn) n (h n i hn)
    | create ks k missing body hr =>
      simp only at hn
      by_cases hnn : n = s.fs.nextTemp
      · exact ⟨p, by simp [owns, hnn]⟩
      · rw [Function.update_of_ne (by simpa using hnn)] at hn
        exact keep p _ (by intro n hn; rw [ho] at hn; cases hn) n (h n i hn)
    | write ks k m j piece rest missing => exact keep p _ (by intro n hn; rw [ho] at hn; exact hn) n (h n i hn)
    | broken ks k m j body missing => exact keep p _ (by intro n hn; rw [ho] at hn; exact hn) n (h n i hn)
    | close ks k m j missing => exact keep p _ (by intro n hn; rw [ho] at hn; exact hn) n (h n i hn)
    | replace ks k m j j' missing hj =>
      simp only at hn
      by_cases hnm : n = m
      · subst hnm; rw [Function.update_self] at hn; cases hn
      · rw [Function.update_of_ne (by simpa using hnm), Function.update_of_ne (by simp)] at hn
        exact keep p _ (by intro n hn; rw [ho] at hn; exact hn) n (h n i hn)
    | notReplaced ks k m j missing => exact keep p _ (by intro n hn; rw [ho] at hn; exact hn) n (h n i hn)
    | tidy ks m missing =>
      simp only at hn
      by_cases hnm : n = m
      · subst hnm; rw [Function.update_self] at hn; cases hn
      · rw [Function.update_of_ne (by simpa using hnm)] at hn
        exact other m _ rfl n hnm (h n i hn)
    | unwind m =>
      simp only at hn
      by_cases hnm : n = m
      · subst hnm; rw [Function.update_self] at hn; cases hn
      · rw [Function.update_of_ne (by simpa using hnm)] at hn
        exact other m _ rfl n hnm (h n i hn)
    | fetched ks => exact keep p _ (by intro n hn; rw [ho] at hn; cases hn) n (h n i hn)
    | openFile ks k rest hs j hd => exact keep p _ (by intro n hn; rw [ho] at hn; cases hn) n (h n i hn)
    | notFound ks k rest hs _ => exact keep p _ (by intro n hn; rw [ho] at hn; cases hn) n (h n i hn)
    | done ks hs => exact keep p _ (by intro n hn; rw [ho] at hn; cases hn) n (h n i hn)

/-! ## A process running alone -/

theorem Many.trans {R : Sys B → Sys B → Prop} {s t u : Sys B} (h1 : Many R s t) (h2 : Many R t u) : Many R s u := by
  induction h2 with
  | refl => exact h1
  | tail _ hst ih => exact .tail ih hst

theorem one {Response : Nat → List B → Prop} {s : Sys B} {p : Nat} {o : Proc B} (hp : s.procs p = o)
    {fs' : FS B} {q : Proc B} (h : ProcStep Response s.fs o fs' q) :
    Many (Step Response) s ⟨fs', Function.update s.procs p q⟩ :=
  .tail (.refl _) (.live (.proc s p fs' q (hp ▸ h)))

theorem run_check {Response : Nat → List B → Prop} (ks rest : List Nat) : ∀ (missing : List Nat) (s : Sys B) (p : Nat),
    s.procs p = .checking ks rest missing →
    ∃ t, Many (Step Response) s t ∧ t.fs = s.fs ∧
      t.procs p = .fetching ks (missing ++ rest.filter (fun k => s.fs.dir (.archive k) = none)) := by
  induction rest with
  | nil =>
    intro missing s p hp
    exact ⟨_, one hp (.checked s.fs ks missing), rfl, by simp⟩
  | cons k rest ih =>
    intro missing s p hp
    have h1 := one hp (.check (Response := Response) s.fs ks k rest missing)
    obtain ⟨t, h2, h3, h4⟩ := ih (if s.fs.dir (.archive k) = none then missing ++ [k] else missing)
      ⟨s.fs, Function.update s.procs p (.checking ks rest
        (if s.fs.dir (.archive k) = none then missing ++ [k] else missing))⟩ p (Function.update_self ..)
    refine ⟨t, h1.trans h2, h3, ?_⟩
    rw [h4]
    simp only [List.filter_cons]
    by_cases hd : s.fs.dir (.archive k) = none
    · simp [hd]
    · simp [hd]

theorem run_fetch {Response : Nat → List B → Prop} (body : Nat → List B) (ks missing : List Nat) :
    ∀ (s : Sys B) (p : Nat), (∀ k ∈ missing, Response k (body k)) → s.procs p = .fetching ks missing →
    (∀ name i, s.fs.dir name = some i → i < s.fs.nextIno) →
    ∃ t, Many (Step Response) s t ∧ t.procs p = .fetching ks [] ∧
      (∀ name i, t.fs.dir name = some i → i < t.fs.nextIno) ∧
      (∀ i, i < s.fs.nextIno → t.fs.data i = s.fs.data i) ∧ s.fs.nextIno ≤ t.fs.nextIno ∧
      (∀ k, k ∉ missing → t.fs.dir (.archive k) = s.fs.dir (.archive k)) ∧
      ∀ k ∈ missing, ∃ i, t.fs.dir (.archive k) = some i ∧ t.fs.data i = body k := by
  induction missing with
  | nil =>
    intro s p _ hp hino
    exact ⟨s, .refl s, hp, hino, fun _ _ => rfl, Nat.le_refl _, fun _ _ => rfl, by simp⟩
  | cons k missing ih =>
    intro s p hr hp hino
    -- create
    have h1 := one hp (.create s.fs ks k missing (body k) (hr k (by simp)))
    set s1 : Sys B := ⟨_, Function.update s.procs p _⟩ with hs1
    have hp1 : s1.procs p = .copying ks k s.fs.nextTemp s.fs.nextIno (body k ++ []) missing := by
      rw [hs1]; simp
    -- write everything
    have h2 := one hp1 (.write (Response := Response) s1.fs ks k s.fs.nextTemp s.fs.nextIno (body k) [] missing)
    set s2 : Sys B := ⟨_, Function.update s1.procs p _⟩ with hs2
    have hp2 : s2.procs p = .copying ks k s.fs.nextTemp s.fs.nextIno [] missing := by rw [hs2]; simp
    have h3 := one hp2 (.close (Response := Response) s2.fs ks k s.fs.nextTemp s.fs.nextIno missing)
    set s3 : Sys B := ⟨_, Function.update s2.procs p _⟩ with hs3
    have hp3 : s3.procs p = .copied ks k s.fs.nextTemp s.fs.nextIno missing := by rw [hs3]; simp
    have h4 := one hp3 (.replace (Response := Response) s3.fs ks k s.fs.nextTemp s.fs.nextIno s.fs.nextIno missing
      (by rw [hs3, hs2, hs1]; simp))
    set s4 : Sys B := ⟨_, Function.update s3.procs p _⟩ with hs4
    have hp4 : s4.procs p = .tidying ks s.fs.nextTemp missing := by rw [hs4]; simp
    have h5 := one hp4 (.tidy (Response := Response) s4.fs ks s.fs.nextTemp missing)
    set s5 : Sys B := ⟨_, Function.update s4.procs p _⟩ with hs5
    have hp5 : s5.procs p = .fetching ks missing := by rw [hs5]; simp
    -- the file system now
    have hnext : s5.fs.nextIno = s.fs.nextIno + 1 := rfl
    have hdirk : s5.fs.dir (.archive k) = some s.fs.nextIno := by
      rw [hs5, hs4]; simp
    have hdir : ∀ k', k' ≠ k → s5.fs.dir (.archive k') = s.fs.dir (.archive k') := by
      intro k' hk'
      rw [hs5, hs4, hs3, hs2, hs1]
      simp [Function.update_of_ne, hk']
    have hdata : ∀ i, i ≠ s.fs.nextIno → s5.fs.data i = s.fs.data i := by
      intro i hi
      show Function.update (Function.update s.fs.data s.fs.nextIno []) s.fs.nextIno _ i = _
      rw [Function.update_of_ne hi, Function.update_of_ne hi]
    have hdatak : s5.fs.data s.fs.nextIno = body k := by
      show Function.update (Function.update s.fs.data s.fs.nextIno []) s.fs.nextIno
        (Function.update s.fs.data s.fs.nextIno [] s.fs.nextIno ++ body k) s.fs.nextIno = _
      simp
    have hino5 : ∀ name i, s5.fs.dir name = some i → i < s5.fs.nextIno := by
      intro name i hi
      rw [hnext]
      cases name with
      | archive k' =>
        by_cases hk' : k' = k
        · subst hk'; rw [hdirk] at hi; cases hi; omega
        · rw [hdir k' hk'] at hi; have := hino _ i hi; omega
      | temp n =>
        by_cases hn : n = s.fs.nextTemp
        · subst hn
          rw [hs5] at hi
          simp at hi
        · have : s5.fs.dir (.temp n) = s.fs.dir (.temp n) := by
            rw [hs5, hs4, hs3, hs2, hs1]
            simp [Function.update_of_ne, hn]
          rw [this] at hi
          have := hino _ i hi; omega
    obtain ⟨t, i1, i2, i3, i4, i5, i6, i7⟩ := ih s5 p (fun k' hk' => hr k' (by simp [hk'])) hp5 hino5
    refine ⟨t, ((((h1.trans h2).trans h3).trans h4).trans h5).trans i1, i2, i3, ?_, by omega, ?_, ?_⟩
    · intro i hi
      rw [i4 i (by omega), hdata i (by omega)]
    · intro k' hk'
      rw [i6 k' (fun h => hk' (by simp [h])), hdir k' (fun h => hk' (by simp [h]))]
    · intro k' hk'
      by_cases hm : k' ∈ missing
      · exact i7 k' hm
      · have : k' = k := by
          rcases List.mem_cons.mp hk' with h | h
          · exact h
          · exact absurd h hm
        subst this
        exact ⟨s.fs.nextIno, by rw [i6 k' hm, hdirk], by rw [i4 _ (by omega), hdatak]⟩

theorem run_open {Response : Nat → List B → Prop} (ks rest : List Nat) : ∀ (hs : List (Nat × Nat)) (s : Sys B) (p : Nat),
    s.procs p = .opening ks rest hs → (∀ k ∈ rest, s.fs.dir (.archive k) ≠ none) →
    ∃ t hs', Many (Step Response) s t ∧ t.fs = s.fs ∧ t.procs p = .ready (hs ++ hs') ∧ hs'.map (·.1) = rest ∧
      ∀ k i, (k, i) ∈ hs' → s.fs.dir (.archive k) = some i := by
  induction rest with
  | nil =>
    intro hs s p hp _
    exact ⟨_, [], one hp (.done s.fs ks hs), rfl, by simp, rfl, by simp⟩
  | cons k rest ih =>
    intro hs s p hp hd
    obtain ⟨i, hi⟩ := Option.ne_none_iff_exists'.mp (hd k (by simp))
    have h1 := one hp (.openFile (Response := Response) s.fs ks k rest hs i hi)
    obtain ⟨t, hs', h2, h3, h4, h5, h6⟩ := ih (hs ++ [(k, i)])
      ⟨s.fs, Function.update s.procs p (.opening ks rest (hs ++ [(k, i)]))⟩ p (Function.update_self ..)
      (fun k' hk' => hd k' (by simp [hk']))
    refine ⟨t, (k, i) :: hs', h1.trans h2, h3, ?_, ?_, ?_⟩
    · rw [h4]; simp
    · simp [h5]
    · intro k' i' hm
      rcases List.mem_cons.mp hm with hm | hm
      · obtain ⟨rfl, rfl⟩ := Prod.mk.inj hm
        exact hi
      · exact h6 k' i' hm

/-- a process that runs alone with responses for everything gets all archives -/
theorem run_alone {Response : Nat → List B → Prop} (body : Nat → List B) (ks : List Nat) (s : Sys B) (p : Nat)
    (hp : s.procs p = .idle) (hr : ∀ k ∈ ks, Response k (body k))
    (hino : ∀ name i, s.fs.dir name = some i → i < s.fs.nextIno) :
    ∃ t hs, Many (Step Response) s t ∧ t.procs p = .ready hs ∧ hs.map (·.1) = ks ∧
      ∀ k i, (k, i) ∈ hs → (s.fs.dir (.archive k) = none → t.fs.data i = body k) ∧
        (s.fs.dir (.archive k) ≠ none → s.fs.dir (.archive k) = some i ∧ t.fs.data i = s.fs.data i) := by
  have h0 : Many (Step Response) s ⟨s.fs, Function.update s.procs p (.checking ks ks [])⟩ :=
    .tail (.refl s) (.live (.start s p ks hp))
  obtain ⟨s1, h1, e1, p1⟩ := run_check (Response := Response) ks ks []
    ⟨s.fs, Function.update s.procs p (.checking ks ks [])⟩ p (Function.update_self ..)
  simp only [List.nil_append] at p1
  have e1' : s1.fs = s.fs := e1
  obtain ⟨s2, h2, p2, i2, d2, -, a2, a3⟩ := run_fetch body ks _ s1 p (by
    intro k hk
    exact hr k (List.mem_filter.mp hk).1) p1 (by rw [e1']; exact hino)
  rw [e1'] at d2 a2
  have hf := one p2 (.fetched (Response := Response) s2.fs ks)
  obtain ⟨t, hs, h4, e4, p4, m4, o4⟩ := run_open (Response := Response) ks ks []
    ⟨s2.fs, Function.update s2.procs p (.opening ks ks [])⟩ p (Function.update_self ..) (by
      intro k hk
      simp only
      by_cases hd : s.fs.dir (.archive k) = none
      · obtain ⟨i, hi, -⟩ := a3 k (by simp [hk, hd])
        rw [hi]; simp
      · rw [a2 k (by simp [hd])]; exact hd)
  have e4' : t.fs = s2.fs := e4
  refine ⟨t, hs, (((h0.trans h1).trans h2).trans hf).trans h4, by simpa using p4, m4, ?_⟩
  intro k i hm
  have hki : s2.fs.dir (.archive k) = some i := o4 k i hm
  have hk : k ∈ ks := by rw [← m4]; exact List.mem_map.mpr ⟨_, hm, rfl⟩
  rw [e4']
  constructor
  · intro hd
    obtain ⟨j, hj, hj'⟩ := a3 k (by simp [hk, hd])
    rw [hki] at hj
    cases hj
    exact hj'
  · intro hd
    have := a2 k (by simp [hd])
    rw [hki] at this
    exact ⟨this.symm, d2 i (hino _ i this.symm)⟩

end Irspack.Download
