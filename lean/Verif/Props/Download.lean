import Verif.Proofs.Download

/-!
# C57: downloads are crash-safe; C65: where the token is sent

`remote k` is the content of archive `k` on the server.  `Complete` says that the file behind an inode is the
whole archive, or a file that was at this path before anything was started, as it was.
-/

namespace Irspack.Download

variable {B : Type}

/-- inode `i` is complete as archive `k` in the file system `now`, given the file system at the beginning -/
def Complete (remote : Nat → List B) (before now : FS B) (k i : Nat) : Prop :=
  now.data i = remote k ∨ (before.dir (.archive k) = some i ∧ now.data i = before.data i)

/-- a process that does nothing any more, or has not begun -/
def Finished : Proc B → Prop
  | .idle => True
  | .ready _ => True
  | .failed => True
  | _ => False

/-- In every state that any number of processes can reach, starting, stopping and being killed at any point,
what is at the path of an archive is complete, provided that a response that ends without an exception is the
whole archive. -/
theorem C57_archives_complete (remote : Nat → List B) (Response : Nat → List B → Prop)
    (honest : ∀ k b, Response k b → b = remote k) (s t : Sys B) (hi : Initial s)
    (h : Many (Step Response) s t) (k i : Nat) (hk : t.fs.dir (.archive k) = some i) :
    Complete remote s.fs t.fs k i :=
  (inv_many honest hi h).arch k i hk

/-- The archives a constructed manager reads are complete, and remain so whatever other processes do. -/
theorem C57_manager_reads_complete (remote : Nat → List B) (Response : Nat → List B → Prop)
    (honest : ∀ k b, Response k b → b = remote k) (s t : Sys B) (hi : Initial s)
    (h : Many (Step Response) s t) (p : Nat) (hs : List (Nat × Nat)) (hp : t.procs p = .ready hs)
    (k i : Nat) (hk : (k, i) ∈ hs) : Complete remote s.fs t.fs k i :=
  ((inv_many honest hi h).hand p k i (by rw [hp]; exact hk)).1

/-- After any history, with any processes killed at any points, a new process that runs undisturbed and gets
responses is constructed with exactly the archives it needs, in their order, all complete.  Archives that are
missing are downloaded, those that are there are kept. -/
theorem C57_restart (remote : Nat → List B) (Response : Nat → List B → Prop)
    (honest : ∀ k b, Response k b → b = remote k) (s t : Sys B) (hi : Initial s)
    (h : Many (Step Response) s t) (p : Nat) (hp : t.procs p = .idle) (ks : List Nat)
    (hr : ∀ k ∈ ks, Response k (remote k)) :
    ∃ u hs, Many (Step Response) t u ∧ u.procs p = .ready hs ∧ hs.map (·.1) = ks ∧
      ∀ k i, (k, i) ∈ hs → Complete remote s.fs u.fs k i ∧
        (t.fs.dir (.archive k) = none → u.fs.data i = remote k) ∧
        (t.fs.dir (.archive k) ≠ none → t.fs.dir (.archive k) = some i) := by
  have hinv := inv_many honest hi h
  obtain ⟨u, hs, h1, h2, h3, h4⟩ := run_alone remote ks t p hp hr hinv.ino
  refine ⟨u, hs, h1, h2, h3, ?_⟩
  intro k i hm
  exact ⟨C57_manager_reads_complete remote Response honest s u hi (h.trans h1) p hs h2 k i hm,
    (h4 k i hm).1, fun hd => ((h4 k i hm).2 hd).1⟩

/-- Unless a process is killed, no temporary file remains when all have finished, with or without exceptions. -/
theorem C57_no_leftovers (Response : Nat → List B → Prop) (s t : Sys B) (hi : Initial s)
    (h : Many (LiveStep Response) s t) (hf : ∀ p, Finished (t.procs p)) (n : Nat) :
    t.fs.dir (.temp n) = none := by
  have key : ∀ n i, t.fs.dir (.temp n) = some i → ∃ p, owns (t.procs p) = some n := by
    clear hf
    induction h with
    | refl => intro n i hn; rw [hi.temps n] at hn; cases hn
    | tail _ hst ih => exact temps_step ih hst
  cases hd : t.fs.dir (.temp n) with
  | none => rfl
  | some i =>
    obtain ⟨p, hp⟩ := key n i hd
    have := hf p
    cases hq : t.procs p <;> rw [hq] at hp this <;> simp_all [owns, Finished]

/-- an empty file system -/
def emptyFS : FS Nat := ⟨fun _ => none, fun _ => [], 0, 0⟩

/-- nothing started, no file -/
def emptySys : Sys Nat := ⟨emptyFS, fun _ => .idle⟩

theorem initial_empty : Initial emptySys :=
  ⟨fun _ => rfl, fun _ _ h => (by cases h), fun _ => rfl⟩

/-- The restriction in `C57_archives_complete` to responses that are whole is needed.  The code does not compare
what it got with the announced length: a connection that is closed early without an exception, as
`HTTPResponse.read(n)` reports it, leaves a part of the archive at its path, and the manager is constructed
with it.  (The zip reader may notice when it looks for the directory at the end of the file; the file stays.) -/
theorem C57_truncated_response_counterexample :
    ∃ (remote : Nat → List Nat) (t : Sys Nat) (hs : List (Nat × Nat)),
      Many (Step (fun k b => b <+: remote k)) emptySys t ∧ t.procs 0 = .ready hs ∧
      ∃ i, (0, i) ∈ hs ∧ ¬ Complete remote emptySys.fs t.fs 0 i := by
  refine ⟨fun _ => [1, 2], ?_⟩
  obtain ⟨t, hs, h1, h2, h3, h4⟩ := run_alone (Response := fun k b => b <+: (fun _ : Nat => [1, 2]) k)
    (fun _ => [1]) [0] emptySys 0 rfl (by simp) initial_empty.ino
  refine ⟨t, hs, h1, h2, ?_⟩
  obtain ⟨⟨k, i⟩, hm, rfl⟩ := List.mem_map.mp (show 0 ∈ hs.map (·.1) by rw [h3]; simp)
  refine ⟨i, hm, ?_⟩
  have := (h4 0 i hm).1 rfl
  rintro (h | ⟨h, -⟩)
  · rw [this] at h; simp at h
  · cases h

/-- For the generic zip downloader the property fails even when every response is whole: it writes to the final
path.  The first process is killed while it writes; the second finds the file there and opens a part of the
archive. -/
theorem C57_generic_crash_counterexample :
    ∃ (remote : Nat → List Nat) (fs : FS Nat) (procs : Nat → Single Nat) (i : Nat),
      SingleSys (fun k b => b = remote k) (emptyFS, fun _ => .idle) (fs, procs) ∧
      procs 1 = .ready 0 i ∧ ¬ Complete remote emptyFS fs 0 i := by
  refine ⟨fun _ => [1, 2], ?_⟩
  have a0 : SingleSys (fun k b => b = (fun _ : Nat => [1, 2]) k) (emptyFS, fun _ => .idle) (emptyFS, fun _ => .idle) :=
    .refl _
  have a1 := SingleSys.start _ _ 0 0 a0 rfl
  have a2 := SingleSys.proc _ _ 0 _ _ a1 (by rw [Function.update_self]; exact .missing _ 0 rfl)
  have a3 := SingleSys.proc _ _ 0 _ _ a2 (by rw [Function.update_self]; exact .create _ 0 [1, 2] rfl rfl)
  have a4 := SingleSys.proc _ _ 0 _ _ a3 (by
    rw [Function.update_self]; exact .write _ 0 0 [1] [2])
  have a5 := SingleSys.kill _ _ 0 a4
  have a6 := SingleSys.start _ _ 1 0 a5 (by simp)
  have a7 := SingleSys.proc _ _ 1 _ _ a6 (by rw [Function.update_self]; exact .exists _ 0 0 (by simp [emptyFS]))
  have a8 := SingleSys.proc _ _ 1 _ _ a7 (by rw [Function.update_self]; exact .openFile _ 0 0 (by simp [emptyFS]))
  refine ⟨_, _, 0, a8, by simp, ?_⟩
  rintro (h | ⟨h, -⟩)
  · simp [emptyFS] at h
  · cases h

/-- the hypotheses are met: a process is killed in the middle of a download, the next one downloads again -/
example : ∃ (t u : Sys Nat) (hs : List (Nat × Nat)),
    Many (Step (fun _ b => b = [1, 2])) emptySys t ∧ t.procs 0 = .dead ∧ t.fs.dir (.temp 0) = some 0 ∧
    t.fs.data 0 = [1] ∧ Many (Step (fun _ b => b = [1, 2])) t u ∧ u.procs 1 = .ready hs ∧
    hs.map (·.1) = [0, 1] := by
  have a0 : Many (Step (fun _ b => b = [1, 2])) emptySys emptySys := .refl _
  have a1 := Many.tail a0 (.live (.start _ 0 [0, 1] rfl))
  have a2 := Many.tail a1 (.live (.proc _ 0 _ _ (by simp only [Function.update_self]; exact .check _ _ 0 [1] [])))
  have a3 := Many.tail a2 (.live (.proc _ 0 _ _ (by simp only [Function.update_self]; exact .check _ _ 1 [] _)))
  have a4 := Many.tail a3 (.live (.proc _ 0 _ _ (by simp only [Function.update_self]; exact .checked _ _ [0, 1])))
  have a5 := Many.tail a4 (.live (.proc _ 0 _ _ (by
    simp only [Function.update_self]; exact .create _ _ 0 [1] [1, 2] rfl)))
  have a6 := Many.tail a5 (.live (.proc _ 0 _ _ (by
    simp only [Function.update_self]; exact .write _ _ 0 0 0 [1] [2] [1])))
  have a7 := Many.tail a6 (.kill _ 0)
  obtain ⟨u, hs, h1, h2, h3, -⟩ := C57_restart (fun _ => [1, 2]) _ (fun _ _ h => h) _ _ initial_empty a7 1
    (by simp [emptySys]) [0, 1] (by simp)
  exact ⟨_, u, hs, a7, by simp, by simp [emptySys, emptyFS], by simp [emptySys, emptyFS], h1, h2, h3⟩

/-! ## Decisions -/

/-- Unknown sizes and sources are rejected before anything is read or downloaded; others are not. -/
theorem C57_arguments (size source : String) :
    (checkArguments size source = .ok () ↔
      (size = "small" ∨ size = "large") ∧ (source = "huggingface" ∨ source = "azure")) ∧
    ∀ e, checkArguments size source = .error e → e = .valueError := by
  unfold checkArguments
  constructor
  · by_cases h1 : size = "small" <;> by_cases h2 : size = "large" <;> by_cases h3 : source = "huggingface" <;>
      by_cases h4 : source = "azure" <;> simp [h1, h2, h3, h4]
  · intro e
    split
    · intro h; cases h; rfl
    · split
      · intro h; cases h; rfl
      · intro h; cases h

/-- the first of the given strings that is neither missing nor empty -/
def IsFirst (l : List (Option String)) (s : String) : Prop :=
  ∃ before after, l = before ++ some s :: after ∧ s ≠ "" ∧ ∀ x ∈ before, x = none ∨ x = some ""

theorem first_unique {l : List (Option String)} {s s' : String} (h : IsFirst l s) (h' : IsFirst l s') : s = s' := by
  obtain ⟨b, a, rfl, hs, hb⟩ := h
  obtain ⟨b', a', he, hs', hb'⟩ := h'
  induction b generalizing b' with
  | nil =>
    cases b' with
    | nil => simp at he; exact he.1
    | cons x b' =>
      simp at he
      rcases hb' x (by simp) with h | h
      · rw [h] at he; simp at he
      · rw [h] at he; simp at he; exact absurd he.1 hs
  | cons y b ih =>
    cases b' with
    | nil =>
      simp at he
      rcases hb y (by simp) with h | h
      · rw [h] at he; simp at he
      · rw [h] at he; simp at he; exact absurd he.1.symm (Ne.symm hs')
    | cons x b' =>
      simp at he
      exact ih (fun z hz => hb z (by simp [hz])) b' he.2 (fun z hz => hb' z (by simp [hz]))

/-- With the source `huggingface` the token that is sent is the argument if it is given, otherwise the first
of the two environment variables that is set; empty strings count as not set.  Nothing is sent if none is. -/
theorem C65_token (hfToken hfEnv hubEnv : Option String) (s : String) :
    authorization "huggingface" hfToken hfEnv hubEnv = some s ↔ IsFirst [hfToken, hfEnv, hubEnv] s := by
  have key : ∀ s, authorization "huggingface" hfToken hfEnv hubEnv = some s →
      IsFirst [hfToken, hfEnv, hubEnv] s := by
    intro s
    have e : ∀ x : Option String, x = none ∨ x = some "" ∨ ∃ s, x = some s ∧ s ≠ "" := by
      intro x
      cases x with
      | none => exact .inl rfl
      | some s => by_cases h : s = ""
                  · subst h; exact .inr (.inl rfl)
                  · exact .inr (.inr ⟨s, rfl, h⟩)
    rcases e hfToken with rfl | rfl | ⟨a, rfl, ha⟩ <;> rcases e hfEnv with rfl | rfl | ⟨b, rfl, hb⟩ <;>
      rcases e hubEnv with rfl | rfl | ⟨c, rfl, hc⟩ <;>
      simp (config := { contextual := true }) only [authorization, orElse, if_true, if_false, reduceCtorEq,
        IsEmpty.forall_iff, Option.some.injEq, *] <;>
      (intro h; subst h) <;>
      first
        | exact ⟨[], _, rfl, by assumption, by simp⟩
        | exact ⟨[_], _, rfl, by assumption, by simp⟩
        | exact ⟨[_, _], _, rfl, by assumption, by simp⟩
  refine ⟨key s, ?_⟩
  intro h
  cases ha : authorization "huggingface" hfToken hfEnv hubEnv with
  | some s' => rw [first_unique h (key s' ha)]
  | none =>
    exfalso
    obtain ⟨b, a, he, hs, hb⟩ := h
    unfold authorization orElse at ha
    match b, he with
    | [], he =>
      simp at he
      obtain ⟨rfl, -⟩ := he
      simp [hs] at ha
    | [x], he =>
      simp at he
      obtain ⟨rfl, rfl, -⟩ := he
      rcases hb hfToken (by simp) with rfl | rfl <;> simp [hs] at ha
    | [x, y], he =>
      simp at he
      obtain ⟨rfl, rfl, rfl, -⟩ := he
      rcases hb hfToken (by simp) with rfl | rfl <;> rcases hb hfEnv (by simp) with rfl | rfl <;> simp [hs] at ha
    | x :: y :: z :: b, he => simp at he

/-- With the source `azure` the argument is not sent.  Missing from the full claim: nothing is sent. -/
theorem C65_argument_kept_partial (hfToken hfToken' hfEnv hubEnv : Option String) :
    authorization "azure" hfToken hfEnv hubEnv = authorization "azure" hfToken' hfEnv hubEnv ∧
    authorization "azure" hfToken none none = none := by
  simp [authorization, orElse]

/-- The Hugging Face token of the environment is sent to the Azure server. -/
theorem C65_token_leak_counterexample : ∃ (source : String) (token : String) (hfToken hfEnv hubEnv : Option String),
    checkArguments "small" source = .ok () ∧ source ≠ "huggingface" ∧ hfEnv = some token ∧
    authorization source hfToken hfEnv hubEnv = some token :=
  ⟨"azure", "hf_secret", none, some "hf_secret", none, by decide, by decide, rfl, by decide⟩

/-- A refusal for lack of permission or because the data has moved is a `RuntimeError`; any other HTTP error is
passed on. -/
theorem C57_http_errors (code : Nat) :
    (httpError code = .runtimeError ↔ code = 401 ∨ code = 403 ∨ code = 409) ∧
    (httpError code = .runtimeError ∨ httpError code = .osError) := by
  unfold httpError
  by_cases h1 : code = 401 ∨ code = 403 <;> by_cases h2 : code = 409 <;> simp [h1, h2]

example : IsFirst [some "", some "a", some "b"] "a" := ⟨[some ""], [some "b"], rfl, by decide, by simp⟩

end Irspack.Download
