import Mathlib.Data.List.Sort
import Verif.Proofs.Memory

/-!
# C70: the caller's arrays

Evaluating score matrices or score blocks never changes an array of the caller, whatever views,
shared buffers or buffer reuse the caller employs, and uses the values the arrays hold when they are
handed over.  Evaluating a *model* and batch retrieval with forbidden items do write into the arrays
they are given.
-/

namespace Irspack.Memory

open Irspack Irspack.Evaluation Irspack.Retrieval

section
variable {S : Type} [LinearOrder S] [OrderBot S]

/-- The memory of the caller after the evaluation of score blocks is what the caller's own iterable
made of it: that of running alone the steps that were requested (all of them when the evaluation
succeeds). -/
theorem C70_chunks_memory (ev : Evaluator) (mask : Option Mask) (gens : List (Step S)) (m : Mem S)
    (cutoffs : List Nat) :
    ∃ used, used <+: gens ∧
      (scoresFromChunks ev mask gens m cutoffs).1.caller = alone used m.caller ∧
      (∀ ds, (scoresFromChunks ev mask gens m cutoffs).2 = .ok ds → used = gens) := by
  obtain ⟨used, h1, h2, h3⟩ := chunkLoop_caller ev mask gens m 0
    (cutoffs.map (fun c => (c, Metrics.empty)))
  refine ⟨used, h1, ?_, ?_⟩
  · unfold scoresFromChunks
    simp only
    cases hx : (chunkLoop ev mask gens m 0 (cutoffs.map (fun c => (c, Metrics.empty)))).2 with
    | error e => exact h2
    | ok x =>
      obtain ⟨start, ms⟩ := x
      simp only
      by_cases hs : start ≠ ev.nUsers
      · rw [if_pos hs]; exact h2
      · rw [if_neg hs]; exact h2
  · intro ds
    unfold scoresFromChunks
    simp only
    cases hx : (chunkLoop ev mask gens m 0 (cutoffs.map (fun c => (c, Metrics.empty)))).2 with
    | error e => intro h; cases h
    | ok x => intro _; exact h3 x hx

/-- In particular an iterable that does not write to a buffer finds it unchanged. -/
theorem C70_chunks_untouched (ev : Evaluator) (mask : Option Mask) (gens : List (Step S)) (m : Mem S)
    (cutoffs : List Nat) (b : Nat) (hb : ∀ g ∈ gens, ∀ st, (g st).1 b = st b) :
    (scoresFromChunks ev mask gens m cutoffs).1.caller b = m.caller b := by
  obtain ⟨used, h1, h2, -⟩ := C70_chunks_memory ev mask gens m cutoffs
  rw [h2]
  have hu : ∀ g ∈ used, ∀ st, (g st).1 b = st b := fun g hg => hb g (h1.subset hg)
  clear h1 h2 hb
  generalize m.caller = st
  unfold alone
  induction used generalizing st with
  | nil => rfl
  | cons g used ih =>
    rw [List.foldl_cons, ih (fun g' hg' => hu g' (List.mem_cons_of_mem _ hg'))]
    exact hu g List.mem_cons_self st

/-- The metrics are those of the values the arrays hold when they are yielded; what the caller does to
its buffers afterwards (reusing them for the next block, say) has no effect. -/
theorem C70_chunks_values (ev : Evaluator) (mask : Option Mask) (hm : InShape mask ev.nItems)
    (gens : List (Step S)) (m : Mem S) (cs : List (Chunk S)) (hd : Delivers gens m.caller cs)
    (cutoffs : List Nat) :
    (scoresFromChunks ev mask gens m cutoffs).2 = ev.scoresFromChunksWith mask cs cutoffs := by
  have h := chunkLoop_delivers ev mask hm hd [] m rfl 0 (cutoffs.map (fun c => (c, Metrics.empty)))
  rw [List.append_nil] at h
  unfold scoresFromChunks Evaluator.scoresFromChunksWith
  cases hx : ev.chunkLoop mask cs 0 (cutoffs.map (fun c => (c, Metrics.empty))) with
  | error e => rw [hx] at h; simp only at h; simp only [h]
  | ok x =>
    rw [hx] at h
    obtain ⟨m', -, h2⟩ := h
    obtain ⟨start, ms⟩ := x
    simp only [chunkLoop] at h2
    simp only [h2]
    by_cases hs : start ≠ ev.nUsers
    · rw [if_pos hs, if_pos hs]
    · rw [if_neg hs, if_neg hs]

/-- When the iterable raises, the evaluation raises: the same exception, unless a block before it was
already rejected. -/
theorem C70_chunks_raise (ev : Evaluator) (mask : Option Mask) (hm : InShape mask ev.nItems)
    (gens rest : List (Step S)) (g : Step S) (m : Mem S) (cs : List (Chunk S))
    (hd : Delivers gens m.caller cs) (e : Err) (he : (g (alone gens m.caller)).2 = .error e)
    (cutoffs : List Nat) :
    (scoresFromChunks ev mask (gens ++ g :: rest) m cutoffs).2 = .error e ∨
      ∃ e', (scoresFromChunks ev mask (gens ++ g :: rest) m cutoffs).2 = .error e' ∧
        ev.scoresFromChunksWith mask cs cutoffs = .error e' := by
  have h := chunkLoop_delivers ev mask hm hd (g :: rest) m rfl 0
    (cutoffs.map (fun c => (c, Metrics.empty)))
  unfold scoresFromChunks Evaluator.scoresFromChunksWith
  cases hx : ev.chunkLoop mask cs 0 (cutoffs.map (fun c => (c, Metrics.empty))) with
  | error e' =>
    rw [hx] at h
    simp only at h
    exact Or.inr ⟨e', by simp only [h], rfl⟩
  | ok x =>
    rw [hx] at h
    obtain ⟨m', h1, h2⟩ := h
    left
    rw [chunkLoop] at h2
    simp only [h1, he] at h2
    simp only [h2]

omit [LinearOrder S] [OrderBot S] in
theorem slice_read (st : Store S) (v : View) (s mb : Nat) :
    (v.slice s (s + mb)).read st = ((v.read st).drop s).take mb := by
  apply List.ext_getElem
  · simp [View.read, View.slice]; omega
  · intro i h1 h2
    simp [View.read, View.slice]

omit [LinearOrder S] [OrderBot S] in
theorem slices_deliver (v : View) (ok : Bool) (mb : Nat) (st : Store S) (starts : List Nat) :
    Delivers (starts.map (fun s =>
        (fun st : Store S => (st, Except.ok (Obj.array (v.slice s (s + mb)) ok))))) st
      (starts.map (fun s => ({ contents st (.array v ok) with
        rows := ((v.read st).drop s).take mb } : Chunk S))) := by
  induction starts with
  | nil => exact .nil st
  | cons s starts ih =>
    have := Delivers.cons (g := fun st : Store S => (st, Except.ok (Obj.array (v.slice s (s + mb)) ok)))
      (st := st) rfl ih
    rw [contents_array, slice_read] at this
    exact this

/-- `get_score(s)_from_score_matrix` leaves all of the caller's memory as it was and returns the metrics
of the values in the given array, which may be any view. -/
theorem C70_matrix (ev : Evaluator) (mask : Option Mask) (hm : InShape mask ev.nItems) (v : View)
    (dtypeOk : Bool) (m : Mem S) (cutoffs : List Nat) :
    (scoresFromMatrix ev mask v dtypeOk m cutoffs).1.caller = m.caller ∧
      (scoresFromMatrix ev mask v dtypeOk m cutoffs).2 =
        ev.scoresFromMatrixWith mask (contents m.caller (.array v dtypeOk)) cutoffs := by
  have hl : (contents m.caller (.array v dtypeOk)).rows.length = v.rows := by simp [contents]
  have hc : (contents m.caller (.array v dtypeOk)).nCols = v.cols := rfl
  have ha : (contents m.caller (.array v dtypeOk)).isArray2d = true := rfl
  have ho : (contents m.caller (.array v dtypeOk)).dtypeOk = dtypeOk := rfl
  unfold scoresFromMatrix Evaluator.scoresFromMatrixWith
  simp only [hl, hc, ha, ho, not_true_eq_false, false_or]
  by_cases h1 : v.rows ≠ ev.nUsers ∨ v.cols ≠ ev.nItems
  · rw [if_pos h1, if_pos h1]; exact ⟨rfl, rfl⟩
  rw [if_neg h1, if_neg h1]
  by_cases h2 : ¬ dtypeOk = true
  · rw [if_pos h2, if_pos h2]; exact ⟨rfl, rfl⟩
  rw [if_neg h2, if_neg h2]
  by_cases h3 : ev.mbSize = 0
  · rw [if_pos h3, if_pos h3]; exact ⟨rfl, rfl⟩
  rw [if_neg h3, if_neg h3]
  constructor
  · funext b
    apply C70_chunks_untouched
    intro g hg st
    obtain ⟨s, -, rfl⟩ := List.mem_map.mp hg
    rfl
  · exact C70_chunks_values ev mask hm _ m _ (slices_deliver v dtypeOk ev.mbSize m.caller _) cutoffs

/-- Evaluating a model that hands out new arrays leaves everything the model keeps as it was, and
gives the metrics of the model's answers. -/
theorem C70_model_partial (ev : Evaluator) (hm : InShape ev.masked ev.nItems) (kept : Nat → Prop)
    (st : Store S) (model : Model S) (r : Recommender S) (h : HandsOutNew kept st model r)
    (cutoffs : List Nat) :
    SameOn kept (scoresOfModel ev model st cutoffs).1 st ∧
      (scoresOfModel ev model st cutoffs).2 = ev.scoresOfModel r cutoffs := by
  unfold scoresOfModel Evaluator.scoresOfModel
  rw [h.1, h.2.1]
  by_cases h1 : ev.offset + ev.nUsers > r.nUsers
  · rw [if_pos h1, if_pos h1]; exact ⟨fun _ _ => rfl, rfl⟩
  rw [if_neg h1, if_neg h1]
  by_cases h2 : ev.nItems ≠ r.nItems
  · rw [if_pos h2, if_pos h2]; exact ⟨fun _ _ => rfl, rfl⟩
  rw [if_neg h2, if_neg h2]
  by_cases h3 : ev.mbSize = 0
  · rw [if_pos h3, if_pos h3]; exact ⟨fun _ _ => rfl, rfl⟩
  rw [if_neg h3, if_neg h3]
  obtain ⟨h4, h5⟩ := modelLoop_handsOut ev hm h (by simpa using h2)
    (pyRange ev.offset (ev.offset + ev.nUsers) ev.mbSize) st
    (cutoffs.map (fun c => (c, Metrics.empty))) (fun _ _ => rfl)
  simp only [h5]
  cases ev.modelLoop r (pyRange ev.offset (ev.offset + ev.nUsers) ev.mbSize)
    (cutoffs.map (fun c => (c, Metrics.empty))) with
  | error e => exact ⟨h4, rfl⟩
  | ok ms => exact ⟨h4, rfl⟩

end

section
variable {S : Type} [LinearOrder S] [BoundedOrder S]

/-- Batch retrieval answers according to the values the array holds when the call starts, and without
forbidden items it leaves the memory as it was. -/
theorem C70_retrieval {I F : Type} [DecidableEq I] [LinearOrder F] [OrderBot F] (m : ItemIDMapper I)
    (psort : Nat → List (Nat × F) → List (Nat × F)) (cast : S → F) (v : View) (hd : Distinct v)
    (st : Store S) (cutoff : Nat) (allowed : Option (List I)) (perUser : Option (List (List I)))
    (forbidden : Option (List (List I))) (nThreads : Nat) :
    (scoreToItemsBatch m psort cast v st cutoff allowed perUser forbidden nThreads).2 =
        m.scoreToItemsBatch psort cast v.cols (v.readLists st) cutoff allowed perUser forbidden
          nThreads ∧
      (forbidden = none →
        (scoreToItemsBatch m psort cast v st cutoff allowed perUser forbidden nThreads).1 = st) := by
  have hl : (v.readLists st).length = v.rows := by simp [View.readLists]
  unfold scoreToItemsBatch ItemIDMapper.scoreToItemsBatch
  rw [hl]
  by_cases h1 : v.cols ≠ m.itemIds.length
  · rw [if_pos h1, if_pos h1]; exact ⟨rfl, fun _ => rfl⟩
  rw [if_neg h1, if_neg h1]
  by_cases h2 : ∃ fs, forbidden = some fs ∧ fs.length ≠ v.rows
  · rw [if_pos h2, if_pos h2]; exact ⟨rfl, fun _ => rfl⟩
  rw [if_neg h2, if_neg h2]
  by_cases h3 : ∃ ls, perUser = some ls ∧ ls.length ≠ v.rows
  · rw [if_pos h3, if_pos h3]; exact ⟨rfl, fun _ => rfl⟩
  rw [if_neg h3, if_neg h3]
  simp only [readLists_blankForbidden m v hd]
  cases retrieve psort cast ⊥ v.cols (m.blankForbidden (v.readLists st) forbidden)
    (m.allowedIndices allowed perUser) cutoff nThreads with
  | error e => exact ⟨rfl, fun h => by subst h; rfl⟩
  | ok raw => exact ⟨rfl, fun h => by subst h; rfl⟩

/-- What batch retrieval with forbidden items does to memory: nothing outside the array, and in it
nothing outside the forbidden entries. -/
theorem C70_retrieval_writes {I F : Type} [DecidableEq I] [LinearOrder F] [OrderBot F]
    (m : ItemIDMapper I) (psort : Nat → List (Nat × F) → List (Nat × F)) (cast : S → F) (v : View)
    (st : Store S) (cutoff : Nat) (allowed : Option (List I)) (perUser : Option (List (List I)))
    (fs : List (List I)) (nThreads : Nat) (b : Nat) (x : Nat × Nat)
    (hx : (scoreToItemsBatch m psort cast v st cutoff allowed perUser (some fs) nThreads).1 b x
      ≠ st b x) :
    b = v.buf ∧ ∃ u j id, u < v.rows ∧ v.pos u j = x ∧ id ∈ fs.getD u [] ∧
      m.itemIds[j]? = some id := by
  have hb : (scoreToItemsBatch m psort cast v st cutoff allowed perUser (some fs) nThreads).1 = st ∨
      (scoreToItemsBatch m psort cast v st cutoff allowed perUser (some fs) nThreads).1 =
        blankForbidden m v st (some fs) := by
    unfold scoreToItemsBatch
    split_ifs with h1 h2 h3
    · exact Or.inl rfl
    · exact Or.inl rfl
    · exact Or.inl rfl
    · right
      simp only
      cases retrieve psort cast ⊥ v.cols (v.readLists (blankForbidden m v st (some fs)))
        (m.allowedIndices allowed perUser) cutoff nThreads <;> rfl
  rcases hb with hb | hb
  · rw [hb] at hx; exact absurd rfl hx
  · rw [hb] at hx
    simp only [blankForbidden, View.write] at hx
    split_ifs at hx with hc
    · obtain ⟨rfl, hc⟩ := hc
      simp only [List.any_eq_true, List.mem_range, Bool.and_eq_true, decide_eq_true_eq] at hc
      obtain ⟨u, hu, j, -, hp, hj⟩ := hc
      obtain ⟨id, hid, hidx⟩ := List.mem_filterMap.mp hj
      refine ⟨rfl, u, j, id, hu, hp, hid, ?_⟩
      unfold ItemIDMapper.index? at hidx
      split_ifs at hidx with hin
      obtain rfl : m.itemIds.idxOf id = j := by simpa using hidx
      rw [List.getElem?_eq_getElem (List.idxOf_lt_length_of_mem hin)]
      simp
    · exact absurd rfl hx

end

/-! ### Concrete cases -/

/-- Two users, two items, blocks of one row; user 0 has seen item 0. -/
def exEv : Evaluator where
  core := ⟨2, [[1], [0]], []⟩
  nRecommendable := 2
  offset := 0
  nUsers := 2
  nItems := 2
  cutoff := 1
  nThreads := 1
  mbSize := 1
  masked := some ⟨2, 2, fun u i => decide (u = 0 ∧ i = 0)⟩
  recallWithCutoff := false

/-- A generator that fills and yields the same one-row buffer again and again. -/
def refill (a b : Fin 10) : Step (Fin 10) := fun st =>
  (Function.update st 0 (fun x => if x.2 = 0 then a else b),
    .ok (.array ⟨0, 1, 2, Prod.mk⟩ true))

/-- The hypotheses of `C70_chunks_values` hold for it. -/
example : InShape exEv.masked exEv.nItems ∧
    ∃ c₁ c₂ : Chunk (Fin 10), Delivers [refill 5 3, refill 7 8] (fun _ _ => 0) [c₁, c₂] ∧
      (c₁.rows.map (fun r => (r 0, r 1))) = [(5, 3)] ∧
      (c₂.rows.map (fun r => (r 0, r 1))) = [(7, 8)] := by
  refine ⟨?_, _, _, .cons rfl (.cons rfl (.nil _)), rfl, rfl⟩
  intro msk h u i hz
  cases h
  simp only [decide_eq_true_eq] at hz
  show i < 2
  omega

/-- The evaluator's masking is real: the buffer it works on does hold `-inf`. -/
example : (((⟨fun _ _ => 5, fun _ _ => 0, 0⟩ : Mem (Fin 10)).copy ⟨3, 1, 2, Prod.mk⟩).1.maskOwn
    ⟨0, 1, 2, Prod.mk⟩ exEv.masked 0).own 0 (0, 0) = ⊥ := by decide

/-- A model that keeps its scores in buffer 0 and answers with slices of it, as
`def get_score_block(self, a, b): return self.scores[a:b]` does. -/
def storing : Model (Fin 10) where
  nUsers := 2
  nItems := 2
  getScoreBlock := fun a b st => (st, .ok ((⟨0, 2, 2, Prod.mk⟩ : View).slice a b))
  getScore := fun _ st => (st, .error .notImplemented)
  trainNz := fun _ _ => false

/-- Evaluating such a model destroys its scores: afterwards its score of item 0 for user 0 is `-inf`
although the model itself never wrote anything. -/
theorem C70_model_counterexample (cutoffs : List Nat) :
    (scoresOfModel exEv storing (fun _ _ => 5) cutoffs).1 0 (0, 0) = ⊥ := by
  have key : ∀ (starts : List Nat) (st : Store (Fin 10)) (ms : List (Nat × Metrics)),
      st 0 (0, 0) = ⊥ → (modelLoop exEv storing starts st ms).1 0 (0, 0) = ⊥ := by
    intro starts
    induction starts with
    | nil => intro st ms h; exact h
    | cons a rest ih =>
      intro st ms h
      unfold modelLoop
      simp only [Model.block, storing]
      have hk : ∀ v : View, maskModel exEv storing a v st 0 (0, 0) = ⊥ := by
        intro v
        simp only [maskModel, exEv, View.write]
        by_cases hc : 0 = v.buf ∧ ((List.range v.rows).any fun i => (List.range v.cols).any fun j =>
            decide (v.pos i j = (0, 0)) && decide (a - 0 + i = 0 ∧ j = 0)) = true
        · exact if_pos hc
        · exact (if_neg hc).trans h
      cases exEv.evalBlock (S := Fin 10) _ (a - exEv.offset) ms with
      | error e => exact hk _
      | ok ms' => exact ih _ ms' (hk _)
  have h0 : pyRange exEv.offset (exEv.offset + exEv.nUsers) exEv.mbSize = [0, 1] := by decide
  unfold scoresOfModel
  rw [if_neg (by decide), if_neg (by decide), if_neg (by decide), h0]
  have : (modelLoop exEv storing [0, 1] (fun _ _ => 5)
      (cutoffs.map (fun c => (c, Metrics.empty)))).1 0 (0, 0) = ⊥ := by
    unfold modelLoop
    simp only [Model.block, storing]
    have hk : maskModel exEv storing 0 ((⟨0, 2, 2, Prod.mk⟩ : View).slice 0
        (min (0 + exEv.mbSize) (exEv.offset + exEv.nUsers))) (fun _ _ => 5) 0 (0, 0) = ⊥ := by decide
    cases exEv.evalBlock (S := Fin 10) _ (0 - exEv.offset) (cutoffs.map (fun c => (c, Metrics.empty))) with
    | error e => exact hk
    | ok ms' => exact key _ _ ms' hk
  simp only
  cases (modelLoop exEv storing [0, 1] (fun _ _ => 5)
      (cutoffs.map (fun c => (c, Metrics.empty)))).2 <;> exact this

/-- The same model copying its answer into a new buffer hands out new arrays: buffer 0 is kept. -/
def copying : Model (Fin 10) where
  nUsers := 2
  nItems := 2
  getScoreBlock := fun a b st =>
    (Function.update st 1 (fun x => st 0 (a + x.1, x.2)), .ok ⟨1, min b 2 - a, 2, Prod.mk⟩)
  getScore := fun _ st => (st, .error .notImplemented)
  trainNz := fun _ _ => false

/-- The hypothesis of `C70_model_partial` holds for it. -/
example : HandsOutNew (fun b => b = 0) (fun _ _ => 5) copying
    { nUsers := 2, nItems := 2, trainNz := fun _ _ => false
      getScoreBlock := fun a b => .ok (List.replicate (min b 2 - a) (fun _ => 5))
      getScore := fun _ => .error .notImplemented } := by
  refine ⟨rfl, rfl, rfl, by simp, ?_⟩
  rintro call answer (⟨a, b, rfl, rfl⟩ | ⟨users, rfl, rfl⟩) st hs
  · refine ⟨?_, ?_⟩
    · rintro b rfl
      simpa [copying] using hs 0 rfl
    · simp only [copying]
      refine ⟨by decide, trivial, ?_, ?_⟩
      · intro i j k l h; simpa using h
      · have h5 := hs 0 rfl
        simp only [View.read, Function.update_self, h5]
        rw [List.map_const']
        simp
  · exact ⟨hs, rfl⟩

/-- Items 10 and 20. -/
def exMapper : ItemIDMapper Nat := ⟨[10, 20]⟩

/-- The caller's array: one user, scores 5 and 3. -/
def exScores : Store (Fin 10) := fun _ x => if x.2 = 0 then 5 else 3

/-- A library sort. -/
def exSort : Nat → List (Nat × Fin 10) → List (Nat × Fin 10) :=
  fun _ l => l.insertionSort (fun a b => b.2 ≤ a.2)

/-- Batch retrieval with a forbidden item spoils the array for the next call: asked again without
forbidden items, the item is still missing, while on the original scores it comes first. -/
theorem C70_retrieval_counterexample :
    let v : View := ⟨0, 1, 2, Prod.mk⟩
    let after := (scoreToItemsBatch exMapper exSort (fun s : Fin 10 => s) v exScores 2 none none
      (some [[10]]) 1).1
    (scoreToItemsBatch exMapper exSort (fun s : Fin 10 => s) v after 2 none none none 1).2
        = .ok [[(20, 3)]] ∧
      (scoreToItemsBatch exMapper exSort (fun s : Fin 10 => s) v exScores 2 none none none 1).2
        = .ok [[(10, 5), (20, 3)]] := by
  refine ⟨?_, ?_⟩ <;> with_unfolding_all rfl

end Irspack.Memory
