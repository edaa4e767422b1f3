import Verif.Spec.Memory

/-! Proofs about arrays in memory. -/

namespace Irspack.Memory

open Irspack Irspack.Evaluation Irspack.Retrieval

section
variable {S : Type} [LinearOrder S] [OrderBot S]

theorem write_other (st : Store S) (v : View) (sel : Nat → Nat → Bool) {b : Nat} (h : b ≠ v.buf) :
    v.write st sel b = st b := by
  funext x
  simp [View.write, h]

theorem write_at (st : Store S) (v : View) (sel : Nat → Nat → Bool) (hd : Distinct v) (i j : Nat) :
    v.write st sel v.buf (v.pos i j) =
      if i < v.rows ∧ j < v.cols ∧ sel i j = true then ⊥ else st v.buf (v.pos i j) := by
  unfold View.write
  congr 1
  simp only [true_and, List.any_eq_true, List.mem_range, Bool.and_eq_true, decide_eq_true_eq,
    eq_iff_iff]
  constructor
  · rintro ⟨k, hk, l, hl, hp, hs⟩
    obtain ⟨rfl, rfl⟩ := hd _ _ _ _ hp
    exact ⟨hk, hl, hs⟩
  · rintro ⟨hi, hj, hs⟩
    exact ⟨i, hi, j, hj, rfl, hs⟩

theorem read_write (st : Store S) (v : View) (nz : Nat → Nat → Bool) (start n : Nat)
    (hd : Distinct v) (hc : v.cols = n) (hn : ∀ u i, nz u i = true → i < n) :
    v.read (v.write st (fun i j => nz (start + i) j)) = applyMask nz start (v.read st) := by
  apply List.ext_getElem
  · simp [View.read, applyMask]
  · intro k h1 h2
    simp only [View.read, applyMask, List.getElem_map, List.getElem_range, List.getElem_mapIdx]
    have hk : k < v.rows := by simpa [View.read] using h1
    funext j
    rw [write_at st v _ hd]
    by_cases hz : nz (start + k) j = true
    · have := hn _ _ hz
      simp [hz, hk, hc, this]
    · simp [hz]

omit [LinearOrder S] [OrderBot S] in
theorem distinct_copy (m : Mem S) (v : View) : Distinct (m.copy v).2 := by
  intro i j k l h
  simpa [Mem.copy] using h

omit [LinearOrder S] [OrderBot S] in
theorem read_copy (m : Mem S) (v : View) :
    (m.copy v).2.read (m.copy v).1.own = v.read m.caller := by
  simp [Mem.copy, View.read]

theorem read_mask_copy (m : Mem S) (v : View) (mask : Option Mask) (start n : Nat)
    (hc : v.cols = n) (hm : InShape mask n) :
    (m.copy v).2.read ((m.copy v).1.maskOwn (m.copy v).2 mask start).own =
      maskRows mask start (v.read m.caller) := by
  cases mask with
  | none => simpa [Mem.maskOwn, maskRows] using read_copy m v
  | some msk =>
    simp only [Mem.maskOwn, maskRows]
    rw [read_write _ _ msk.nz start n (distinct_copy m v) hc (hm msk rfl), read_copy]

@[simp] theorem caller_mask_copy (m : Mem S) (v : View) (mask : Option Mask) (start : Nat) :
    ((m.copy v).1.maskOwn (m.copy v).2 mask start).caller = m.caller := by
  cases mask <;> rfl

/-- The loop leaves the caller's memory as the iterable leaves it. -/
theorem chunkLoop_caller (ev : Evaluator) (mask : Option Mask) (gens : List (Step S)) :
    ∀ (m : Mem S) (start : Nat) (ms : List (Nat × Metrics)),
      ∃ used, used <+: gens ∧ (chunkLoop ev mask gens m start ms).1.caller = alone used m.caller ∧
        (∀ x, (chunkLoop ev mask gens m start ms).2 = .ok x → used = gens) := by
  induction gens with
  | nil => intro m start ms; exact ⟨[], List.prefix_rfl, rfl, fun _ _ => rfl⟩
  | cons g gens ih =>
    intro m start ms
    have stop : ∀ (m' : Mem S) (e : Err), m'.caller = (g m.caller).1 →
        ∃ used, used <+: g :: gens ∧
          ((m', .error e) : Mem S × Except Err (Nat × List (Nat × Metrics))).1.caller
            = alone used m.caller ∧
          (∀ x, ((m', .error e) : Mem S × Except Err (Nat × List (Nat × Metrics))).2 = .ok x →
            used = g :: gens) := by
      intro m' e h
      exact ⟨[g], by simp, by simp [alone, h], by intro x hx; cases hx⟩
    have go : ∀ (m' : Mem S) (s : Nat) (ms' : List (Nat × Metrics)), m'.caller = (g m.caller).1 →
        ∃ used, used <+: g :: gens ∧
          (chunkLoop ev mask gens m' s ms').1.caller = alone used m.caller ∧
          (∀ x, (chunkLoop ev mask gens m' s ms').2 = .ok x → used = g :: gens) := by
      intro m' s ms' h
      obtain ⟨u, hu, hc, hx⟩ := ih m' s ms'
      refine ⟨g :: u, by simpa using hu, by rw [hc, h]; rfl, fun x h => by rw [hx x h]⟩
    unfold chunkLoop
    simp only
    cases ho : (g m.caller).2 with
    | error e => exact stop _ _ rfl
    | ok o =>
      cases o with
      | other => exact stop _ _ rfl
      | array v ok =>
        simp only
        by_cases h1 : v.cols ≠ ev.nItems
        · rw [if_pos h1]; exact stop _ _ rfl
        rw [if_neg h1]
        by_cases h2 : ¬ ok = true
        · rw [if_pos h2]; exact stop _ _ rfl
        rw [if_neg h2]
        by_cases h3 : start + v.rows > ev.nUsers
        · rw [if_pos h3]; exact stop _ _ rfl
        rw [if_neg h3]
        by_cases h4 : v.rows = 0
        · rw [if_pos h4]; exact go _ _ _ rfl
        rw [if_neg h4]
        cases ev.evalBlock ((({ m with caller := (g m.caller).1 } : Mem S).copy v).2.read
          ((({ m with caller := (g m.caller).1 } : Mem S).copy v).1.maskOwn
            (({ m with caller := (g m.caller).1 } : Mem S).copy v).2 mask start).own) start ms with
        | error e => exact stop _ _ (by simp)
        | ok ms' => exact go _ _ _ (by simp)

omit [LinearOrder S] [OrderBot S] in
theorem contents_array (st : Store S) (v : View) (ok : Bool) :
    contents st (.array v ok) = { isArray2d := true, nCols := v.cols, dtypeOk := ok, rows := v.read st } :=
  rfl

/-- The loop on memory is the loop on the contents at delivery, for any continuation of the
iterable. -/
theorem chunkLoop_delivers (ev : Evaluator) (mask : Option Mask) (hm : InShape mask ev.nItems)
    {gens : List (Step S)} {st : Store S} {cs : List (Chunk S)} (h : Delivers gens st cs)
    (more : List (Step S)) :
    ∀ (m : Mem S), m.caller = st → ∀ (start : Nat) (ms : List (Nat × Metrics)),
      match ev.chunkLoop mask cs start ms with
      | .error e => (chunkLoop ev mask (gens ++ more) m start ms).2 = .error e
      | .ok x => ∃ m', m'.caller = alone gens st ∧
          chunkLoop ev mask (gens ++ more) m start ms = chunkLoop ev mask more m' x.1 x.2 := by
  induction h with
  | nil st => intro m hst start ms; exact ⟨m, hst, rfl⟩
  | @cons g gens st st' o cs hg hd ih =>
    intro m hst start ms
    subst hst
    rw [List.cons_append]
    cases o with
    | other =>
      unfold chunkLoop Evaluator.chunkLoop
      simp [contents, hg]
    | array v ok =>
      rw [contents_array]
      unfold chunkLoop Evaluator.chunkLoop
      simp only [hg]
      rw [if_neg (by simp)]
      by_cases h1 : v.cols ≠ ev.nItems
      · simp [h1]
      rw [if_neg h1, if_neg h1]
      by_cases h2 : ¬ ok = true
      · simp [h2]
      rw [if_neg h2, if_neg h2]
      have hl : (v.read st').length = v.rows := by simp [View.read]
      rw [hl]
      by_cases h3 : start + v.rows > ev.nUsers
      · simp [h3]
      rw [if_neg h3, if_neg h3]
      by_cases h4 : v.rows = 0
      · rw [if_pos h4, if_pos h4]
        have := ih { m with caller := st' } rfl start ms
        cases hx : ev.chunkLoop mask cs start ms with
        | error e => simpa [hx] using this
        | ok x =>
          simp only [hx] at this
          obtain ⟨m', h5, h6⟩ := this
          exact ⟨m', by rw [h5]; simp [alone, hg], by rw [h6]; conv_lhs => unfold chunkLoop⟩
      rw [if_neg h4, if_neg h4]
      have hr := read_mask_copy ({ m with caller := st' } : Mem S) v mask start ev.nItems
        (by simpa using h1) hm
      rw [hr]
      cases he : ev.evalBlock (maskRows mask start (v.read st')) start ms with
      | error e => simp
      | ok ms' =>
        simp only
        have := ih ((({ m with caller := st' } : Mem S).copy v).1.maskOwn
          (({ m with caller := st' } : Mem S).copy v).2 mask start) (by simp) (start + v.rows) ms'
        cases hx : ev.chunkLoop mask cs (start + v.rows) ms' with
        | error e => simpa [hx] using this
        | ok x =>
          simp only [hx] at this
          obtain ⟨m', h5, h6⟩ := this
          exact ⟨m', by rw [h5]; simp [alone, hg], by rw [h6]; conv_lhs => unfold chunkLoop⟩

/-! ### Models -/

theorem maskModel_sameOn (ev : Evaluator) (r : Model S) (a : Nat) (v : View) (st st₀ : Store S)
    (kept : Nat → Prop) (hk : ¬ kept v.buf) (h : SameOn kept st st₀) :
    SameOn kept (maskModel ev r a v st) st₀ := by
  intro b hb
  have hne : b ≠ v.buf := fun e => hk (e ▸ hb)
  unfold maskModel
  cases ev.masked <;> simp only <;> rw [write_other _ _ _ hne, h b hb]

omit [LinearOrder S] [OrderBot S] in
theorem block_handsOut {kept : Nat → Prop} {st₀ : Store S} {model : Model S} {r : Recommender S}
    (h : HandsOutNew kept st₀ model r) (a b : Nat) {st : Store S} (hs : SameOn kept st st₀) :
    SameOn kept (model.block a b st).1 st₀ ∧
      match (model.block a b st).2, r.block a b with
      | .ok v, .ok rows => ¬ kept v.buf ∧ v.cols = r.nItems ∧ Distinct v ∧
          v.read (model.block a b st).1 = rows
      | .error e, .error e' => e = e'
      | _, _ => False := by
  obtain ⟨-, -, -, -, hc⟩ := h
  have h1 := hc (model.getScoreBlock a b) (r.getScoreBlock a b) (Or.inl ⟨a, b, rfl, rfl⟩) st hs
  unfold Model.block Recommender.block
  simp only
  cases hv : (model.getScoreBlock a b st).2 with
  | ok v =>
    cases hr : r.getScoreBlock a b with
    | ok rows => rw [hv, hr] at h1; exact h1
    | error e => rw [hv, hr] at h1; exact h1.2.elim
  | error e =>
    cases hr : r.getScoreBlock a b with
    | ok rows => rw [hv, hr] at h1; exact h1.2.elim
    | error e' =>
      rw [hv, hr] at h1
      obtain ⟨hs1, rfl⟩ := h1
      cases e <;> first
        | exact hc (model.getScore (List.range' a (b - a))) (r.getScore (List.range' a (b - a)))
            (Or.inr ⟨_, rfl, rfl⟩) _ hs1
        | exact ⟨hs1, rfl⟩

theorem modelLoop_handsOut (ev : Evaluator) (hm : InShape ev.masked ev.nItems) {kept : Nat → Prop}
    {st₀ : Store S} {model : Model S} {r : Recommender S} (h : HandsOutNew kept st₀ model r)
    (hn : ev.nItems = r.nItems) (starts : List Nat) :
    ∀ (st : Store S) (ms : List (Nat × Metrics)), SameOn kept st st₀ →
      SameOn kept (modelLoop ev model starts st ms).1 st₀ ∧
      (modelLoop ev model starts st ms).2 = ev.modelLoop r starts ms := by
  induction starts with
  | nil => intro st ms hs; exact ⟨hs, rfl⟩
  | cons a rest ih =>
    intro st ms hs
    obtain ⟨h1, h2⟩ := block_handsOut h a (min (a + ev.mbSize) (ev.offset + ev.nUsers)) hs
    unfold modelLoop Evaluator.modelLoop
    simp only
    revert h1 h2
    generalize model.block a (min (a + ev.mbSize) (ev.offset + ev.nUsers)) st = out
    obtain ⟨st1, res⟩ := out
    intro h1 h2
    cases res with
    | error e =>
      cases hr : r.block a (min (a + ev.mbSize) (ev.offset + ev.nUsers)) with
      | ok rows => rw [hr] at h2; exact h2.elim
      | error e' =>
        rw [hr] at h2
        obtain rfl : e = e' := h2
        exact ⟨h1, rfl⟩
    | ok v =>
      cases hr : r.block a (min (a + ev.mbSize) (ev.offset + ev.nUsers)) with
      | error e' => rw [hr] at h2; exact h2.elim
      | ok rows =>
        rw [hr] at h2
        obtain ⟨hk, hcols, hd, hread⟩ := h2
        simp only at hread h1 ⊢
        have hmask : v.read (maskModel ev model a v st1) = ev.maskModelRows r a rows := by
          unfold maskModel Evaluator.maskModelRows
          cases hmk : ev.masked with
          | none =>
            simp only
            rw [h.2.2.1, read_write st1 v r.trainNz a r.nItems hd hcols h.2.2.2.1, hread]
          | some msk =>
            simp only
            rw [read_write st1 v msk.nz (a - ev.offset) r.nItems hd hcols
              (by rw [← hn]; exact hm msk hmk), hread]
        rw [hmask]
        cases ev.evalBlock (ev.maskModelRows r a rows) (a - ev.offset) ms with
        | error e => exact ⟨maskModel_sameOn ev model a v st1 st₀ kept hk h1, rfl⟩
        | ok ms' => exact ih _ ms' (maskModel_sameOn ev model a v st1 st₀ kept hk h1)

end

section
variable {S : Type} [LinearOrder S] [BoundedOrder S]

theorem blank_length (row : List S) (idx : List Nat) : (blank row idx).length = row.length := by
  unfold blank
  induction idx generalizing row with
  | nil => rfl
  | cons i idx ih => simp [List.foldl_cons, ih]

theorem blank_get (row : List S) (idx : List Nat) (j : Nat) (hj : j < row.length) :
    (blank row idx)[j]'(by rw [blank_length]; exact hj) = if j ∈ idx then ⊥ else row[j] := by
  induction idx generalizing row with
  | nil => simp [blank]
  | cons i idx ih =>
    have := ih (row.set i ⊥) (by simpa using hj)
    simp only [blank, List.foldl_cons] at this ⊢
    rw [this]
    by_cases h1 : j ∈ idx
    · simp [h1]
    · by_cases h2 : j = i
      · subst h2; simp [h1]
      · rw [if_neg h1, List.getElem_set_ne (Ne.symm h2), if_neg (by simp [h1, h2])]

theorem readLists_blankForbidden {I : Type} [DecidableEq I] (m : ItemIDMapper I) (v : View)
    (hd : Distinct v) (st : Store S) (forbidden : Option (List (List I))) :
    v.readLists (blankForbidden m v st forbidden) = m.blankForbidden (v.readLists st) forbidden := by
  cases forbidden with
  | none => rfl
  | some fs =>
    simp only [blankForbidden, ItemIDMapper.blankForbidden]
    apply List.ext_getElem
    · simp [View.readLists]
    · intro u h1 h2
      have hu : u < v.rows := by simpa [View.readLists] using h1
      simp only [View.readLists, List.getElem_map, List.getElem_range, List.getElem_mapIdx]
      apply List.ext_getElem
      · simp [blank_length]
      · intro j h3 h4
        have hj : j < v.cols := by simpa using h3
        rw [blank_get _ _ _ (by simpa using hj)]
        simp only [List.getElem_map, List.getElem_range]
        rw [write_at _ _ _ hd]
        simp [hu, hj]

end
end Irspack.Memory
