import Verif.Proofs.Slim

/-! Helper lemmas for C37-C39: what ends up in the weight matrix. -/

namespace Irspack.Slim
open Spec.Slim WorkQueue

variable {K : Type} [Field K] [LinearOrder K]

/-- The triplets emitted for column `j` with coefficients `coef`, given the buffer content. -/
def emission (cfg : Config K) (F : Nat) (srt : List (K × Nat) → List (K × Nat)) (j : Nat)
    (coef : Nat → K) (buf : List (K × Nat)) : List (Nat × Nat × K) :=
  if cfg.topK < 0 then (nonzeros F coef).map (fun e => (e.2, j, e.1))
  else (emitColumn F cfg.topK.toNat srt j coef ⟨0, buf, []⟩).out

/-- the step of the lane loop of `processBlock` -/
def emitLane (cfg : Config K) (F : Nat) (srt : List (K × Nat) → List (K × Nat)) (j : Nat)
    (coef : Nat → K) (w : Worker K) : Worker K :=
  if cfg.topK < 0 then emitAll F j coef w else emitColumn F cfg.topK.toNat srt j coef w

theorem emitLane_out (cfg : Config K) (F : Nat) (srt : List (K × Nat) → List (K × Nat)) (j : Nat)
    (coef : Nat → K) (w : Worker K) :
    (emitLane cfg F srt j coef w).out = w.out ++ emission cfg F srt j coef w.buffer := by
  unfold emitLane emission
  split
  · rfl
  · simp [emitColumn]

theorem emission_col (cfg : Config K) (F : Nat) (srt : List (K × Nat) → List (K × Nat)) (j : Nat)
    (coef : Nat → K) (buf : List (K × Nat)) : ∀ e ∈ emission cfg F srt j coef buf, e.2.1 = j := by
  intro e he
  unfold emission at he
  split at he
  · simp only [List.mem_map] at he
    obtain ⟨_, _, rfl⟩ := he; rfl
  · simp only [emitColumn, List.nil_append, List.mem_map] at he
    obtain ⟨_, _, rfl⟩ := he; rfl

/-- the triplets of column `j` -/
def ofCol (j : Nat) (out : List (Nat × Nat × K)) : List (Nat × Nat × K) :=
  out.filter (fun e => decide (e.2.1 = j))

theorem ofCol_emission_self (cfg : Config K) (F : Nat) (srt : List (K × Nat) → List (K × Nat)) (j : Nat)
    (coef : Nat → K) (buf : List (K × Nat)) :
    ofCol j (emission cfg F srt j coef buf) = emission cfg F srt j coef buf := by
  unfold ofCol
  rw [List.filter_eq_self]
  intro e he
  simp [emission_col cfg F srt j coef buf e he]

theorem ofCol_emission_other (cfg : Config K) (F : Nat) (srt : List (K × Nat) → List (K × Nat))
    (j j' : Nat) (h : j' ≠ j) (coef : Nat → K) (buf : List (K × Nat)) :
    ofCol j (emission cfg F srt j' coef buf) = [] := by
  unfold ofCol
  rw [List.filter_eq_nil_iff]
  intro e he
  simp [emission_col cfg F srt j' coef buf e he, h]

theorem ofCol_append (j : Nat) (a b : List (Nat × Nat × K)) : ofCol j (a ++ b) = ofCol j a ++ ofCol j b := by
  simp [ofCol]

/-- the lane loop adds one emission for column `j` if `j` is one of its lanes -/
theorem lanes_out (cfg : Config K) (F : Nat) (srt : List (K × Nat) → List (K × Nat)) (begin j : Nat)
    (coef : Nat → Nat → K) (lanes : List Nat) (hn : lanes.Nodup) : ∀ (w : Worker K),
    ((∀ k ∈ lanes, begin + k ≠ j) →
      ofCol j (lanes.foldl (fun w k => emitLane cfg F srt (begin + k) (coef k) w) w).out = ofCol j w.out) ∧
    (∀ k ∈ lanes, begin + k = j → ∃ buf,
      ofCol j (lanes.foldl (fun w k => emitLane cfg F srt (begin + k) (coef k) w) w).out =
        ofCol j w.out ++ emission cfg F srt j (coef k) buf) := by
  induction lanes with
  | nil => intro w; simp
  | cons k ks ih =>
    intro w
    rw [List.nodup_cons] at hn
    obtain ⟨h1, h2⟩ := ih hn.2 (emitLane cfg F srt (begin + k) (coef k) w)
    simp only [List.foldl_cons]
    constructor
    · intro h
      rw [h1 (fun k' hk' => h k' (by simp [hk'])), emitLane_out, ofCol_append,
        ofCol_emission_other _ _ _ _ _ (h k (by simp)), List.append_nil]
    · intro k' hk' hj
      rcases List.mem_cons.mp hk' with rfl | hk'
      · refine ⟨w.buffer, ?_⟩
        rw [h1, emitLane_out, ofCol_append, hj, ofCol_emission_self]
        intro k'' hk'' h
        have : k'' = k' := by omega
        exact hn.1 (this ▸ hk'')
      · obtain ⟨buf, hb⟩ := h2 k' hk' hj
        refine ⟨buf, ?_⟩
        rw [hb, emitLane_out, ofCol_append, ofCol_emission_other, List.append_nil]
        intro h
        have : k = k' := by omega
        exact hn.1 (this ▸ hk')

/-- the coefficients of block `i` when its worker had done `c` shuffles before -/
def blockResult (cfg : Config K) (X : CSC K) (shuffles : Nat → List Nat) (i c : Nat) : Block K :=
  (iterations cfg X (i * cfg.blockSize) shuffles cfg.nIter c
    (initBlock X cfg.blockSize (i * cfg.blockSize))).1

theorem processBlock_out (cfg : Config K) (X : CSC K) (shuffles : Nat → List Nat)
    (srt : List (K × Nat) → List (K × Nat)) (hB : 0 < cfg.blockSize) (i j : Nat)
    (hj : j < X.cols.length) (w : Worker K) :
    (i ≠ j / cfg.blockSize → ofCol j (processBlock cfg X shuffles srt i w).out = ofCol j w.out) ∧
    (i = j / cfg.blockSize → ∃ buf, ofCol j (processBlock cfg X shuffles srt i w).out =
      ofCol j w.out ++ emission cfg X.cols.length srt j
        ((blockResult cfg X shuffles i w.shuffled).coef (j % cfg.blockSize)) buf) := by
  have hp : processBlock cfg X shuffles srt i w =
      (blockLanes cfg.blockSize X.cols.length i).foldl
        (fun w' k => emitLane cfg X.cols.length srt (i * cfg.blockSize + k)
          ((blockResult cfg X shuffles i w.shuffled).coef k) w')
        { w with shuffled := (iterations cfg X (i * cfg.blockSize) shuffles cfg.nIter w.shuffled
            (initBlock X cfg.blockSize (i * cfg.blockSize))).2 } := rfl
  have hl := lanes_out cfg X.cols.length srt (i * cfg.blockSize) j
    (blockResult cfg X shuffles i w.shuffled).coef (blockLanes cfg.blockSize X.cols.length i)
    (by unfold blockLanes; exact List.nodup_range)
    { w with shuffled := (iterations cfg X (i * cfg.blockSize) shuffles cfg.nIter w.shuffled
            (initBlock X cfg.blockSize (i * cfg.blockSize))).2 }
  have hdm := Nat.div_add_mod j cfg.blockSize
  have hml := Nat.mod_lt j hB
  rw [hp]
  constructor
  · intro hne
    apply hl.1
    intro k hk h
    apply hne
    simp only [blockLanes, List.mem_range] at hk
    rw [← h]
    have hk' : k < cfg.blockSize := by omega
    rw [Nat.mul_comm, Nat.mul_add_div hB, Nat.div_eq_of_lt hk', Nat.add_zero]
  · intro he
    apply hl.2
    · simp only [blockLanes, List.mem_range]
      rw [he, Nat.mul_comm]
      omega
    · rw [he, Nat.mul_comm]; omega

/-- what a worker that processed the blocks `rows` has emitted for column `j` -/
theorem rows_out (cfg : Config K) (X : CSC K) (shuffles : Nat → List Nat)
    (srt : List (K × Nat) → List (K × Nat)) (hB : 0 < cfg.blockSize) (j : Nat)
    (hj : j < X.cols.length) (rows : List Nat) (hn : rows.Nodup) : ∀ (w : Worker K),
    (j / cfg.blockSize ∉ rows →
      ofCol j (rows.foldl (fun w i => processBlock cfg X shuffles srt i w) w).out = ofCol j w.out) ∧
    (j / cfg.blockSize ∈ rows → ∃ c buf,
      ofCol j (rows.foldl (fun w i => processBlock cfg X shuffles srt i w) w).out =
        ofCol j w.out ++ emission cfg X.cols.length srt j
          ((blockResult cfg X shuffles (j / cfg.blockSize) c).coef (j % cfg.blockSize)) buf) := by
  induction rows with
  | nil => intro w; simp
  | cons i is ih =>
    intro w
    rw [List.nodup_cons] at hn
    obtain ⟨h1, h2⟩ := ih hn.2 (processBlock cfg X shuffles srt i w)
    obtain ⟨p1, p2⟩ := processBlock_out cfg X shuffles srt hB i j hj w
    simp only [List.foldl_cons]
    constructor
    · intro h
      simp only [List.mem_cons, not_or] at h
      rw [h1 h.2, p1 (fun e => h.1 e.symm)]
    · intro h
      rcases List.mem_cons.mp h with h | h
      · obtain ⟨buf, hb⟩ := p2 h.symm
        refine ⟨w.shuffled, buf, ?_⟩
        rw [h1 (h ▸ hn.1), hb, h]
      · obtain ⟨c, buf, hb⟩ := h2 h
        refine ⟨c, buf, ?_⟩
        rw [hb, p1]
        intro e
        exact hn.1 (e ▸ h)

theorem flatten_single {α : Type} {T : Nat} (g : Fin T → List α) (t : Fin T)
    (h : ∀ t', t' ≠ t → g t' = []) : (List.ofFn g).flatten = g t := by
  induction T with
  | zero => exact t.elim0
  | succ T ih =>
    rw [List.ofFn_succ, List.flatten_cons]
    by_cases ht : t = 0
    · subst ht
      have : (List.ofFn (fun i : Fin T => g i.succ)).flatten = [] := by
        rw [List.flatten_eq_nil_iff]
        intro l hl
        rw [List.mem_ofFn] at hl
        obtain ⟨i, rfl⟩ := hl
        exact h _ (Fin.succ_ne_zero i)
      rw [this, List.append_nil]
    · obtain ⟨t', rfl⟩ := Fin.exists_succ_eq.mpr ht
      rw [h 0 (fun e => ht e.symm), List.nil_append]
      exact ih (fun i => g i.succ) t' (fun i hi => h _ (fun e => hi (Fin.succ_inj.mp e)))

/-- When all workers have returned, the triplets of column `j` are exactly one emission: of the
coefficients of the block of `j`, computed by a worker after some number of shuffles. -/
theorem column_triplets {T : Nat} (cfg : Config K) (X : CSC K) (shuffles : Nat → List Nat)
    (srt : List (K × Nat) → List (K × Nat)) (hB : 0 < cfg.blockSize) (sched : List (Fin T))
    (s : State T (Worker K) Unit) (hs : slim cfg X shuffles srt sched = .ok s) (hfin : Finished s)
    (j : Nat) (hj : j < X.cols.length) :
    ∃ c buf, ofCol j (List.ofFn (fun t => (s.loc t).out)).flatten =
      emission cfg X.cols.length srt j
        ((blockResult cfg X shuffles (j / cfg.blockSize) c).coef (j % cfg.blockSize)) buf := by
  unfold slim at hs
  split at hs
  · simp at hs
  rename_i hT
  split at hs
  · simp at hs
  split at hs
  · simp at hs
  split at hs
  · simp at hs
  rw [Except.ok.injEq] at hs
  have hloc := loc_run (T := T) (M := Unit) (n := blockCount cfg X) (c := 1)
    (fun i w => processBlock cfg X shuffles srt i w) sched (init (freshWorker cfg X) ())
    (freshWorker cfg X) (by intro t; rfl)
  rw [hs] at hloc
  have hinv := inv_run (T := T) (n := blockCount cfg X) (c := 1)
    (fun i w m => (processBlock cfg X shuffles srt i w, m)) sched
    (inv_init (blockCount cfg X) 1 (freshWorker cfg X) ())
  rw [hs] at hinv
  have hperm := rows_perm hinv (fun t => Or.inl (hfin t)) ⟨⟨0, by omega⟩, hfin _⟩
  have hnd := (rows_nodup hinv).1
  have hmem : j / cfg.blockSize ∈ s.hist.map Prod.snd := by
    rw [hperm.mem_iff, List.mem_range]
    unfold blockCount
    rw [Nat.div_lt_iff_lt_mul hB]
    have h1 := Nat.div_add_mod (X.cols.length + cfg.blockSize - 1) cfg.blockSize
    have h2 := Nat.mod_lt (X.cols.length + cfg.blockSize - 1) hB
    rw [Nat.mul_comm] at h1
    omega
  obtain ⟨⟨t, i⟩, hin, hi⟩ := List.mem_map.mp hmem
  simp only at hi
  have hrow : ∀ t', (rowsOf s t').Nodup := by
    intro t'
    unfold rowsOf
    exact List.Nodup.sublist (List.Sublist.map _ List.filter_sublist) hnd
  have ht : j / cfg.blockSize ∈ rowsOf s t := by
    unfold rowsOf
    rw [List.mem_map]
    exact ⟨(t, i), by simp [hin], hi⟩
  have hother : ∀ t', t' ≠ t → j / cfg.blockSize ∉ rowsOf s t' := by
    intro t' hne hmem'
    unfold rowsOf at hmem'
    rw [List.mem_map] at hmem'
    obtain ⟨⟨t'', i'⟩, h1, h2⟩ := hmem'
    simp only [List.mem_filter, decide_eq_true_eq] at h1 h2
    have := List.inj_on_of_nodup_map hnd h1.1 hin (by simp [h2, hi])
    rw [Prod.mk.injEq] at this
    exact hne (h1.2.symm.trans this.1)
  have hfl : ofCol j (List.ofFn (fun t => (s.loc t).out)).flatten =
      (List.ofFn (fun t => ofCol j (s.loc t).out)).flatten := by
    unfold ofCol
    rw [List.filter_flatten, List.map_ofFn]
    rfl
  rw [hfl, flatten_single _ t]
  · obtain ⟨c, buf, hb⟩ := (rows_out cfg X shuffles srt hB j hj (rowsOf s t) (hrow t)
      (freshWorker cfg X)).2 ht
    refine ⟨c, buf, ?_⟩
    rw [hloc t, hb]
    simp [freshWorker, ofCol]
  · intro t' hne
    rw [hloc t', (rows_out cfg X shuffles srt hB j hj (rowsOf s t') (hrow t')
      (freshWorker cfg X)).1 (hother t' hne)]
    simp [freshWorker, ofCol]

theorem sum_ofCol (f j : Nat) (out : List (Nat × Nat × K)) :
    (out.map (fun e => if e.1 = f ∧ e.2.1 = j then e.2.2 else 0)).sum =
      ((ofCol j out).map (fun e => if e.1 = f then e.2.2 else 0)).sum := by
  unfold ofCol
  induction out with
  | nil => rfl
  | cons e es ih =>
    rw [List.map_cons, List.sum_cons, ih]
    by_cases h : e.2.1 = j
    · simp [h]
    · simp [h]

theorem nonzeros_sum (F : Nat) (coef : Nat → K) (j f : Nat) (hf : f < F) :
    (((nonzeros F coef).map (fun e => (e.2, j, e.1))).map
      (fun e : Nat × Nat × K => if e.1 = f then e.2.2 else 0)).sum = coef f := by
  unfold nonzeros
  rw [List.map_map, List.map_map]
  have : ∀ (l : List Nat), l.Nodup →
      ((l.filter (fun f => decide (coef f ≠ 0))).map (((fun e : Nat × Nat × K => if e.1 = f then e.2.2 else 0) ∘
        (fun e : K × Nat => (e.2, j, e.1))) ∘ fun f => (coef f, f))).sum =
        if f ∈ l then coef f else 0 := by
    intro l
    induction l with
    | nil => simp
    | cons a l ih =>
      intro hn
      rw [List.nodup_cons] at hn
      by_cases hz : coef a = 0
      · rw [List.filter_cons_of_neg (by simp [hz]), ih hn.2]
        by_cases ha : f = a
        · subst ha; simp [hn.1, hz]
        · simp [ha]
      · rw [List.filter_cons_of_pos (by simp [hz]), List.map_cons, List.sum_cons, ih hn.2]
        by_cases ha : f = a
        · subst ha; simp [hn.1]
        · have : ¬ a = f := fun e => ha e.symm
          simp [ha, this]
  rw [this _ List.nodup_range]
  simp [hf]

/-- Columns that have no more than `top_k` coefficients (or all columns, without `top_k`) are
written out completely. -/
theorem weights_full {T : Nat} (cfg : Config K) (X : CSC K) (shuffles : Nat → List Nat)
    (srt : List (K × Nat) → List (K × Nat)) (hB : 0 < cfg.blockSize) (sched : List (Fin T))
    (s : State T (Worker K) Unit) (hs : slim cfg X shuffles srt sched = .ok s) (hfin : Finished s)
    (j : Nat) (hj : j < X.cols.length) :
    ∃ c, (cfg.topK < 0 ∨ (nonzeros X.cols.length
        ((blockResult cfg X shuffles (j / cfg.blockSize) c).coef (j % cfg.blockSize))).length
          ≤ cfg.topK.toNat) →
      ∀ f, f < X.cols.length → weights s f j =
        (blockResult cfg X shuffles (j / cfg.blockSize) c).coef (j % cfg.blockSize) f := by
  obtain ⟨c, buf, h⟩ := column_triplets cfg X shuffles srt hB sched s hs hfin j hj
  refine ⟨c, fun hk f hf => ?_⟩
  unfold weights
  rw [sum_ofCol, h]
  have he : emission cfg X.cols.length srt j
      ((blockResult cfg X shuffles (j / cfg.blockSize) c).coef (j % cfg.blockSize)) buf =
      (nonzeros X.cols.length
        ((blockResult cfg X shuffles (j / cfg.blockSize) c).coef (j % cfg.blockSize))).map
          (fun e => (e.2, j, e.1)) := by
    unfold emission
    split
    · rfl
    · rename_i hneg
      rcases hk with hk | hk
      · exact absurd hk hneg
      · simp only [emitColumn, if_neg (not_lt.mpr hk), List.nil_append]
        rw [List.take_left]
  rw [he, nonzeros_sum _ _ _ _ hf]

theorem emission_length (cfg : Config K) (hk : 0 ≤ cfg.topK) (F : Nat)
    (srt : List (K × Nat) → List (K × Nat)) (j : Nat)
    (coef : Nat → K) (buf : List (K × Nat)) :
    (emission cfg F srt j coef buf).length ≤ cfg.topK.toNat := by
  unfold emission
  rw [if_neg (not_lt.mpr hk)]
  simp only [emitColumn, List.nil_append, List.length_map, List.length_take]
  split <;> omega

/-! ### Non-negative output -/

def AllNonneg (w : Worker K) : Prop := (∀ e ∈ w.buffer, 0 ≤ e.1) ∧ ∀ e ∈ w.out, 0 ≤ e.2.2

theorem emitLane_nonneg (cfg : Config K) (F : Nat) (srt : List (K × Nat) → List (K × Nat))
    (hsrt : ∀ l, (srt l).Perm l) (j : Nat)
    (coef : Nat → K) (hc : ∀ f, 0 ≤ coef f) (w : Worker K) (hw : AllNonneg w) :
    AllNonneg (emitLane cfg F srt j coef w) := by
  have hz : ∀ e ∈ nonzeros F coef, 0 ≤ e.1 := by
    intro e he
    simp only [nonzeros, List.mem_map] at he
    obtain ⟨f, _, rfl⟩ := he
    exact hc f
  unfold emitLane
  split
  · refine ⟨hw.1, ?_⟩
    intro e he
    simp only [emitAll, List.mem_append, List.mem_map] at he
    rcases he with he | ⟨a, ha, rfl⟩
    · exact hw.2 e he
    · exact hz a ha
  · have hbuf : ∀ e ∈ (emitColumn F cfg.topK.toNat srt j coef w).buffer, 0 ≤ e.1 := by
      intro e he
      have : e ∈ nonzeros F coef ++ w.buffer.drop (nonzeros F coef).length := by
        simp only [emitColumn] at he
        split at he
        · exact (hsrt _).mem_iff.mp he
        · exact he
      rcases List.mem_append.mp this with h | h
      · exact hz e h
      · exact hw.1 e (List.mem_of_mem_drop h)
    refine ⟨hbuf, ?_⟩
    intro e he
    have he' : e ∈ w.out ++ ((emitColumn F cfg.topK.toNat srt j coef w).buffer.take
        (if cfg.topK.toNat < (nonzeros F coef).length then cfg.topK.toNat
          else (nonzeros F coef).length)).map (fun e => (e.2, j, e.1)) := he
    rcases List.mem_append.mp he' with h | h
    · exact hw.2 e h
    · obtain ⟨a, ha, rfl⟩ := List.mem_map.mp h
      exact hbuf a (List.mem_of_mem_take ha)

theorem processBlock_nonneg (cfg : Config K) (hp : cfg.positiveOnly = true) (X : CSC K)
    (shuffles : Nat → List Nat)
    (srt : List (K × Nat) → List (K × Nat)) (hsrt : ∀ l, (srt l).Perm l) (i : Nat) (w : Worker K)
    (hw : AllNonneg w) : AllNonneg (processBlock cfg X shuffles srt i w) := by
  have hc : ∀ k f, 0 ≤ (blockResult cfg X shuffles i w.shuffled).coef k f := by
    intro k f
    obtain ⟨m, _, _, he⟩ := iterations_visits cfg X (i * cfg.blockSize) shuffles cfg.nIter w.shuffled
      (initBlock X cfg.blockSize (i * cfg.blockSize))
    unfold blockResult
    rw [he]
    exact visit_nonneg cfg hp X (i * cfg.blockSize) _ k f
  have hfold : ∀ (lanes : List Nat) (w' : Worker K), AllNonneg w' →
      AllNonneg (lanes.foldl (fun w' k => emitLane cfg X.cols.length srt (i * cfg.blockSize + k)
          ((blockResult cfg X shuffles i w.shuffled).coef k) w') w') := by
    intro lanes
    induction lanes with
    | nil => intro w' h; exact h
    | cons k ks ih =>
      intro w' h
      exact ih _ (emitLane_nonneg cfg _ srt hsrt _ _ (hc k) w' h)
  exact hfold (blockLanes cfg.blockSize X.cols.length i)
    { w with shuffled := (iterations cfg X (i * cfg.blockSize) shuffles cfg.nIter w.shuffled
            (initBlock X cfg.blockSize (i * cfg.blockSize))).2 } hw

theorem run_loc_invariant {T n c : Nat} {L : Type} (P : L → Prop) (up : Nat → L → L)
    (hup : ∀ i l, P l → P (up i l)) (sched : List (Fin T)) :
    ∀ (s : State T L Unit), (∀ t, P (s.loc t)) →
      ∀ t, P ((run n c (fun i l m => (up i l, m)) s sched).loc t) := by
  induction sched with
  | nil => intro s h; exact h
  | cons x xs ih =>
    intro s h
    apply ih
    intro t
    unfold step
    split
    · exact h t
    · split
      · simp only
        by_cases e : t = x
        · subst e; simpa using hup _ _ (h t)
        · simpa [e] using h t
      · exact h t
    · exact h t

end Irspack.Slim
