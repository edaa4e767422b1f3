import Verif.Proofs.SlimRepro
import Verif.Props.SlimConverge

/-!
# C89: how far SLIM's result depends on the threads

`SLIM` hands blocks of columns to its workers through a shared cursor, and every worker has its own random
generator, seeded with 0, whose position depends on the blocks the worker has processed before
(`/repo/cpp_source/util.hpp:253-292`).  So the order in which the features of a block are visited depends on
which worker got the block.  The theorems say what is and what is not reproducible.
-/

namespace Irspack.Props
open WorkQueue Slim Spec.Slim

section generic
variable {K : Type} [Field K] [LinearOrder K]

/-- C89 (who processed what decides). Two runs with the same number of threads in which every block of columns was
claimed by the same worker return the same weights, whatever the interleaving was (with or without `top_k`).
`s.hist` records which worker processed which block. -/
theorem C89_assignment {T : Nat} (cfg : Config K) (X : CSC K) (shuffles : Nat → List Nat)
    (srt : List (K × Nat) → List (K × Nat)) (sched sched' : List (Fin T)) (s s' : State T (Worker K) Unit)
    (hs : slim cfg X shuffles srt sched = .ok s) (hs' : slim cfg X shuffles srt sched' = .ok s')
    (hsame : ∀ t i, (t, i) ∈ s.hist ↔ (t, i) ∈ s'.hist) (f j : Nat) : weights s f j = weights s' f j := by
  have hl : ∀ t, s.loc t = s'.loc t := fun t => by
    rw [slim_loc hs, slim_loc hs', rowsOf_eq (slim_inOrder hs) (slim_inOrder hs') hsame]
  unfold weights
  simp only [hl]

/-- C89 (one thread). With `n_threads = 1` the learnt weights are the same in every run. -/
theorem C89_one_thread (cfg : Config K) (X : CSC K) (shuffles : Nat → List Nat)
    (srt : List (K × Nat) → List (K × Nat)) (sched sched' : List (Fin 1)) (s s' : State 1 (Worker K) Unit)
    (hs : slim cfg X shuffles srt sched = .ok s) (hfin : Finished s)
    (hs' : slim cfg X shuffles srt sched' = .ok s') (hfin' : Finished s') (f j : Nat) :
    weights s f j = weights s' f j := by
  refine C89_assignment cfg X shuffles srt sched sched' s s' hs hs' (fun t i => ?_) f j
  have key : ∀ q : State 1 (Worker K) Unit, (t, i) ∈ q.hist ↔ i ∈ q.hist.map Prod.snd := by
    intro q
    rw [List.mem_map]
    constructor
    · intro h; exact ⟨_, h, rfl⟩
    · rintro ⟨⟨t', i'⟩, h, e⟩
      simp only at e
      rw [Subsingleton.elim t t', ← e]; exact h
  rw [key, key, (slim_rows hs hfin).mem_iff, (slim_rows hs' hfin').mem_iff]

/-- the weights of a run are the sum over the workers of what each of them emitted -/
theorem weights_sum {T : Nat} (s : State T (Worker K) Unit) (f j : Nat) :
    weights s f j = ((List.ofFn (fun t => ((s.loc t).out.map
      (fun e => if e.1 = f ∧ e.2.1 = j then e.2.2 else 0)).sum))).sum := by
  unfold weights
  rw [List.map_flatten, List.sum_flatten, List.map_map, List.map_ofFn]
  rfl

/-- C89 (a single block). If the items fit into one block (no more items than the SIMD width), neither the number of
threads nor the schedule has an effect on the weights. -/
theorem C89_single_block {T T' : Nat} (cfg : Config K) (X : CSC K) (hF : X.cols.length ≤ cfg.blockSize)
    (shuffles : Nat → List Nat)
    (srt : List (K × Nat) → List (K × Nat)) (sched : List (Fin T)) (sched' : List (Fin T'))
    (s : State T (Worker K) Unit) (s' : State T' (Worker K) Unit)
    (hs : slim cfg X shuffles srt sched = .ok s) (hfin : Finished s)
    (hs' : slim cfg X shuffles srt sched' = .ok s') (hfin' : Finished s') (f j : Nat) :
    weights s f j = weights s' f j := by
  have hbc : blockCount cfg X ≤ 1 := by
    unfold blockCount
    rcases Nat.eq_zero_or_pos cfg.blockSize with h | h
    · simp [h]
    · have : (X.cols.length + cfg.blockSize - 1) / cfg.blockSize < 2 := by
        rw [Nat.div_lt_iff_lt_mul h]; omega
      omega
  have key : ∀ {T : Nat} (sched : List (Fin T)) (s : State T (Worker K) Unit),
      slim cfg X shuffles srt sched = .ok s → Finished s →
      weights s f j = (((List.range (blockCount cfg X)).foldl
        (fun w i => processBlock cfg X shuffles srt i w) (freshWorker cfg X)).out.map
          (fun e => if e.1 = f ∧ e.2.1 = j then e.2.2 else 0)).sum := by
    intro T sched s hs hfin
    have hp := slim_rows hs hfin
    have hT := (slim_ok hs).2
    have h0 : ((freshWorker cfg X).out.map
        (fun e : Nat × Nat × K => if e.1 = f ∧ e.2.1 = j then e.2.2 else 0)).sum = 0 := by
      simp [freshWorker]
    rw [weights_sum]
    simp only [slim_loc hs]
    cases hh : s.hist with
    | nil =>
      rw [hh] at hp
      have : blockCount cfg X = 0 := by simpa using hp.length_eq.symm
      rw [this]
      have hr : ∀ t, rowsOf s t = [] := by intro t; simp [rowsOf, hh]
      simp only [hr, List.foldl_nil, List.range_zero, h0]
      simp
    | cons e es =>
      rw [hh] at hp
      have hlen := hp.length_eq
      simp only [List.map_cons, List.length_cons, List.length_map, List.length_range] at hlen
      have he : es = [] := List.length_eq_zero_iff.mp (by omega)
      have hb1 : blockCount cfg X = 1 := by omega
      subst he
      rw [hb1] at hp ⊢
      have he2 : e.2 = 0 := by simpa using hp
      have hr : ∀ t, rowsOf s t = if t = e.1 then [0] else [] := by
        intro t
        unfold rowsOf
        rw [hh]
        by_cases ht : t = e.1
        · subst ht; simp [he2]
        · have : ¬ e.1 = t := fun h => ht h.symm
          simp [ht, this]
      simp only [hr]
      rw [List.sum_ofFn, Finset.sum_eq_single e.1]
      · simp
      · intro t _ ht
        rw [if_neg ht]
        exact h0
      · simp
  rw [key sched s hs hfin, key sched' s' hs' hfin']

/-- A column of the first block: the weights are those of a fresh worker. -/
theorem first_block_weights {T : Nat} (cfg : Config K) (X : CSC K) (shuffles : Nat → List Nat)
    (srt : List (K × Nat) → List (K × Nat)) (hk : cfg.topK < 0) (sched : List (Fin T))
    (s : State T (Worker K) Unit) (hs : slim cfg X shuffles srt sched = .ok s) (hfin : Finished s)
    (j : Nat) (hj : j < X.cols.length) (hjB : j < cfg.blockSize) (f : Nat) (hf : f < X.cols.length) :
    weights s f j = (blockResult cfg X shuffles 0 0).coef j f := by
  have hB : 0 < cfg.blockSize := by omega
  have hj0 : j / cfg.blockSize = 0 := Nat.div_eq_of_lt hjB
  have hjm : j % cfg.blockSize = j := Nat.mod_eq_of_lt hjB
  have hp := slim_rows hs hfin
  have hnd : (s.hist.map Prod.snd).Nodup := hp.nodup_iff.mpr List.nodup_range
  have hpos : 0 < blockCount cfg X := by
    unfold blockCount
    apply Nat.div_pos _ hB
    omega
  have h0 : 0 ∈ s.hist.map Prod.snd := hp.mem_iff.mpr (List.mem_range.mpr hpos)
  obtain ⟨⟨t, i⟩, hin, hi⟩ := List.mem_map.mp h0
  simp only at hi
  subst hi
  have hmemr : ∀ t', 0 ∈ rowsOf s t' ↔ t' = t := by
    intro t'
    unfold rowsOf
    simp only [List.mem_map, List.mem_filter, decide_eq_true_eq]
    constructor
    · rintro ⟨⟨t'', i'⟩, ⟨h1, h2⟩, h3⟩
      simp only at h2 h3
      have := List.inj_on_of_nodup_map hnd h1 hin h3
      rw [Prod.mk.injEq] at this
      exact h2.symm.trans this.1
    · rintro rfl; exact ⟨_, ⟨hin, rfl⟩, rfl⟩
  have hord := (slim_inOrder hs t).1
  have hnr : ∀ t', (rowsOf s t').Nodup := fun t' =>
    ((slim_inOrder hs t').1).imp (fun h => Nat.ne_of_lt h)
  obtain ⟨rest, hrest⟩ : ∃ rest, rowsOf s t = 0 :: rest := by
    have hm := (hmemr t).mpr rfl
    cases hr : rowsOf s t with
    | nil => rw [hr] at hm; simp at hm
    | cons x xs =>
      rw [hr] at hm hord
      rcases List.mem_cons.mp hm with h | h
      · exact ⟨xs, by rw [← h]⟩
      · have := (List.pairwise_cons.mp hord).1 0 h
        omega
  have hn0 : 0 ∉ rest := by
    have := hnr t
    rw [hrest, List.nodup_cons] at this
    exact this.1
  have hfl : ofCol j (List.ofFn (fun t => (s.loc t).out)).flatten =
      (List.ofFn (fun t => ofCol j (s.loc t).out)).flatten := by
    unfold ofCol
    rw [List.filter_flatten, List.map_ofFn]
    rfl
  unfold weights
  rw [sum_ofCol, hfl, flatten_single _ t]
  · rw [slim_loc hs, hrest, List.foldl_cons]
    obtain ⟨buf, hb⟩ := (processBlock_out cfg X shuffles srt hB 0 j hj (freshWorker cfg X)).2 hj0.symm
    have hnr' : rest.Nodup := by
      have := hnr t
      rw [hrest, List.nodup_cons] at this
      exact this.2
    rw [(rows_out cfg X shuffles srt hB j hj rest hnr' _).1 (by rw [hj0]; exact hn0), hb]
    have he : ofCol j (freshWorker cfg X).out = [] := rfl
    rw [he, List.nil_append, hjm]
    unfold emission
    rw [if_pos hk]
    exact nonzeros_sum _ _ _ _ hf
  · intro t' hne
    rw [slim_loc hs, (rows_out cfg X shuffles srt hB j hj (rowsOf s t') (hnr t')
      (freshWorker cfg X)).1 (by rw [hj0]; exact fun h => hne ((hmemr t').mp h))]
    rfl

/-- C89 (the first block). Without `top_k`, the weights of the items of the first block (as many as the SIMD width)
do not depend on the number of threads and the schedule. -/
theorem C89_first_block {T T' : Nat} (cfg : Config K) (X : CSC K) (shuffles : Nat → List Nat)
    (srt srt' : List (K × Nat) → List (K × Nat)) (hk : cfg.topK < 0) (sched : List (Fin T))
    (sched' : List (Fin T')) (s : State T (Worker K) Unit) (s' : State T' (Worker K) Unit)
    (hs : slim cfg X shuffles srt sched = .ok s) (hfin : Finished s)
    (hs' : slim cfg X shuffles srt' sched' = .ok s') (hfin' : Finished s')
    (j : Nat) (hj : j < X.cols.length) (hjB : j < cfg.blockSize) (f : Nat) (hf : f < X.cols.length) :
    weights s f j = weights s' f j := by
  rw [first_block_weights cfg X shuffles srt hk sched s hs hfin j hj hjB f hf,
    first_block_weights cfg X shuffles srt' hk sched' s' hs' hfin' j hj hjB f hf]

end generic

/-! ### Which worker gets a block -/

section order
variable {K : Type} [Field K] [LinearOrder K] [IsStrictOrderedRing K]

omit [IsStrictOrderedRing K] in
theorem emitLanes_shuffled (cfg : Config K) (F : Nat) (srt : List (K × Nat) → List (K × Nat)) (begin : Nat)
    (coef : Nat → Nat → K) (lanes : List Nat) : ∀ w : Worker K,
    (lanes.foldl (fun w k => if cfg.topK < 0 then emitAll F (begin + k) (coef k) w
      else emitColumn F cfg.topK.toNat srt (begin + k) (coef k) w) w).shuffled = w.shuffled := by
  induction lanes with
  | nil => intro w; rfl
  | cons k ks ih =>
    intro w
    rw [List.foldl_cons, ih]
    split <;> rfl

omit [IsStrictOrderedRing K] in
theorem one_iteration (cfg : Config K) (hn : cfg.nIter = 1) (X : CSC K) (shuffles : Nat → List Nat)
    (srt : List (K × Nat) → List (K × Nat)) (i : Nat) (w : Worker K) :
    (processBlock cfg X shuffles srt i w).shuffled = w.shuffled + 1 ∧
    blockResult cfg X shuffles i w.shuffled = (sweep cfg X (i * cfg.blockSize) (shuffles w.shuffled)
      (initBlock X cfg.blockSize (i * cfg.blockSize))).1 := by
  constructor
  · unfold processBlock
    simp only
    rw [emitLanes_shuffled, hn]
    simp only [iterations]
    split <;> rfl
  · unfold blockResult
    rw [hn]
    simp only [iterations]
    split <;> rfl

/-- C89 is violated by the implementation: the result depends on the scheduling of the threads. Let the first two
shuffles of the generator differ. Then there is a matrix - one user, three of whose items have been used - on which
two runs of the same call, with two threads, return different weights: in the first run the second thread processes
the second block, in the second run the first thread processes both blocks and visits the features of the second one
in another order. (One iteration, `SIMD width + 3` items; `prec` is Eigen's tolerance.) -/
theorem C89_schedule_counterexample (cfg : Config K) (hB : 3 ≤ cfg.blockSize) (hn : cfg.nIter = 1)
    (h2 : cfg.l2 = 1) (h1 : cfg.l1 = 0) (hp : cfg.prec < 1 / 2) (hk : cfg.topK < 0) (shuffles : Nat → List Nat)
    (hsh : ∀ c, (shuffles c).Perm (List.range (cfg.blockSize + 3))) (hne : shuffles 0 ≠ shuffles 1)
    (srt : List (K × Nat) → List (K × Nat)) :
    ∃ X : CSC K, Proper X ∧ X.cols.length = cfg.blockSize + 3 ∧
    ∃ (sched sched' : List (Fin 2)) (s s' : State 2 (Worker K) Unit),
      slim cfg X shuffles srt sched = .ok s ∧ Finished s ∧
      slim cfg X shuffles srt sched' = .ok s' ∧ Finished s' ∧
      ∃ f j, f < X.cols.length ∧ j < X.cols.length ∧ weights s f j = 1 / 2 ∧ weights s' f j = 1 / 4 := by
  set B := cfg.blockSize with hBdef
  obtain ⟨a, b, hab, hs0, hs1⟩ := discordant ((hsh 0).nodup_iff.mpr List.nodup_range)
    ((hsh 0).trans (hsh 1).symm) hne
  obtain ⟨d, hd3, hda, hdb⟩ : ∃ d, d < 3 ∧ a ≠ B + d ∧ b ≠ B + d := by
    by_cases c0 : a ≠ B + 0 ∧ b ≠ B + 0
    · exact ⟨0, by omega, c0⟩
    by_cases c1 : a ≠ B + 1 ∧ b ≠ B + 1
    · exact ⟨1, by omega, c1⟩
    exact ⟨2, by omega, by omega, by omega⟩
  have haF : a < B + 3 := List.mem_range.mp ((hsh 0).mem_iff.mp (hs0.subset (by simp)))
  set F := B + 3 with hF
  set j := B + d with hj
  set X : CSC K := threeItems F a b j with hX
  have hlen : X.cols.length = F := by simp [hX, threeItems]
  have hcount : blockCount cfg X = 2 := by
    unfold blockCount
    rw [hlen, hF, ← hBdef]
    rw [Nat.div_eq_iff (by omega)]
    omega
  have hok : ∀ sched : List (Fin 2), slim cfg X shuffles srt sched =
      .ok (run 2 1 (fun i w m => (processBlock cfg X shuffles srt i w, m)) (init (freshWorker cfg X) ()) sched) := by
    intro sched
    unfold slim
    rw [if_neg (by decide), if_neg (by omega), if_neg (by rw [h2]; exact not_lt.mpr zero_le_one),
      if_neg (by rw [h1]; exact lt_irrefl _), hcount]
  have hjdiv : j / B = 1 := by rw [hj, Nat.div_eq_iff (by omega)]; omega
  have hjmod : j % B = d := by rw [hj, Nat.add_mod_left, Nat.mod_eq_of_lt (by omega)]
  have hjF : j < F := by omega
  have hB0 : 0 < B := by omega
  have hcol : ∀ w : Worker K, ofCol j w.out = [] → ∀ f, f < F →
      ((ofCol j (processBlock cfg X shuffles srt 1 w).out).map (fun e => if e.1 = f then e.2.2 else 0)).sum =
      (sweep cfg X B (shuffles w.shuffled) (initBlock X cfg.blockSize B)).1.coef d f := by
    intro w hw f hf
    obtain ⟨buf, hb⟩ := (processBlock_out cfg X shuffles srt hB0 1 j (by rw [hlen]; exact hjF) w).2 hjdiv.symm
    rw [hb, hw, List.nil_append, hjmod, (one_iteration cfg hn X shuffles srt 1 w).2, Nat.one_mul]
    unfold emission
    rw [if_pos hk]
    exact nonzeros_sum _ _ _ _ (by rw [hlen]; exact hf)
  have hfirst : ofCol j (processBlock cfg X shuffles srt 0 (freshWorker cfg X)).out = [] := by
    rw [(processBlock_out cfg X shuffles srt hB0 0 j (by rw [hlen]; exact hjF) (freshWorker cfg X)).1
      (by rw [hjdiv]; omega)]
    rfl
  have hsw := fun order ho hsub => sweep_three cfg h2 h1 hp F a b j B d rfl (by omega) hab hda hdb hjF order ho hsub
  have hsw' := fun order ho hsub => sweep_three cfg h2 h1 hp F b a j B d rfl (by omega) (Ne.symm hab) hdb hda hjF
    order ho hsub
  have hXswap : (threeItems F b a j : CSC K) = X := by
    simp only [hX, threeItems, CSC.mk.injEq, true_and]
    apply List.map_congr_left
    intro f _
    by_cases ha : f = a <;> by_cases hb : f = b <;> simp [ha, hb]
  refine ⟨X, ⟨?_, ?_⟩, hlen, [0, 0, 1, 1, 0, 0, 1, 1], [0, 0, 0, 0, 0, 0, 0, 1], _, _, hok _, ?_, hok _, ?_,
    a, j, by omega, by omega, ?_, ?_⟩
  · intro c hc e he
    simp only [hX, threeItems, List.mem_map, List.mem_range] at hc
    obtain ⟨f, _, rfl⟩ := hc
    split at he
    · simp at he; subst he; simp [hX, threeItems]
    · simp at he
  · intro c hc
    simp only [hX, threeItems, List.mem_map, List.mem_range] at hc
    obtain ⟨f, _, rfl⟩ := hc
    split <;> simp
  · intro t
    fin_cases t <;> simp [run, step, init, Function.update]
  · intro t
    fin_cases t <;> simp [run, step, init, Function.update]
  · have e : (run 2 1 (fun i w m => (processBlock cfg X shuffles srt i w, m)) (init (freshWorker cfg X) ())
        ([0, 0, 1, 1, 0, 0, 1, 1] : List (Fin 2))).loc =
        fun t => if t = 0 then processBlock cfg X shuffles srt 0 (freshWorker cfg X)
          else processBlock cfg X shuffles srt 1 (freshWorker cfg X) := by
      funext t
      fin_cases t <;> simp [run, step, init, Function.update]
    unfold weights
    rw [e, sum_ofCol]
    simp only [List.ofFn_succ, List.ofFn_zero, List.flatten_cons, List.flatten_nil, List.append_nil, ofCol_append]
    simp only [if_true, hfirst, List.nil_append]
    rw [if_neg (by decide), hcol _ rfl a haF]
    exact (hsw _ (hsh 0) hs0).1
  · have e : (run 2 1 (fun i w m => (processBlock cfg X shuffles srt i w, m)) (init (freshWorker cfg X) ())
        ([0, 0, 0, 0, 0, 0, 0, 1] : List (Fin 2))).loc =
        fun t => if t = 0 then processBlock cfg X shuffles srt 1
            (processBlock cfg X shuffles srt 0 (freshWorker cfg X))
          else freshWorker cfg X := by
      funext t
      fin_cases t <;> simp [run, step, init, Function.update]
    have hfr : ofCol j (freshWorker cfg X).out = [] := rfl
    unfold weights
    rw [e, sum_ofCol]
    simp only [List.ofFn_succ, List.ofFn_zero, List.flatten_cons, List.flatten_nil, List.append_nil, ofCol_append]
    simp only [if_true]
    rw [if_neg (by decide), hfr, List.append_nil, hcol _ hfirst a haF,
      (one_iteration cfg hn X shuffles srt 0 (freshWorker cfg X)).1]
    have := (hsw' (shuffles 1) (hsh 1) hs1).2
    rw [hXswap] at this
    exact this

end order

/-! ### The SIMD width of the build -/

/-- one user who rated three items 1, 1 and 10 -/
def wideX : CSC Rat where
  rows := 1
  cols := [[(0, 1)], [(0, 1)], [(0, 10)]]

/-- at most two iterations, stopping when no coefficient of the block changes by 1 or more -/
def wideCfg (blockSize : Nat) : Config Rat where
  positiveOnly := true
  blockSize := blockSize
  nIter := 2
  l2 := 1
  l1 := 0
  tol := 1
  prec := 1 / 100000
  topK := -1

/-- C89 is violated across builds: the number of columns a worker optimises together is the SIMD width of the build,
and all of them are iterated until none of them changes.  Here, a build without vectorisation (width 1) stops after one
iteration for item 0; a build of width 4 goes on because of item 2, and returns other weights for item 0: for every
sequence of shuffles, number of threads and schedule. -/
theorem C89_width_counterexample :
    Proper wideX ∧ ∀ (shuffles : Nat → List Nat), (∀ c, (shuffles c).Perm (List.range 3)) →
    ∀ (srt : List (Rat × Nat) → List (Rat × Nat)) (T T' : Nat) (sched : List (Fin T)) (sched' : List (Fin T'))
      (s : State T (Worker Rat) Unit) (s' : State T' (Worker Rat) Unit),
      slim (wideCfg 1) wideX shuffles srt sched = .ok s → Finished s →
      slim (wideCfg 4) wideX shuffles srt sched' = .ok s' → Finished s' →
      weights s 1 0 ≠ weights s' 1 0 ∨ weights s 2 0 ≠ weights s' 2 0 := by
  refine ⟨⟨by decide +kernel, by decide +kernel⟩, ?_⟩
  intro shuffles hsh srt T T' sched sched' s s' hs hfin hs' hfin'
  have hw : ∀ f, f < 3 → weights s f 0 = (blockResult (wideCfg 1) wideX shuffles 0 0).coef 0 f ∧
      weights s' f 0 = (blockResult (wideCfg 4) wideX shuffles 0 0).coef 0 f := fun f hf =>
    ⟨first_block_weights (wideCfg 1) wideX shuffles srt (by decide) sched s hs hfin 0 (by decide) (by decide) f hf,
      first_block_weights (wideCfg 4) wideX shuffles srt (by decide) sched' s' hs' hfin' 0 (by decide) (by decide) f hf⟩
  rw [(hw 1 (by decide)).1, (hw 1 (by decide)).2, (hw 2 (by decide)).1, (hw 2 (by decide)).2]
  have hi : ∀ B, blockResult (wideCfg B) wideX shuffles 0 0 =
      blockResult (wideCfg B) wideX (fun c => if c = 0 then shuffles 0 else shuffles 1) 0 0 := by
    intro B
    unfold blockResult
    have hn : (wideCfg B).nIter = 2 := rfl
    rw [hn]
    simp [iterations]
  rw [hi 1, hi 4]
  have hmem : ∀ c, shuffles c ∈ [[0, 1, 2], [0, 2, 1], [1, 0, 2], [1, 2, 0], [2, 0, 1], [2, 1, 0]] := by
    intro c
    have h : shuffles c ∈ List.permutations [0, 1, 2] := List.mem_permutations.mpr (hsh c)
    have h2 : List.permutations [0, 1, 2] =
        [[0, 1, 2], [1, 0, 2], [2, 1, 0], [1, 2, 0], [2, 0, 1], [0, 2, 1]] := by
      simp [List.permutations, List.permutationsAux, List.permutationsAux.rec, List.permutationsAux2]
    rw [h2] at h
    simp only [List.mem_cons, List.not_mem_nil, or_false] at h ⊢
    tauto
  have hall : ∀ p ∈ [[0, 1, 2], [0, 2, 1], [1, 0, 2], [1, 2, 0], [2, 0, 1], [2, 1, 0]],
      ∀ q ∈ [[0, 1, 2], [0, 2, 1], [1, 0, 2], [1, 2, 0], [2, 0, 1], [2, 1, 0]],
      (blockResult (wideCfg 1) wideX (fun c => if c = 0 then p else q) 0 0).coef 0 1 ≠
        (blockResult (wideCfg 4) wideX (fun c => if c = 0 then p else q) 0 0).coef 0 1 ∨
      (blockResult (wideCfg 1) wideX (fun c => if c = 0 then p else q) 0 0).coef 0 2 ≠
        (blockResult (wideCfg 4) wideX (fun c => if c = 0 then p else q) 0 0).coef 0 2 := by
    decide +kernel
  exact hall _ (hmem 0) _ (hmem 1)

/-! ### How far two runs can be apart -/

/-- C89 (bound). Any two runs on the same data - with any numbers of threads, schedules, generators and SIMD widths -
return weights whose squared distance is at most `16 / l2` times `rate ^ n_iter` times the loss of the zero matrix plus
a term proportional to `tol²`; `l2 = n_users * alpha * (1 - l1_ratio)`. So the spread between runs shrinks to nothing
as `n_iter` grows and `tol` shrinks. Missing: the tolerance of the zero test (`prec = 0` here), see C37. -/
theorem C89_distance_partial {T T' : Nat} (X : CSC ℝ) (hX : Proper X) (hU : 0 < X.rows) (α l1Ratio tol : ℝ)
    (hα : 0 < α) (hl0 : 0 ≤ l1Ratio) (hl1 : l1Ratio < 1) (M : ℝ)
    (hM : ∀ f, f < X.cols.length → ∑ u ∈ Finset.range X.rows, X.get u f ^ 2 ≤ M)
    (positiveOnly : Bool) (nIter B B' : Nat) (hB : 0 < B) (hB' : 0 < B') (shuffles shuffles' : Nat → List Nat)
    (hsh : ∀ c, (shuffles c).Perm (List.range X.cols.length))
    (hsh' : ∀ c, (shuffles' c).Perm (List.range X.cols.length))
    (srt srt' : List (ℝ × Nat) → List (ℝ × Nat)) (sched : List (Fin T)) (sched' : List (Fin T'))
    (s : State T (Worker ℝ) Unit) (s' : State T' (Worker ℝ) Unit)
    (hs : slim (recommenderConfig X.rows α l1Ratio positiveOnly nIter tol none B 0) X shuffles srt sched = .ok s)
    (hfin : Finished s)
    (hs' : slim (recommenderConfig X.rows α l1Ratio positiveOnly nIter tol none B' 0) X shuffles' srt' sched' = .ok s')
    (hfin' : Finished s') :
    ∑ j ∈ Finset.range X.cols.length, ∑ f ∈ Finset.range X.cols.length, (weights s f j - weights s' f j) ^ 2 ≤
      16 / (X.rows * α * (1 - l1Ratio)) *
        (rate X.cols.length M (X.rows * α * (1 - l1Ratio)) ^ nIter *
            documentedLoss X.get X.rows X.cols.length α l1Ratio (fun _ _ => 0)
          + X.cols.length ^ 4 * M ^ 2 * tol ^ 2 / (2 * (X.rows * α * (1 - l1Ratio)))) := by
  obtain ⟨⟨O, hO⟩, _⟩ := C86_optimum X hU α l1Ratio hα hl0 hl1 positiveOnly
  have hU' : (0 : ℝ) < X.rows := Nat.cast_pos.mpr hU
  have h2 : 0 < X.rows * α * (1 - l1Ratio) := mul_pos (mul_pos hU' hα) (by linarith)
  set l2 := X.rows * α * (1 - l1Ratio) with hl2
  set D := rate X.cols.length M l2 ^ nIter * documentedLoss X.get X.rows X.cols.length α l1Ratio (fun _ _ => 0)
    + X.cols.length ^ 4 * M ^ 2 * tol ^ 2 / (2 * l2) with hD
  obtain ⟨hf, hb⟩ := C86_recommender_partial X hX hU α l1Ratio tol hα hl0 hl1 M hM positiveOnly nIter B hB shuffles hsh
    srt sched s hs hfin
  obtain ⟨hf', hb'⟩ := C86_recommender_partial X hX hU α l1Ratio tol hα hl0 hl1 M hM positiveOnly nIter B' hB' shuffles'
    hsh' srt' sched' s' hs' hfin'
  have d := C86_distance X hU α l1Ratio hα hl0 hl1 positiveOnly O (weights s) hO hf
  have d' := C86_distance X hU α l1Ratio hα hl0 hl1 positiveOnly O (weights s') hO hf'
  have b := hb O hO.1
  have b' := hb' O hO.1
  rw [← hl2] at d d' b b'
  have hle : ∀ x y z : ℝ, (x - y) ^ 2 ≤ 2 * (x - z) ^ 2 + 2 * (y - z) ^ 2 := fun x y z => by
    nlinarith [sq_nonneg ((x - z) + (y - z))]
  have hsum : ∑ j ∈ Finset.range X.cols.length, ∑ f ∈ Finset.range X.cols.length,
        (weights s f j - weights s' f j) ^ 2 ≤
      2 * (∑ j ∈ Finset.range X.cols.length, ∑ f ∈ Finset.range X.cols.length, (weights s f j - O f j) ^ 2) +
      2 * ∑ j ∈ Finset.range X.cols.length, ∑ f ∈ Finset.range X.cols.length, (weights s' f j - O f j) ^ 2 := by
    rw [Finset.mul_sum, Finset.mul_sum, ← Finset.sum_add_distrib]
    apply Finset.sum_le_sum
    intro j _
    rw [Finset.mul_sum, Finset.mul_sum, ← Finset.sum_add_distrib]
    apply Finset.sum_le_sum
    intro f _
    exact hle _ _ _
  set S1 := ∑ j ∈ Finset.range X.cols.length, ∑ f ∈ Finset.range X.cols.length, (weights s f j - O f j) ^ 2
  set S2 := ∑ j ∈ Finset.range X.cols.length, ∑ f ∈ Finset.range X.cols.length, (weights s' f j - O f j) ^ 2
  have hS1 : l2 * S1 ≤ 4 * D := by
    have : l2 / 4 * S1 ≤ D := by rw [hD]; linarith
    linarith
  have hS2 : l2 * S2 ≤ 4 * D := by
    have : l2 / 4 * S2 ≤ D := by rw [hD]; linarith
    linarith
  refine le_trans hsum ?_
  rw [div_mul_eq_mul_div, le_div_iff₀ h2]
  linarith

/-! ### The hypotheses are met -/

/-- Non-vacuity of `C89_assignment`, `C89_one_thread`, `C89_first_block`: a run with one thread and two interleavings of
two threads in which the same worker gets the same blocks (three blocks; the second thread gets the middle one). -/
example :
    (∃ s : State 1 (Worker Rat) Unit, slim (wideCfg 1) wideX (fun c => if c = 0 then [0, 1, 2] else [2, 0, 1])
      sortDesc (List.replicate 10 (0 : Fin 1)) = .ok s ∧ Finished s ∧ weights s 1 0 = 1 / 2) ∧
    ∃ s s' : State 2 (Worker Rat) Unit,
      slim (wideCfg 1) wideX (fun c => if c = 0 then [0, 1, 2] else [2, 0, 1]) sortDesc
        [0, 0, 1, 1, 0, 0, 0, 0, 0, 1, 1] = .ok s ∧ Finished s ∧
      slim (wideCfg 1) wideX (fun c => if c = 0 then [0, 1, 2] else [2, 0, 1]) sortDesc
        [0, 1, 1, 0, 0, 0, 1, 0, 0, 0, 1] = .ok s' ∧ Finished s' ∧
      s.hist = [(0, 0), (1, 1), (0, 2)] ∧ s'.hist = [(1, 1), (0, 0), (0, 2)] := by
  refine ⟨⟨_, rfl, fun t => ?_, ?_⟩, _, _, rfl, fun t => ?_, rfl, fun t => ?_, ?_, ?_⟩
  · revert t; decide +kernel
  · decide +kernel
  · revert t; decide +kernel
  · revert t; decide +kernel
  · rfl
  · rfl

/-- Non-vacuity of `C89_single_block`: three items fit into one block of width 4. -/
example : wideX.cols.length ≤ (wideCfg 4).blockSize ∧
    ∃ s : State 2 (Worker Rat) Unit, slim (wideCfg 4) wideX (fun _ => [0, 1, 2]) sortDesc
      [1, 1, 1, 1, 0] = .ok s ∧ Finished s ∧ weights s 1 0 = 51 / 202 := by
  refine ⟨by decide, _, rfl, fun t => ?_, ?_⟩
  · revert t; decide +kernel
  · decide +kernel

/-- Non-vacuity of `C89_schedule_counterexample`: SIMD width 4 and two different shuffles of the seven items. -/
example : ∃ (cfg : Config Rat) (shuffles : Nat → List Nat), 3 ≤ cfg.blockSize ∧ cfg.nIter = 1 ∧ cfg.l2 = 1 ∧
    cfg.l1 = 0 ∧ cfg.prec < 1 / 2 ∧ cfg.topK < 0 ∧
    (∀ c, (shuffles c).Perm (List.range (cfg.blockSize + 3))) ∧ shuffles 0 ≠ shuffles 1 := by
  refine ⟨{ wideCfg 4 with nIter := 1 }, fun c => if c = 0 then List.range 7 else (List.range 7).reverse,
    by decide, rfl, rfl, rfl, by decide +kernel, by decide, fun c => ?_, by decide⟩
  by_cases h : c = 0
  · simp [h, wideCfg]
  · simp only [h, if_false]
    exact List.reverse_perm _

/-- Non-vacuity of `C89_distance_partial`: one user and one item, two numbers of threads. -/
example : ∃ X : CSC ℝ, Proper X ∧ 0 < X.rows ∧
    (∀ f, f < X.cols.length → ∑ u ∈ Finset.range X.rows, X.get u f ^ 2 ≤ 1) ∧
    (∃ s : State 1 (Worker ℝ) Unit,
      slim (recommenderConfig X.rows 1 0 false 3 (1 / 10) none 4 0) X (fun _ => [0]) id [0, 0, 0, 0] = .ok s ∧
      Finished s) ∧
    (∃ s : State 2 (Worker ℝ) Unit,
      slim (recommenderConfig X.rows 1 0 false 3 (1 / 10) none 4 0) X (fun _ => [0]) id [0, 0, 0, 0, 1] = .ok s ∧
      Finished s) := by
  have hok : ∀ (T : Nat) (hT : T ≠ 0) (sched : List (Fin T)),
      slim (recommenderConfig 1 (1 : ℝ) 0 false 3 (1 / 10) none 4 0) ⟨1, [[(0, 1)]]⟩ (fun _ => [0]) id sched =
        .ok (run 1 1 (fun i w m => (processBlock (recommenderConfig 1 (1 : ℝ) 0 false 3 (1 / 10) none 4 0)
          ⟨1, [[(0, 1)]]⟩ (fun _ => [0]) id i w, m))
          (init (freshWorker (recommenderConfig 1 (1 : ℝ) 0 false 3 (1 / 10) none 4 0) ⟨1, [[(0, 1)]]⟩) ()) sched) := by
    intro T hT sched
    unfold slim
    rw [if_neg hT, if_neg (by simp [recommenderConfig]), if_neg (by simp [recommenderConfig]),
      if_neg (by simp [recommenderConfig])]
    rfl
  refine ⟨⟨1, [[(0, 1)]]⟩, ⟨by simp, by simp⟩, by norm_num, ?_, ⟨_, hok 1 (by decide) _, ?_⟩,
    ⟨_, hok 2 (by decide) _, ?_⟩⟩
  · intro f hf
    have : f = 0 := by simpa using hf
    subst this
    simp [CSC.get, SpVec.get]
  · intro t
    fin_cases t; simp [run, step, init, Function.update]
  · intro t
    fin_cases t <;> simp [run, step, init, Function.update]

end Irspack.Props
