import Mathlib.Tactic.FieldSimp
import Mathlib.Tactic.Positivity
import Verif.Proofs.MultVAE

/-!
# C63: Mult-VAE training and scoring

`update` (gradient, optimiser and the random numbers drawn in it) is an arbitrary function, so the
statements hold for every such function.  Exact reals.
-/

namespace Irspack.MultVAE

open Spec.MultVAE Spec.Score Irspack.Score

variable {O : Type}

/-! ## Training -/

theorem totalAnneal_pos (cfg : Config) (n : Nat) (hs : 0 < cfg.size) (ha : 0 < cfg.annealEnd) (hn : 0 < n) :
    0 < totalAnneal cfg n := by
  unfold totalAnneal
  have : 0 < cfg.annealEnd * n := Nat.mul_pos ha hn
  positivity

/-- C63 (an epoch).  With a positive minibatch size and a positive number of annealing epochs, `run_epoch`
makes one update per minibatch: the shuffled users are cut into minibatches, every user's profile occurs in
exactly one of them, the updates are made in that order on the state left by the previous one, and the KL
weight of each is given by the number of updates made since the trainer was created. -/
theorem C63_epoch (cfg : Config) (X : CSR ℝ)
    (upd : Params → Nat → O → List (Nat → ℝ) → ℝ → Params × O) (order : List Nat) (s : State O)
    (hs : 0 < cfg.size) (ha : 0 < cfg.annealEnd) (horder : order.Perm (List.range X.nrows)) :
    ∃ (batches : List (List Nat)) (st : Nat → State O),
      CutInto cfg.size order batches ∧
      (∀ u < X.nrows, ∃! t : Nat × Nat, ∃ b, batches[t.1]? = some b ∧ b[t.2]? = some u) ∧
      batches.length = (X.nrows + cfg.size - 1) / cfg.size ∧
      st 0 = s ∧ runEpoch cfg X upd order s = .ok (st batches.length) ∧
      ∀ t b, batches[t]? = some b →
        upd (st t).params (st t).keys (st t).opt (b.map (fun u j => X.get u j))
          (klWeight cfg.goal (cfg.annealEnd * X.nrows / cfg.size) (s.count + t)) =
            ((st (t + 1)).params, (st (t + 1)).opt) ∧
        (st (t + 1)).count = s.count + t + 1 ∧ (st (t + 1)).keys = s.keys + t + 1 := by
  have hcut := minibatches_cut cfg.size hs order.length order (le_refl _)
  refine ⟨minibatches cfg.size order, ?_⟩
  have hlen : (minibatches cfg.size order).length = (X.nrows + cfg.size - 1) / cfg.size := by
    rw [length_minibatches, horder.length_eq, List.length_range]
  have huniq : ∀ u < X.nrows, ∃! t : Nat × Nat, ∃ b, (minibatches cfg.size order)[t.1]? = some b ∧
      b[t.2]? = some u := by
    intro u hu
    have hmem : u ∈ (minibatches cfg.size order).flatten := by
      rw [hcut.1, horder.mem_iff]
      exact List.mem_range.mpr hu
    have hnd : (minibatches cfg.size order).flatten.Nodup := by
      rw [hcut.1]
      exact horder.nodup_iff.mpr List.nodup_range
    rw [List.nodup_flatten] at hnd
    obtain ⟨b, hb, hub⟩ := List.mem_flatten.mp hmem
    obtain ⟨i, hi, hbi⟩ := List.mem_iff_getElem.mp hb
    obtain ⟨k, hk, hbk⟩ := List.mem_iff_getElem.mp hub
    refine ⟨(i, k), ⟨b, by simp [hi, hbi], by simp [hk, hbk]⟩, ?_⟩
    rintro ⟨i', k'⟩ ⟨b', hb', hk'⟩
    simp only at hb' hk'
    obtain ⟨hi', rfl⟩ := List.getElem?_eq_some_iff.mp hb'
    obtain ⟨hk'', hku⟩ := List.getElem?_eq_some_iff.mp hk'
    have hii : i' = i := by
      by_contra hne
      have hp := List.pairwise_iff_getElem.mp hnd.2
      rcases Nat.lt_or_gt_of_ne hne with hlt | hlt
      · exact hp i' i hi' hi hlt (List.mem_of_getElem? hk') (by rw [hbi]; exact hub)
      · exact hp i i' hi hi' hlt (by rw [hbi]; exact hub) (List.mem_of_getElem? hk')
    subst hii
    have hkk : k' = k := by
      have hn := hnd.1 _ hb
      subst hbi
      exact (List.Nodup.getElem_inj_iff hn).mp (hku.trans hbk.symm)
    rw [hkk]
  -- the states
  have hrun : ∀ (bs : List (List Nat)) (s : State O), (bs ≠ [] → 0 < X.nrows) →
      ∃ st : Nat → State O, st 0 = s ∧ bs.foldlM (update cfg X upd) s = .ok (st bs.length) ∧
        ∀ t b, bs[t]? = some b →
          upd (st t).params (st t).keys (st t).opt (b.map (fun u j => X.get u j))
            (klWeight cfg.goal (cfg.annealEnd * X.nrows / cfg.size) (s.count + t)) =
              ((st (t + 1)).params, (st (t + 1)).opt) ∧
          (st (t + 1)).count = s.count + t + 1 ∧ (st (t + 1)).keys = s.keys + t + 1 := by
    intro bs
    induction bs with
    | nil => intro s _; exact ⟨fun _ => s, rfl, rfl, by simp⟩
    | cons b bs ih =>
      intro s hpos
      have hn := hpos (by simp)
      have htot := totalAnneal_pos cfg X.nrows hs ha hn
      obtain ⟨s1, hs1⟩ : ∃ s1 : State O, s1 = ⟨(upd s.params s.keys s.opt
          (b.map (fun u => denseRow (X.row u))) (cfg.goal * min 1 (s.count / totalAnneal cfg X.nrows))).1,
        (upd s.params s.keys s.opt
          (b.map (fun u => denseRow (X.row u))) (cfg.goal * min 1 (s.count / totalAnneal cfg X.nrows))).2,
        s.count + 1, s.keys + 1⟩ := ⟨_, rfl⟩
      have hstep : update cfg X upd s b = .ok s1 := by
        unfold update
        rw [if_neg htot.ne', hs1]
      obtain ⟨st, h0, h1, h2⟩ := ih s1 (fun _ => hn)
      refine ⟨fun t => if t = 0 then s else st (t - 1), rfl, ?_, ?_⟩
      · rw [List.foldlM_cons, hstep]
        simp only [bind, Except.bind]
        rw [h1]
        simp
      · intro t b' hb'
        cases t with
        | zero =>
          simp only [List.getElem?_cons_zero, Option.some.injEq] at hb'
          subst hb'
          simp only [if_true, Nat.zero_add, one_ne_zero, if_false, Nat.sub_self, h0, hs1, Nat.add_zero]
          refine ⟨?_, trivial, trivial⟩
          unfold klWeight totalAnneal
          push_cast
          rfl
        | succ t =>
          simp only [List.getElem?_cons_succ] at hb'
          obtain ⟨g1, g2, g3⟩ := h2 t b' hb'
          simp only [Nat.add_one_ne_zero, if_false, Nat.add_sub_cancel]
          have e1 : s1.count + t = s.count + (t + 1) := by rw [hs1]; simp only; omega
          have e2 : s1.keys + t = s.keys + (t + 1) := by rw [hs1]; simp only; omega
          rw [e1] at g1 g2
          rw [e2] at g3
          exact ⟨g1, g2, g3⟩
  obtain ⟨st, h0, h1, h2⟩ := hrun (minibatches cfg.size order) s (by
    intro hne
    by_contra hc
    have : X.nrows = 0 := by omega
    rw [this, List.range_zero] at horder
    rw [horder.eq_nil, minibatches_nil] at hne
    exact hne rfl)
  exact ⟨st, hcut, huniq, hlen, h0, h1, h2⟩

/-- non-vacuity: three users, minibatches of two, shuffled -/
example : ∃ (cfg : Config) (X : CSR ℝ) (order : List Nat), 0 < cfg.size ∧ 0 < cfg.annealEnd ∧
    order.Perm (List.range X.nrows) ∧ minibatches cfg.size order = [[2, 0], [1]] :=
  ⟨⟨1, 1, 2, 0⟩, ⟨1, [[], [], []]⟩, [2, 0, 1], by decide, by decide, by decide, by decide⟩

/-- C63 (annealing).  For a non-negative goal the KL weight never decreases, stays between 0 and the goal,
and is the goal from the end of epoch `anneal_end_epoch` on. -/
theorem C63_annealing (cfg : Config) (n : Nat) (hs : 0 < cfg.size) (ha : 0 < cfg.annealEnd) (hn : 0 < n)
    (hg : 0 ≤ cfg.goal) :
    Monotone (klWeight cfg.goal (cfg.annealEnd * n / cfg.size)) ∧
    klWeight cfg.goal (cfg.annealEnd * n / cfg.size) 0 = 0 ∧
    (∀ t, 0 ≤ klWeight cfg.goal (cfg.annealEnd * n / cfg.size) t ∧
      klWeight cfg.goal (cfg.annealEnd * n / cfg.size) t ≤ cfg.goal) ∧
    ∀ t, cfg.annealEnd * ((n + cfg.size - 1) / cfg.size) ≤ t →
      klWeight cfg.goal (cfg.annealEnd * n / cfg.size) t = cfg.goal := by
  have htot : (0 : ℝ) < cfg.annealEnd * n / cfg.size := by positivity
  refine ⟨fun a b hab => ?_, by simp [klWeight], fun t => ⟨?_, ?_⟩, fun t ht => ?_⟩
  · unfold klWeight
    apply mul_le_mul_of_nonneg_left _ hg
    apply min_le_min_left
    apply div_le_div_of_nonneg_right _ htot.le
    exact_mod_cast hab
  · unfold klWeight
    apply mul_nonneg hg
    apply le_min zero_le_one
    positivity
  · unfold klWeight
    exact mul_le_of_le_one_right hg (min_le_left _ _)
  · unfold klWeight
    have hceil : n ≤ (n + cfg.size - 1) / cfg.size * cfg.size := by
      have h1 := Nat.div_add_mod (n + cfg.size - 1) cfg.size
      have h2 := Nat.mod_lt (n + cfg.size - 1) hs
      rw [Nat.mul_comm] at h1
      omega
    have h3 : cfg.annealEnd * n ≤ t * cfg.size := by
      calc cfg.annealEnd * n ≤ cfg.annealEnd * ((n + cfg.size - 1) / cfg.size * cfg.size) :=
            Nat.mul_le_mul_left _ hceil
        _ = cfg.annealEnd * ((n + cfg.size - 1) / cfg.size) * cfg.size := by rw [Nat.mul_assoc]
        _ ≤ t * cfg.size := Nat.mul_le_mul_right _ ht
    have h4 : (1 : ℝ) ≤ t / (cfg.annealEnd * n / cfg.size) := by
      rw [le_div_iff₀ htot, one_mul, div_le_iff₀ (by exact_mod_cast hs)]
      exact_mod_cast h3
    rw [min_eq_left h4, mul_one]

/-- C63 (what cannot be trained).  A minibatch size of zero makes the constructor raise
`ZeroDivisionError`; `anneal_end_epoch = 0` makes the first update raise it; without users an epoch does
nothing. -/
theorem C63_training_errors (cfg : Config) (X : CSR ℝ)
    (upd : Params → Nat → O → List (Nat → ℝ) → ℝ → Params × O) (order : List Nat) (s : State O)
    (init : Params) (opt : O) (horder : order.Perm (List.range X.nrows)) :
    ((∃ t, create cfg init opt = .ok t) ↔ cfg.size ≠ 0) ∧
    (cfg.size = 0 → create cfg init opt = .error .zeroDivisionError) ∧
    (0 < cfg.size → cfg.annealEnd = 0 → 0 < X.nrows →
      runEpoch cfg X upd order s = .error .zeroDivisionError) ∧
    (X.nrows = 0 → runEpoch cfg X upd order s = .ok s) := by
  refine ⟨?_, ?_, ?_, ?_⟩
  · unfold create
    by_cases h : cfg.size = 0
    · simp [h]
    · simp [h]
  · intro h; unfold create; rw [if_pos h]
  · intro hs ha hn
    unfold runEpoch
    have hne : order ≠ [] := by
      intro h
      rw [h] at horder
      have := horder.length_eq
      simp at this
      omega
    rw [minibatches_step _ hs _ hne, List.foldlM_cons]
    have : update cfg X upd s (order.take cfg.size) = .error .zeroDivisionError := by
      unfold update
      rw [if_pos (by unfold totalAnneal; rw [ha]; simp)]
    rw [this]
    rfl
  · intro hn
    rw [hn, List.range_zero] at horder
    rw [horder.eq_nil]
    unfold runEpoch
    rw [minibatches_nil]
    rfl

/-- C63 (`l2_regularizer` is ignored).  Two trainers that differ only in the documented parameter
`l2_regularizer` make the same epochs and give the same scores. -/
theorem C63_l2_regularizer_ignored (cfg : Config) (a b : ℝ) (X x : CSR ℝ)
    (upd : Params → Nat → O → List (Nat → ℝ) → ℝ → Params × O) (order : List Nat) (s : State O) :
    runEpoch { cfg with l2Regularizer := a } X upd order s =
      runEpoch { cfg with l2Regularizer := b } X upd order s ∧
    coldScores { cfg with l2Regularizer := a } X.cols s x =
      coldScores { cfg with l2Regularizer := b } X.cols s x := ⟨rfl, rfl⟩

/-- C63 (the objective).  For non-negative interactions and a non-negative KL weight the loss is
non-negative, whatever the parameters, the dropout and the noise; its KL part vanishes only at the standard
normal distribution. -/
theorem C63_loss_nonneg (p : Params) (n : Nat) (batch : List (Nat → ℝ))
    (noise : Nat → ((Nat → ℝ) → Nat → ℝ) × (Nat → ℝ)) (kl : ℝ) (hkl : 0 ≤ kl)
    (hb : ∀ x ∈ batch, ∀ j < n, 0 ≤ x j) :
    0 ≤ loss p n batch noise kl ∧
    ∀ mu logVar, 0 ≤ klRow p.latent mu logVar ∧
      (klRow p.latent mu logVar = 0 ↔ ∀ c < p.latent, mu c = 0 ∧ logVar c = 0) := by
  have hrow : ∀ mu logVar, 0 ≤ klRow p.latent mu logVar := fun mu logVar =>
    Finset.sum_nonneg (fun c _ => klTerm_nonneg (mu c) (logVar c))
  refine ⟨?_, fun mu logVar => ⟨hrow mu logVar, ?_⟩⟩
  · unfold loss
    simp only
    have h1 : 0 ≤ -mean ((batch.mapIdx (fun k x =>
        (∑ j ∈ Finset.range n, decode p n (fun c => (encode p n (noise k).1 x).1 c + (noise k).2 c *
          Real.exp ((encode p n (noise k).1 x).2 c * 0.5)) j * x j,
        klRow p.latent (encode p n (noise k).1 x).1 (encode p n (noise k).1 x).2))).map (·.1)) := by
      rw [neg_nonneg]
      apply mean_nonpos
      intro a ha
      obtain ⟨q, hq, rfl⟩ := List.mem_map.mp ha
      obtain ⟨k, hk, rfl⟩ := List.mem_mapIdx.mp hq
      simp only
      apply Finset.sum_nonpos
      intro j hj
      have hj' := Finset.mem_range.mp hj
      exact mul_nonpos_of_nonpos_of_nonneg (logSoftmax_nonpos n _ j hj')
        (hb _ (List.getElem_mem hk) j hj')
    apply add_nonneg h1
    apply mul_nonneg hkl
    apply mean_nonneg
    intro a ha
    obtain ⟨q, hq, rfl⟩ := List.mem_map.mp ha
    obtain ⟨k, hk, rfl⟩ := List.mem_mapIdx.mp hq
    exact hrow _ _
  · unfold klRow
    rw [Finset.sum_eq_zero_iff_of_nonneg (fun c _ => klTerm_nonneg (mu c) (logVar c))]
    constructor
    · intro h c hc
      exact (klTerm_zero _ _).mp (h c (Finset.mem_range.mpr hc))
    · intro h c hc
      exact (klTerm_zero _ _).mpr (h c (Finset.mem_range.mp hc))

example : ∃ batch : List (Nat → ℝ), batch.length = 2 ∧ ∀ x ∈ batch, ∀ j < 3, 0 ≤ x j :=
  ⟨[fun _ => 1, fun j => j], rfl, by
    intro x hx j _
    simp only [List.mem_cons, List.not_mem_nil, or_false] at hx
    rcases hx with rfl | rfl
    · exact zero_le_one
    · exact Nat.cast_nonneg j⟩

/-! ## Scoring -/

/-- C63 (scores of new users).  The scores of a non-empty matrix of profiles: one row of log-probabilities
per user, the same for every minibatch size; the parameters, the optimiser state and the number of updates
are left as they are. -/
theorem C63_cold_scores (cfg : Config) (n : Nat) (hs : 0 < cfg.size) (s : State O) (x : CSR ℝ)
    (hx : x.rows ≠ []) (hc : x.cols = n) :
    ∃ scores s', coldScores cfg n s x = .ok (scores, s') ∧ scores.cols = n ∧
      scores.rows.length = x.nrows ∧
      (∀ row ∈ scores.rows, (0 < n → ∑ j ∈ Finset.range n, Real.exp (row j) = 1) ∧
        ∀ j < n, row j ≤ 0) ∧
      s'.params = s.params ∧ s'.opt = s.opt ∧ s'.count = s.count := by
  refine ⟨⟨n, (minibatches cfg.size x.rows).flatMap
      (fun b => b.map (fun r => scoreRow s.params n (denseRow r)))⟩,
    { s with keys := s.keys + (minibatches cfg.size x.rows).length }, ?_, rfl, ?_, ?_, rfl, rfl, rfl⟩
  · unfold coldScores
    rw [if_neg hx, if_neg (not_not.mpr hc)]
  · rw [flatMap_minibatches _ hs, List.length_map]
    rfl
  · rw [flatMap_minibatches _ hs]
    intro row hrow
    obtain ⟨r, _, rfl⟩ := List.mem_map.mp hrow
    exact ⟨fun hn => exp_logSoftmax_sum n hn _, fun j hj => logSoftmax_nonpos n _ j hj⟩

theorem coldScores_row {cfg : Config} {n : Nat} {s : State O} {x : CSR ℝ} {r : Dense ℝ × State O}
    (hs : 0 < cfg.size) (h : coldScores cfg n s x = .ok r) (k : Nat) (hk : k < x.nrows) :
    r.1.rows[k]? = some (scoreRow s.params n (fun j => x.get k j)) := by
  unfold coldScores at h
  split at h
  · exact absurd h (by simp)
  · split at h
    · exact absurd h (by simp)
    · rw [← Except.ok.inj h]
      simp only
      rw [flatMap_minibatches _ hs, List.getElem?_map]
      unfold CSR.nrows at hk
      rw [List.getElem?_eq_getElem hk]
      simp only [Option.map_some]
      unfold denseRow CSR.get CSR.row
      rw [List.getD_eq_getElem?_getD, List.getElem?_eq_getElem hk]
      rfl

/-- C63 (own profile only).  The scores of a user depend on the parameters and this user's profile, not on
the minibatch size, the other users, the position in the matrix, or what happened to the trainer's optimiser
and random keys. -/
theorem C63_own_profile_only (cfg cfg' : Config) (n : Nat) (hs : 0 < cfg.size) (hs' : 0 < cfg'.size)
    (s s' : State O) (hp : s.params = s'.params) (x x' : CSR ℝ) (r r' : Dense ℝ × State O)
    (h : coldScores cfg n s x = .ok r) (h' : coldScores cfg' n s' x' = .ok r')
    (k k' : Nat) (hk : k < x.nrows) (hk' : k' < x'.nrows) (hrow : ∀ j, x.get k j = x'.get k' j) :
    ∃ row, r.1.rows[k]? = some row ∧ r'.1.rows[k']? = some row := by
  refine ⟨_, coldScores_row hs h k hk, ?_⟩
  rw [coldScores_row hs' h' k' hk', hp, funext hrow]

/-- `y` is `x` sent through one affine layer. -/
def Affine (l : Linear) (x y : Nat → ℝ) : Prop :=
  ∀ o, y o = (∑ i ∈ Finset.range l.nIn, x i * l.w i o) + l.b o

/-- `y` is `x` sent through layers with `tanh` activation, first to last. -/
inductive Through : List Linear → (Nat → ℝ) → (Nat → ℝ) → Prop
  | nil (x : Nat → ℝ) : Through [] x x
  | cons {l : Linear} {ls : List Linear} {x a h y : Nat → ℝ} : Affine l x a →
      (∀ o, h o = Real.tanh (a o)) → Through ls h y → Through (l :: ls) x y

theorem affine_eq {l : Linear} {x y : Nat → ℝ} (h : Affine l x y) : y = l.apply x := funext h

theorem affine_congr {l : Linear} {x x' : Nat → ℝ} (h : ∀ i < l.nIn, x i = x' i) :
    l.apply x = l.apply x' := by
  funext o
  unfold Linear.apply
  rw [Finset.sum_congr rfl (fun i hi => by rw [h i (Finset.mem_range.mp hi)])]

theorem through_eq {ls : List Linear} {x y : Nat → ℝ} (h : Through ls x y) :
    y = ls.foldl (fun h l => fun o => Real.tanh (l.apply h o)) x := by
  induction h with
  | nil x => rfl
  | cons ha hh _ ih =>
    rw [List.foldl_cons, ih]
    congr 1
    funext o
    rw [hh, affine_eq ha]

theorem mlp_congr (hidden : List Linear) (last : Linear) {w : Nat} {x x' : Nat → ℝ}
    (hw : ((hidden ++ [last]).head?.map Linear.nIn) = some w) (h : ∀ i < w, x i = x' i) :
    mlp hidden last x = mlp hidden last x' := by
  unfold mlp
  cases hidden with
  | nil =>
    apply affine_congr
    intro i hi
    apply h
    simp only [List.nil_append, List.head?_cons, Option.map_some, Option.some.injEq] at hw
    omega
  | cons l ls =>
    simp only [List.cons_append, List.head?_cons, Option.map_some, Option.some.injEq] at hw
    rw [List.foldl_cons, List.foldl_cons]
    have : l.apply x = l.apply x' := affine_congr (by rw [hw]; exact h)
    rw [this]

/-- C63 (what a score is).  The profile, divided by its (slightly increased) length, goes through the
encoder; the first `latent` outputs are the mean, and whatever vector starts with them goes through the
decoder, which reads `latent` numbers; the scores are the logarithms of the softmax of its outputs.  In
particular neither the variance nor dropout nor noise enters. -/
theorem C63_score_formula (cfg : Config) (n : Nat) (hs : 0 < cfg.size) (s : State O) (x : CSR ℝ)
    (r : Dense ℝ × State O) (h : coldScores cfg n s x = .ok r) (k : Nat) (hk : k < x.nrows)
    (unit hid enc z dec out : Nat → ℝ)
    (hunit : ∀ j, unit j * Real.sqrt ((∑ i ∈ Finset.range n, x.get k i ^ 2) + 1e-8) = x.get k j)
    (henc : Through s.params.encHidden unit hid) (hlast : Affine s.params.encLast hid enc)
    (hz : ∀ c < s.params.latent, z c = enc c)
    (hw : (s.params.decHidden ++ [s.params.decLast]).head?.map Linear.nIn = some s.params.latent)
    (hdec : Through s.params.decHidden z dec) (hout : Affine s.params.decLast dec out) :
    ∃ row, r.1.rows[k]? = some row ∧
      ∀ j, row j = out j - Real.log (∑ i ∈ Finset.range n, Real.exp (out i)) := by
  refine ⟨_, coldScores_row hs h k hk, ?_⟩
  intro j
  have hpos : 0 < Real.sqrt ((∑ i ∈ Finset.range n, x.get k i ^ 2) + 1e-8) := by
    apply Real.sqrt_pos.mpr
    have : 0 ≤ ∑ i ∈ Finset.range n, x.get k i ^ 2 := Finset.sum_nonneg (fun i _ => sq_nonneg _)
    have h8 : (0 : ℝ) < 1e-8 := by norm_num
    linarith
  have hu : l2Normalize n (fun j => x.get k j) = unit := by
    funext j
    unfold l2Normalize
    rw [div_eq_iff hpos.ne', hunit]
  have hE : mlp s.params.encHidden s.params.encLast unit = enc := by
    unfold mlp
    rw [← through_eq henc, ← affine_eq hlast]
  have hD : mlp s.params.decHidden s.params.decLast z = out := by
    unfold mlp
    rw [← through_eq hdec, ← affine_eq hout]
  have hm : mlp s.params.decHidden s.params.decLast enc = out := by
    rw [← hD]
    exact mlp_congr _ _ hw (fun i hi => (hz i hi).symm)
  show logSoftmax n (mlp s.params.decHidden s.params.decLast
    (mlp s.params.encHidden s.params.encLast (id (l2Normalize n (fun j => x.get k j))))) j = _
  rw [id, hu, hE, hm]
  rfl

/-- The hypotheses on the vectors can always be met: every profile has its unit vector, its encoding, … -/
theorem through_exists (ls : List Linear) (x : Nat → ℝ) : ∃ y, Through ls x y := by
  induction ls generalizing x with
  | nil => exact ⟨x, .nil x⟩
  | cons l ls ih =>
    obtain ⟨y, hy⟩ := ih (fun o => Real.tanh (l.apply x o))
    exact ⟨y, .cons (a := l.apply x) (fun _ => rfl) (fun _ => rfl) hy⟩

/-- C63 (the training objective).  For a batch of profiles: each goes, normalised and with dropout, through the
encoder, whose first `latent` outputs are the means and the next `latent` the logarithms of the variances of
the latent vector; a sample of it goes through the decoder.  The objective is the mean over the batch of the
negative multinomial log-likelihood plus the KL weight times the mean divergence from the standard normal
distribution. -/
theorem C63_objective (p : Params) (n : Nat) (batch : List (Nat → ℝ))
    (noise : Nat → ((Nat → ℝ) → Nat → ℝ) × (Nat → ℝ)) (kl : ℝ) (unit hid enc z dec out : Nat → Nat → ℝ)
    (hunit : ∀ k (hk : k < batch.length), ∀ j,
      unit k j * Real.sqrt ((∑ i ∈ Finset.range n, batch[k] i ^ 2) + 1e-8) = batch[k] j)
    (henc : ∀ k < batch.length, Through p.encHidden ((noise k).1 (unit k)) (hid k))
    (hlast : ∀ k < batch.length, Affine p.encLast (hid k) (enc k))
    (hz : ∀ k < batch.length, ∀ c < p.latent,
      z k c = enc k c + (noise k).2 c * Real.sqrt (Real.exp (enc k (p.latent + c))))
    (hw : (p.decHidden ++ [p.decLast]).head?.map Linear.nIn = some p.latent)
    (hdec : ∀ k < batch.length, Through p.decHidden (z k) (dec k))
    (hout : ∀ k < batch.length, Affine p.decLast (dec k) (out k)) :
    loss p n batch noise kl =
      -(∑ k : Fin batch.length, ∑ j ∈ Finset.range n,
          (out k j - Real.log (∑ i ∈ Finset.range n, Real.exp (out k i))) * batch[k] j) / batch.length +
      kl * ((∑ k : Fin batch.length, ∑ c ∈ Finset.range p.latent,
          (Real.exp (enc k (p.latent + c)) + enc k c ^ 2 - 1 - enc k (p.latent + c)) / 2) / batch.length) := by
  have hrow : ∀ k (hk : k < batch.length), encode p n (noise k).1 batch[k] =
      (enc k, fun c => enc k (p.latent + c)) := by
    intro k hk
    have hpos : 0 < Real.sqrt ((∑ i ∈ Finset.range n, batch[k] i ^ 2) + 1e-8) := by
      apply Real.sqrt_pos.mpr
      have : 0 ≤ ∑ i ∈ Finset.range n, batch[k] i ^ 2 := Finset.sum_nonneg (fun i _ => sq_nonneg _)
      have h8 : (0 : ℝ) < 1e-8 := by norm_num
      linarith
    have hu : l2Normalize n batch[k] = unit k := by
      funext j
      unfold l2Normalize
      rw [div_eq_iff hpos.ne', hunit k hk]
    have hE : mlp p.encHidden p.encLast ((noise k).1 (unit k)) = enc k := by
      unfold mlp
      rw [← through_eq (henc k hk), ← affine_eq (hlast k hk)]
    unfold encode
    simp only [hu, hE]
  have hsq : ∀ x : ℝ, Real.sqrt (Real.exp x) = Real.exp (x * 0.5) := by
    intro x
    rw [show x * 0.5 = x / 2 by norm_num; ring, Real.exp_half]
  have hdecode : ∀ k (hk : k < batch.length),
      decode p n (fun c => enc k c + (noise k).2 c * Real.exp (enc k (p.latent + c) * 0.5)) =
        fun j => out k j - Real.log (∑ i ∈ Finset.range n, Real.exp (out k i)) := by
    intro k hk
    have h1 : mlp p.decHidden p.decLast
        (fun c => enc k c + (noise k).2 c * Real.exp (enc k (p.latent + c) * 0.5)) = out k := by
      rw [mlp_congr p.decHidden p.decLast hw (x' := z k) (fun c hc => by rw [hz k hk c hc, hsq])]
      unfold mlp
      rw [← through_eq (hdec k hk), ← affine_eq (hout k hk)]
    unfold decode
    rw [h1]
    funext j
    rfl
  have hsum : ∀ (f : Nat → (Nat → ℝ) → ℝ × ℝ) (g : ℝ × ℝ → ℝ),
      ((batch.mapIdx f).map g).sum = ∑ k : Fin batch.length, g (f k batch[k]) := by
    intro f g
    rw [← List.sum_ofFn]
    congr 1
    apply List.ext_getElem
    · simp
    · intro i h1 h2; simp
  unfold loss mean
  simp only [hsum, List.length_map, List.length_mapIdx]
  rw [neg_div]
  congr 1
  · congr 2
    apply Finset.sum_congr rfl
    intro k _
    have := hrow k k.2
    simp only [Fin.getElem_fin] at this ⊢
    rw [this]
    simp only
    rw [hdecode k k.2]
  · congr 2
    apply Finset.sum_congr rfl
    intro k _
    have := hrow k k.2
    simp only [Fin.getElem_fin] at this ⊢
    rw [this]
    unfold klRow
    apply Finset.sum_congr rfl
    intro c _
    simp only
    rw [← hsq, Real.sq_sqrt (Real.exp_pos _).le]
    norm_num
    ring

/-- The vectors of `C63_objective` exist for all parameters, batches and noise. -/
example (p : Params) (n : Nat) (batch : List (Nat → ℝ)) (noise : Nat → ((Nat → ℝ) → Nat → ℝ) × (Nat → ℝ)) :
    ∃ unit hid enc z dec out : Nat → Nat → ℝ,
      (∀ k (hk : k < batch.length), ∀ j,
        unit k j * Real.sqrt ((∑ i ∈ Finset.range n, batch[k] i ^ 2) + 1e-8) = batch[k] j) ∧
      (∀ k < batch.length, Through p.encHidden ((noise k).1 (unit k)) (hid k)) ∧
      (∀ k < batch.length, Affine p.encLast (hid k) (enc k)) ∧
      (∀ k < batch.length, ∀ c < p.latent,
        z k c = enc k c + (noise k).2 c * Real.sqrt (Real.exp (enc k (p.latent + c)))) ∧
      (∀ k < batch.length, Through p.decHidden (z k) (dec k)) ∧
      ∀ k < batch.length, Affine p.decLast (dec k) (out k) := by
  choose hid hhid using fun k => through_exists p.encHidden
    ((noise k).1 (l2Normalize n ((batch[k]?).getD (fun _ => 0))))
  choose dec hdec using fun k => through_exists p.decHidden (fun c => p.encLast.apply (hid k) c +
    (noise k).2 c * Real.sqrt (Real.exp (p.encLast.apply (hid k) (p.latent + c))))
  refine ⟨fun k => l2Normalize n ((batch[k]?).getD (fun _ => 0)), hid, fun k => p.encLast.apply (hid k), _, dec,
    fun k => p.decLast.apply (dec k), ?_, fun k _ => hhid k, fun k _ _ => rfl, fun k _ c _ => rfl,
    fun k _ => hdec k, fun k _ _ => rfl⟩
  intro k hk j
  have hpos : 0 < Real.sqrt ((∑ i ∈ Finset.range n, batch[k] i ^ 2) + 1e-8) := by
    apply Real.sqrt_pos.mpr
    have : 0 ≤ ∑ i ∈ Finset.range n, batch[k] i ^ 2 := Finset.sum_nonneg (fun i _ => sq_nonneg _)
    have h8 : (0 : ℝ) < 1e-8 := by norm_num
    linarith
  simp only [List.getElem?_eq_getElem hk, Option.getD_some]
  exact div_mul_cancel₀ _ hpos.ne'

/-- C63 (known users).  `get_score` is the score of the training rows as new profiles; there is no
`get_score_block`; before `learn` scoring raises `RuntimeError`; no users at all, or profiles over another
number of items, raise `ValueError`. -/
theorem C63_known_users (cfg : Config) (X : CSR ℝ) (s : State O) :
    (∀ (users : List Int) (us : List Nat), NamesAll X.nrows users us →
      (recommender cfg X (some s)).getScore users =
        (recommender cfg X (some s)).getScoreColdUser ⟨X.cols, us.map X.row⟩ ∧
      (recommender cfg X (none : Option (State O))).getScore users = .error .runtimeError) ∧
    (∀ (t : Option (State O)) (users : List Int), (¬ ∃ us, NamesAll X.nrows users us) →
      (recommender cfg X t).getScore users = .error .indexError) ∧
    (∀ t : Option (State O), ∀ b e, (recommender cfg X t).getScoreBlock b e = .error .notImplemented) ∧
    (∀ x, (recommender cfg X (none : Option (State O))).getScoreColdUser x = .error .runtimeError) ∧
    (recommender cfg X (some s)).getScore [] = .error .valueError ∧
    ∀ x : CSR ℝ, x.rows = [] ∨ x.cols ≠ X.cols →
      (recommender cfg X (some s)).getScoreColdUser x = .error .valueError := by
  have hcold : ∀ x : CSR ℝ, x.rows = [] ∨ x.cols ≠ X.cols →
      coldScores cfg X.cols s x = .error .valueError := by
    intro x hx
    unfold coldScores
    by_cases h : x.rows = []
    · rw [if_pos h]
    · rw [if_neg h, if_pos (hx.resolve_left h)]
  refine ⟨fun users us hu => ⟨?_, ?_⟩, fun t users hu => ?_, fun _ _ _ => rfl, fun _ => rfl, ?_, ?_⟩
  · show (do let x ← pickRows X users; let t ← fitted (some s); let r ← coldScores cfg X.cols t x; pure r.1) = _
    rw [pickRows_eq X hu]
    rfl
  · show (do let x ← pickRows X users; let t ← fitted (none : Option (State O))
             let r ← coldScores cfg X.cols t x; pure r.1) = _
    rw [pickRows_eq X hu]
    rfl
  · show (do let x ← pickRows X users; let t ← fitted t; let r ← coldScores cfg X.cols t x; pure r.1) = _
    rw [pickRows_error X hu]
    rfl
  · show (do let x ← pickRows X []; let t ← fitted (some s); let r ← coldScores cfg X.cols t x; pure r.1) = _
    rw [pickRows_eq X (idx := []) (us := []) .nil]
    simp only [bind, Except.bind, fitted]
    rw [hcold _ (.inl rfl)]
  · intro x hx
    show (do let t ← fitted (some s); let r ← coldScores cfg X.cols t x; pure r.1) = _
    simp only [bind, Except.bind, fitted]
    rw [hcold x hx]

/-- C63 (restoring the best parameters).  After `load_state` the scores are those of the saved
parameters. -/
theorem C63_restored_scores (cfg : Config) (X : CSR ℝ) (saved s : State O) (users : List Int) :
    (recommender cfg X (some (loadParams saved.params s))).getScore users =
      (recommender cfg X (some saved)).getScore users := by
  show (do let x ← pickRows X users; let t ← fitted (some (loadParams saved.params s))
           let r ← coldScores cfg X.cols t x; pure r.1) =
    (do let x ← pickRows X users; let t ← fitted (some saved)
        let r ← coldScores cfg X.cols t x; pure r.1)
  cases pickRows X users with
  | error e => rfl
  | ok x =>
    simp only [bind, Except.bind, fitted]
    unfold coldScores
    by_cases h1 : x.rows = []
    · simp [h1]
    · by_cases h2 : x.cols = X.cols
      · simp only [if_neg h1, if_neg (not_not.mpr h2)]
        rfl
      · simp [h1, h2]

end Irspack.MultVAE
