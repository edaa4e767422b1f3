import Verif.Proofs.Doubling
import Mathlib.Algebra.Order.Ring.Rat

/-!
# C58: the dimension-doubling search

The loop is modelled with `fuel` rounds; `none` means that it is still running then.
-/

namespace Irspack.Tuning

open Spec.Tuning

variable {K V Data : Type} [Field K] [LinearOrder K]

/-- C58 (termination).  From an initial dimension of at least 1 the search ends, by returning or by an
exception, whatever the evaluations give. -/
theorem C58_terminates (U : Chars) (c : Doubling K V Data) (initial maximal : Nat) (h : 1 ≤ initial) :
    ∃ r, ∀ fuel, maximal < fuel → tuneDoubling U c initial maximal fuel = some r := by
  have hne := doublingLoop_ends U c maximal (maximal + 1) initial none [] h (by omega) (by omega)
  cases hl : doublingLoop U c maximal (maximal + 1) initial none [] with
  | none => exact absurd hl hne
  | some x =>
    cases x with
    | error e =>
      refine ⟨.error e, fun fuel hf => ?_⟩
      unfold tuneDoubling
      rw [doublingLoop_mono U c maximal _ _ _ _ _ fuel hl hf]
    | ok rs =>
      refine ⟨doublingResult rs, fun fuel hf => ?_⟩
      unfold tuneDoubling
      rw [doublingLoop_mono U c maximal _ _ _ _ _ fuel hl hf]

/-- C58 (initial dimension zero).  The search can end only by an exception raised in a trial: it never
returns. -/
theorem C58_zero_never_returns (U : Chars) (c : Doubling K V Data) (maximal fuel : Nat)
    (bp : Dict V) (studies : List (Study K V Data)) :
    tuneDoubling U c 0 maximal fuel ≠ some (.ok (bp, studies)) := by
  unfold tuneDoubling
  cases hl : doublingLoop U c maximal fuel 0 none [] with
  | none => simp
  | some r =>
    obtain ⟨e, rfl⟩ := doublingLoop_zero U c maximal fuel none [] r hl
    simp

/-- C58 (nothing to explore).  If the initial dimension exceeds the maximal one, `ValueError` is raised. -/
theorem C58_empty (U : Chars) (c : Doubling K V Data) (initial maximal fuel : Nat) (h : maximal < initial)
    (hf : 0 < fuel) : tuneDoubling U c initial maximal fuel = some (.error .valueError) := by
  obtain ⟨f, rfl⟩ : ∃ f, fuel = f + 1 := ⟨fuel - 1, by omega⟩
  unfold tuneDoubling doublingLoop
  rw [if_neg (by omega)]
  rfl

open Classical in
/-- C58 (result).  When the search returns, there is one study for each `initial * 2 ^ k` not above the
maximum, in this order, and for no other dimension; every trial of the study for a dimension constructs the
recommender on the given data with this `n_components`.  The returned parameters are those of the best
trial of one of the dimensions, with its `n_components`; this study contains the least value in the history
of all dimensions, and the values in the studies of other dimensions are greater. -/
theorem C58_result (U : Chars) (c : Doubling K V Data) (initial maximal fuel : Nat) (hi : 1 ≤ initial)
    (bp : Dict V) (studies : List (Study K V Data))
    (h : tuneDoubling U c initial maximal fuel = some (.ok (bp, studies))) :
    (∀ k, k < studies.length ↔ initial * 2 ^ k ≤ maximal) ∧
    (∀ k st, studies[k]? = some st → ∀ t ∈ st.trials, ∀ d kw, t.passed = some (d, kw) →
      d = c.data ∧ kw.get? "n_components".toList = some (c.int (initial * 2 ^ k))) ∧
    ∃ k st b w, studies[k]? = some st ∧ IsBest st.trials b w ∧
      bp.get? "n_components".toList = some (c.int (initial * 2 ^ k)) ∧
      (∀ key, key ≠ "n_components".toList →
        bp.get? key = (b.params.get? key).or (if isValidParamName U key then b.attrs.get? key else none)) ∧
      ∃ least, (∃ t ∈ st.trials, HasValue t least) ∧
        ∀ j st', studies[j]? = some st' → ∀ t ∈ st'.trials, ∀ v, HasValue t v →
          least ≤ v ∧ (j ≠ k → least < v) := by
  obtain ⟨l, r, h1, h2, h3, hnd, rfl, rfl⟩ := tuneDoubling_ok U c initial maximal fuel h
  refine ⟨?_, ?_, ?_⟩
  · intro k
    rw [List.length_map]
    exact rounds_length U c maximal l initial none hi h1 k
  · intro k st hk t ht d kw hp
    rw [List.getElem?_map, Option.map_eq_some_iff] at hk
    obtain ⟨r', hr', rfl⟩ := hk
    obtain ⟨prev, p, h4, -⟩ := rounds_get U c maximal l initial none h1 k r' hr'
    obtain ⟨h5, -⟩ := roundOf_ok U c _ prev (least := r'.1) (bp := r'.2.1) (study := r'.2.2) h4
    have ht' : t ∈ (optimize (setupOf c (initial * 2 ^ k) prev) (trialsOf c prev) ⟨[], []⟩).1.trials := by
      rw [h5]; exact ht
    obtain ⟨h6, s₀, ps, sug, h7, -⟩ := C54_fixed_override (setupOf c (initial * 2 ^ k) prev)
      (by simp [setupOf, Dict.WF]) _ _ t ht' (by simp) d kw hp
    refine ⟨?_, h6 nComponents _ (by simp [setupOf, Dict.get?_cons])⟩
    have h8 : ([], Except.ok c.data) = (ps, Except.ok d) := h7
    exact (Except.ok.inj (Prod.mk.inj h8).2).symm
  · obtain ⟨k, hk⟩ := List.getElem?_of_mem h2
    obtain ⟨prev, p, h4, -⟩ := rounds_get U c maximal l initial none h1 k r hk
    obtain ⟨-, b, w, h5, -, h6, h7, h8, -⟩ :=
      roundOf_ok U c _ prev (least := r.1) (bp := r.2.1) (study := r.2.2) h4
    refine ⟨k, r.2.2, b, w, by rw [List.getElem?_map, hk]; rfl, h5, h6, h7, r.1, h8, ?_⟩
    intro j st' hj t ht v hv
    rw [List.getElem?_map, Option.map_eq_some_iff] at hj
    obtain ⟨r', hr', rfl⟩ := hj
    obtain ⟨prev', p', h9, -⟩ := rounds_get U c maximal l initial none h1 j r' hr'
    obtain ⟨-, b', w', -, -, -, -, -, h10⟩ :=
      roundOf_ok U c _ prev' (least := r'.1) (bp := r'.2.1) (study := r'.2.2) h9
    have hle := h3 r' (List.mem_of_getElem? hr')
    have hv' := h10 t ht v hv
    refine ⟨hle.trans hv', fun hjk => lt_of_lt_of_le (lt_of_le_of_ne hle ?_) hv'⟩
    intro heq
    apply hjk
    have hjl : j < (l.map (·.1)).length := by
      rw [List.length_map]; exact (List.getElem?_eq_some_iff.mp hr').1
    apply (List.getElem?_inj hjl hnd).mp
    rw [List.getElem?_map, List.getElem?_map, hk, hr']
    simp [heq]

/-- C58 (best dimension).  If in each study every value reported by a pruned trial is at least the value of
some completed trial (a pruner that stops only trials worse than a completed one), the returned parameters
are those of a completed trial with the least value over all dimensions. -/
theorem C58_best_dimension (U : Chars) (c : Doubling K V Data) (initial maximal fuel : Nat) (hi : 1 ≤ initial)
    (bp : Dict V) (studies : List (Study K V Data))
    (h : tuneDoubling U c initial maximal fuel = some (.ok (bp, studies)))
    (hp : ∀ st ∈ studies, ∀ t ∈ st.trials, ∀ v, t.outcome = .pruned (some v) →
      ∃ t' ∈ st.trials, ∃ v', t'.outcome = .complete v' ∧ v' ≤ v) :
    ∃ k st b w, studies[k]? = some st ∧ b ∈ st.trials ∧ b.outcome = .complete w ∧
      bp.get? "n_components".toList = some (c.int (initial * 2 ^ k)) ∧
      (∀ key v, key ≠ "n_components".toList → b.params.get? key = some v → bp.get? key = some v) ∧
      ∀ st' ∈ studies, ∀ t ∈ st'.trials, ∀ v, t.outcome = .complete v → w ≤ v := by
  obtain ⟨-, -, k, st, b, w, h1, h2, h3, h4, least, ⟨tl, htl, hvl⟩, h5⟩ :=
    C58_result U c initial maximal fuel hi bp studies h
  obtain ⟨before, after, e1, e2, e3, e4⟩ := h2
  refine ⟨k, st, b, w, h1, by rw [e1]; simp, e2, h3, ?_, ?_⟩
  · intro key v hkey hv
    rw [h4 key hkey, hv]
    rfl
  · -- the value of the best trial is at most every completed value of its own study
    have hown : ∀ t ∈ st.trials, ∀ v, t.outcome = .complete v → w ≤ v := by
      intro t ht v hv
      rw [e1] at ht
      rcases List.mem_append.mp ht with ht | ht
      · exact (e3 t ht v hv).le
      · rcases List.mem_cons.mp ht with rfl | ht
        · rw [e2] at hv; cases hv; exact le_refl _
        · exact e4 t ht v hv
    have hle : w ≤ least := by
      rcases hvl with hvl | hvl
      · exact hown tl htl least hvl
      · obtain ⟨t', ht', v', hv', hvv⟩ := hp st (List.mem_of_getElem? h1) tl htl least hvl
        exact (hown t' ht' v' hv').trans hvv
    intro st' hst' t ht v hv
    obtain ⟨j, hj⟩ := List.getElem?_of_mem hst'
    exact hle.trans (h5 j st' hj t ht v (.inl hv)).1

/-- C58 (neighbourhood).  If the sampler respects the bounds of a request, then in every dimension after the
first each float parameter of the best trial of the previous dimension is passed to the recommender with a
value between its previous value divided by and multiplied by the scale; parameters that were not floats are
not passed any more. -/
theorem C58_neighbourhood (U : Chars) (c : Doubling K V Data) (initial maximal fuel : Nat)
    (bp : Dict V) (studies : List (Study K V Data))
    (h : tuneDoubling U c initial maximal fuel = some (.ok (bp, studies)))
    (hs : ∀ dim s name lo hi w, c.sample dim s name (.float (some lo) (some hi) true) = .ok w →
      ∃ y, c.asFloat w = some y ∧ lo ≤ y ∧ y ≤ hi)
    (k : Nat) (st st' : Study K V Data) (hk : studies[k]? = some st) (hk' : studies[k + 1]? = some st')
    (b : Frozen K V Data) (w : K) (hb : IsBest st.trials b w)
    (t : Frozen K V Data) (ht : t ∈ st'.trials) (d : Data) (kw : Dict V) (hp : t.passed = some (d, kw))
    (key : List Char) (hkey : key ≠ "n_components".toList) :
    (∀ v x, b.params.get? key = some v → c.asFloat v = some x →
      ∃ v' y, kw.get? key = some v' ∧ c.asFloat v' = some y ∧ x / c.scale ≤ y ∧ y ≤ x * c.scale) ∧
    ((∀ v x, b.params.get? key = some v → c.asFloat v ≠ some x) → kw.get? key = none) := by
  obtain ⟨l, r, h1, -, -, -, -, rfl⟩ := tuneDoubling_ok U c initial maximal fuel h
  rw [List.getElem?_map, Option.map_eq_some_iff] at hk hk'
  obtain ⟨r1, hr1, rfl⟩ := hk
  obtain ⟨r2, hr2, rfl⟩ := hk'
  obtain ⟨prev, p, h4, h5⟩ := rounds_get U c maximal l initial none h1 k r1 hr1
  obtain ⟨p', h6⟩ := h5 r2 hr2
  obtain ⟨h7, b', w', h8, rfl, -⟩ := roundOf_ok U c _ prev (least := r1.1) (bp := r1.2.1) (study := r1.2.2) h4
  have hbb : b' = b := by
    have e1 := isBest_bestOf h8
    have e2 := isBest_bestOf hb
    rw [e1] at e2
    exact (Prod.mk.inj (Option.some.inj e2)).1
  subst hbb
  have hwf : b'.params.WF := by
    have hmem : b' ∈ (optimize (setupOf c (initial * 2 ^ k) prev) (trialsOf c prev) ⟨[], []⟩).1.trials := by
      rw [h7]
      obtain ⟨pre, post, e1, -⟩ := hb
      rw [e1]; simp
    exact madeBy_params_wf _ _ ((mem_optimize hmem).resolve_left (by simp))
  obtain ⟨h9, -⟩ := roundOf_ok U c _ (some b'.params) (least := r2.1) (bp := r2.2.1) (study := r2.2.2) h6
  have ht' : t ∈ (optimize (setupOf c (initial * 2 ^ (k + 1)) (some b'.params))
      (trialsOf c (some b'.params)) ⟨[], []⟩).1.trials := by
    rw [h9]; exact ht
  obtain ⟨-, s₀, ps, sug, h10, h11, h12⟩ := C54_fixed_override (setupOf c (initial * 2 ^ (k + 1)) (some b'.params))
    (by simp [setupOf, Dict.WF]) _ _ t ht' (by simp) d kw hp
  have hps : ps = [] := by
    have : ([], Except.ok c.data) = (ps, Except.ok d) := h10
    exact (Prod.mk.inj this).1.symm
  subst hps
  obtain ⟨-, h13⟩ := neighbourhood_run c.asFloat c.scale (c.sample (initial * 2 ^ (k + 1)) s₀) b'.params []
    hwf (by intro k v _; rfl) _ _ h11
  have hkw : kw.get? key = sug.get? key := h12 key (by
    simp only [setupOf, Dict.get?_cons, Dict.get?_nil]
    rw [if_neg (fun e => hkey e.symm)])
  obtain ⟨h14, h15⟩ := h13 key rfl
  rw [hkw]
  refine ⟨?_, h15⟩
  intro v x hv hx
  obtain ⟨v', h16, h17⟩ := h14 v x hv hx
  obtain ⟨y, h18, h19, h20⟩ := hs _ _ _ _ _ _ h17
  exact ⟨v', y, h16, h18, h19, h20⟩

/-- C58 (scale zero).  With the scale zero, a trial in a later dimension raises `ZeroDivisionError` at the
first float parameter. -/
theorem C58_scale_zero (asFloat : V → Option K) (sample : List Char → Request K V → Except Err V)
    (prev acc ps : Dict V) (h : ∃ e ∈ prev, ∃ x, asFloat e.2 = some x) :
    ((neighbourhood asFloat 0 prev acc).run sample ps).2 = .error .zeroDivisionError := by
  induction prev generalizing acc with
  | nil => obtain ⟨e, he, -⟩ := h; simp at he
  | cons e prev ih =>
    obtain ⟨key, v⟩ := e
    unfold neighbourhood
    cases hf : asFloat v with
    | some x => simp only [if_true]; rfl
    | none =>
      simp only
      apply ih
      obtain ⟨e, he, x, hx⟩ := h
      rcases List.mem_cons.mp he with rfl | he
      · rw [hf] at hx; cases hx
      · exact ⟨e, he, x, hx⟩

/-! ## Examples -/

/-- one float parameter; the score is given by the dimension -/
def searchExample (score : ℚ → ℚ) : Doubling ℚ ℚ Unit where
  ranges := []
  data := ()
  initialSuggest := some (.ask "reg".toList (.float (some 1) (some 2) true) (fun v => .ret [("reg".toList, v)]))
  trialsInitial := 1
  trialsFollowing := 1
  scale := 2
  asFloat := some
  int := fun n => n
  target := "ndcg".toList
  cutoffSuffix := "@10".toList
  sample := fun _ _ _ req => match req with
    | .float (some lo) (some hi) _ => if lo ≤ hi then .ok lo else .error .valueError
    | _ => .error .valueError
  fit := fun _ _ kw => .done [] [("ndcg".toList, (Dict.get? kw nComponents).map score)]

/-- the dimensions 1, 2 and 4 are explored for the maximum 5, and the parameters for 2, which has the best
score, are returned -/
example (U : Chars) : ∃ st, tuneDoubling U (searchExample (fun n => if n = 2 then 9 else n)) 1 5 6 =
    some (.ok ([("reg".toList, 1/2), (nComponents, 2)], st)) ∧ st.length = 3 := by
  with_unfolding_all exact ⟨_, rfl, rfl⟩

/-- the sampler of the example respects bounds -/
example (score : ℚ → ℚ) : ∀ dim s name lo hi w,
    (searchExample score).sample dim s name (.float (some lo) (some hi) true) = .ok w →
      ∃ y, (searchExample score).asFloat w = some y ∧ lo ≤ y ∧ y ≤ hi := by
  intro dim s name lo hi w h
  have h' : (if lo ≤ hi then (Except.ok lo : Except Err ℚ) else .error .valueError) = .ok w := h
  by_cases hle : lo ≤ hi
  · rw [if_pos hle] at h'
    cases h'
    exact ⟨_, rfl, le_refl _, hle⟩
  · rw [if_neg hle] at h'; cases h'

/-- C58 (counterexample: tie).  If two dimensions reach the same value, the search raises `TypeError`
instead of returning parameters. -/
theorem C58_tie_counterexample (U : Chars) :
    tuneDoubling U (searchExample (fun _ => 1)) 1 2 3 = some (.error .typeError) := by
  with_unfolding_all rfl

theorem neighbourhood_none (scale : K) (prev acc : Dict V) :
    neighbourhood (fun _ => none) scale prev acc = .ret acc := by
  induction prev with
  | nil => rfl
  | cons e prev ih => exact ih

/-- the same without float parameters in the neighbourhood -/
def plainExample : Doubling ℚ ℚ Unit := { searchExample (fun _ => 1) with asFloat := fun _ => none }

/-- C58 (counterexample: initial dimension zero).  With a constant score and no exceptions the search does
not end. -/
theorem C58_zero_counterexample (U : Chars) : ∀ fuel,
    tuneDoubling U plainExample 0 2 fuel = none := by
  have hround : ∀ prev, ∃ r p, roundOf U plainExample 0 prev = .ok (r, p) := by
    intro prev
    rw [roundOf_eq]
    cases prev with
    | none =>
      with_unfolding_all exact ⟨_, _, rfl⟩
    | some prev =>
      have : setupOf plainExample 0 (some prev) = { setupOf plainExample 0 (some []) with
          paramSuggest := .ret [] } := by
        unfold setupOf
        simp only
        rw [show (plainExample.asFloat : ℚ → Option ℚ) = fun _ => none from rfl, neighbourhood_none]
      rw [this]
      with_unfolding_all exact ⟨_, _, rfl⟩
  have hloop : ∀ fuel prev results, doublingLoop U plainExample 2 fuel 0 prev results = none := by
    intro fuel
    induction fuel with
    | zero => intros; rfl
    | succ fuel ih =>
      intro prev results
      unfold doublingLoop
      rw [if_pos (by omega)]
      obtain ⟨r, p, h⟩ := hround prev
      rw [h]
      exact ih _ _
  intro fuel
  unfold tuneDoubling
  rw [hloop]

end Irspack.Tuning
