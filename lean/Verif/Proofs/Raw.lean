import Verif.Model.Raw
import Verif.Proofs.WorkQueue
import Verif.Proofs.Evaluator
import Mathlib.Data.List.Flatten

namespace Irspack.Raw

open Irspack Evaluation WorkQueue

section prim
variable {A B C : Type}

theorem read_lt {a : List A} {i : Nat} (h : i < a.length) : read a i = .ok a[i] := by
  unfold read; rw [List.getElem?_eq_getElem h]

theorem read_ge {a : List A} {i : Nat} (h : a.length ≤ i) : read a i = .error .outOfBounds := by
  unfold read; rw [List.getElem?_eq_none h]

theorem read_some {a : List A} {i : Nat} {x : A} (h : a[i]? = some x) : read a i = .ok x := by
  unfold read; rw [h]

theorem modify_lt {a : List A} {i : Nat} {f : A → A} (h : i < a.length) :
    modify a i f = .ok (a.modify i f) := by unfold modify; rw [if_pos h]

theorem modify_ge {a : List A} {i : Nat} {f : A → A} (h : a.length ≤ i) :
    modify a i f = .error .outOfBounds := by unfold modify; rw [if_neg (by omega)]

theorem mapE_ok {f : A → Except Fault B} {g : A → B} {l : List A} (h : ∀ a ∈ l, f a = .ok (g a)) :
    mapE f l = .ok (l.map g) := by
  induction l with
  | nil => rfl
  | cons a l ih =>
    simp only [mapE, h a (by simp), ih (fun b hb => h b (by simp [hb])), List.map_cons]

theorem mapE_list {f : A → Except Fault B} :
    ∀ {l : List A} {o : List B} (hlen : l.length = o.length)
      (_ : ∀ k (h : k < l.length), f l[k] = .ok (o[k]'(hlen ▸ h))), mapE f l = .ok o
  | [], [], _, _ => rfl
  | [], _ :: _, h, _ => by simp at h
  | _ :: _, [], h, _ => by simp at h
  | a :: l, b :: o, hlen, h => by
    have h0 := h 0 (by simp)
    simp only [List.getElem_cons_zero] at h0
    have ht : mapE f l = .ok o := by
      apply mapE_list (by simpa using hlen)
      intro k hk
      have := h (k + 1) (by simpa using hk)
      simpa using this
    simp only [mapE, h0, ht]

theorem mapE_error {f : A → Except Fault B} {l : List A} {a : A} {e : Fault} (ha : a ∈ l)
    (h : f a = .error e) : ∃ e', mapE f l = .error e' := by
  induction l with
  | nil => cases ha
  | cons b l ih =>
    simp only [mapE]
    cases hb : f b with
    | error e' => exact ⟨e', rfl⟩
    | ok x =>
      rcases List.mem_cons.mp ha with rfl | ha'
      · rw [h] at hb; cases hb
      · obtain ⟨e', he⟩ := ih ha'
        exact ⟨e', by rw [he]⟩

/-- A loop with checked accesses follows a loop without, as long as a relation is preserved. -/
theorem foldE_sim {f : B → A → Except Fault B} {g : C → A → C} (Q : B → C → Prop) :
    ∀ (l : List A) (b : B) (c : C), (∀ a ∈ l, ∀ b c, Q b c → ∃ b', f b a = .ok b' ∧ Q b' (g c a)) →
      Q b c → ∃ b', foldE f b l = .ok b' ∧ Q b' (l.foldl g c)
  | [], b, c, _, hq => ⟨b, rfl, hq⟩
  | a :: l, b, c, h, hq => by
    obtain ⟨b', hb, hq'⟩ := h a (by simp) b c hq
    simp only [foldE, hb, List.foldl_cons]
    exact foldE_sim Q l b' (g c a) (fun a' ha' => h a' (by simp [ha'])) hq'

end prim

/-! ## regions -/

section region
variable {T : Nat} {L M L' M' : Type}

/-- Two regions run in lockstep: if the bodies keep local states and memories related on the rows of the
region, they are related after any schedule. -/
theorem run_sim (n c : Nat) (body : Nat → L → M → L × M) (body' : Nat → L' → M' → L' × M')
    (RL : L → L' → Prop) (RM : M → M' → Prop)
    (hbody : ∀ r, r < n → ∀ l l' m m', RL l l' → RM m m' →
      RL (body r l m).1 (body' r l' m').1 ∧ RM (body r l m).2 (body' r l' m').2)
    (sched : List (Fin T)) :
    ∀ (s : State T L M) (s' : State T L' M'), s.pc = s'.pc → s.cursor = s'.cursor →
      s.hist = s'.hist →
      (∀ t r hi, s.pc t = .work r hi → hi ≤ n) → (∀ t, RL (s.loc t) (s'.loc t)) → RM s.mem s'.mem →
      (∀ t, RL ((run n c body s sched).loc t) ((run n c body' s' sched).loc t)) ∧
      RM (run n c body s sched).mem (run n c body' s' sched).mem ∧
      (run n c body s sched).hist = (run n c body' s' sched).hist := by
  induction sched with
  | nil => intro s s' _ _ hh _ hl hm; exact ⟨hl, hm, hh⟩
  | cons t ts ih =>
    intro s s' hpc hcur hh hhi hl hm
    have hkey : (step n c body s t).pc = (step n c body' s' t).pc ∧
        (step n c body s t).cursor = (step n c body' s' t).cursor ∧
        (step n c body s t).hist = (step n c body' s' t).hist ∧
        (∀ t' r hi, (step n c body s t).pc t' = .work r hi → hi ≤ n) ∧
        (∀ t', RL ((step n c body s t).loc t') ((step n c body' s' t).loc t')) ∧
        RM (step n c body s t).mem (step n c body' s' t).mem := by
      unfold step
      rw [← hpc, ← hcur]
      cases h : s.pc t with
      | fetch =>
        refine ⟨by simp, by simp, by simpa using hh, ?_, by simpa using hl, by simpa using hm⟩
        intro t' r hi h'
        by_cases ht : t' = t
        · subst ht
          simp only [Function.update_self] at h'
          split at h'
          · cases h'
          · cases h'; exact Nat.min_le_right _ _
        · simp only [Function.update_of_ne ht] at h'
          exact hhi t' r hi h'
      | work r hi =>
        by_cases hr : r < hi
        · simp only [hr, if_true]
          have hb := hbody r (lt_of_lt_of_le hr (hhi t r hi h)) _ _ _ _ (hl t) hm
          refine ⟨trivial, trivial, by rw [hh], ?_, ?_, hb.2⟩
          · intro t' r' hi' h'
            by_cases ht : t' = t
            · subst ht
              simp only [Function.update_self] at h'
              cases h'
              exact hhi t' r hi h
            · simp only [Function.update_of_ne ht] at h'
              exact hhi t' r' hi' h'
          · intro t'
            by_cases ht : t' = t
            · subst ht; simpa using hb.1
            · simpa [Function.update_of_ne ht] using hl t'
        · simp only [hr, if_false]
          refine ⟨trivial, trivial, hh, ?_, hl, hm⟩
          intro t' r' hi' h'
          by_cases ht : t' = t
          · subst ht
            simp only [Function.update_self] at h'
            cases h'
          · simp only [Function.update_of_ne ht] at h'
            exact hhi t' r' hi' h'
      | stopped => exact ⟨hpc, hcur, hh, hhi, hl, hm⟩
    obtain ⟨h1, h2, h3, h4, h5, h6⟩ := hkey
    exact ih _ _ h1 h2 h3 h4 h5 h6

/-- …from the initial states. -/
theorem run_sim_init (n c : Nat) (body : Nat → L → M → L × M) (body' : Nat → L' → M' → L' × M')
    (RL : L → L' → Prop) (RM : M → M' → Prop)
    (hbody : ∀ r, r < n → ∀ l l' m m', RL l l' → RM m m' →
      RL (body r l m).1 (body' r l' m').1 ∧ RM (body r l m).2 (body' r l' m').2)
    {l₀ : L} {l₀' : L'} {m₀ : M} {m₀' : M'} (hl : RL l₀ l₀') (hm : RM m₀ m₀')
    (sched : List (Fin T)) :
    (∀ t, RL ((run n c body (init l₀ m₀ : State T L M) sched).loc t)
      ((run n c body' (init l₀' m₀' : State T L' M') sched).loc t)) ∧
    RM (run n c body (init l₀ m₀ : State T L M) sched).mem
      (run n c body' (init l₀' m₀' : State T L' M') sched).mem :=
  let h := run_sim n c body body' RL RM hbody sched (init l₀ m₀) (init l₀' m₀') rfl rfl rfl
    (by intro t r hi h; cases h) (fun _ => hl) hm
  ⟨h.1, h.2.1⟩

end region

/-! ## compressed rows -/

section csr
variable {R : Type}

theorem indptr_get (X : CSR R) {r : Nat} (h : r ≤ X.nrows) :
    (compress X).indptr[r]? = some ((X.rows.map List.length).take r).sum := by
  unfold compress
  rw [List.getElem?_map, List.getElem?_range (by omega)]
  rfl

theorem innerIterator_ge (X : CSR R) {r : Nat} (h : X.nrows ≤ r) :
    innerIterator (compress X) r = .error .outOfBounds := by
  have hl : (compress X).indptr.length = X.nrows + 1 := by simp [compress]
  unfold innerIterator
  by_cases hr : r ≤ X.nrows
  · rw [read_some (indptr_get X hr)]
    simp only
    rw [read_ge (by omega)]
  · rw [read_ge (by omega)]

/-- Iterating over the arrays of a row visits the stored entries of that row. -/
theorem innerIterator_lt (X : CSR R) {r : Nat} (h : r < X.nrows) :
    innerIterator (compress X) r = .ok (X.row r) := by
  have hr : r < X.rows.length := h
  set b := ((X.rows.map List.length).take r).sum with hb
  set e := ((X.rows.map List.length).take (r + 1)).sum with he
  have hseg : (X.rows.flatten.take e).drop b = X.rows[r] :=
    List.drop_take_succ_flatten_eq_getElem X.rows r hr
  have hrow : X.row r = X.rows[r] := by
    unfold CSR.row
    rw [List.getD_eq_getElem?_getD, List.getElem?_eq_getElem hr, Option.getD_some]
  have hlen : (X.rows[r]).length = min e X.rows.flatten.length - b := by
    rw [← hseg, List.length_drop, List.length_take]
  have he' : e = b + (X.rows[r]).length := by
    rw [he, hb, List.take_succ, List.sum_append, List.getElem?_map, List.getElem?_eq_getElem hr]
    simp
  have hget : ∀ k, b ≤ k → k < e → X.rows.flatten[k]? = (X.rows[r])[k - b]? := by
    intro k h1 h2
    rw [← hseg, List.getElem?_drop, List.getElem?_take, if_pos (by omega)]
    congr 1; omega
  unfold innerIterator
  rw [read_some (indptr_get X (by omega))]
  simp only
  rw [read_some (indptr_get X (by omega))]
  simp only
  rw [← hb, ← he, hrow]
  refine mapE_list (by rw [List.length_range']; omega) ?_
  · intro k h1
    rw [List.length_range'] at h1
    have h2 : k < (X.rows[r]).length := by omega
    have h3 : X.rows.flatten[b + k]? = some (X.rows[r])[k] := by
      rw [hget (b + k) (by omega) (by omega), show b + k - b = k by omega, List.getElem?_eq_getElem h2]
    have h4 : (compress X).indices[b + k]? = some (X.rows[r])[k].1 := by
      show (X.rows.flatten.map Prod.fst)[b + k]? = _
      rw [List.getElem?_map, h3]; rfl
    have h5 : (compress X).data[b + k]? = some (X.rows[r])[k].2 := by
      show (X.rows.flatten.map Prod.snd)[b + k]? = _
      rw [List.getElem?_map, h3]; rfl
    simp only [List.getElem_range', one_mul, read_some h4, read_some h5]

end csr

/-! ## metrics -/

/-- The array version of an accumulator and the functional one. -/
structure Same (n : Nat) (m : RawMetrics) (m' : Metrics) : Prop where
  view : m.view = m'
  len : m.itemCnt.length = n

theorem same_empty (n : Nat) : Same n (RawMetrics.empty n) Metrics.empty := by
  constructor
  · unfold RawMetrics.view RawMetrics.empty Metrics.empty
    congr
    funext i
    rw [List.getD_eq_getElem?_getD, List.getElem?_replicate]
    split <;> rfl
  · simp [RawMetrics.empty]

theorem table_get {n i : Nat} (h : i < n) : read (discountTable n) i = .ok (dcgDiscount i) := by
  apply read_some
  unfold discountTable
  rw [List.getElem?_map, List.getElem?_range h]; rfl

/-- relation between the loop variables -/
structure SameAcc (n : Nat) (a : RawAcc) (b : UpdAcc) : Prop where
  i : a.i = b.i
  dcg : a.dcg = b.dcg
  cumHit : a.cumHit = b.cumHit
  ap : a.averagePrecision = b.averagePrecision
  cnt : (fun i => a.itemCnt.getD i 0) = b.itemCnt
  len : a.itemCnt.length = n

theorem getD_modify (l : List Nat) (r : Nat) (h : r < l.length) :
    (fun i => (l.modify r (· + 1)).getD i 0) =
      Function.update (fun i => l.getD i 0) r (l.getD r 0 + 1) := by
  funext i
  rw [List.getD_eq_getElem?_getD, List.getElem?_modify]
  by_cases hi : r = i
  · subst hi
    rw [Function.update_self, List.getD_eq_getElem?_getD, List.getElem?_eq_getElem h]
    simp
  · rw [Function.update_of_ne (Ne.symm hi), List.getD_eq_getElem?_getD]
    simp [hi]

theorem rawStep_ok {n : Nat} {gt : Finset Nat} {a : RawAcc} {b : UpdAcc} (hs : SameAcc n a b) {r : Nat}
    (hr : r < n) (hhit : r ∈ gt → b.i < n) :
    ∃ a', rawStep (discountTable n) gt a r = .ok a' ∧ SameAcc n a' (updStep gt b r) := by
  have hlt : r < a.itemCnt.length := by rw [hs.len]; exact hr
  have hcnt : (fun i => (a.itemCnt.modify r (· + 1)).getD i 0) =
      Function.update b.itemCnt r (b.itemCnt r + 1) := by
    rw [getD_modify _ _ hlt, ← hs.cnt]
  unfold rawStep updStep
  rw [modify_lt hlt]
  by_cases hg : r ∈ gt
  · simp only [hg, if_true]
    rw [table_get (by rw [hs.i]; exact hhit hg)]
    exact ⟨_, rfl, by simp [hs.i], by simp [hs.i, hs.dcg], by simp [hs.cumHit],
      by simp [hs.ap, hs.cumHit, hs.i], hcnt, by simp [hs.len]⟩
  · simp only [hg, if_false]
    exact ⟨_, rfl, by simp [hs.i], by simp [hs.dcg], by simp [hs.cumHit], by simp [hs.ap], hcnt,
      by simp [hs.len]⟩

theorem updStep_i (gt : Finset Nat) (b : UpdAcc) (r : Nat) : (updStep gt b r).i = b.i + 1 := by
  unfold updStep; simp only; split <;> rfl

theorem rawFold_ok {n : Nat} {gt : Finset Nat} : ∀ (recs : List Nat) {a : RawAcc} {b : UpdAcc},
    SameAcc n a b → (∀ r ∈ recs, r < n) →
    (∀ (k r : Nat), recs[k]? = some r → r ∈ gt → b.i + k < n) →
    ∃ a', foldE (rawStep (discountTable n) gt) a recs = .ok a' ∧
      SameAcc n a' (recs.foldl (updStep gt) b)
  | [], a, b, hs, _, _ => ⟨a, rfl, hs⟩
  | r :: recs, a, b, hs, hlt, hhit => by
    obtain ⟨a', ha, hs'⟩ := rawStep_ok hs (hlt r (by simp))
      (fun h => by simpa using hhit 0 r (by simp) h)
    simp only [foldE, ha, List.foldl_cons]
    refine rawFold_ok recs hs' (fun x hx => hlt x (by simp [hx])) ?_
    intro k x hk hx
    rw [updStep_i]
    have := hhit (k + 1) x (by simpa using hk) hx
    omega

theorem rawFold_fault {n : Nat} {gt : Finset Nat} : ∀ (recs : List Nat) {a : RawAcc},
    (∃ (k r : Nat), recs[k]? = some r ∧ r ∈ gt ∧ n ≤ a.i + k) →
    ∃ e, foldE (rawStep (discountTable n) gt) a recs = .error e
  | [], a, h => by obtain ⟨k, r, h, _⟩ := h; simp at h
  | x :: recs, a, h => by
    simp only [foldE]
    cases hx : rawStep (discountTable n) gt a x with
    | error e => exact ⟨e, rfl⟩
    | ok a' =>
      simp only
      obtain ⟨k, r, hk, hg, hn⟩ := h
      cases k with
      | zero =>
        simp only [List.getElem?_cons_zero, Option.some.injEq] at hk
        subst hk
        exfalso
        unfold rawStep at hx
        by_cases hl : x < a.itemCnt.length
        · rw [modify_lt hl] at hx
          simp only [hg, if_true] at hx
          rw [read_ge (by simpa [discountTable] using hn)] at hx
          cases hx
        · rw [modify_ge (by omega)] at hx; cases hx
      | succ k =>
        have hi : a'.i = a.i + 1 := by
          unfold rawStep at hx
          by_cases hl : x < a.itemCnt.length
          · rw [modify_lt hl] at hx
            simp only at hx
            split at hx
            · cases hr : read (discountTable n) a.i with
              | error e => rw [hr] at hx; cases hx
              | ok d => rw [hr] at hx; simp only at hx; cases hx; rfl
            · cases hx; rfl
          · rw [modify_ge (by omega)] at hx; cases hx
        exact rawFold_fault recs ⟨k, r, by simpa using hk, hg, by omega⟩

/-- `Metrics::update` on arrays: no fault and the same result if items are in range and no hit lies
beyond the table. -/
theorem rawUpdate_ok {n : Nat} {m : RawMetrics} {m' : Metrics} (hs : Same n m m') (recs : List Nat)
    (gt : Finset Nat) (b : Bool) (hlt : ∀ r ∈ recs, r < n)
    (hhit : ∀ (k r : Nat), recs[k]? = some r → r ∈ gt → k < n) (hgt : ∀ g ∈ gt, g < n) :
    ∃ x, m.update n recs gt b = .ok x ∧ Same n x (m'.update recs gt b) := by
  obtain ⟨hv, hl⟩ := hs
  subst hv
  unfold RawMetrics.update Metrics.update
  by_cases h0 : recs.length = 0
  · simp only [h0, if_true]
    exact ⟨_, rfl, rfl, hl⟩
  · simp only [h0, if_false]
    have hcard : gt.card ≤ n := by
      have : gt ⊆ Finset.range n := fun g hg => Finset.mem_range.mpr (hgt g hg)
      simpa using Finset.card_le_card this
    rw [mapE_ok (g := dcgDiscount) (fun k hk => table_get (by
      rw [List.mem_range] at hk
      have := Nat.min_le_left gt.card recs.length
      omega))]
    simp only
    obtain ⟨a, ha, hsa⟩ := rawFold_ok (n := n) (gt := gt) recs
      (a := { i := 0, dcg := 0, cumHit := 0, averagePrecision := 0, itemCnt := m.itemCnt })
      (b := { i := 0, dcg := 0, cumHit := 0, averagePrecision := 0, itemCnt := m.view.itemCnt })
      ⟨rfl, rfl, rfl, rfl, rfl, hl⟩ hlt (fun k r h1 h2 => by simpa using hhit k r h1 h2)
    rw [ha]
    simp only
    refine ⟨_, rfl, ?_, hsa.len⟩
    unfold RawMetrics.view
    simp only [RawMetrics.view] at hsa
    simp only [hsa.dcg, hsa.cumHit, hsa.ap, hsa.cnt]

theorem rawUpdate_fault {n : Nat} (m : RawMetrics) (recs : List Nat) (gt : Finset Nat) (b : Bool)
    (hhit : ∃ (k r : Nat), recs[k]? = some r ∧ r ∈ gt ∧ n ≤ k) :
    ∃ e, m.update n recs gt b = .error e := by
  unfold RawMetrics.update
  have h0 : recs.length ≠ 0 := by
    obtain ⟨k, r, h, _⟩ := hhit
    have := (List.getElem?_eq_some_iff.mp h).1
    omega
  simp only [h0, if_false]
  cases hm : mapE (read (discountTable n)) (List.range (min gt.card recs.length)) with
  | error e => exact ⟨e, rfl⟩
  | ok ideal =>
    simp only
    obtain ⟨e, he⟩ := rawFold_fault (n := n) (gt := gt) recs
      (a := { i := 0, dcg := 0, cumHit := 0, averagePrecision := 0, itemCnt := m.itemCnt })
      (by obtain ⟨k, r, h1, h2, h3⟩ := hhit; exact ⟨k, r, h1, h2, by simpa using h3⟩)
    rw [he]
    exact ⟨e, rfl⟩

/-! ## evaluator rows -/

section scores
variable {S : Type} [LinearOrder S] [OrderBot S]

/-- The core holds what the constructor accepted. -/
structure GoodCore (c : Core) : Prop where
  gt : ∀ row ∈ c.gtRows, ∀ j ∈ row, j < c.nItems
  items : ∀ l ∈ c.recommendable, (∀ j ∈ l, j < c.nItems) ∧ l.Nodup
  len : c.recommendable = [] ∨ c.recommendable.length = 1 ∨ c.gtRows.length = c.recommendable.length

theorem gtSet_lt {c : Core} (hc : GoodCore c) (u : Nat) : ∀ j ∈ c.gtSet u, j < c.nItems := by
  have hrow : ∀ j ∈ c.gtRows.getD u [], j < c.nItems := by
    intro j hj
    rw [List.getD_eq_getElem?_getD] at hj
    by_cases hu : u < c.gtRows.length
    · rw [List.getElem?_eq_getElem hu, Option.getD_some] at hj
      exact hc.gt _ (List.getElem_mem hu) j hj
    · rw [List.getElem?_eq_none (by omega)] at hj; simp at hj
  intro j hj
  unfold Core.gtSet at hj
  split at hj
  · exact hrow j (List.mem_toFinset.mp hj)
  · exact hrow j (List.mem_filter.mp (List.mem_toFinset.mp hj)).1

theorem rawRecommendable_ok {c : Core} (hc : GoodCore c) {u : Nat} (hu : u < c.nUsers) :
    rawRecommendable c u = .ok (c.recommendableFor u) ∧
    ∀ l, c.recommendableFor u = some l → (∀ j ∈ l, j < c.nItems) ∧ l.Nodup := by
  have hrec := hc.items
  have hlen := hc.len
  unfold rawRecommendable Core.recommendableFor
  unfold Core.nUsers at hu
  match h : c.recommendable with
  | [] => exact ⟨rfl, fun l hl => by cases hl⟩
  | [l] =>
    rw [h] at hrec
    exact ⟨rfl, fun l' hl => by simp only [Option.some.injEq] at hl; subst hl; exact hrec l (by simp)⟩
  | a :: b :: rest =>
    rw [h] at hrec hlen
    have hu' : u < (a :: b :: rest).length := by
      rcases hlen with h | h | h
      · cases h
      · simp at h
      · omega
    simp only
    rw [read_lt hu', List.getD_eq_getElem?_getD, List.getElem?_eq_getElem hu']
    refine ⟨rfl, fun l hl => ?_⟩
    simp only [Option.getD_some, Option.some.injEq] at hl
    subst hl
    exact hrec _ (List.getElem_mem hu')

theorem rawCandidates_ok (v : View S) (hstride : v.stride = v.cols)
    (hdata : v.rows * v.cols ≤ v.data.length) (rec : Option (List Nat))
    (hrec : ∀ l, rec = some l → ∀ j ∈ l, j < v.cols) {u : Nat} (hu : u < v.rows) :
    rawCandidates v.cols rec v.data u =
      .ok (candidates v.cols rec (v.scoreRows.getD u (fun _ => ⊥))) := by
  have hrowu : v.scoreRows.getD u (fun _ => ⊥) = fun i => (v.data[v.cols * u + i]?).getD ⊥ := by
    unfold View.scoreRows
    rw [List.getD_eq_getElem?_getD, List.getElem?_map, List.getElem?_range hu]
    simp [hstride]
  have hin : ∀ i, i < v.cols → v.cols * u + i < v.data.length := by
    intro i hi
    calc v.cols * u + i < v.cols * u + v.cols := by omega
      _ = v.cols * (u + 1) := by ring
      _ ≤ v.cols * v.rows := Nat.mul_le_mul_left _ hu
      _ = v.rows * v.cols := Nat.mul_comm _ _
      _ ≤ v.data.length := hdata
  unfold rawCandidates candidates
  rw [hrowu]
  rw [mapE_ok (g := fun i => ((v.data[v.cols * u + i]?).getD ⊥, i)) ?_]
  · rfl
  intro i hi
  have : i < v.cols := by
    cases rec with
    | none => simpa using hi
    | some l => exact hrec l rfl i hi
  rw [read_lt (hin i this), List.getElem?_eq_getElem (hin i this)]
  rfl

/-- One row of the evaluator on arrays. -/
theorem rawEvalRow_ok {c : Core} (hc : GoodCore c) (v : View S) (hstride : v.stride = v.cols)
    (hcols : v.cols = c.nItems) (hdata : v.rows * v.cols ≤ v.data.length) (cutoff offset : Nat)
    (b : Bool) {u : Nat} (hu : u < v.rows) (hoff : offset + v.rows ≤ c.nUsers)
    {m : RawMetrics} {m' : Metrics} (hs : Same c.nItems m m') :
    ∃ x, rawEvalRow c v cutoff offset b u m = .ok x ∧
      Same c.nItems x (c.evalRow v.scoreRows cutoff offset b u m') := by
  have hs1 : Same c.nItems { m with totalUser := m.totalUser + 1 } m'.incrementTotalUser := by
    obtain ⟨hv, hl⟩ := hs
    subst hv
    exact ⟨rfl, hl⟩
  unfold rawEvalRow Core.evalRow
  by_cases hg : c.gtSet (u + offset) = ∅
  · simp only [hg, if_true]
    exact ⟨_, rfl, hs1⟩
  · simp only [hg, if_false]
    obtain ⟨hrr, hrec⟩ := rawRecommendable_ok hc (u := u + offset) (by omega)
    rw [hrr]
    simp only
    rw [← hcols, rawCandidates_ok v hstride hdata _ (fun l hl j hj => by
      rw [hcols]; exact (hrec l hl).1 j hj) hu]
    simp only
    set cand := candidates v.cols (c.recommendableFor (u + offset)) (v.scoreRows.getD u fun _ => ⊥)
      with hcand
    have hmemc : ∀ p ∈ cand, p.2 < v.cols := by
      intro p hp
      rw [hcand] at hp
      unfold candidates at hp
      have hp' := (List.mem_filter.mp hp).1
      obtain ⟨i, hi, rfl⟩ := List.mem_map.mp hp'
      cases hq : c.recommendableFor (u + offset) with
      | none => rw [hq] at hi; simpa using hi
      | some l => rw [hq] at hi; rw [hcols]; exact (hrec l hq).1 i hi
    have hlenc : cand.length ≤ v.cols := by
      rw [hcand]
      unfold candidates
      refine le_trans (List.length_filter_le _ _) ?_
      rw [List.length_map]
      cases hq : c.recommendableFor (u + offset) with
      | none => simp
      | some l =>
        simp only
        rw [← List.toFinset_card_of_nodup (hrec l hq).2]
        have : l.toFinset ⊆ Finset.range v.cols := fun x hx =>
          Finset.mem_range.mpr (by rw [hcols]; exact (hrec l hq).1 x (List.mem_toFinset.mp hx))
        simpa using Finset.card_le_card this
    have hmem : ∀ r ∈ (List.take (min cutoff cand.length) (cand.mergeSort pairLE)).map Prod.snd,
        r < v.cols := by
      intro r hr
      obtain ⟨p, hp, rfl⟩ := List.mem_map.mp hr
      exact hmemc p (List.mem_mergeSort.mp (List.mem_of_mem_take hp))
    have := rawUpdate_ok (n := v.cols) (by rw [hcols]; exact hs1)
      ((List.take (min cutoff cand.length) (cand.mergeSort pairLE)).map Prod.snd)
      (c.gtSet (u + offset)) b hmem (by
        intro k r hk _
        have := (List.getElem?_eq_some_iff.mp hk).1
        rw [List.length_map, List.length_take] at this
        omega) (fun g hg' => by rw [hcols]; exact gtSet_lt hc _ g hg')
    exact this

end scores

end Irspack.Raw
