import Verif.Proofs.Raw
import Verif.Proofs.Ranking
import Verif.Proofs.Split
import Verif.Proofs.Similarity
import Verif.Proofs.IalsTrainer

namespace Irspack.Raw

open Irspack Evaluation WorkQueue

/-! ## constructor -/

theorem goodCore_of_make {gtRows : List (List Nat)} {nItems : Nat} {recommendable : List (List Nat)}
    {c : Core} (h : Core.make gtRows nItems recommendable = .ok c)
    (hgt : ∀ row ∈ gtRows, ∀ j ∈ row, j < nItems) : GoodCore c := by
  obtain ⟨hwf, h1, h2, -⟩ := make_wf h
  constructor
  · rw [h1, h2]; exact hgt
  · intro l hl; exact ⟨hwf.bound l hl, hwf.nodup l hl⟩
  · exact hwf.size

/-! ## list rows -/

/-- A hit at a position at or beyond the number of items. -/
theorem readsPast_iff {recs gts : List (List Nat)} {n : Nat} (hlen : recs.length = gts.length) :
    readsPastDiscounts recs gts n = true ↔
      ∃ u k r : Nat, u < recs.length ∧ (recs.getD u [])[k]? = some r ∧ r ∈ gts.getD u [] ∧ n ≤ k := by
  unfold readsPastDiscounts
  rw [List.any_eq_true]
  constructor
  · rintro ⟨p, hp, hq⟩
    rw [List.any_eq_true] at hq
    obtain ⟨r, hr, hd⟩ := hq
    rw [decide_eq_true_eq] at hd
    obtain ⟨u, hu, rfl⟩ := List.mem_iff_getElem.mp hp
    rw [List.length_zip] at hu
    rw [List.getElem_zip] at hr hd
    have hu1 : u < recs.length := by omega
    have hu2 : u < gts.length := by omega
    obtain ⟨k, hk⟩ := List.mem_iff_getElem?.mp hr
    rw [List.getElem?_drop] at hk
    refine ⟨u, n + k, r, by omega, ?_, ?_, by omega⟩
    · rw [List.getD_eq_getElem?_getD, List.getElem?_eq_getElem hu1]
      exact hk
    · rw [List.getD_eq_getElem?_getD, List.getElem?_eq_getElem hu2]
      exact hd
  · rintro ⟨u, k, r, hu, hk, hr, hn⟩
    have hu2 : u < gts.length := by omega
    rw [List.getD_eq_getElem?_getD, List.getElem?_eq_getElem hu, Option.getD_some] at hk
    rw [List.getD_eq_getElem?_getD, List.getElem?_eq_getElem hu2, Option.getD_some] at hr
    refine ⟨(recs[u], gts[u]), ?_, ?_⟩
    · rw [List.mem_iff_getElem]
      exact ⟨u, by rw [List.length_zip]; omega, by rw [List.getElem_zip]⟩
    · rw [List.any_eq_true]
      refine ⟨r, ?_, by rw [decide_eq_true_eq]; exact hr⟩
      rw [List.mem_iff_getElem?]
      exact ⟨k - n, by rw [List.getElem?_drop]; rw [← hk]; congr 1; omega⟩

theorem checkLists_ok {recs gts : List (List Nat)} {n : Nat} (h : checkLists recs gts n = .ok ()) :
    recs.length = gts.length ∧ (∀ l ∈ recs, ∀ i ∈ l, i < n) ∧ ∀ l ∈ gts, ∀ i ∈ l, i < n := by
  unfold checkLists at h
  split at h
  · cases h
  split at h
  · cases h
  split at h
  · cases h
  rename_i h1 h2 h3
  simp only [not_not, List.all_eq_true, decide_eq_true_eq] at h1 h2 h3
  exact ⟨h1, h2, h3⟩

theorem getD_mem_or {A : Type} (l : List (List A)) (u : Nat) : l.getD u [] = [] ∨ l.getD u [] ∈ l := by
  rw [List.getD_eq_getElem?_getD]
  by_cases hu : u < l.length
  · right; rw [List.getElem?_eq_getElem hu]; exact List.getElem_mem hu
  · left; rw [List.getElem?_eq_none (by omega)]; rfl

/-- One user of `evaluate_list_vs_list` on arrays. -/
theorem rawListRow_ok {recs gts : List (List Nat)} {n : Nat} (h : checkLists recs gts n = .ok ())
    (hp : readsPastDiscounts recs gts n = false) {u : Nat} (hu : u < recs.length)
    {m : RawMetrics} {m' : Metrics} (hs : Same n m m') :
    ∃ x, rawListRow n recs gts u m = .ok x ∧ Same n x (listRow recs gts u m') := by
  obtain ⟨h1, h2, h3⟩ := checkLists_ok h
  have hs1 : Same n { m with totalUser := m.totalUser + 1 } m'.incrementTotalUser := by
    obtain ⟨hv, hl⟩ := hs
    subst hv
    exact ⟨rfl, hl⟩
  unfold rawListRow listRow
  refine rawUpdate_ok hs1 _ _ _ ?_ ?_ ?_
  · intro r hr
    rcases getD_mem_or recs u with h | h
    · rw [h] at hr; simp at hr
    · exact h2 _ h r hr
  · intro k r hk hr
    by_contra hn
    have := (readsPast_iff h1 (n := n)).mpr ⟨u, k, r, hu, hk, List.mem_toFinset.mp hr, by omega⟩
    rw [hp] at this; cases this
  · intro g hg
    have hg := List.mem_toFinset.mp hg
    rcases getD_mem_or gts u with h | h
    · rw [h] at hg; simp at hg
    · exact h3 _ h g hg

/-! ## local states of a region that may fault -/

section loc
variable {T : Nat} {L : Type}

theorem foldl_lift_error (f : Nat → L → Except Fault L) (rows : List Nat) (e : Fault) :
    rows.foldl (fun l u => lift (f u) l) (.error e) = .error e := by
  induction rows with
  | nil => rfl
  | cons r rows ih => simpa [lift] using ih

/-- A worker that handles a row which always faults ends with a fault. -/
theorem foldl_lift_fault (f : Nat → L → Except Fault L) {rows : List Nat} {r : Nat} (hr : r ∈ rows)
    (hf : ∀ l, ∃ e, f r l = .error e) (l₀ : Except Fault L) :
    ∃ e, rows.foldl (fun l u => lift (f u) l) l₀ = .error e := by
  induction rows generalizing l₀ with
  | nil => cases hr
  | cons x rows ih =>
    rw [List.foldl_cons]
    rcases List.mem_cons.mp hr with rfl | hr'
    · have : ∃ e, lift (f r) l₀ = .error e := by
        cases l₀ with
        | error e => exact ⟨e, rfl⟩
        | ok l => exact hf l
      obtain ⟨e, he⟩ := this
      rw [he]
      exact ⟨e, foldl_lift_error f rows e⟩
    · exact ih hr' _

end loc

/-! ## retrieval -/

theorem flatten_get {A : Type} {c : Nat} : ∀ (rows : List (List A)), (∀ r ∈ rows, r.length = c) →
    ∀ (u i : Nat), (hu : u < rows.length) → i < c → rows.flatten[c * u + i]? = (rows[u])[i]?
  | [], _, u, _, hu, _ => by simp at hu
  | r :: rows, h, 0, i, _, hi => by
    have hr := h r (by simp)
    rw [List.flatten_cons, Nat.mul_zero, Nat.zero_add, List.getElem?_append_left (by omega)]
    rfl
  | r :: rows, h, u + 1, i, hu, hi => by
    have hr := h r (by simp)
    rw [List.flatten_cons, List.getElem?_append_right (by rw [hr]; rw [Nat.mul_succ]; omega), hr,
      show c * (u + 1) + i - c = c * u + i by rw [Nat.mul_succ]; omega,
      flatten_get rows (fun x hx => h x (by simp [hx])) u i (by simpa using hu) hi]
    rfl

section retrieval
variable {S F : Type} [LinearOrder F] [OrderBot F]

theorem rawHolder_ok (cast : S → F) (dflt : S) {nItems : Nat} (allowed : Option (List Int))
    {score : List (List S)} (hrows : ∀ r ∈ score, r.length = nItems) {u : Nat} (hu : u < score.length) :
    rawHolder cast nItems allowed score.flatten u =
      .ok (Retrieval.holder nItems allowed (fun i => cast ((score.getD u []).getD i dflt))) := by
  have hrow : score.getD u [] = score[u] := by
    rw [List.getD_eq_getElem?_getD, List.getElem?_eq_getElem hu]; rfl
  have hl : (score[u]).length = nItems := hrows _ (List.getElem_mem hu)
  have hread : ∀ i, i < nItems →
      (match read score.flatten (nItems * u + i) with
        | .error e => .error e
        | .ok s => .ok (i, cast s) : Except Fault (Nat × F)) =
        .ok (i, cast ((score.getD u []).getD i dflt)) := by
    intro i hi
    have : score.flatten[nItems * u + i]? = some (score[u][i]'(by omega)) := by
      rw [flatten_get score hrows u i hu hi, List.getElem?_eq_getElem (by omega)]
    rw [read_some this, hrow, List.getD_eq_getElem?_getD, List.getElem?_eq_getElem (by omega)]
    rfl
  unfold rawHolder Retrieval.holder
  cases allowed with
  | none =>
    simp only
    exact mapE_ok (fun i hi => hread i (List.mem_range.mp hi))
  | some l =>
    simp only
    refine (mapE_ok (g := fun i => (i, cast ((score.getD u []).getD i dflt))) ?_).trans ?_
    · intro i hi
      refine hread i ?_
      obtain ⟨j, hj, rfl⟩ := List.mem_map.mp hi
      have := (List.mem_filter.mp hj).2
      simp only [Bool.and_eq_true, decide_eq_true_eq] at this
      omega
    · rw [List.map_map]
      rfl

/-- The array of results and the results as a function. -/
structure SameRes (n : Nat) (res : List (List (Nat × F))) (f : Nat → List (Nat × F)) : Prop where
  len : res.length = n
  eq : ∀ u, u < n → res[u]? = some (f u)

theorem sameRes_update {n : Nat} {res : List (List (Nat × F))} {f : Nat → List (Nat × F)}
    (h : SameRes n res f) (u : Nat) (x : List (Nat × F)) :
    SameRes n (res.modify u (fun _ => x)) (Function.update f u x) := by
  constructor
  · rw [List.length_modify]; exact h.len
  · intro v hv
    rw [List.getElem?_modify, h.eq v hv]
    by_cases huv : u = v
    · subst huv; simp
    · simp [huv, Function.update_of_ne (Ne.symm huv)]

end retrieval

/-! ## split -/

theorem rawSplitRow_pick (row : List (Nat × ℝ)) (index : List Nat)
    (hp : index.Perm (List.range row.length)) {i : Nat} (hi : i < row.length) :
    ∃ p, (Split.rowTriplets row index)[i]? = some p ∧
      splitPick row index i = .ok p := by
  have hlen : index.length = row.length := by simpa using hp.length_eq
  have hmem : ∀ k ∈ index, k < row.length := fun k hk => List.mem_range.mp (hp.mem_iff.mp hk)
  have hk : index[i]'(by omega) < row.length := hmem _ (List.getElem_mem _)
  have hmap : Split.rowTriplets row index =
      index.map (fun k => ((row.getD k (0, 0)).1, Split.truncZ (row.getD k (0, 0)).2)) := by
    unfold Split.rowTriplets
    rw [← List.filterMap_eq_map]
    apply List.filterMap_congr
    intro k hk
    rw [List.getElem?_eq_getElem (hmem k hk)]
    simp [List.getD_eq_getElem?_getD, List.getElem?_eq_getElem (hmem k hk)]
  refine ⟨((row[index[i]'(by omega)]'hk).1, Split.truncZ (row[index[i]'(by omega)]'hk).2), ?_, ?_⟩
  · rw [hmap, List.getElem?_map, List.getElem?_eq_getElem (by omega)]
    simp [List.getD_eq_getElem?_getD, List.getElem?_eq_getElem hk]
  · unfold splitPick
    rw [read_lt (by omega)]
    simp only
    rw [read_lt (by simpa using hk)]
    simp only
    rw [read_lt (by simpa using hk)]
    simp

/-- One row of the split on arrays. -/
theorem rawSplitRow_ok (nTest : Nat → Nat) (row : List (Nat × ℝ)) (index : List Nat)
    (hp : index.Perm (List.range row.length)) (hn : nTest row.length ≤ row.length) :
    rawSplitRow nTest row index = .ok ((Split.rowTriplets row index).drop (nTest row.length),
      (Split.rowTriplets row index).take (nTest row.length)) := by
  have hpick := fun {i : Nat} (hi : i < row.length) => rawSplitRow_pick row index hp hi
  have hl : (Split.rowTriplets row index).length = row.length := by
    apply le_antisymm
    · unfold Split.rowTriplets
      refine le_trans (List.length_filterMap_le _ _) ?_
      simpa using hp.length_eq.le
    · by_contra hc
      obtain ⟨p, hp', _⟩ := hpick (i := row.length - 1) (by omega)
      have := (List.getElem?_eq_some_iff.mp hp').1
      omega
  unfold rawSplitRow
  simp only
  rw [mapE_list (l := List.range (nTest row.length))
    (o := (Split.rowTriplets row index).take (nTest row.length))
    (by rw [List.length_take, List.length_range, hl]; omega) ?_]
  · simp only
    rw [mapE_list (l := List.range' (nTest row.length) (row.length - nTest row.length))
      (o := (Split.rowTriplets row index).drop (nTest row.length))
      (by rw [List.length_drop, List.length_range', hl]) ?_]
    intro k hk
    rw [List.length_range'] at hk
    obtain ⟨p, h1, h2⟩ := hpick (i := nTest row.length + k) (by omega)
    simp only [List.getElem_range', one_mul]
    refine h2.trans ?_
    rw [List.getElem_drop]
    rw [List.getElem?_eq_getElem (by omega)] at h1
    injection h1 with h1
    rw [h1]
  · intro k hk
    rw [List.length_range] at hk
    obtain ⟨p, h1, h2⟩ := hpick (i := k) (by omega)
    simp only [List.getElem_range]
    refine h2.trans ?_
    rw [List.getElem_take]
    rw [List.getElem?_eq_getElem (by omega)] at h1
    injection h1 with h1
    rw [h1]

theorem rawSplitRow_fault (nTest : Nat → Nat) (row : List (Nat × ℝ)) (index : List Nat)
    (hp : index.Perm (List.range row.length)) (hn : row.length < nTest row.length) :
    ∃ e, rawSplitRow nTest row index = .error e := by
  have hlen : index.length = row.length := by simpa using hp.length_eq
  unfold rawSplitRow
  simp only
  obtain ⟨e, he⟩ := mapE_error (f := splitPick row index)
    (l := List.range (nTest row.length)) (a := row.length) (e := .outOfBounds)
    (List.mem_range.mpr hn) (by unfold splitPick; rw [read_ge (by omega)])
  rw [he]
  exact ⟨e, rfl⟩

/-! ## weighting -/

theorem foldE_snoc {A B : Type} {f : B → A → Except Fault B} {b c : B} {l : List A} {i : A}
    (h : foldE f b l = .ok c) : foldE f b (l ++ [i]) = f c i := by
  induction l generalizing b with
  | nil =>
    simp only [foldE] at h
    injection h with h
    subst h
    simp only [List.nil_append, foldE]
    cases f b i <;> rfl
  | cons x l ihl =>
    simp only [foldE, List.cons_append] at h ⊢
    cases hx : f b x with
    | error e => rw [hx] at h; cases h
    | ok b' => rw [hx] at h; exact ihl h

section weighting
open Sim

theorem row_eq (X : CSR ℝ) {i : Nat} (hi : i < X.nrows) : X.row i = X.rows[i]'hi := by
  unfold CSR.row
  rw [List.getD_eq_getElem?_getD, List.getElem?_eq_getElem hi, Option.getD_some]

/-- counts of the columns in an array -/
structure CountOk (n : Nat) (a : List Nat) (f : Nat → Nat) : Prop where
  len : a.length = n
  eq : ∀ j, j < n → a[j]? = some (f j)

theorem countOk_modify {n : Nat} {a : List Nat} {f : Nat → Nat} (h : CountOk n a f) {j : Nat}
    (hj : j < n) : ∃ a', modify a j (· + 1) = .ok a' ∧
      CountOk n a' (fun k => f k + if j = k then 1 else 0) := by
  rw [modify_lt (by rw [h.len]; exact hj)]
  refine ⟨_, rfl, by rw [List.length_modify]; exact h.len, ?_⟩
  intro k hk
  rw [List.getElem?_modify, h.eq k hk]
  by_cases hjk : j = k
  · simp [hjk]
  · simp [hjk]

theorem countOk_row {n : Nat} (row : SpVec ℝ) (hrow : ∀ e ∈ row, e.1 < n) :
    ∀ {a : List Nat} {f : Nat → Nat}, CountOk n a f →
    ∃ a', foldE (fun idf e => modify idf e.1 (· + 1)) a row = .ok a' ∧
      CountOk n a' (fun k => f k + row.countP (fun e => decide (e.1 = k))) := by
  induction row with
  | nil => intro a f h; exact ⟨a, rfl, by simpa using h⟩
  | cons e row ih =>
    intro a f h
    obtain ⟨a', ha, h'⟩ := countOk_modify h (hrow e (by simp))
    obtain ⟨a'', ha', h''⟩ := ih (fun x hx => hrow x (by simp [hx])) h'
    refine ⟨a'', by simp only [foldE, ha]; exact ha', ?_⟩
    convert h'' using 2 with k
    rw [List.countP_cons]
    simp only [decide_eq_true_eq]
    omega

theorem rawDocFreq_ok (X : CSR ℝ) (hX : X.WF) :
    ∃ a, rawDocFreq (compress X) = .ok a ∧ CountOk X.cols a (docFreq X) := by
  have key : ∀ (k : Nat), k ≤ X.nrows →
      ∃ a, foldE (fun idf i =>
        match innerIterator (compress X) i with
        | .error e => .error e
        | .ok row => foldE (fun idf e => modify idf e.1 (· + 1)) idf row)
        (List.replicate X.cols 0) (List.range k) = .ok a ∧
        CountOk X.cols a (fun j => ((X.rows.take k).map
          (fun row => row.countP (fun e => decide (e.1 = j)))).sum) := by
    intro k hk
    induction k with
    | zero =>
      refine ⟨List.replicate X.cols 0, rfl, by simp, ?_⟩
      intro j hj
      simp [hj]
    | succ k ih =>
      obtain ⟨a, ha, hc⟩ := ih (by omega)
      have hk' : k < X.nrows := by omega
      obtain ⟨a', ha', hc'⟩ := countOk_row (X.row k)
        (by rw [row_eq X hk']; exact hX _ (List.getElem_mem _)) hc
      refine ⟨a', ?_, ?_⟩
      · rw [List.range_succ, foldE_snoc ha, innerIterator_lt X hk']
        exact ha'
      · convert hc' using 2 with j
        have : X.rows.take (k + 1) = X.rows.take k ++ [X.rows[k]'hk'] := by
          rw [List.take_succ, List.getElem?_eq_getElem hk']; rfl
        rw [this, List.map_append, List.sum_append, row_eq X hk']
        simp
  obtain ⟨a, ha, hc⟩ := key X.nrows le_rfl
  refine ⟨a, ha, ?_⟩
  convert hc using 2 with j
  unfold docFreq CSR.nrows
  rw [List.take_length]

theorem lenOk_row (row : SpVec ℝ) {i : Nat} : ∀ {a : List ℝ} {x : ℝ}, a[i]? = some x →
    ∃ a', foldE (fun len e => modify len i (· + e.2)) a row = .ok a' ∧
      a' = a.set i (x + docLength row) := by
  induction row with
  | nil =>
    intro a x h
    refine ⟨a, rfl, ?_⟩
    have hi := (List.getElem?_eq_some_iff.mp h).1
    have : x = a[i] := (List.getElem?_eq_some_iff.mp h).2.symm
    simp [docLength, this]
  | cons e row ih =>
    intro a x h
    have hi := (List.getElem?_eq_some_iff.mp h).1
    have hx : a[i] = x := (List.getElem?_eq_some_iff.mp h).2
    obtain ⟨a', ha, hb⟩ := ih (a := a.modify i (· + e.2)) (x := x + e.2)
      (by rw [List.getElem?_modify, h]; simp)
    refine ⟨a', by simp only [foldE, modify_lt hi]; exact ha, ?_⟩
    rw [hb]
    apply List.ext_getElem?
    intro k
    rw [List.getElem?_set, List.getElem?_set, List.getElem?_modify]
    by_cases hk : i = k
    · subst hk; simp [hi, docLength, add_assoc]
    · simp [hk]

theorem rawDocLength_ok (X : CSR ℝ) :
    rawDocLength (compress X) = .ok (X.rows.map docLength) := by
  have key : ∀ (k : Nat), k ≤ X.nrows →
      foldE (fun len i =>
        match innerIterator (compress X) i with
        | .error e => .error e
        | .ok row => foldE (fun len e => modify len i (· + e.2)) len row)
        (List.replicate X.nrows 0) (List.range k) =
        .ok ((X.rows.take k).map docLength ++ List.replicate (X.nrows - k) 0) := by
    intro k hk
    induction k with
    | zero => simp [foldE]
    | succ k ih =>
      have hk' : k < X.nrows := by omega
      have hlen : ((X.rows.take k).map docLength).length = k := by
        rw [List.length_map, List.length_take]
        unfold CSR.nrows at hk'
        omega
      rw [List.range_succ, foldE_snoc (ih (by omega)), innerIterator_lt X hk']
      obtain ⟨a', ha, hb⟩ := lenOk_row (X.row k)
        (a := (X.rows.take k).map docLength ++ List.replicate (X.nrows - k) 0) (i := k) (x := 0) (by
          rw [List.getElem?_append_right (by omega), hlen]
          simp [hk'])
      refine ha.trans ?_
      rw [hb, zero_add]
      have hs : X.rows.take (k + 1) = X.rows.take k ++ [X.rows[k]'hk'] := by
        rw [List.take_succ, List.getElem?_eq_getElem hk']; rfl
      rw [hs, List.map_append, List.append_assoc, row_eq X hk', List.set_append, if_neg (by omega), hlen,
        Nat.sub_self, show X.nrows - k = (X.nrows - (k + 1)) + 1 by omega, List.replicate_succ]
      rfl
  have := key X.nrows le_rfl
  rw [Nat.sub_self, List.replicate_zero, List.append_nil] at this
  unfold CSR.nrows at this
  rw [List.take_length] at this
  exact this

theorem list_map_range {A : Type} (l : List A) {B : Type} (f : A → B) (g : Nat → B)
    (h : ∀ i (hi : i < l.length), g i = f l[i]) : (List.range l.length).map g = l.map f := by
  apply List.ext_getElem
  · simp
  · intro i h1 h2
    simp only [List.getElem_map, List.getElem_range]
    exact h i (by simpa using h1)

theorem rawBm25_ok (X : CSR ℝ) (hX : X.WF) (k1 b : ℝ) :
    rawBm25 (compress X) k1 b = .ok (bm25 X k1 b).rows := by
  obtain ⟨freq, hf, hc⟩ := rawDocFreq_ok X hX
  unfold rawBm25
  rw [hf]
  simp only
  rw [rawDocLength_ok X]
  simp only
  refine (mapE_ok (g := fun i => (X.row i).map (fun e => (e.1,
    Real.log (X.nrows / ((docFreq X e.1 : ℝ) + 1) + 1) * (e.2 * (k1 + 1)) /
      (e.2 + k1 * (1 - b + b * docLength (X.row i) / avgdl X))))) ?_).trans ?_
  · intro i hi
    have hi : i < X.nrows := List.mem_range.mp hi
    rw [read_lt (by rw [List.length_map]; exact hi), innerIterator_lt X hi]
    simp only
    refine mapE_ok ?_
    intro e he
    have hj : e.1 < X.cols := by
      rw [row_eq X hi] at he
      exact hX _ (List.getElem_mem _) e he
    rw [read_some (x := Real.log (X.nrows / ((docFreq X e.1 : ℝ) + 1) + 1))
      (by rw [List.getElem?_map, hc.eq _ hj]; rfl)]
    rw [row_eq X hi]
    simp only [List.getElem_map]
    rfl
  · show Except.ok ((List.range X.rows.length).map _) = _
    rw [list_map_range X.rows (fun row => row.map (fun e => (e.1,
      Real.log (X.nrows / ((docFreq X e.1 : ℝ) + 1) + 1) * (e.2 * (k1 + 1)) /
        (e.2 + k1 * (1 - b + b * docLength row / avgdl X)))))]
    · rfl
    · intro i hi
      rw [row_eq X hi]

theorem rawTfIdf_ok (X : CSR ℝ) (hX : X.WF) (smooth : Bool) :
    rawTfIdf (compress X) smooth = .ok (tfIdf X smooth).rows := by
  obtain ⟨freq, hf, hc⟩ := rawDocFreq_ok X hX
  unfold rawTfIdf
  rw [hf]
  simp only
  refine (mapE_ok (g := fun i => (X.row i).map (fun e =>
    (e.1, e.2 * Real.log (X.nrows / ((docFreq X e.1 : ℝ) + if smooth then 1 else 0))))) ?_).trans ?_
  · intro i hi
    have hi : i < X.nrows := List.mem_range.mp hi
    rw [innerIterator_lt X hi]
    simp only
    refine mapE_ok ?_
    intro e he
    have hj : e.1 < X.cols := by
      rw [row_eq X hi] at he
      exact hX _ (List.getElem_mem _) e he
    rw [read_some (x := Real.log (X.nrows / ((docFreq X e.1 : ℝ) + if smooth then 1 else 0)))
      (by rw [List.getElem?_map, hc.eq _ hj]; rfl)]
  · show Except.ok ((List.range X.rows.length).map _) = _
    rw [list_map_range X.rows (fun row => row.map (fun e =>
      (e.1, e.2 * Real.log (X.nrows / ((docFreq X e.1 : ℝ) + if smooth then 1 else 0)))))]
    · rfl
    · intro i hi
      rw [row_eq X hi]

/-- A column index outside the matrix is written outside the array of counts. -/
theorem rawDocFreq_fault (X : CSR ℝ) {i : Nat} (hi : i < X.nrows) {e : Nat × ℝ} (he : e ∈ X.row i)
    (hj : X.cols ≤ e.1) : ∃ f, rawDocFreq (compress X) = .error f := by
  have hlenE : ∀ (row : SpVec ℝ) (a a' : List Nat),
      foldE (fun idf e => modify idf e.1 (· + 1)) a row = .ok a' → a'.length = a.length := by
    intro row
    induction row with
    | nil => intro a a' h; simp only [foldE] at h; injection h with h; rw [h]
    | cons x row ih =>
      intro a a' h
      simp only [foldE] at h
      by_cases hx : x.1 < a.length
      · rw [modify_lt hx] at h
        rw [ih _ _ h, List.length_modify]
      · rw [modify_ge (by omega)] at h; cases h
  have hrow : ∀ (row : SpVec ℝ) (a : List Nat), e ∈ row → a.length ≤ e.1 →
      ∃ f, foldE (fun idf e => modify idf e.1 (· + 1)) a row = .error f := by
    intro row
    induction row with
    | nil => intro a h; cases h
    | cons x row ih =>
      intro a h ha
      simp only [foldE]
      by_cases hx : x.1 < a.length
      · rw [modify_lt hx]
        rcases List.mem_cons.mp h with rfl | h'
        · omega
        · exact ih _ h' (by rw [List.length_modify]; exact ha)
      · rw [modify_ge (by omega)]; exact ⟨_, rfl⟩
  have hall : ∀ (is : List Nat) (a : List Nat), i ∈ is → a.length ≤ e.1 →
      ∃ f, foldE (fun idf i =>
        match innerIterator (compress X) i with
        | .error e => .error e
        | .ok row => foldE (fun idf e => modify idf e.1 (· + 1)) idf row) a is = .error f := by
    intro is
    induction is with
    | nil => intro a h; cases h
    | cons x is ih =>
      intro a h ha
      simp only [foldE]
      rcases List.mem_cons.mp h with rfl | h'
      · rw [innerIterator_lt X hi]
        simp only
        obtain ⟨f, hf⟩ := hrow _ a he ha
        rw [hf]
        exact ⟨f, rfl⟩
      · cases hx : innerIterator (compress X) x with
        | error f => exact ⟨f, rfl⟩
        | ok row =>
          simp only
          cases hy : foldE (fun idf e => modify idf e.1 (· + 1)) a row with
          | error f => exact ⟨f, rfl⟩
          | ok a' => exact ih a' h' (by rw [hlenE _ _ _ hy]; exact ha)
  exact hall _ _ (List.mem_range.mpr hi) (by simpa [compress] using hj)

end weighting

/-! ## truncation -/

section knn
open Sim

theorem fill_range (n N : Nat) (h : n ≤ N) :
    foldE (fun buf i => modify buf i (fun _ => i)) (List.replicate N 0) (List.range n) =
      .ok (List.range n ++ List.replicate (N - n) 0) := by
  induction n with
  | zero => simp [foldE]
  | succ n ih =>
    rw [List.range_succ, foldE_snoc (ih (by omega)), modify_lt (by simp; omega)]
    congr 1
    rw [List.append_assoc]
    apply List.ext_getElem?
    intro k
    rw [List.getElem?_modify]
    by_cases hk : k < n
    · rw [List.getElem?_append_left (by simpa using hk), List.getElem?_append_left (by simpa using hk)]
      simp [show ¬ n = k by omega]
    · rw [List.getElem?_append_right (by simpa using hk), List.getElem?_append_right (by simpa using hk)]
      simp only [List.length_range]
      by_cases hk' : n = k
      · subst hk'
        simp [show 0 < N - n by omega]
      · rw [show k - n = (k - n - 1) + 1 by omega]
        simp only [List.singleton_append, List.getElem?_cons_succ, List.getElem?_replicate]
        simp only [hk', if_false, id]
        split <;> split <;> first | rfl | omega

theorem fill_fault (n N : Nat) (h : N < n) :
    ∃ e, foldE (fun buf i => modify buf i (fun _ => i)) (List.replicate N 0) (List.range n) =
      .error e := by
  have happ : ∀ (l l' : List Nat) (b : List Nat) (e : Fault),
      foldE (fun buf i => modify buf i (fun _ => i)) b l = .error e →
      foldE (fun buf i => modify buf i (fun _ => i)) b (l ++ l') = .error e := by
    intro l l'
    induction l with
    | nil => intro b e h; cases h
    | cons x l ih =>
      intro b e h
      simp only [foldE, List.cons_append] at h ⊢
      cases hx : modify b x (fun _ => x) with
      | error f => rw [hx] at h; exact h
      | ok b' => rw [hx] at h; exact ih b' e h
  have h1 : foldE (fun buf i => modify buf i (fun _ => i)) (List.replicate N 0) (List.range (N + 1)) =
      .error .outOfBounds := by
    rw [List.range_succ, foldE_snoc (fill_range N N le_rfl), modify_ge (by simp)]
  refine ⟨.outOfBounds, ?_⟩
  rw [show n = (N + 1) + (n - (N + 1)) by omega, List.range_add]
  exact happ _ _ _ _ h1

/-- The buffer is long enough and only stored positions are used. -/
theorem rawTruncRow_ok {nth : Nat → SpVec ℝ → List Nat} (hnth : NthOk nth) {nBuffer : Nat} (topK : Nat)
    (row : SpVec ℝ) (h : row.length ≤ nBuffer) :
    rawTruncRow nth nBuffer topK row = .ok (truncRow nth topK row) := by
  unfold rawTruncRow truncRow
  rw [fill_range _ _ h]
  simp only
  have h1 : (List.range row.length ++ List.replicate (nBuffer - row.length) 0).take row.length =
      List.range row.length := by
    rw [List.take_append_of_le_length (by simp), List.take_of_length_le (by simp)]
  rw [h1]
  set buffer := (if min row.length topK < row.length then nth (min row.length topK) row
    else List.range row.length) with hbuf
  have hperm : buffer.Perm (List.range row.length) := by
    rw [hbuf]
    split
    · rename_i hlt; exact (hnth _ row hlt).perm
    · exact List.Perm.refl _
  have hlen : buffer.length = row.length := by simpa using hperm.length_eq
  have hmin := Nat.min_le_left row.length topK
  rw [List.take_append_of_le_length (by omega)]
  set sorted := (buffer.take (min row.length topK)).insertionSort (· ≤ ·) with hsort
  have hsl : sorted.length = min row.length topK := by
    rw [hsort, List.length_insertionSort, List.length_take]; omega
  have hmem : ∀ k ∈ sorted, k < row.length := by
    intro k hk
    rw [hsort, List.mem_insertionSort] at hk
    exact List.mem_range.mp (hperm.mem_iff.mp (List.mem_of_mem_take hk))
  have hmap : sorted.filterMap (fun i => row[i]?) = sorted.map (fun i => row.getD i (0, 0)) := by
    rw [← List.filterMap_eq_map]
    apply List.filterMap_congr
    intro k hk
    simp [List.getD_eq_getElem?_getD, List.getElem?_eq_getElem (hmem k hk)]
  rw [hmap]
  refine mapE_list (by rw [List.length_range, List.length_map, hsl]) ?_
  intro j hj
  rw [List.length_range] at hj
  have hjs : j < sorted.length := by omega
  have hks : sorted[j] < row.length := hmem _ (List.getElem_mem hjs)
  simp only [List.getElem_range, List.getElem_map]
  rw [read_some (x := sorted[j]) (by
    rw [List.getElem?_append_left hjs, List.getElem?_eq_getElem hjs])]
  simp only
  rw [read_lt (by rw [List.length_map]; exact hks)]
  simp only
  rw [read_lt (by rw [List.length_map]; exact hks)]
  simp [List.getD_eq_getElem?_getD, List.getElem?_eq_getElem hks]

end knn

/-! ## iALS -/

section ials
open Ials Matrix
variable {K : Nat}

theorem factorRows_get (F : Factor K) {i : Nat} (h : i < F.n) :
    read (factorRows F) i = .ok (F.row i) := by
  apply read_some
  unfold factorRows
  rw [List.getElem?_map, List.getElem?_range h]; rfl

theorem factorRows_ge (F : Factor K) {i : Nat} (h : F.n ≤ i) :
    read (factorRows F) i = .error .outOfBounds := by
  apply read_ge
  simpa [factorRows] using h

theorem rawGather_ok (X : CSR ℝ) (hX : X.WF) (other : Factor K) (hn : other.n = X.cols) {u : Nat}
    (hu : u < X.nrows) : rawGather (compress X) (factorRows other) u =
      .ok ((X.row u).map (fun e => (other.row e.1, e.2))) := by
  unfold rawGather
  rw [innerIterator_lt X hu]
  simp only
  refine mapE_ok ?_
  intro e he
  rw [factorRows_get other (by
    rw [hn]
    rw [row_eq X hu] at he
    exact hX _ (List.getElem_mem _) e he)]

theorem rawLossUser_ok (tr : Trainer K) (hX : tr.X.WF) (hun : tr.user.n = tr.X.nrows)
    (hvn : tr.item.n = tr.X.cols) {u : Nat} (hu : u < tr.user.n) :
    rawLossUser tr u = .ok (lossUser tr u) := by
  unfold rawLossUser
  rw [factorRows_get _ hu]
  simp only
  rw [rawGather_ok tr.X hX tr.item hvn (by omega)]
  simp only [List.foldl_map]
  unfold lossUser
  congr 1

theorem rawLossItem_ok (tr : Trainer K) (hvn : tr.item.n = tr.Xt.nrows) {i : Nat} (hi : i < tr.item.n) :
    rawLossItem tr i = .ok (lossItem tr i) := by
  have hi' : i < tr.Xt.nrows := by omega
  unfold rawLossItem
  rw [read_some (indptr_get tr.Xt (by omega))]
  simp only
  rw [read_some (indptr_get tr.Xt (by omega))]
  simp only
  rw [factorRows_get _ hi]
  simp only
  have : ((tr.Xt.rows.map List.length).take (i + 1)).sum - ((tr.Xt.rows.map List.length).take i).sum =
      (tr.Xt.row i).length := by
    rw [List.take_succ, List.sum_append, List.getElem?_map, List.getElem?_eq_getElem hi', row_eq tr.Xt hi']
    simp
  rw [this]
  unfold lossItem
  congr 1

end ials

end Irspack.Raw
