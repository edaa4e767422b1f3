import Verif.Spec.Named
import Verif.Proofs.PyEvaluator

/-!
# Lemmas about the named reports
-/

namespace Irspack.Evaluation.Named

open Irspack Irspack.Evaluation

variable {V : Type}

theorem key_inj {n n' : List Char} {c c' : Nat} (h : key n c = key n' c') : n = n' ∧ c = c' := by
  have hat : ∀ c : Nat, '@' ∉ Nat.toDigits 10 c := by
    intro c hc
    have := Nat.isDigit_of_mem_toDigits (by decide) (by decide) hc
    exact absurd this (by decide)
  unfold key at h
  have aux : ∀ (n n' d d' : List Char), '@' ∉ d → '@' ∉ d' → n ++ '@' :: d = n' ++ '@' :: d' →
      n = n' ∧ d = d' := by
    intro n
    induction n with
    | nil =>
      intro n' d d' hd hd' h
      cases n' with
      | nil => simpa using h
      | cons x n' =>
        simp at h
        obtain ⟨rfl, rfl⟩ := h
        exact absurd (by simp) hd
    | cons x n ih =>
      intro n' d d' hd hd' h
      cases n' with
      | nil =>
        simp at h
        obtain ⟨rfl, rfl⟩ := h
        exact absurd (by simp) hd'
      | cons y n' =>
        simp at h
        obtain ⟨h1, h2⟩ := ih n' d d' hd hd' h.2
        exact ⟨by rw [h.1, h1], h2⟩
  obtain ⟨h1, h2⟩ := aux _ _ _ _ (hat c) (hat c') h
  refine ⟨h1, ?_⟩
  rw [← Nat.ofDigitChars_ten_toDigits (n := c), h2, Nat.ofDigitChars_ten_toDigits]

theorem label_eq (s : String) (c : Nat) : label s c = key s.toList c := by
  unfold label key
  simp only [String.toList_append, List.append_assoc]
  rw [show toString c = c.repr from rfl, Nat.toList_repr]
  rfl

theorem names_eq : metricNames = reported.map String.toList := rfl

/-! ### Dictionaries -/

theorem keys_set (d : Dict V) (k : List Char) (v : V) :
    (d.set k v).map Prod.fst = if k ∈ d.map Prod.fst then d.map Prod.fst else d.map Prod.fst ++ [k] := by
  unfold Dict.set
  split_ifs with h
  · rw [List.map_map]
    apply List.map_congr_left
    intro e _
    simp only [Function.comp]
    split_ifs with h'
    · exact h'.symm
    · rfl
  · simp

theorem lookup_step (e : List Char × V) (d : Dict V) (k : List Char) :
    List.lookup k (e :: d) = if k = e.1 then some e.2 else List.lookup k d := by
  rw [List.lookup_cons]
  by_cases h : k = e.1
  · simp [h]
  · rw [if_neg h, beq_false_of_ne h]

theorem lookup_of_not_mem (d : Dict V) (k : List Char) (h : k ∉ d.map Prod.fst) : d.lookup k = none := by
  induction d with
  | nil => rfl
  | cons e d ih =>
    simp only [List.map_cons, List.mem_cons, not_or] at h
    rw [lookup_step, if_neg h.1, ih h.2]

theorem lookup_set (d : Dict V) (k k' : List Char) (v : V) :
    (d.set k v).lookup k' = if k' = k then some v else d.lookup k' := by
  unfold Dict.set
  split_ifs with h h' h'
  · subst h'
    induction d with
    | nil => simp at h
    | cons e d ih =>
      rw [List.map_cons, lookup_step]
      by_cases he : e.1 = k'
      · simp [he]
      · rw [if_neg he, if_neg (Ne.symm he)]
        apply ih
        simpa [he, Ne.symm he] using h
  · clear h
    induction d with
    | nil => rfl
    | cons e d ih =>
      rw [List.map_cons, lookup_step, lookup_step, ih]
      by_cases he : e.1 = k
      · simp [he, h']
      · simp [he]
  · subst h'
    rw [List.lookup_append, lookup_of_not_mem d k' h]
    simp
  · rw [List.lookup_append]
    have : ([(k, v)] : Dict V).lookup k' = none := lookup_of_not_mem _ _ (by simpa using h')
    rw [this]; simp

theorem get_set (d : Dict V) (k k' : List Char) (v : V) :
    (d.set k v).get k' = if k' = k then .ok v else d.get k' := by
  unfold Dict.get
  rw [lookup_set]
  split_ifs <;> rfl

/-- appending a key to the list of keys -/
def ins (ks : List (List Char)) (k : List Char) : List (List Char) := if k ∈ ks then ks else ks ++ [k]

theorem addCutoff_ok (score : Dict V) (c : Nat) :
    ∀ (names : List (List Char)) (result : Dict V), (∀ n ∈ names, ∃ v, score.get n = .ok v) →
      ∃ r, addCutoff score c names result = .ok r ∧
        r.map Prod.fst = (names.map (fun n => key n c)).foldl ins (result.map Prod.fst) ∧
        (∀ n ∈ names, r.get (key n c) = score.get n) ∧
        ∀ k, k ∉ names.map (fun n => key n c) → r.get k = result.get k := by
  intro names
  induction names with
  | nil => intro result _; exact ⟨result, rfl, rfl, by simp, by simp⟩
  | cons n names ih =>
    intro result h
    obtain ⟨v, hv⟩ := h n List.mem_cons_self
    obtain ⟨r, h1, h2, h3, h4⟩ := ih (result.set (key n c) v) (fun m hm => h m (List.mem_cons_of_mem _ hm))
    refine ⟨r, ?_, ?_, ?_, ?_⟩
    · unfold addCutoff; rw [hv]; exact h1
    · rw [h2, keys_set]; rfl
    · intro m hm
      rcases List.mem_cons.mp hm with rfl | hm
      · by_cases hm' : m ∈ names
        · exact h3 m hm'
        · rw [h4, get_set, if_pos rfl, hv]
          simp only [List.mem_map, not_exists, not_and]
          intro x hx he
          exact hm' ((key_inj he).1 ▸ hx)
      · exact h3 m hm
    · intro k hk
      simp only [List.map_cons, List.mem_cons, not_or] at hk
      rw [h4 k hk.2, get_set, if_neg hk.1]

theorem addAll_ok (val : Nat → Dict V) :
    ∀ (cs : List Nat) (result : Dict V), (∀ c ∈ cs, ∀ n ∈ metricNames, ∃ v, (val c).get n = .ok v) →
      ∃ r, addAll (cs.map (fun c => (c, val c))) result = .ok r ∧
        r.map Prod.fst = (cs.flatMap (fun c => metricNames.map (fun n => key n c))).foldl ins
          (result.map Prod.fst) ∧
        (∀ c ∈ cs, ∀ n ∈ metricNames, r.get (key n c) = (val c).get n) ∧
        ∀ k, (∀ c ∈ cs, ∀ n ∈ metricNames, k ≠ key n c) → r.get k = result.get k := by
  intro cs
  induction cs with
  | nil => intro result _; exact ⟨result, rfl, rfl, by simp, by simp⟩
  | cons c cs ih =>
    intro result h
    obtain ⟨r₁, h1, h2, h3, h4⟩ := addCutoff_ok (val c) c metricNames result (h c List.mem_cons_self)
    obtain ⟨r, g1, g2, g3, g4⟩ := ih r₁ (fun c' hc' => h c' (List.mem_cons_of_mem _ hc'))
    refine ⟨r, ?_, ?_, ?_, ?_⟩
    · simp only [List.map_cons, addAll, h1]; exact g1
    · rw [g2, h2, List.flatMap_cons, List.foldl_append]
    · intro c' hc' n hn
      by_cases hin : c' ∈ cs
      · exact g3 c' hin n hn
      · rcases List.mem_cons.mp hc' with rfl | hc'
        · rw [g4, h3 n hn]
          intro x hx m hm he
          exact hin ((key_inj he).2 ▸ hx)
        · exact absurd hc' hin
    · intro k hk
      rw [g4 k (fun c' hc' => hk c' (List.mem_cons_of_mem _ hc')), h4]
      simp only [List.mem_map, not_exists, not_and]
      intro n hn he
      exact hk c List.mem_cons_self n hn he.symm

/-! ### The order of the keys -/

theorem foldl_ins_mem (l ks : List (List Char)) (h : ∀ k ∈ l, k ∈ ks) : l.foldl ins ks = ks := by
  induction l with
  | nil => rfl
  | cons k l ih =>
    rw [List.foldl_cons, ins, if_pos (h k List.mem_cons_self)]
    exact ih (fun k' hk' => h k' (List.mem_cons_of_mem _ hk'))

theorem foldl_ins_new (l : List (List Char)) : ∀ ks, l.Nodup → (∀ k ∈ l, k ∉ ks) → l.foldl ins ks = ks ++ l := by
  induction l with
  | nil => intro ks _ _; simp
  | cons k l ih =>
    intro ks hn h
    rw [List.nodup_cons] at hn
    rw [List.foldl_cons, ins, if_neg (h k List.mem_cons_self), ih _ hn.2]
    · simp
    · intro k' hk' hm
      rcases List.mem_append.mp hm with hm | hm
      · exact h k' (List.mem_cons_of_mem _ hk') hm
      · rw [List.mem_singleton] at hm
        exact hn.1 (hm ▸ hk')

theorem foldl_ins_flatMap (names : List (List Char)) (hn : names.Nodup) :
    ∀ (cs D : List Nat), (cs.flatMap (fun c => names.map (fun n => key n c))).foldl ins
        (D.flatMap (fun c => names.map (fun n => key n c))) =
      (D ++ (cs.filter (fun c => decide (c ∉ D))).eraseDups).flatMap
        (fun c => names.map (fun n => key n c)) := by
  intro cs
  induction cs with
  | nil => intro D; simp
  | cons c cs ih =>
    intro D
    rw [List.flatMap_cons, List.foldl_append]
    by_cases hc : c ∈ D
    · rw [foldl_ins_mem (names.map (fun n => key n c)), ih, List.filter_cons_of_neg (by simpa using hc)]
      intro k hk
      exact List.mem_flatMap.mpr ⟨c, hc, hk⟩
    · rw [foldl_ins_new (names.map (fun n => key n c))]
      · have e : D.flatMap (fun c => names.map (fun n => key n c)) ++ names.map (fun n => key n c) =
            (D ++ [c]).flatMap (fun c => names.map (fun n => key n c)) := by simp
        rw [e, ih, List.filter_cons_of_pos (by simpa using hc), List.eraseDups_cons, List.filter_filter]
        congr 1
        simp only [List.append_assoc, List.singleton_append]
        congr 3
        apply List.filter_congr
        intro x _
        by_cases h1 : x = c <;> by_cases h2 : x ∈ D <;> simp [h1, h2]
      · refine (List.nodup_map_iff_inj_on hn).mpr ?_
        intro x _ y _ h
        exact (key_inj h).1
      · intro k hk hm
        obtain ⟨n, hn, rfl⟩ := List.mem_map.mp hk
        obtain ⟨c', hc', hk'⟩ := List.mem_flatMap.mp hm
        obtain ⟨n', _, he⟩ := List.mem_map.mp hk'
        exact hc ((key_inj he).2 ▸ hc')

theorem metricNames_nodup : metricNames.Nodup := by decide

/-! ### The sources -/

/-- The joint run gives for each cutoff the report of a run with this cutoff alone. -/
def Each (src : Source) : Prop :=
  ∀ cs ds, src cs = .ok ds → List.Forall₂ (fun c d => src [c] = .ok [d]) cs ds

section
variable {S : Type} [LinearOrder S] [OrderBot S]

theorem each_model (ev : Evaluator) (r : Recommender S) : Each (ofModel ev r) :=
  fun cs ds h => scoresOfModel_each ev r cs ds h

theorem chunkLoop_each (ev : Evaluator) (mask : Option Mask) (chunks : List (Chunk S)) :
    ∀ (start : Nat) (ms ms' : List (Nat × Metrics)) (stop : Nat),
      ev.chunkLoop mask chunks start ms = .ok (stop, ms') →
      List.Forall₂ (fun p q => ev.chunkLoop mask chunks start [p] = .ok (stop, [q])) ms ms' := by
  induction chunks with
  | nil =>
    intro start ms ms' stop h
    simp only [Evaluator.chunkLoop, Except.ok.injEq, Prod.mk.injEq] at h
    obtain ⟨rfl, rfl⟩ := h
    simp [Evaluator.chunkLoop, List.forall₂_same]
  | cons ch rest ih =>
    intro start ms ms' stop h
    unfold Evaluator.chunkLoop at h ⊢
    split_ifs at h ⊢
    · exact ih _ _ _ _ h
    · cases he : ev.evalBlock (maskRows mask start ch.rows) start ms with
      | error e => rw [he] at h; cases h
      | ok ms₁ =>
        rw [he] at h
        have h1 := evalBlock_each _ _ _ _ _ he
        have h2 := ih _ _ _ _ h
        clear h he
        induction h1 generalizing ms' with
        | nil => cases h2; exact List.Forall₂.nil
        | cons hp _ ih' =>
          cases h2 with
          | cons hq hrest =>
            refine List.Forall₂.cons ?_ (ih' _ hrest)
            simp only [hp, hq]

theorem each_chunksWith (ev : Evaluator) (mask : Option Mask) (chunks : List (Chunk S)) :
    Each (ev.scoresFromChunksWith mask chunks) := by
  intro cs ds h
  unfold Evaluator.scoresFromChunksWith at h
  cases hl : ev.chunkLoop mask chunks 0 (cs.map (fun c => (c, Metrics.empty))) with
  | error e => rw [hl] at h; cases h
  | ok p =>
    obtain ⟨stop, ms⟩ := p
    rw [hl] at h
    simp only at h
    split_ifs at h with hs
    injection h with h
    subst h
    have := chunkLoop_each _ _ _ _ _ _ _ hl
    rw [List.forall₂_map_left_iff] at this
    rw [List.forall₂_map_right_iff]
    refine this.imp ?_
    intro c q hcq
    unfold Evaluator.scoresFromChunksWith
    simp only [List.map_cons, List.map_nil, hcq, if_neg hs]

theorem each_matrixWith (ev : Evaluator) (mask : Option Mask) (m : Chunk S) :
    Each (ev.scoresFromMatrixWith mask m) := by
  intro cs ds h
  unfold Evaluator.scoresFromMatrixWith at h ⊢
  split_ifs at h ⊢
  exact each_chunksWith ev mask _ cs ds h

theorem coldLoop_each (ev : ColdEvaluator) (r : ColdRecommender S) (starts : List Nat) :
    ∀ (scorer : Option (Nat → Nat → Except Err (Nat × List (ScoreRow S))))
      (ms ms' : List (Nat × Metrics)), ev.loop r starts scorer ms = .ok ms' →
    List.Forall₂ (fun p q => ev.loop r starts scorer [p] = .ok [q]) ms ms' := by
  induction starts with
  | nil =>
    intro scorer ms ms' h
    simp only [ColdEvaluator.loop, Except.ok.injEq] at h
    subst h
    simp [ColdEvaluator.loop, List.forall₂_same]
  | cons a rest ih =>
    intro scorer ms ms' h
    unfold ColdEvaluator.loop at h ⊢
    simp only at h ⊢
    cases hb : r.chunk scorer a (min (a + ev.base.mbSize) (ev.base.offset + ev.base.nUsers)) with
    | error e => rw [hb] at h; cases h
    | ok x =>
      obtain ⟨⟨cols, rows⟩, scorer'⟩ := x
      rw [hb] at h
      simp only at h ⊢
      generalize (if cols = ev.nWarm ∧ ev.nCold ≠ 0 then rows.map (padRow ev.nWarm) else rows) = rows' at h ⊢
      cases he : ev.base.evalBlock (applyMask ev.mask.nz a rows') a ms with
      | error e => rw [he] at h; cases h
      | ok ms₁ =>
        rw [he] at h
        have h1 := evalBlock_each _ _ _ _ _ he
        have h2 := ih _ _ _ h
        clear h he
        induction h1 generalizing ms' with
        | nil => cases h2; exact List.Forall₂.nil
        | cons hp _ ih' =>
          cases h2 with
          | cons hq hrest =>
            refine List.Forall₂.cons ?_ (ih' _ hrest)
            simp only [hp, hq]

theorem each_coldModel (ev : ColdEvaluator) (r : ColdRecommender S) : Each (ofColdModel ev r) := by
  intro cs ds h
  unfold ofColdModel ColdEvaluator.scoresOfModel at h ⊢
  split_ifs at h ⊢
  cases hf : ev.firstScorer r with
  | error e => rw [hf] at h; cases h
  | ok scorer =>
    rw [hf] at h
    simp only at h ⊢
    cases hl : ev.loop r (pyRange ev.base.offset (ev.base.offset + ev.base.nUsers) ev.base.mbSize) scorer
        (cs.map (fun c => (c, Metrics.empty))) with
    | error e => rw [hl] at h; cases h
    | ok ms =>
      rw [hl] at h
      injection h with h
      subst h
      have := coldLoop_each _ _ _ _ _ _ hl
      rw [List.forall₂_map_left_iff] at this
      rw [List.forall₂_map_right_iff]
      refine this.imp ?_
      intro c q hcq
      simp only [List.map_cons, List.map_nil, hcq]

end

end Irspack.Evaluation.Named
