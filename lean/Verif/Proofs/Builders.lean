import Verif.Spec.Builders

/-!
# Lemmas on the configuration builders
-/

namespace Irspack.Proofs.Builders

open Irspack Irspack.Ials Irspack.Ials.Builders Irspack.Spec.Builders

variable {B F : Type} [DecidableEq F]

theorem lastValue_nil (f : F) : lastValue f [] = none := rfl

theorem lastValue_cons (f : F) (c : F × PyVal) (cs : List (F × PyVal)) :
    lastValue f (c :: cs) = (lastValue f cs).or (if c.1 = f then some c.2 else none) := by
  unfold lastValue
  by_cases h : c.1 = f
  · rw [List.filter_cons_of_pos (by simpa using h), if_pos h]
    cases hl : cs.filter (fun c => decide (c.1 = f)) with
    | nil => simp
    | cons a as => rw [List.getLast?_cons_cons]; simp [List.getLast?_cons]
  · rw [List.filter_cons_of_neg (by simpa using h), if_neg h]
    simp

/-- the laws of a setter -/
structure Laws (set : B → F → PyVal → Except Err B) (get : B → F → PyVal) (cast : ℝ → ℝ) (k : F → Kind) :
    Prop where
  ok : ∀ b f v, Fits (k f) v → ∃ b', set b f v = .ok b' ∧ get b' f = kept cast (k f) v ∧
    ∀ g, g ≠ f → get b' g = get b g
  err : ∀ b f v, ¬ Fits (k f) v → set b f v = .error .typeError

variable {set : B → F → PyVal → Except Err B} {get : B → F → PyVal} {cast : ℝ → ℝ} {k : F → Kind}

theorem callOn_ok (p : Returned) {objs : List B} {ref : Nat} {b b' : B} {f : F} {v : PyVal}
    (hb : objs[ref]? = some b) (hs : set b f v = .ok b') :
    ∃ objs' ref', callOn set p objs ref f v = .ok (objs', ref') ∧ objs'[ref']? = some b' ∧
      objs.length ≤ objs'.length ∧ (ref' = ref ∨ objs.length ≤ ref') ∧
      ∀ i, i < objs.length → i ≠ ref → objs'[i]? = objs[i]? := by
  have hlt : ref < objs.length := by
    by_contra h
    rw [List.getElem?_eq_none (by omega)] at hb
    cases hb
  cases p with
  | same =>
    refine ⟨objs.set ref b', ref, by simp [callOn, hb, hs], by simp [hlt], by simp, .inl rfl, ?_⟩
    intro i _ hne
    rw [List.getElem?_set_ne (Ne.symm hne)]
  | copy =>
    refine ⟨objs.set ref b' ++ [b'], objs.length, by simp [callOn, hb, hs], ?_, by simp, .inr le_rfl, ?_⟩
    · rw [List.getElem?_append_right (by simp)]
      simp
    · intro i hi hne
      rw [List.getElem?_append_left (by simpa using hi), List.getElem?_set_ne (Ne.symm hne)]

theorem chain_ok (L : Laws set get cast k) (p : Returned) (calls : List (F × PyVal)) :
    ∀ (objs : List B) (ref : Nat) (b : B), objs[ref]? = some b → (∀ c ∈ calls, Fits (k c.1) c.2) →
      ∃ objs' ref' b', chain set p objs ref calls = .ok (objs', ref') ∧ objs'[ref']? = some b' ∧
        (∀ f, get b' f = ((lastValue f calls).map (kept cast (k f))).getD (get b f)) ∧
        objs.length ≤ objs'.length ∧ (ref' = ref ∨ objs.length ≤ ref') ∧
        ∀ i, i < objs.length → i ≠ ref → objs'[i]? = objs[i]? := by
  induction calls with
  | nil =>
    intro objs ref b hb _
    exact ⟨objs, ref, b, rfl, hb, fun f => rfl, le_rfl, .inl rfl, fun _ _ _ => rfl⟩
  | cons c cs ih =>
    intro objs ref b hb hf
    obtain ⟨b₁, h1, h2, h3⟩ := L.ok b c.1 c.2 (hf c (by simp))
    obtain ⟨objs₁, ref₁, e1, e2, e3, e4, e5⟩ := callOn_ok (set := set) p hb h1
    obtain ⟨objs₂, ref₂, b₂, g1, g2, g3, g4, g5, g6⟩ := ih objs₁ ref₁ b₁ e2 (fun c hc => hf c (by simp [hc]))
    refine ⟨objs₂, ref₂, b₂, ?_, g2, ?_, le_trans e3 g4, ?_, ?_⟩
    · rw [chain, e1]
      exact g1
    · intro f
      rw [g3 f, lastValue_cons]
      cases hl : lastValue f cs with
      | some v => simp
      | none =>
        by_cases h : c.1 = f
        · subst h; simp [h2]
        · simp [h, h3 f (Ne.symm h)]
    · omega
    · intro i hi hne
      rw [g6 i (by omega) (by omega), e5 i hi hne]

theorem chain_err (L : Laws set get cast k) (p : Returned) (calls : List (F × PyVal)) :
    ∀ (objs : List B) (ref : Nat) (b : B), objs[ref]? = some b → (∃ c ∈ calls, ¬ Fits (k c.1) c.2) →
      chain set p objs ref calls = .error .typeError := by
  induction calls with
  | nil => intro objs ref b _ h; simp at h
  | cons c cs ih =>
    intro objs ref b hb hf
    by_cases hc : Fits (k c.1) c.2
    · obtain ⟨b₁, h1, -, -⟩ := L.ok b c.1 c.2 hc
      obtain ⟨objs₁, ref₁, e1, e2, -⟩ := callOn_ok (set := set) p hb h1
      obtain ⟨d, hd, hn⟩ := hf
      rcases List.mem_cons.mp hd with rfl | hd
      · exact absurd hc hn
      · rw [chain, e1]
        exact ih objs₁ ref₁ b₁ e2 ⟨d, hd, hn⟩
    · have h1 := L.err b c.1 c.2 hc
      simp [chain, callOn, hb, h1]

theorem toSize_ok {v : PyVal} (h : Fits .size v) : ∃ n : Nat, toSize v = .ok n ∧ v = .int n := by
  obtain ⟨n, rfl, h0, h1⟩ := h
  refine ⟨n.toNat, by simp only [toSize]; rw [if_pos ⟨h0, h1⟩], ?_⟩
  rw [Int.toNat_of_nonneg h0]

theorem toSize_err {v : PyVal} (h : ¬ Fits .size v) : toSize v = .error .typeError := by
  cases v with
  | int n =>
    have : ¬ (0 ≤ n ∧ n < 2 ^ 64) := fun hh => h ⟨n, rfl, hh⟩
    simp only [toSize]
    rw [if_neg this]
  | _ => rfl

theorem toInt_ok {v : PyVal} (h : Fits .int v) : ∃ n : Int, toInt v = .ok n ∧ v = .int n := by
  obtain ⟨n, rfl, h0⟩ := h
  exact ⟨n, by simp only [toInt]; rw [if_pos h0], rfl⟩

theorem toInt_err {v : PyVal} (h : ¬ Fits .int v) : toInt v = .error .typeError := by
  cases v with
  | int n =>
    have : ¬ (-(2 ^ 31) ≤ n ∧ n < 2 ^ 31) := fun hh => h ⟨n, rfl, hh⟩
    simp only [toInt]
    rw [if_neg this]
  | _ => rfl

theorem toReal_ok (cast : ℝ → ℝ) {v : PyVal} (h : Fits .real v) :
    ∃ x : ℝ, toReal cast v = .ok x ∧ kept cast .real v = .float x := by
  rcases h with ⟨n, rfl⟩ | ⟨x, rfl⟩
  · exact ⟨_, rfl, rfl⟩
  · exact ⟨_, rfl, rfl⟩

theorem toReal_err (cast : ℝ → ℝ) {v : PyVal} (h : ¬ Fits .real v) :
    toReal cast v = .error .typeError := by
  cases v with
  | int n => exact absurd (.inl ⟨n, rfl⟩) h
  | float x => exact absurd (.inr ⟨x, rfl⟩) h
  | _ => rfl

theorem toLoss_ok {v : PyVal} (h : Fits .loss v) : ∃ l, toLoss v = .ok l ∧ v = .loss l := by
  obtain ⟨l, rfl⟩ := h
  exact ⟨l, rfl, rfl⟩

theorem toLoss_err {v : PyVal} (h : ¬ Fits .loss v) : toLoss v = .error .typeError := by
  cases v with
  | loss l => exact absurd ⟨l, rfl⟩ h
  | _ => rfl

theorem toSolver_ok {v : PyVal} (h : Fits .solver v) : ∃ l, toSolver v = .ok l ∧ v = .solver l := by
  obtain ⟨l, rfl⟩ := h
  exact ⟨l, rfl, rfl⟩

theorem toSolver_err {v : PyVal} (h : ¬ Fits .solver v) : toSolver v = .error .typeError := by
  cases v with
  | solver l => exact absurd ⟨l, rfl⟩ h
  | _ => rfl

/-- the model configuration builder -/
theorem laws (cast : ℝ → ℝ) : Laws (Builder.set cast) (fun b => setting b.build) cast kind where
  ok := by
    intro b f v h
    cases f
    case K | warmup =>
      obtain ⟨n, h1, rfl⟩ := toSize_ok h
      refine ⟨_, by simp only [Builder.set, h1]; rfl, rfl, ?_⟩
      intro g hg; cases g <;> first | exact absurd rfl hg | rfl
    case randomSeed =>
      obtain ⟨n, h1, rfl⟩ := toInt_ok h
      refine ⟨_, by simp only [Builder.set, h1]; rfl, rfl, ?_⟩
      intro g hg; cases g <;> first | exact absurd rfl hg | rfl
    case lossType =>
      obtain ⟨n, h1, rfl⟩ := toLoss_ok h
      refine ⟨_, by simp only [Builder.set, h1]; rfl, rfl, ?_⟩
      intro g hg; cases g <;> first | exact absurd rfl hg | rfl
    all_goals
      obtain ⟨n, h1, h2⟩ := toReal_ok cast h
      refine ⟨_, by simp only [Builder.set, h1]; rfl, by exact h2.symm, ?_⟩
      intro g hg; cases g <;> first | exact absurd rfl hg | rfl
  err := by
    intro b f v h
    cases f
    case K | warmup => simp only [Builder.set, toSize_err h]; rfl
    case randomSeed => simp only [Builder.set, toInt_err h]; rfl
    case lossType => simp only [Builder.set, toLoss_err h]; rfl
    all_goals simp only [Builder.set, toReal_err cast h]; rfl

/-- the solver configuration builder -/
theorem slaws (cast : ℝ → ℝ) : Laws SBuilder.set (fun b => ssetting b.build) cast skind where
  ok := by
    intro b f v h
    cases f
    case solverType =>
      obtain ⟨n, h1, rfl⟩ := toSolver_ok h
      refine ⟨_, by simp only [SBuilder.set, h1]; rfl, rfl, ?_⟩
      intro g hg; cases g <;> first | exact absurd rfl hg | rfl
    all_goals
      obtain ⟨n, h1, rfl⟩ := toSize_ok h
      refine ⟨_, by simp only [SBuilder.set, h1]; rfl, rfl, ?_⟩
      intro g hg; cases g <;> first | exact absurd rfl hg | rfl
  err := by
    intro b f v h
    cases f
    case solverType => simp only [SBuilder.set, toSolver_err h]; rfl
    all_goals simp only [SBuilder.set, toSize_err h]; rfl

theorem setting_inj {c d : Config} (h : ∀ f, setting c f = setting d f) : c = d := by
  have h1 := h .K
  have h2 := h .alpha0
  have h3 := h .reg
  have h4 := h .nu
  have h5 := h .initStdev
  have h6 := h .randomSeed
  have h7 := h .lossType
  have h8 := h .lambdaUser
  have h9 := h .lambdaItem
  have h10 := h .warmup
  cases c; cases d
  simp only [setting, PyVal.int.injEq, PyVal.float.injEq, PyVal.loss.injEq, Nat.cast_inj] at *
  simp [*]

theorem ssetting_inj {c d : Nat × SolverConfig} (h : ∀ f, ssetting c f = ssetting d f) : c = d := by
  have h1 := h .nThreads
  have h2 := h .solverType
  have h3 := h .maxCgSteps
  have h4 := h .subspaceDimension
  have h5 := h .iteration
  obtain ⟨n, c⟩ := c
  obtain ⟨m, d⟩ := d
  cases c; cases d
  simp only [ssetting, PyVal.int.injEq, PyVal.solver.injEq, Nat.cast_inj] at *
  simp [*]

theorem setting_new (cast : ℝ → ℝ) (f : Field) :
    setting (Builder.new cast).build f = kept cast (kind f) (default f) := by
  cases f <;> rfl

theorem ssetting_new (f : SField) : ssetting SBuilder.new.build f = sdefault f := by
  cases f <;> rfl

end Irspack.Proofs.Builders
