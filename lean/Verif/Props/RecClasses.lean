import Mathlib.Data.List.Nodup
import Mathlib.Data.List.Induction
import Mathlib.Tactic.NormNum
import Verif.Model.RecClasses

/-!
# C72: recommenders from configurations, by name, and from their tuning ranges
-/

namespace Irspack.RecClasses

/-! ## Look-up -/

theorem lookup_map (l : Args) (f : String → Val → Val) (n : String) :
    (l.map (fun d => (d.1, f d.1 d.2))).lookup n = (l.lookup n).map (f n) := by
  induction l with
  | nil => rfl
  | cons a l ih =>
    obtain ⟨k, v⟩ := a
    simp only [List.map_cons, List.lookup_cons]
    by_cases h : n = k
    · subst h; simp
    · have : (n == k) = false := by simpa using h
      simp only [this, ih]

theorem lookup_none (l : Args) (n : String) : l.lookup n = none ↔ n ∉ l.map (·.1) := by
  induction l with
  | nil => simp
  | cons a l ih =>
    obtain ⟨k, v⟩ := a
    simp only [List.lookup_cons, List.map_cons, List.mem_cons, not_or]
    by_cases h : n = k
    · subst h; simp
    · have : (n == k) = false := by simpa using h
      simp [this, ih, h]

theorem lookup_some {l : Args} {n : String} (h : n ∈ l.map (·.1)) : ∃ v, l.lookup n = some v := by
  cases hl : l.lookup n with
  | none => exact absurd h ((lookup_none l n).mp hl)
  | some v => exact ⟨v, rfl⟩

theorem lookup_mem {l : Args} (h : (l.map (·.1)).Nodup) {d : String × Val} (hd : d ∈ l) : l.lookup d.1 = some d.2 := by
  induction l with
  | nil => simp at hd
  | cons a l ih =>
    obtain ⟨k, v⟩ := a
    simp only [List.map_cons, List.nodup_cons] at h
    rcases List.mem_cons.mp hd with rfl | hd
    · simp
    · have hne : (d.1 == k) = false := by
        simp only [beq_eq_false_iff_ne, ne_eq]
        intro e
        exact h.1 (by rw [← e]; exact List.mem_map.mpr ⟨d, hd, rfl⟩)
      simp only [List.lookup_cons, hne]
      exact ih h.2 hd

theorem construct_values {c : RecClass} {given p : Args} (h : construct c given = .ok p) :
    p = c.params.map (fun d => (d.1, valueOf given d.1 d.2)) := by
  unfold construct at h
  split at h
  · simp only at h
    split at h
    · cases h
    · cases h; rfl
  · cases h

/-! ## The constructor -/

/-- A recommender that is constructed has exactly the parameters of its class, each with the value that was given
for it, or else with its default. -/
theorem C72_constructor (c : RecClass) (given p : Args) (h : construct c given = .ok p) :
    p.map (·.1) = c.params.map (·.1) ∧
    (∀ n v, given.lookup n = some v → p.lookup n = some v) ∧
    (∀ n, given.lookup n = none → p.lookup n = c.params.lookup n) := by
  have hp := construct_values h
  have hg : ∀ n v, given.lookup n = some v → n ∈ c.params.map (·.1) := by
    intro n v hv
    unfold construct at h
    split at h
    · rename_i hall
      rw [List.all_eq_true] at hall
      have hn : n ∈ given.map (·.1) := by
        by_contra hn
        rw [(lookup_none given n).mpr hn] at hv
        cases hv
      obtain ⟨a, ha, rfl⟩ := List.mem_map.mp hn
      simpa using hall a ha
    · cases h
  subst hp
  refine ⟨by rw [List.map_map]; rfl, ?_, ?_⟩
  · intro n v hv
    rw [lookup_map c.params (valueOf given) n]
    obtain ⟨d, hd⟩ := lookup_some (hg n v hv)
    simp [hd, valueOf, hv]
  · intro n hn
    rw [lookup_map c.params (valueOf given) n]
    cases c.params.lookup n <;> simp [valueOf, hn]

/-- A name that is not a parameter is a `TypeError`. -/
theorem C72_unknown_argument (c : RecClass) (given : Args) (n : String) (h : n ∈ given.map (·.1))
    (hn : n ∉ c.params.map (·.1)) : construct c given = .error .typeError := by
  unfold construct
  rw [if_neg]
  rw [List.all_eq_true]
  intro hall
  obtain ⟨a, ha, rfl⟩ := List.mem_map.mp h
  exact hn (by simpa using hall a ha)

/-! ## Configurations -/

theorem makeConfig_values {c : RecClass} {given : Args} {cfg : Config} (h : makeConfig c given = .ok cfg) :
    cfg = ⟨c.config :: c.bases, c.fields.map (fun d => (d.1, valueOf given d.1 d.2))⟩ ∧
      ∀ n ∈ given.map (·.1), n ∈ c.fields.map (·.1) := by
  unfold makeConfig at h
  simp only at h
  split at h
  · rename_i hall
    split at h
    · cases h
      refine ⟨rfl, ?_⟩
      intro n hn
      obtain ⟨a, ha, rfl⟩ := List.mem_map.mp hn
      rw [List.all_eq_true] at hall
      simpa using hall a ha
    · cases h
  · cases h

/-- every field of a configuration is a parameter of the constructor -/
theorem fields_known : ∀ c ∈ all, ∀ n ∈ c.fields.map (·.1), n ∈ c.params.map (·.1) := by
  decide +kernel

/-- A recommender made from a configuration has, for every field of the configuration, the value that was given or
else the default of the configuration, and for the other parameters the default of the constructor. -/
theorem C72_from_config (c : RecClass) (given : Args) (cfg : Config) (p : Args)
    (h1 : makeConfig c given = .ok cfg) (h2 : fromConfig c cfg = .ok p) :
    (∀ n v, given.lookup n = some v → p.lookup n = some v) ∧
    (∀ n d, given.lookup n = none → c.fields.lookup n = some d → p.lookup n = some d) ∧
    (∀ n, c.fields.lookup n = none → p.lookup n = c.params.lookup n) := by
  obtain ⟨rfl, hg⟩ := makeConfig_values h1
  unfold fromConfig at h2
  rw [if_pos (by simp)] at h2
  obtain ⟨-, h3, h4⟩ := C72_constructor c _ p h2
  simp only [lookup_map c.fields (valueOf given)] at h3 h4
  refine ⟨?_, ?_, ?_⟩
  · intro n v hv
    have hn : n ∈ given.map (·.1) := by
      by_contra hn
      rw [(lookup_none given n).mpr hn] at hv
      cases hv
    obtain ⟨d, hd⟩ := lookup_some (hg n hn)
    apply h3
    simp [hd, valueOf, hv]
  · intro n d hn hd
    apply h3
    simp [hd, valueOf, hn]
  · intro n hn
    apply h4
    simp [hn]

/-- For every recommender of irspack: a configuration never contains a name that its constructor does not know. -/
theorem C72_config_accepted (c : RecClass) (hc : c ∈ all) (given : Args) (cfg : Config)
    (h : makeConfig c given = .ok cfg) : fromConfig c cfg ≠ .error .typeError := by
  obtain ⟨rfl, -⟩ := makeConfig_values h
  unfold fromConfig construct
  rw [if_pos (by simp), if_pos]
  · simp only
    split
    · rename_i e he
      rw [List.findSome?_eq_some_iff] at he
      obtain ⟨_, ch, _, hch, he, _⟩ := he
      have hne : ∀ c ∈ all, ∀ ch ∈ c.checks, (match ch with
          | .oneOf _ _ e => e | .upperOneOf _ _ e => e) ≠ Err.typeError := by decide +kernel
      have := hne c hc ch (by rw [hch]; simp)
      intro h
      cases h
      cases ch with
      | oneOf name values e =>
        simp only [Check.error] at he
        split at he
        · split at he
          · cases he
          · cases he; exact this rfl
        · cases he; exact this rfl
      | upperOneOf name values e =>
        simp only [Check.error] at he
        split at he
        · split at he
          · cases he
          · cases he; exact this rfl
        · cases he; exact this rfl
    · intro h; cases h
  · rw [List.all_eq_true]
    intro a ha
    simp only [List.mem_map] at ha
    obtain ⟨d, hd, rfl⟩ := ha
    simpa using fields_known c hc d.1 (List.mem_map.mpr ⟨d, hd, rfl⟩)

/-- A name that is not a field is rejected with `ValueError`; nothing is silently ignored. -/
theorem C72_unknown_field (c : RecClass) (given : Args) (n : String) (h : n ∈ given.map (·.1))
    (hn : n ∉ c.fields.map (·.1)) : makeConfig c given = .error .valueError := by
  unfold makeConfig
  simp only
  rw [if_neg]
  rw [List.all_eq_true]
  intro hall
  obtain ⟨a, ha, rfl⟩ := List.mem_map.mp h
  exact hn (by simpa using hall a ha)

/-- A configuration for another recommender is rejected with `ValueError`. -/
theorem C72_other_config (c c' : RecClass) (hc : c ∈ all) (hc' : c' ∈ all) (hne : c ≠ c') (given : Args)
    (cfg : Config) (h : makeConfig c' given = .ok cfg) : fromConfig c cfg = .error .valueError := by
  obtain ⟨rfl, -⟩ := makeConfig_values h
  have key : ∀ c ∈ all, ∀ c' ∈ all, c.config ∈ c'.config :: c'.bases → c.name = c'.name := by decide +kernel
  have names : ∀ c ∈ all, ∀ c' ∈ all, c.name = c'.name → c = c' := by
    have : (all.map (·.name)).Nodup := by decide +kernel
    intro c hc c' hc' h
    exact List.inj_on_of_nodup_map this hc hc' h
  unfold fromConfig
  rw [if_neg]
  intro hm
  exact hne (names c hc c' hc' (key c hc c' hc' hm))

/-- the parameters on whose default the configuration and the constructor agree, or that are given -/
def DefaultsAgree (c : RecClass) (given : Args) : Prop :=
  ∀ n d, c.fields.lookup n = some d → c.params.lookup n = some d ∨ given.lookup n ≠ none

/-- A configuration and the constructor given the same arguments make the same recommender, or raise the same
error, if their defaults agree on what is not given, and a field restricted to some strings is given one of them (only
iALS has such fields, see `C72_ials_solver_counterexample`).  The defaults agree for all classes but three (see
`C72_agreeing` and `C72_defaults_counterexample`). -/
theorem C72_same_partial (c : RecClass) (hc : c ∈ all) (given : Args)
    (hi : ∀ l ∈ c.literals, ∀ v, given.lookup l.1 = some v → ∃ s ∈ l.2, v = .str s)
    (hg : ∀ n ∈ given.map (·.1), n ∈ c.fields.map (·.1)) (ha : DefaultsAgree c given) :
    ∃ cfg, makeConfig c given = .ok cfg ∧ fromConfig c cfg = construct c given := by
  refine ⟨⟨c.config :: c.bases, c.fields.map (fun d => (d.1, valueOf given d.1 d.2))⟩, ?_, ?_⟩
  · unfold makeConfig
    simp only
    rw [if_pos, if_pos]
    · have hlit : ∀ c ∈ all, ∀ l ∈ c.literals, ∃ d, c.fields.lookup l.1 = some (.str d) ∧ d ∈ l.2 := by
        intro c hc l hl
        have : ∀ c ∈ all, ∀ l ∈ c.literals, (match c.fields.lookup l.1 with
          | some v => allowed l.2 v
          | none => false) = true := by decide +kernel
        have := this c hc l hl
        split at this
        · rename_i v hv
          cases v <;> simp [allowed] at this
          exact ⟨_, hv, this⟩
        · cases this
      rw [List.all_eq_true]
      intro l hl
      obtain ⟨d, hd, hd'⟩ := hlit c hc l hl
      unfold valueOf
      rw [lookup_map c.fields (fun n d => (given.lookup n).getD d), hd]
      cases hv : given.lookup l.1 with
      | none => simp [allowed, hd']
      | some v =>
        obtain ⟨s, hs, rfl⟩ := hi l hl v hv
        simp [allowed, hs]
    · rw [List.all_eq_true]
      intro a ha
      simpa using hg a.1 (List.mem_map.mpr ⟨a, ha, rfl⟩)
  · unfold fromConfig
    rw [if_pos (by simp)]
    have e : c.params.map (fun d => (d.1, valueOf (c.fields.map (fun d => (d.1, valueOf given d.1 d.2))) d.1 d.2)) =
        c.params.map (fun d => (d.1, valueOf given d.1 d.2)) := by
      have hnd : ∀ c ∈ all, (c.params.map (·.1)).Nodup := by decide +kernel
      apply List.map_congr_left
      intro d hd
      have hlk : c.params.lookup d.1 = some d.2 := lookup_mem (hnd c hc) hd
      congr 1
      unfold valueOf
      rw [lookup_map c.fields (fun n d => (given.lookup n).getD d)]
      cases hf : c.fields.lookup d.1 with
      | some f =>
        simp only [Option.map_some, Option.getD_some]
        rcases ha d.1 f hf with h | h
        · rw [hlk] at h
          cases h
          rfl
        · cases hgl : given.lookup d.1 with
          | none => exact absurd hgl h
          | some v => rfl
      | none =>
        simp only [Option.map_none, Option.getD_none]
        have hn : given.lookup d.1 = none := by
          rw [lookup_none]
          intro h
          exact (lookup_none _ _).mp hf (hg _ h)
        rw [hn]
        rfl
    unfold construct
    rw [e]
    rw [if_pos, if_pos]
    · rw [List.all_eq_true]
      intro a ha
      simpa using fields_known c hc a.1 (hg a.1 (List.mem_map.mpr ⟨a, ha, rfl⟩))
    · rw [List.all_eq_true]
      intro a ha
      simp only [List.mem_map] at ha
      obtain ⟨d, hd, rfl⟩ := ha
      simpa using fields_known c hc d.1 (List.mem_map.mpr ⟨d, hd, rfl⟩)

/-- For all recommenders but BPRFM, iALS and Mult-VAE the defaults agree; for BPRFM and Mult-VAE they do when
`train_epochs` is given, for iALS when `alpha0` is. -/
theorem C72_agreeing (c : RecClass) (hc : c ∈ all) (given : Args) :
    (c ≠ bprfm → c ≠ ials → c ≠ multVae → DefaultsAgree c given) ∧
    (c = bprfm ∨ c = multVae → given.lookup "train_epochs" ≠ none → DefaultsAgree c given) ∧
    (c = ials → given.lookup "alpha0" ≠ none → DefaultsAgree c given) := by
  have lk : ∀ (c : RecClass) n d, c.fields.lookup n = some d → (n, d) ∈ c.fields := by
    intro c n d h
    rw [List.lookup_eq_some_iff] at h
    obtain ⟨a, b, hab, -⟩ := h
    rw [hab]; simp
  have key : ∀ c ∈ all, ∀ f ∈ c.fields, c.params.lookup f.1 = some f.2 ∨
      ((c = bprfm ∨ c = multVae) ∧ f.1 = "train_epochs") ∨ (c = ials ∧ f.1 = "alpha0") := by decide +kernel
  refine ⟨?_, ?_, ?_⟩
  · intro h1 h2 h3 n d hd
    rcases key c hc (n, d) (lk c n d hd) with h | ⟨h | h, -⟩ | ⟨h, -⟩
    · exact .inl h
    · exact absurd h h1
    · exact absurd h h3
    · exact absurd h h2
  · intro h1 h2 n d hd
    rcases key c hc (n, d) (lk c n d hd) with h | ⟨-, h⟩ | ⟨h, -⟩
    · exact .inl h
    · simp only at h; subst h; exact .inr h2
    · rcases h1 with h' | h' <;> rw [h'] at h <;> exact absurd h (by decide +kernel)
  · intro h1 h2 n d hd
    rcases key c hc (n, d) (lk c n d hd) with h | ⟨h | h, -⟩ | ⟨-, h⟩
    · exact .inl h
    · rw [h1] at h; exact absurd h (by decide +kernel)
    · rw [h1] at h; exact absurd h (by decide +kernel)
    · simp only at h; subst h; exact .inr h2

/-- the hypotheses are met -/
example : ∃ cfg p, makeConfig cosineKnn [("top_k", .num 7), ("normalize", .bool true)] = .ok cfg ∧
    fromConfig cosineKnn cfg = .ok p ∧ p.lookup "top_k" = some (.num 7) ∧ p.lookup "normalize" = some (.bool true) ∧
    p.lookup "shrinkage" = some (.num 0) ∧
    construct cosineKnn [("top_k", .num 7), ("normalize", .bool true)] = .ok p := by
  refine ⟨⟨cosineKnn.config :: cosineKnn.bases, cosineKnn.fields.map (fun d => (d.1, valueOf [("top_k", .num 7), ("normalize", .bool true)] d.1 d.2))⟩,
    cosineKnn.params.map (fun d => (d.1, valueOf [("top_k", .num 7), ("normalize", .bool true)] d.1 d.2)), ?_, ?_, ?_, ?_, ?_, ?_⟩ <;>
  rfl

/-- Without arguments, the configuration and the constructor of BPRFM, of iALS and of Mult-VAE make different
recommenders. -/
theorem C72_defaults_counterexample :
    (∃ cfg p q, makeConfig bprfm [] = .ok cfg ∧ fromConfig bprfm cfg = .ok p ∧ construct bprfm [] = .ok q ∧
      p.lookup "train_epochs" = some (.num 512) ∧ q.lookup "train_epochs" = some (.num 128)) ∧
    (∃ cfg p q, makeConfig ials [] = .ok cfg ∧ fromConfig ials cfg = .ok p ∧ construct ials [] = .ok q ∧
      p.lookup "alpha0" = some (.num 1) ∧ q.lookup "alpha0" = some (.num 0)) ∧
    (∃ cfg p q, makeConfig multVae [] = .ok cfg ∧ fromConfig multVae cfg = .ok p ∧ construct multVae [] = .ok q ∧
      p.lookup "train_epochs" = some (.num 512) ∧ q.lookup "train_epochs" = some (.num 300)) := by
  refine ⟨⟨_, _, _, rfl, rfl, rfl, rfl, rfl⟩, ⟨_, _, _, rfl, rfl, rfl, rfl, rfl⟩, ⟨_, _, _, rfl, rfl, rfl, rfl, rfl⟩⟩

/-- The constructor of iALS accepts the solver `IALSPP`; its configuration rejects it.  Nor can the configuration set
the block size of this solver. -/
theorem C72_ials_solver_counterexample :
    (∃ p, construct ials [("solver_type", .str "IALSPP")] = .ok p ∧ p.lookup "solver_type" = some (.str "IALSPP")) ∧
    makeConfig ials [("solver_type", .str "IALSPP")] = .error .valueError ∧
    (∃ p, construct ials [("ialspp_subspace_dimension", .num 32)] = .ok p) ∧
    makeConfig ials [("ialspp_subspace_dimension", .num 32)] = .error .valueError := by
  exact ⟨⟨_, rfl, rfl⟩, rfl, ⟨_, rfl⟩, rfl⟩

/-! ## Tuning ranges -/

/-- a value that a range may suggest -/
def Suggests : Range → Val → Prop
  | .int lo hi, v => ∃ k : ℤ, lo ≤ k ∧ k ≤ hi ∧ v = .num k
  | .float lo hi, v => ∃ q : ℚ, lo ≤ q ∧ q ≤ hi ∧ v = .num q
  | .cat values, v => v ∈ values

/-- whatever is suggested for the parameter passes -/
def Check.safe (c : RecClass) : Check → Bool
  | .oneOf name values _ =>
    match c.tune.lookup name with
    | some (.cat vs) => vs.all (allowed values)
    | some _ => false
    | none => match c.params.lookup name with
      | some v => allowed values v
      | none => false
  | .upperOneOf name values _ =>
    match c.tune.lookup name with
    | some _ => false
    | none => match c.params.lookup name with
      | some (.str s) => s.toList.map Char.toUpper ∈ values.map String.toList
      | _ => false

theorem lookup_suggested {tune : List (String × Range)} {given : Args}
    (h : List.Forall₂ (fun (r : String × Range) a => a.1 = r.1 ∧ Suggests r.2 a.2) tune given) (n : String) :
    (tune.lookup n = none ∧ given.lookup n = none) ∨
      ∃ r v, tune.lookup n = some r ∧ given.lookup n = some v ∧ Suggests r v := by
  induction h with
  | nil => exact .inl ⟨rfl, rfl⟩
  | @cons r a tune given hra _ ih =>
    obtain ⟨k, r⟩ := r
    obtain ⟨k', v⟩ := a
    obtain ⟨h1, h2⟩ := hra
    simp only at h1 h2
    subst h1
    simp only [List.lookup_cons]
    by_cases h : n = k'
    · subst h
      simp only [beq_self_eq_true]
      exact .inr ⟨r, v, rfl, rfl, h2⟩
    · have : (n == k') = false := by simpa using h
      simp only [this]
      exact ih

/-- Every combination of values from the default tuning range of a recommender is accepted by its constructor: the
recommender has these values, and its defaults otherwise.  Tuning with the default range never fails here. -/
theorem C72_tune_range (c : RecClass) (hc : c ∈ all) (given : Args)
    (h : List.Forall₂ (fun (r : String × Range) a => a.1 = r.1 ∧ Suggests r.2 a.2) c.tune given) :
    ∃ p, construct c given = .ok p ∧ (∀ n v, given.lookup n = some v → p.lookup n = some v) ∧
      (∀ n, given.lookup n = none → p.lookup n = c.params.lookup n) := by
  have hknown : ∀ c ∈ all, ∀ r ∈ c.tune, r.1 ∈ c.params.map (·.1) := by decide +kernel
  have hsafe : ∀ c ∈ all, ∀ ch ∈ c.checks, Check.safe c ch = true := by decide +kernel
  have hnames : ∀ a ∈ given, a.1 ∈ c.params.map (·.1) := by
    have h0 := hknown c hc
    clear hknown hsafe
    revert h0
    generalize c.tune = t at h
    intro h0
    induction h with
    | nil => simp
    | @cons r a t g hra _ ih =>
      intro x hx
      rcases List.mem_cons.mp hx with rfl | hx
      · rw [hra.1]; exact h0 r (by simp)
      · exact ih (fun r hr => h0 r (by simp [hr])) x hx
  have hok : construct c given = .ok (c.params.map (fun d => (d.1, valueOf given d.1 d.2))) := by
    unfold construct
    rw [if_pos (by rw [List.all_eq_true]; intro a ha; simpa using hnames a ha)]
    have : c.checks.findSome? (Check.error (c.params.map (fun d => (d.1, valueOf given d.1 d.2)))) = none := by
      rw [List.findSome?_eq_none_iff]
      intro ch hch
      have hs := hsafe c hc ch hch
      have hal : ∀ values v, allowed values v = true → ∃ s, v = .str s ∧ s ∈ values := by
        intro values v hv
        cases v <;> simp [allowed] at hv
        exact ⟨_, rfl, hv⟩
      cases ch with
      | oneOf name values e =>
        simp only [Check.safe] at hs
        simp only [Check.error]
        rw [lookup_map c.params (valueOf given)]
        rcases lookup_suggested h name with ⟨h1, h2⟩ | ⟨r, v, h1, h2, h3⟩
        · rw [h1] at hs
          simp only at hs
          cases hp : c.params.lookup name with
          | none => rw [hp] at hs; cases hs
          | some v =>
            rw [hp] at hs
            obtain ⟨s, rfl, hs'⟩ := hal _ _ hs
            simp [valueOf, h2, hs']
        · rw [h1] at hs
          obtain ⟨d, hd⟩ := lookup_some (l := c.params) (n := name) (by
            have : name ∈ c.tune.map (·.1) := by
              rw [List.lookup_eq_some_iff] at h1
              obtain ⟨a, b, hab, -⟩ := h1
              rw [hab]; simp
            obtain ⟨r', hr', rfl⟩ := List.mem_map.mp this
            exact hknown c hc r' hr')
          cases r with
          | int lo hi => cases hs
          | float lo hi => cases hs
          | cat vs =>
            simp only [List.all_eq_true] at hs
            obtain ⟨s, rfl, hs⟩ := hal _ _ (hs v h3)
            simp [hd, valueOf, h2, hs]
      | upperOneOf name values e =>
        simp only [Check.safe] at hs
        simp only [Check.error]
        rw [lookup_map c.params (valueOf given)]
        rcases lookup_suggested h name with ⟨h1, h2⟩ | ⟨r, v, h1, h2, h3⟩
        · rw [h1] at hs
          simp only at hs
          cases hp : c.params.lookup name with
          | none => rw [hp] at hs; cases hs
          | some v =>
            rw [hp] at hs
            cases v with
            | str s =>
              simp only [decide_eq_true_eq] at hs
              simp only [Option.map_some, valueOf, h2, Option.getD_none]
              rw [if_pos hs]
            | _ => cases hs
        · rw [h1] at hs
          cases hs
    simp only
    rw [this]
  obtain ⟨-, h2, h3⟩ := C72_constructor c given _ hok
  exact ⟨_, hok, h2, h3⟩

/-- the hypotheses are met: a suggestion for the cosine similarity -/
example : List.Forall₂ (fun (r : String × Range) a => a.1 = r.1 ∧ Suggests r.2 a.2) cosineKnn.tune
    [("top_k", .num 10), ("shrinkage", .num (1 / 2)), ("feature_weighting", .str "BM_25"), ("normalize", .bool true)] := by
  refine .cons ⟨rfl, 10, by decide, by decide, by norm_num⟩ (.cons ⟨rfl, 1 / 2, by norm_num, by norm_num, rfl⟩
    (.cons ⟨rfl, ?_⟩ (.cons ⟨rfl, ?_⟩ .nil)))
  · show _ ∈ _; simp
  · show _ ∈ _; simp

/-- whether a range offers at least two values, and a list no value twice -/
def Range.proper : Range → Bool
  | .int lo hi => decide (lo < hi)
  | .float lo hi => decide (lo < hi)
  | .cat values => decide (2 ≤ values.length) && decide values.Nodup

/-- The default tuning ranges are sound: no parameter occurs twice, every range offers a choice (so that its
constructor does not refuse it and tuning has something to tune), and no list has a value twice. -/
theorem C72_tune_range_offers (c : RecClass) (hc : c ∈ all) :
    (c.tune.map (·.1)).Nodup ∧ ∀ r ∈ c.tune, (∃ v w, v ≠ w ∧ Suggests r.2 v ∧ Suggests r.2 w) ∧
      ∀ values, r.2 = .cat values → values.Nodup := by
  have h1 : ∀ c ∈ all, (c.tune.map (·.1)).Nodup ∧ ∀ r ∈ c.tune, r.2.proper = true := by decide +kernel
  refine ⟨(h1 c hc).1, fun r hr => ?_⟩
  have h2 := (h1 c hc).2 r hr
  obtain ⟨name, range⟩ := r
  cases range with
  | int lo hi =>
    have h : lo < hi := of_decide_eq_true h2
    refine ⟨⟨.num lo, .num hi, ?_, ⟨lo, le_refl _, h.le, rfl⟩, ⟨hi, h.le, le_refl _, rfl⟩⟩, by simp⟩
    intro he
    injection he with he
    exact absurd (by exact_mod_cast he : lo = hi) h.ne
  | float lo hi =>
    have h : lo < hi := of_decide_eq_true h2
    refine ⟨⟨.num lo, .num hi, ?_, ⟨lo, le_refl _, h.le, rfl⟩, ⟨hi, h.le, le_refl _, rfl⟩⟩, by simp⟩
    intro he
    injection he with he
    exact absurd he h.ne
  | cat values =>
    have h3 : 2 ≤ values.length ∧ values.Nodup := by
      simpa [Range.proper] using h2
    refine ⟨?_, by rintro _ ⟨rfl⟩; exact h3.2⟩
    match values, h3 with
    | v :: w :: rest, h3 =>
      refine ⟨v, w, ?_, List.mem_cons_self, List.mem_cons_of_mem _ List.mem_cons_self⟩
      rintro rfl
      exact absurd h3.2 (by simp)

/-- The checks matter: a value outside the range is an error. -/
theorem C72_checks (s : String) :
    (s ∉ ["bpr", "warp"] → construct bprfm [("loss", .str s)] = .error .valueError) ∧
    (s ∉ ["NONE", "TF_IDF", "BM_25"] → ∀ c ∈ [cosineKnn, asymmetricCosineKnn, cosineUserKnn, asymmetricCosineUserKnn],
      construct c [("feature_weighting", .str s)] = .error .valueError) ∧
    (s ∉ ["none", "log"] → construct ials [("confidence_scaling", .str s)] = .error .keyError) := by
  refine ⟨?_, ?_, ?_⟩
  · intro h
    have e : construct bprfm [("loss", .str s)] = (if s ∈ ["bpr", "warp"] then
      .ok (bprfm.params.map (fun d => (d.1, valueOf [("loss", .str s)] d.1 d.2))) else .error .valueError) := by
      unfold construct
      rw [if_pos (by rfl)]
      by_cases hs : s ∈ ["bpr", "warp"]
      · have : Check.error (bprfm.params.map (fun d => (d.1, valueOf [("loss", .str s)] d.1 d.2)))
          (.oneOf "loss" ["bpr", "warp"] .valueError) = none := by
          show (if s ∈ ["bpr", "warp"] then _ else _) = _
          rw [if_pos hs]
        simp only [bprfm, List.findSome?_cons] at this ⊢
        rw [this, if_pos hs]
        rfl
      · have : Check.error (bprfm.params.map (fun d => (d.1, valueOf [("loss", .str s)] d.1 d.2)))
          (.oneOf "loss" ["bpr", "warp"] .valueError) = some .valueError := by
          show (if s ∈ ["bpr", "warp"] then _ else _) = _
          rw [if_neg hs]
        simp only [bprfm, List.findSome?_cons] at this ⊢
        rw [this, if_neg hs]
    rw [e, if_neg h]
  · intro h c hc
    have key : ∀ c : RecClass, c.checks = [.oneOf "feature_weighting" ["NONE", "TF_IDF", "BM_25"] .valueError] →
        "feature_weighting" ∈ c.params.map (·.1) →
        construct c [("feature_weighting", .str s)] = .error .valueError := by
      intro c h1 h2
      obtain ⟨d, hd⟩ := lookup_some h2
      have hl : (c.params.map (fun d => (d.1, valueOf [("feature_weighting", .str s)] d.1 d.2))).lookup "feature_weighting" =
          some (.str s) := by
        rw [lookup_map c.params (valueOf [("feature_weighting", .str s)]), hd]
        rfl
      unfold construct
      rw [if_pos (by simpa using h2), h1]
      simp only [List.findSome?_cons, Check.error, hl]
      rw [if_neg h]
    simp only [List.mem_cons, List.not_mem_nil, or_false] at hc
    rcases hc with rfl | rfl | rfl | rfl <;> exact key _ rfl (by decide +kernel)
  · intro h
    have hl : (ials.params.map (fun d => (d.1, valueOf [("confidence_scaling", .str s)] d.1 d.2))).lookup "confidence_scaling" =
        some (.str s) := by
      rw [lookup_map ials.params (valueOf [("confidence_scaling", .str s)])]
      rfl
    unfold construct
    rw [if_pos (by rfl)]
    have : ials.checks = .oneOf "confidence_scaling" ["none", "log"] .keyError :: ials.checks.tail := rfl
    rw [this]
    simp only [List.findSome?_cons, Check.error, hl]
    rw [if_neg h]

/-! ## Classes by name -/

/-- the last definition that was registered under the name -/
def LastRegistered {C : Type} (history : List (Definition C)) (name : String) (cls : C) : Prop :=
  ∃ before d after, history = before ++ d :: after ∧ d.name = name ∧ d.register = true ∧ d.cls = cls ∧
    ∀ x ∈ after, ¬ (x.name = name ∧ x.register = true)

/-- The class found by name is the one registered last under this name, whatever was defined before or after; a
name under which nothing was registered is a `KeyError`. -/
theorem C72_by_name {C : Type} (history : List (Definition C)) (name : String) :
    (∀ cls, getClass history name = .ok cls ↔ LastRegistered history name cls) ∧
    (getClass history name = .error .keyError ↔ ∀ d ∈ history, ¬ (d.name = name ∧ d.register = true)) := by
  have key : ∀ history : List (Definition C),
      (∀ cls, (history.foldl define []).lookup name = some cls ↔ LastRegistered history name cls) ∧
      ((history.foldl define []).lookup name = none ↔ ∀ d ∈ history, ¬ (d.name = name ∧ d.register = true)) := by
    intro history
    induction history using List.reverseRecOn with
    | nil =>
      refine ⟨?_, by simp⟩
      intro cls
      simp [LastRegistered]
    | append_singleton history d ih =>
      have last : ∀ cls, LastRegistered (history ++ [d]) name cls ↔
          (d.name = name ∧ d.register = true ∧ d.cls = cls) ∨
          (¬ (d.name = name ∧ d.register = true) ∧ LastRegistered history name cls) := by
        intro cls
        constructor
        · rintro ⟨b, x, a, h, h1, h2, h3, h4⟩
          rcases List.eq_nil_or_concat a with rfl | ⟨a', y, rfl⟩
          · have := List.append_inj' h rfl
            simp only [List.cons.injEq, and_true] at this
            obtain ⟨-, rfl⟩ := this
            exact .inl ⟨h1, h2, h3⟩
          · have h' : history ++ [d] = (b ++ x :: a') ++ [y] := by rw [h]; simp
            obtain ⟨e1, e2⟩ := List.append_inj' h' rfl
            simp only [List.cons.injEq, and_true] at e2
            subst e2
            exact .inr ⟨h4 d (by simp), b, x, a', e1, h1, h2, h3, fun z hz => h4 z (by simp [hz])⟩
        · rintro (⟨h1, h2, h3⟩ | ⟨hd, b, x, a, rfl, h1, h2, h3, h4⟩)
          · exact ⟨history, d, [], rfl, h1, h2, h3, by simp⟩
          · refine ⟨b, x, a ++ [d], by simp, h1, h2, h3, ?_⟩
            intro z hz
            rcases List.mem_append.mp hz with hz | hz
            · exact h4 z hz
            · rw [List.mem_singleton] at hz; subst hz; exact hd
      rw [List.foldl_append, List.foldl_cons, List.foldl_nil]
      have hdef : ∀ t : List (String × C), define t d = if d.register = true then (d.name, d.cls) :: t else t := fun _ => rfl
      rw [hdef]
      by_cases hr : d.register = true
      · rw [if_pos hr]
        simp only [List.lookup_cons]
        by_cases hn : name = d.name
        · subst hn
          simp only [beq_self_eq_true, Option.some.injEq]
          refine ⟨?_, ?_⟩
          · intro cls
            rw [last]
            simp [hr]
          · simp only [reduceCtorEq, false_iff]
            intro h
            exact h d (by simp) ⟨rfl, hr⟩
        · have hb : (name == d.name) = false := by simpa using hn
          have hd : ¬ (d.name = name ∧ d.register = true) := fun h => hn h.1.symm
          simp only [hb]
          refine ⟨?_, ?_⟩
          · intro cls
            rw [last, ih.1]
            simp only [hd, not_false_eq_true, true_and]
            constructor
            · exact .inr
            · rintro (⟨h, -⟩ | h)
              · exact absurd h.symm hn
              · exact h
          · rw [ih.2]
            constructor
            · intro h x hx
              rcases List.mem_append.mp hx with hx | hx
              · exact h x hx
              · rw [List.mem_singleton] at hx; subst hx; exact hd
            · intro h x hx
              exact h x (by simp [hx])
      · rw [if_neg hr]
        have hd : ¬ (d.name = name ∧ d.register = true) := fun h => hr h.2
        refine ⟨?_, ?_⟩
        · intro cls
          rw [last, ih.1]
          simp only [hd, not_false_eq_true, true_and]
          constructor
          · exact .inr
          · rintro (⟨-, h, -⟩ | h)
            · exact absurd h hr
            · exact h
        · rw [ih.2]
          constructor
          · intro h x hx
            rcases List.mem_append.mp hx with hx | hx
            · exact h x hx
            · rw [List.mem_singleton] at hx; subst hx; exact hd
          · intro h x hx
            exact h x (by simp [hx])
  obtain ⟨h1, h2⟩ := key history
  unfold getClass
  cases hl : (history.foldl define []).lookup name with
  | none =>
    rw [hl] at h1 h2
    refine ⟨?_, by simpa using h2⟩
    intro cls
    rw [← h1]
    simp
  | some c =>
    rw [hl] at h1 h2
    refine ⟨?_, ?_⟩
    · intro cls
      rw [← h1]
      simp
    · rw [← h2]
      simp

/-- every recommender of irspack is found under its own name, in whatever order the modules are imported -/
theorem C72_found (history : List (Definition RecClass))
    (hd : ∀ d ∈ history, d.register = true ∧ d.cls ∈ all ∧ d.name = d.cls.name) (c : RecClass)
    (hc : c ∈ history.map (·.cls)) : getClass history c.name = .ok c := by
  have names : ∀ c ∈ all, ∀ c' ∈ all, c.name = c'.name → c = c' := by
    have : (all.map (·.name)).Nodup := by decide +kernel
    intro c hc c' hc' h
    exact List.inj_on_of_nodup_map this hc hc' h
  obtain ⟨d, hm, rfl⟩ := List.mem_map.mp hc
  obtain ⟨h1, h2, h3⟩ := hd d hm
  cases hg : getClass history d.cls.name with
  | ok c =>
    obtain ⟨b, x, a, rfl, e1, e2, e3, -⟩ := ((C72_by_name history d.cls.name).1 c).mp hg
    obtain ⟨-, g2, g3⟩ := hd x (by simp)
    rw [← e3, names x.cls g2 d.cls h2 (by rw [← g3, e1])]
  | error e =>
    have he : e = .keyError := by
      unfold getClass at hg
      split at hg
      · cases hg
      · cases hg; rfl
    subst he
    exact absurd ⟨h3, h1⟩ ((C72_by_name history d.cls.name).2.mp hg d hm)

example : getClass [⟨"A", true, 1⟩, ⟨"B", true, 2⟩, ⟨"A", true, 3⟩, ⟨"A", false, 4⟩] "A" = .ok 3 := rfl

/-- C72 (names).  Every recommender class and its configuration class are exported under their names; the two
names differ in the ending only; no two classes share a name; and nothing else with such an ending is exported
but the three base classes. -/
theorem C72_exported_names :
    (∀ c ∈ all, c.name ∈ exported ∧ c.config ∈ exported ∧
      ∃ stem ∈ exported.map (fun n => (n.toList.take (n.toList.length - 11))),
        c.name.toList = stem ++ "Recommender".toList ∧ c.config.toList = stem ++ "Config".toList) ∧
    (all.map (·.name)).Nodup ∧ (all.map (·.config)).Nodup ∧
    ∀ n ∈ exported, n = "BaseRecommender" ∨ n = "BaseSimilarityRecommender" ∨
      n = "BaseRecommenderWithEarlyStopping" ∨ n = "get_recommender_class" ∨
      n ∈ all.map (·.name) ∨ n ∈ all.map (·.config) := by
  decide +kernel

end Irspack.RecClasses
