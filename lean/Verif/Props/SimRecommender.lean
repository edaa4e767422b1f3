import Verif.Spec.SimRecommender
import Verif.Props.Walk
import Verif.Props.Weighting

/-!
# C82: the arguments of the neighbourhood recommenders mean what they are called
-/

namespace Irspack.RecClasses

open Sim Spec.Sim

variable {nth : Nat → SpVec ℝ → List Nat}

theorem Argument.eq {given : Args} {name : String} {d v : Val} (h : Argument given name d v) :
    valueOf given name d = v := by
  unfold valueOf
  rcases h with h | ⟨h, rfl⟩ <;> rw [h] <;> rfl

theorem construct_of_checks {c : RecClass} {given : Args} (hn : Only given (c.params.map (·.1)))
    (hc : c.checks.findSome? (Check.error (c.params.map (fun d => (d.1, valueOf given d.1 d.2)))) = none) :
    construct c given = .ok (c.params.map (fun d => (d.1, valueOf given d.1 d.2))) := by
  unfold construct
  rw [if_pos (by rw [List.all_eq_true]; intro a ha; exact decide_eq_true (hn a ha))]
  simp only [hc]

theorem ThreadsAre.eq {e : Env} {given : Args} {T : Nat} (h : ThreadsAre e given T) :
    e.nThreads (valueOf given "n_threads" .none) = .ok (.num T) := by
  rcases h with h | ⟨h, h'⟩
  · rw [h.eq]
    simp [Env.nThreads]
  · rw [h.eq]
    simp [Env.nThreads, h', Except.map]

theorem toSize_nat (n : Nat) : toSize (.num n) = .ok n := by simp [toSize]

theorem baseKnnInit_eq (e : Env) (s k n fw k1 b : Val) (T : Val) (hT : e.nThreads n = .ok T)
    (hfw : fw = .str "NONE" ∨ fw = .str "TF_IDF" ∨ fw = .str "BM_25") :
    baseKnnInit e [s, k, n] [("feature_weighting", fw), ("bm25_k1", k1), ("bm25_b", b)] =
      .ok [("shrinkage", s), ("top_k", k), ("feature_weighting", fw), ("bm25_k1", k1), ("bm25_b", b),
        ("n_threads", T)] := by
  have h1 : call baseKnnSig [s, k, n] [("feature_weighting", fw), ("bm25_k1", k1), ("bm25_b", b)] =
      .ok [("shrinkage", s), ("top_k", k), ("n_threads", n), ("feature_weighting", fw), ("bm25_k1", k1),
        ("bm25_b", b)] := by rfl
  unfold baseKnnInit
  rw [h1]
  show (if fw ≠ .str "NONE" ∧ fw ≠ .str "TF_IDF" ∧ fw ≠ .str "BM_25" then Except.error Err.valueError else
    (e.nThreads n >>= fun n => Except.ok [("shrinkage", s), ("top_k", k), ("feature_weighting", fw),
      ("bm25_k1", k1), ("bm25_b", b), ("n_threads", n)])) = _
  rw [if_neg (by tauto), hT]
  rfl

theorem WeightingIs.fw {given : Args} {w : Weighting} (h : WeightingIs given w) :
    valueOf given "feature_weighting" (.str "NONE") = .str "NONE" ∨
    valueOf given "feature_weighting" (.str "NONE") = .str "TF_IDF" ∨
    valueOf given "feature_weighting" (.str "NONE") = .str "BM_25" := by
  rcases h with ⟨h, -⟩ | ⟨h, -⟩ | ⟨h, -⟩ <;> rw [h.eq] <;> simp

theorem WeightingIs.eq {given : Args} {w : Weighting} (h : WeightingIs given w) (self : Args)
    (h1 : self.lookup "feature_weighting" = some (valueOf given "feature_weighting" (.str "NONE")))
    (h2 : self.lookup "bm25_k1" = some (valueOf given "bm25_k1" (.num (6 / 5))))
    (h3 : self.lookup "bm25_b" = some (valueOf given "bm25_b" (.num (3 / 4)))) :
    weightingOf self = .ok w := by
  unfold weightingOf attr
  rw [h1, h2, h3]
  rcases h with ⟨h, rfl⟩ | ⟨h, rfl⟩ | ⟨h, k1, b, hk, hb, rfl⟩
  · rw [h.eq]; rfl
  · rw [h.eq]; rfl
  · rw [h.eq, hk.eq, hb.eq]; rfl

/-- the checks of the classes with feature weighting -/
theorem fw_check {p : Args} {v : Val} (h1 : p.lookup "feature_weighting" = some v)
    (h2 : v = .str "NONE" ∨ v = .str "TF_IDF" ∨ v = .str "BM_25") :
    Check.error p (.oneOf "feature_weighting" ["NONE", "TF_IDF", "BM_25"] .valueError) = none := by
  show (match p.lookup "feature_weighting" with
    | some (.str s) => if s ∈ ["NONE", "TF_IDF", "BM_25"] then none else some Err.valueError
    | _ => some Err.valueError) = none
  rw [h1]
  rcases h2 with rfl | rfl | rfl <;> rfl

theorem findSome_single {p : Args} {ch : Check} (h : Check.error p ch = none) :
    [ch].findSome? (Check.error p) = none := by
  simp [h]

theorem itemLearn_eq {create : Args → Except Err (Kind × ℝ × Nat)} {X : CSR ℝ} {self : Args} {w : Weighting}
    {kind : Kind} {s : ℝ} {T k : Nat} (h1 : weightingOf self = .ok w) (h2 : create self = .ok (kind, s, T))
    (h3 : attr self "top_k" = .ok (.num k)) :
    itemLearn nth create X self = itemKnnW nth w kind s X T k := by
  unfold itemLearn
  simp only [h1, h2, h3, bind, Except.bind, toSize_nat]

theorem userLearn_eq {create : Args → Except Err (Kind × ℝ × Nat)} {X : CSR ℝ} {self : Args} {w : Weighting}
    {kind : Kind} {s : ℝ} {T k : Nat} (h1 : weightingOf self = .ok w) (h2 : create self = .ok (kind, s, T))
    (h3 : attr self "top_k" = .ok (.num k)) :
    userLearn nth create X self = userKnnU nth w kind s X T k := by
  unfold userLearn
  simp only [h1, h2, h3, bind, Except.bind, toSize_nat]

/-- the attributes of a recommender with feature weighting -/
theorem weightedInit_eq {e : Env} {given p : Args} {own : String} {T : Nat} {w : Weighting} {v : Val}
    (hw : WeightingIs given w) (hT : ThreadsAre e given T)
    (h1 : p.lookup "shrinkage" = some (valueOf given "shrinkage" (.num 0)))
    (h2 : p.lookup "top_k" = some (valueOf given "top_k" (.num 100)))
    (h3 : p.lookup "n_threads" = some (valueOf given "n_threads" .none))
    (h4 : p.lookup "feature_weighting" = some (valueOf given "feature_weighting" (.str "NONE")))
    (h5 : p.lookup "bm25_k1" = some (valueOf given "bm25_k1" (.num (6 / 5))))
    (h6 : p.lookup "bm25_b" = some (valueOf given "bm25_b" (.num (3 / 4)))) (h7 : p.lookup own = some v) :
    weightedInit e own p =
      .ok [("shrinkage", valueOf given "shrinkage" (.num 0)), ("top_k", valueOf given "top_k" (.num 100)),
        ("feature_weighting", valueOf given "feature_weighting" (.str "NONE")),
        ("bm25_k1", valueOf given "bm25_k1" (.num (6 / 5))), ("bm25_b", valueOf given "bm25_b" (.num (3 / 4))),
        ("n_threads", .num T), (own, v)] := by
  unfold weightedInit attr
  rw [h1, h2, h3, h4, h5, h6, h7]
  show (baseKnnInit e _ _ >>= fun base => Except.ok (base ++ _)) = _
  rw [baseKnnInit_eq e _ _ _ _ _ _ _ hT.eq hw.fw]
  rfl

theorem cosineKnnFit_eq (e : Env) (X : CSR ℝ) (given : Args) (s : ℚ) (b : Bool) (k T : Nat) (w : Weighting)
    (hn : Only given (cosineKnn.params.map (·.1))) (hs : Argument given "shrinkage" (.num 0) (.num s))
    (hb : Argument given "normalize" (.bool false) (.bool b)) (hk : Argument given "top_k" (.num 100) (.num k))
    (hw : WeightingIs given w) (hT : ThreadsAre e given T) :
    cosineKnnFit nth e X given = itemKnnW nth w (.cosine b) s X T k := by
  have h1 : construct cosineKnn given = _ := construct_of_checks hn (findSome_single (fw_check rfl hw.fw))
  unfold cosineKnnFit
  rw [h1]
  show (weightedInit e "normalize" _ >>= fun self => itemLearn nth createCosine X self) = _
  rw [weightedInit_eq hw hT rfl rfl rfl rfl rfl rfl rfl]
  refine itemLearn_eq (hw.eq _ rfl rfl rfl) ?_ ?_
  · rw [hs.eq]
    show (toBool (valueOf given "normalize" (.bool false)) >>= fun o => toSize (.num T) >>= fun n => Except.ok (Kind.cosine o, (s : ℝ), n)) = _
    rw [toSize_nat, hb.eq]; rfl
  · rw [hk.eq]; rfl

theorem cosineUserKnnFit_eq (e : Env) (X : CSR ℝ) (given : Args) (s : ℚ) (b : Bool) (k T : Nat) (w : Weighting)
    (hn : Only given (cosineUserKnn.params.map (·.1))) (hs : Argument given "shrinkage" (.num 0) (.num s))
    (hb : Argument given "normalize" (.bool true) (.bool b)) (hk : Argument given "top_k" (.num 100) (.num k))
    (hw : WeightingIs given w) (hT : ThreadsAre e given T) :
    cosineUserKnnFit nth e X given = userKnnU nth w (.cosine b) s X T k := by
  have h1 : construct cosineUserKnn given = _ := construct_of_checks hn (findSome_single (fw_check rfl hw.fw))
  unfold cosineUserKnnFit
  rw [h1]
  show (weightedInit e "normalize" _ >>= fun self => userLearn nth createCosine X self) = _
  rw [weightedInit_eq hw hT rfl rfl rfl rfl rfl rfl rfl]
  refine userLearn_eq (hw.eq _ rfl rfl rfl) ?_ ?_
  · rw [hs.eq]
    show (toBool (valueOf given "normalize" (.bool true)) >>= fun o => toSize (.num T) >>= fun n => Except.ok (Kind.cosine o, (s : ℝ), n)) = _
    rw [toSize_nat, hb.eq]; rfl
  · rw [hk.eq]; rfl

theorem asymmetricKnnFit_eq (e : Env) (X : CSR ℝ) (given : Args) (s : ℚ) (a : ℚ) (k T : Nat) (w : Weighting)
    (hn : Only given (asymmetricCosineKnn.params.map (·.1))) (hs : Argument given "shrinkage" (.num 0) (.num s))
    (hb : Argument given "alpha" (.num (1 / 2)) (.num a)) (hk : Argument given "top_k" (.num 100) (.num k))
    (hw : WeightingIs given w) (hT : ThreadsAre e given T) :
    asymmetricKnnFit nth e X given = itemKnnW nth w (.asymmetric a) s X T k := by
  have h1 : construct asymmetricCosineKnn given = _ := construct_of_checks hn (findSome_single (fw_check rfl hw.fw))
  unfold asymmetricKnnFit
  rw [h1]
  show (weightedInit e "alpha" _ >>= fun self => itemLearn nth createAsymmetric X self) = _
  rw [weightedInit_eq hw hT rfl rfl rfl rfl rfl rfl rfl]
  refine itemLearn_eq (hw.eq _ rfl rfl rfl) ?_ ?_
  · rw [hs.eq]
    show (toReal (valueOf given "alpha" (.num (1 / 2))) >>= fun o => toSize (.num T) >>= fun n => Except.ok (Kind.asymmetric o, (s : ℝ), n)) = _
    rw [toSize_nat, hb.eq]; rfl
  · rw [hk.eq]; rfl

theorem asymmetricUserKnnFit_eq (e : Env) (X : CSR ℝ) (given : Args) (s : ℚ) (a : ℚ) (k T : Nat) (w : Weighting)
    (hn : Only given (asymmetricCosineUserKnn.params.map (·.1))) (hs : Argument given "shrinkage" (.num 0) (.num s))
    (hb : Argument given "alpha" (.num (1 / 2)) (.num a)) (hk : Argument given "top_k" (.num 100) (.num k))
    (hw : WeightingIs given w) (hT : ThreadsAre e given T) :
    asymmetricUserKnnFit nth e X given = userKnnU nth w (.asymmetric a) s X T k := by
  have h1 : construct asymmetricCosineUserKnn given = _ := construct_of_checks hn (findSome_single (fw_check rfl hw.fw))
  unfold asymmetricUserKnnFit
  rw [h1]
  show (weightedInit e "alpha" _ >>= fun self => userLearn nth createAsymmetric X self) = _
  rw [weightedInit_eq hw hT rfl rfl rfl rfl rfl rfl rfl]
  refine userLearn_eq (hw.eq _ rfl rfl rfl) ?_ ?_
  · rw [hs.eq]
    show (toReal (valueOf given "alpha" (.num (1 / 2))) >>= fun o => toSize (.num T) >>= fun n => Except.ok (Kind.asymmetric o, (s : ℝ), n)) = _
    rw [toSize_nat, hb.eq]; rfl
  · rw [hk.eq]; rfl

theorem baseKnnInit_plain (e : Env) (s k n : Val) (T : Val) (hT : e.nThreads n = .ok T) :
    baseKnnInit e [s, k, n] [] =
      .ok [("shrinkage", s), ("top_k", k), ("feature_weighting", .str "NONE"), ("bm25_k1", .num (6 / 5)),
        ("bm25_b", .num (3 / 4)), ("n_threads", T)] := by
  have h1 : call baseKnnSig [s, k, n] [] =
      .ok [("shrinkage", s), ("top_k", k), ("n_threads", n), ("feature_weighting", .str "NONE"),
        ("bm25_k1", .num (6 / 5)), ("bm25_b", .num (3 / 4))] := by rfl
  unfold baseKnnInit
  rw [h1]
  show (e.nThreads n >>= fun n => Except.ok [("shrinkage", s), ("top_k", k), ("feature_weighting", .str "NONE"),
      ("bm25_k1", .num (6 / 5)), ("bm25_b", .num (3 / 4)), ("n_threads", n)]) = _
  rw [hT]
  rfl

theorem jaccardKnnFit_eq (e : Env) (X : CSR ℝ) (given : Args) (s : ℚ) (k T : Nat)
    (hn : Only given (jaccardKnn.params.map (·.1))) (hs : Argument given "shrinkage" (.num 0) (.num s))
    (hk : Argument given "top_k" (.num 100) (.num k)) (hT : ThreadsAre e given T) :
    jaccardKnnFit nth e X given = itemKnnW nth .none .jaccard s X T k := by
  have h1 : construct jaccardKnn given = _ := construct_of_checks hn rfl
  unfold jaccardKnnFit
  rw [h1]
  show (baseKnnInit e [valueOf given "shrinkage" (.num 0), valueOf given "top_k" (.num 100),
    valueOf given "n_threads" .none] [] >>= fun self => itemLearn nth createJaccard X self) = _
  rw [baseKnnInit_plain e _ _ _ _ hT.eq]
  refine itemLearn_eq (self := [("shrinkage", valueOf given "shrinkage" (.num 0)),
    ("top_k", valueOf given "top_k" (.num 100)), ("feature_weighting", .str "NONE"),
    ("bm25_k1", .num (6 / 5)), ("bm25_b", .num (3 / 4)), ("n_threads", .num T)]) rfl ?_ ?_
  · rw [hs.eq]
    show (toSize (.num T) >>= fun n => Except.ok (Kind.jaccard, (s : ℝ), n)) = _
    rw [toSize_nat]; rfl
  · rw [hk.eq]; rfl

theorem tverskyKnnFit_eq (e : Env) (X : CSR ℝ) (given : Args) (s a b : ℚ) (k T : Nat)
    (hn : Only given (tverskyKnn.params.map (·.1))) (hs : Argument given "shrinkage" (.num 0) (.num s))
    (ha : Argument given "alpha" (.num (1 / 2)) (.num a)) (hb : Argument given "beta" (.num (1 / 2)) (.num b))
    (hk : Argument given "top_k" (.num 100) (.num k)) (hT : ThreadsAre e given T) :
    tverskyKnnFit nth e X given = itemKnnW nth .none (.tversky a b) s X T k := by
  have h1 : construct tverskyKnn given = _ := construct_of_checks hn rfl
  unfold tverskyKnnFit
  rw [h1]
  show ((baseKnnInit e [valueOf given "shrinkage" (.num 0), valueOf given "top_k" (.num 100),
    valueOf given "n_threads" .none] [] >>= fun base => Except.ok (base ++
      [("alpha", valueOf given "alpha" (.num (1 / 2))), ("beta", valueOf given "beta" (.num (1 / 2)))])) >>=
    fun self => itemLearn nth createTversky X self) = _
  rw [baseKnnInit_plain e _ _ _ _ hT.eq]
  refine itemLearn_eq (self := [("shrinkage", valueOf given "shrinkage" (.num 0)),
    ("top_k", valueOf given "top_k" (.num 100)), ("feature_weighting", .str "NONE"),
    ("bm25_k1", .num (6 / 5)), ("bm25_b", .num (3 / 4)), ("n_threads", .num T),
    ("alpha", valueOf given "alpha" (.num (1 / 2))), ("beta", valueOf given "beta" (.num (1 / 2)))]) rfl ?_ ?_
  · rw [hs.eq, ha.eq, hb.eq]
    show (toSize (.num T) >>= fun n => Except.ok (Kind.tversky a b, (s : ℝ), n)) = _
    rw [toSize_nat]; rfl
  · rw [hk.eq]; rfl

/-- the value that stands for an optional size -/
theorem optSize_eq (K : Option Nat) : optSize (optionalSize K) = .ok K := by
  cases K with
  | none => rfl
  | some k =>
    show (toSize (.num k)).map some = _
    rw [toSize_nat]; rfl

theorem rp3Fit_eq (e : Env) (X : CSR ℝ) (given : Args) (a be : ℚ) (b : Bool) (K : Option Nat) (T : Nat)
    (hn : Only given (rp3beta.params.map (·.1))) (ha : Argument given "alpha" (.num 1) (.num a))
    (hbe : Argument given "beta" (.num (3 / 5)) (.num be))
    (hk : Argument given "top_k" .none (optionalSize K))
    (hb : Argument given "normalize_weight" (.bool false) (.bool b)) (hT : ThreadsAre e given T) :
    rp3Fit nth e X given = rp3Learn nth a be X K b T := by
  have h1 : construct rp3beta given = _ := construct_of_checks hn rfl
  unfold rp3Fit
  rw [h1]
  show (e.nThreads (valueOf given "n_threads" .none) >>= fun n =>
    call rp3Sig [] [("alpha", valueOf given "alpha" (.num 1)), ("beta", valueOf given "beta" (.num (3 / 5))),
      ("n_threads", n)] >>= fun c => attr c "alpha" >>= fun x => toReal x >>= fun al => attr c "beta" >>= fun x =>
      toReal x >>= fun bl => optSize (valueOf given "top_k" .none) >>= fun k =>
      toBool (valueOf given "normalize_weight" (.bool false)) >>= fun nw => attr c "n_threads" >>= fun x =>
      toSize x >>= fun n => rp3Learn nth al bl X k nw n) = _
  rw [hT.eq, ha.eq, hbe.eq, hk.eq, hb.eq, optSize_eq]
  show (toSize (.num T) >>= fun n => rp3Learn nth a be X K b n) = _
  rw [toSize_nat]; rfl

theorem p3Fit_eq (e : Env) (X : CSR ℝ) (given : Args) (a : ℚ) (b : Bool) (K : Option Nat) (T : Nat)
    (hn : Only given (p3alpha.params.map (·.1))) (ha : Argument given "alpha" (.num 1) (.num a))
    (hk : Argument given "top_k" .none (optionalSize K))
    (hb : Argument given "normalize_weight" (.bool false) (.bool b)) (hT : ThreadsAre e given T) :
    p3Fit nth e X given = p3Learn nth a X K b T := by
  have h1 : construct p3alpha given = _ := construct_of_checks hn rfl
  unfold p3Fit
  rw [h1]
  show (e.nThreads (valueOf given "n_threads" .none) >>= fun n =>
    call p3Sig [] [("alpha", valueOf given "alpha" (.num 1)), ("n_threads", n)] >>= fun c =>
      attr c "alpha" >>= fun x => toReal x >>= fun al => optSize (valueOf given "top_k" .none) >>= fun k =>
      toBool (valueOf given "normalize_weight" (.bool false)) >>= fun nw => attr c "n_threads" >>= fun x =>
      toSize x >>= fun n => p3Learn nth al X k nw n) = _
  rw [hT.eq, ha.eq, hk.eq, hb.eq, optSize_eq]
  show (toSize (.num T) >>= fun n => p3Learn nth a X K b n) = _
  rw [toSize_nat]; rfl

end Irspack.RecClasses

namespace Irspack.Props

open Sim Spec.Sim RecClasses

variable {nth : Nat → SpVec ℝ → List Nat}

/-- C82 (the weighting an item- or user-based recommender applies).  `"NONE"` leaves the data alone,
`"TF_IDF"` is the smoothed TF-IDF weight, `"BM_25"` the BM25 weight with the given `bm25_k1` and `bm25_b`:
each cell is written here with the logarithm, not with the model's own functions. -/
theorem C82_feature_weighting (X : CSR ℝ) (hX : Proper X) (hp : Positive X) (r j : Nat) (k1 b meanLength : ℝ)
    (hm : meanLength = (∑ r ∈ Finset.range X.nrows, Spec.Sim.length X r) / X.nrows) :
    (Weighting.none.apply X).get r j = X.get r j ∧
    (Weighting.tfIdf.apply X).get r j =
      X.get r j * Real.log (X.nrows / ((frequency X j : ℝ) + 1)) ∧
    (X.get r j = 0 → ((Weighting.bm25 k1 b).apply X).get r j = 0) ∧
    (X.get r j ≠ 0 → ((Weighting.bm25 k1 b).apply X).get r j =
      Real.log (X.nrows / ((frequency X j : ℝ) + 1) + 1) * (X.get r j * (k1 + 1)) /
        (X.get r j + k1 * (1 - b + b * Spec.Sim.length X r / meanLength))) := by
  have hz : NoStoredZero X := fun row hr e he => ne_of_gt (hp row hr e he)
  obtain ⟨f, hf, hg, -⟩ := C31_tf_idf X hX hz true
  have hbm := C31_bm25_formula X hX hp k1 b r j meanLength hm
  refine ⟨rfl, ?_, hbm.1, hbm.2⟩
  have h := hg r j
  rw [hf] at h
  have h2 : (tfIdf X true).get r j = X.get r j * Real.log (X.nrows / ((frequency X j : ℝ) + 1)) := by
    simpa using h
  exact h2

example : Proper exampleCounts ∧ Positive exampleCounts := exampleCounts_ok

/-! ## Item-based recommenders -/

/-- C82 (`CosineKNNRecommender`).  Whatever arguments are given and left out, the learnt matrix is the
documented one with the named shrinkage, normalisation and weighting, rows having at most `top_k` entries. -/
theorem C82_cosine_items (hnth : NthOk nth) (e : Env) (X : CSR ℝ) (hX : Proper X) (hz : NoStoredZero X)
    (given : Args) (s : ℚ) (b : Bool) (k T : Nat) (w : Weighting)
    (hn : Only given ["shrinkage", "normalize", "top_k", "feature_weighting", "bm25_k1", "bm25_b", "n_threads"])
    (hs : Argument given "shrinkage" (.num 0) (.num s))
    (hb : Argument given "normalize" (.bool false) (.bool b)) (hk : Argument given "top_k" (.num 100) (.num k))
    (hw : WeightingIs given w) (hT : ThreadsAre e given T) (hs0 : 0 ≤ s) (hT1 : 1 ≤ T) :
    ∃ W, cosineKnnFit nth e X given = .ok W ∧ W.nrows = X.cols ∧ W.cols = X.cols ∧
      (∀ i, (W.row i).length ≤ k) ∧
      (X.cols ≤ k → ∀ i < X.cols, ∀ j < X.cols, W.get i j = if i = j then 0 else if b then
          cosine X.nrows s (fun u => X.get u i) (fun u => (w.apply X).get u j)
        else dot X.nrows (fun u => X.get u i) (fun u => (w.apply X).get u j)) := by
  have hs1 : (0 : ℝ) ≤ s := by exact_mod_cast hs0
  obtain ⟨S, W, -, hW, h1, h2, h3⟩ := C60_rows_are_top_k_partial hnth w (.cosine b) s hs1 trivial X T k hT1
  refine ⟨W, ?_, h1, h2, fun i => (h3 i).2.2, fun hc i hi j hj => ?_⟩
  · rw [cosineKnnFit_eq e X given s b k T w hn hs hb hk hw hT, hW]
  · obtain ⟨h4, h5, -⟩ := C60_item_similarity_partial hnth s hs1 X hX hz T k hT1 hc
    cases b with
    | true => obtain ⟨W', hW', h⟩ := h4 w; rw [hW] at hW'; cases hW'; simpa using h i hi j hj
    | false => obtain ⟨W', hW', h⟩ := h5 w; rw [hW] at hW'; cases hW'; simpa using h i hi j hj

/-- C82 (`AsymmetricCosineKNNRecommender`). -/
theorem C82_asymmetric_items (hnth : NthOk nth) (e : Env) (X : CSR ℝ) (hX : Proper X) (hz : NoStoredZero X)
    (given : Args) (s a : ℚ) (k T : Nat) (w : Weighting)
    (hn : Only given ["shrinkage", "alpha", "top_k", "feature_weighting", "bm25_k1", "bm25_b", "n_threads"])
    (hs : Argument given "shrinkage" (.num 0) (.num s))
    (ha : Argument given "alpha" (.num (1 / 2)) (.num a)) (hk : Argument given "top_k" (.num 100) (.num k))
    (hw : WeightingIs given w) (hT : ThreadsAre e given T) (hs0 : 0 ≤ s) (ha0 : 0 ≤ a) (ha1 : a ≤ 1)
    (hT1 : 1 ≤ T) :
    ∃ W, asymmetricKnnFit nth e X given = .ok W ∧ W.nrows = X.cols ∧ W.cols = X.cols ∧
      (∀ i, (W.row i).length ≤ k) ∧
      (X.cols ≤ k → ∀ i < X.cols, ∀ j < X.cols, W.get i j = if i = j then 0 else
        asymmetric X.nrows a s (fun u => X.get u i) (fun u => (w.apply X).get u j)) := by
  have hs1 : (0 : ℝ) ≤ s := by exact_mod_cast hs0
  have h0 : (0 : ℝ) ≤ a := by exact_mod_cast ha0
  have h1' : (a : ℝ) ≤ 1 := by exact_mod_cast ha1
  obtain ⟨S, W, -, hW, h1, h2, h3⟩ := C60_rows_are_top_k_partial hnth w (.asymmetric a) s hs1 ⟨h0, h1'⟩ X T k hT1
  refine ⟨W, ?_, h1, h2, fun i => (h3 i).2.2, fun hc i hi j hj => ?_⟩
  · rw [asymmetricKnnFit_eq e X given s a k T w hn hs ha hk hw hT, hW]
  · obtain ⟨-, -, h4, -⟩ := C60_item_similarity_partial hnth s hs1 X hX hz T k hT1 hc
    obtain ⟨W', hW', h⟩ := h4 w a h0 h1'; rw [hW] at hW'; cases hW'; exact h i hi j hj

/-- C82 (`JaccardKNNRecommender`). -/
theorem C82_jaccard_items (hnth : NthOk nth) (e : Env) (X : CSR ℝ) (hX : Proper X) (hz : NoStoredZero X)
    (given : Args) (s : ℚ) (k T : Nat) (hn : Only given ["shrinkage", "top_k", "n_threads"])
    (hs : Argument given "shrinkage" (.num 0) (.num s)) (hk : Argument given "top_k" (.num 100) (.num k))
    (hT : ThreadsAre e given T) (hs0 : 0 ≤ s) (hT1 : 1 ≤ T) :
    ∃ W, jaccardKnnFit nth e X given = .ok W ∧ W.nrows = X.cols ∧ W.cols = X.cols ∧
      (∀ i, (W.row i).length ≤ k) ∧
      (X.cols ≤ k → ∀ i < X.cols, ∀ j < X.cols, W.get i j = if i = j then 0 else
        jaccard X.nrows s (fun u => X.get u i) (fun u => X.get u j)) := by
  have hs1 : (0 : ℝ) ≤ s := by exact_mod_cast hs0
  obtain ⟨S, W, -, hW, h1, h2, h3⟩ := C60_rows_are_top_k_partial hnth .none .jaccard s hs1 trivial X T k hT1
  refine ⟨W, ?_, h1, h2, fun i => (h3 i).2.2, fun hc i hi j hj => ?_⟩
  · rw [jaccardKnnFit_eq e X given s k T hn hs hk hT, hW]
  · obtain ⟨-, -, -, ⟨W', hW', h⟩, -⟩ := C60_item_similarity_partial hnth s hs1 X hX hz T k hT1 hc
    rw [hW] at hW'; cases hW'; exact h i hi j hj

/-- C82 (`TverskyIndexKNNRecommender`). -/
theorem C82_tversky_items (hnth : NthOk nth) (e : Env) (X : CSR ℝ) (hX : Proper X) (hz : NoStoredZero X)
    (given : Args) (s a b : ℚ) (k T : Nat)
    (hn : Only given ["shrinkage", "alpha", "beta", "top_k", "n_threads"])
    (hs : Argument given "shrinkage" (.num 0) (.num s)) (ha : Argument given "alpha" (.num (1 / 2)) (.num a))
    (hb : Argument given "beta" (.num (1 / 2)) (.num b)) (hk : Argument given "top_k" (.num 100) (.num k))
    (hT : ThreadsAre e given T) (hs0 : 0 ≤ s) (ha0 : 0 ≤ a) (hb0 : 0 ≤ b) (hT1 : 1 ≤ T) :
    ∃ W, tverskyKnnFit nth e X given = .ok W ∧ W.nrows = X.cols ∧ W.cols = X.cols ∧
      (∀ i, (W.row i).length ≤ k) ∧
      (X.cols ≤ k → ∀ i < X.cols, ∀ j < X.cols, W.get i j = if i = j then 0 else
        tversky X.nrows a b s (fun u => X.get u i) (fun u => X.get u j)) := by
  have hs1 : (0 : ℝ) ≤ s := by exact_mod_cast hs0
  have h0 : (0 : ℝ) ≤ a := by exact_mod_cast ha0
  have h0' : (0 : ℝ) ≤ b := by exact_mod_cast hb0
  obtain ⟨S, W, -, hW, h1, h2, h3⟩ := C60_rows_are_top_k_partial hnth .none (.tversky a b) s hs1 ⟨h0, h0'⟩ X T k hT1
  refine ⟨W, ?_, h1, h2, fun i => (h3 i).2.2, fun hc i hi j hj => ?_⟩
  · rw [tverskyKnnFit_eq e X given s a b k T hn hs ha hb hk hT, hW]
  · obtain ⟨-, -, -, -, h4⟩ := C60_item_similarity_partial hnth s hs1 X hX hz T k hT1 hc
    obtain ⟨W', hW', h⟩ := h4 a b h0 h0'
    rw [hW] at hW'; cases hW'; exact h i hi j hj

/-! ## User-based recommenders -/

/-- C82 (`CosineUserKNNRecommender`). -/
theorem C82_cosine_users (hnth : NthOk nth) (e : Env) (X : CSR ℝ) (hX : Proper X)
    (given : Args) (s : ℚ) (b : Bool) (k T : Nat) (w : Weighting)
    (hn : Only given ["shrinkage", "normalize", "top_k", "feature_weighting", "bm25_k1", "bm25_b", "n_threads"])
    (hs : Argument given "shrinkage" (.num 0) (.num s))
    (hb : Argument given "normalize" (.bool true) (.bool b)) (hk : Argument given "top_k" (.num 100) (.num k))
    (hw : WeightingIs given w) (hT : ThreadsAre e given T) (hs0 : 0 ≤ s) (hT1 : 1 ≤ T) :
    ∃ U, cosineUserKnnFit nth e X given = .ok U ∧ U.nrows = X.nrows ∧ U.cols = X.nrows ∧
      (∀ u, (U.row u).length ≤ k) ∧
      (X.nrows ≤ k → ∀ u < X.nrows, ∀ v < X.nrows, U.get u v = if u = v then 0 else if b then
          cosine X.cols s (X.get u) ((w.apply X).get v) else dot X.cols (X.get u) ((w.apply X).get v)) := by
  have hs1 : (0 : ℝ) ≤ s := by exact_mod_cast hs0
  obtain ⟨S, U, -, hU, h1, h2, h3⟩ := C60_user_rows_are_top_k_partial hnth w (.cosine b) s hs1 trivial X T k hT1
  refine ⟨U, ?_, h1, h2, fun i => (h3 i).2.2, fun hc i hi j hj => ?_⟩
  · rw [cosineUserKnnFit_eq e X given s b k T w hn hs hb hk hw hT, hU]
  · obtain ⟨h4, -, h5⟩ := C60_user_similarity_partial hnth w s hs1 X hX T k hT1 hc
    cases b with
    | true => obtain ⟨W', hW', -, -, h⟩ := h4; rw [hU] at hW'; cases hW'; simpa using h i hi j hj
    | false => obtain ⟨W', hW', -, -, h⟩ := h5; rw [hU] at hW'; cases hW'; simpa using h i hi j hj

/-- C82 (`AsymmetricCosineUserKNNRecommender`). -/
theorem C82_asymmetric_users (hnth : NthOk nth) (e : Env) (X : CSR ℝ) (hX : Proper X)
    (given : Args) (s a : ℚ) (k T : Nat) (w : Weighting)
    (hn : Only given ["shrinkage", "alpha", "top_k", "feature_weighting", "bm25_k1", "bm25_b", "n_threads"])
    (hs : Argument given "shrinkage" (.num 0) (.num s))
    (ha : Argument given "alpha" (.num (1 / 2)) (.num a)) (hk : Argument given "top_k" (.num 100) (.num k))
    (hw : WeightingIs given w) (hT : ThreadsAre e given T) (hs0 : 0 ≤ s) (ha0 : 0 ≤ a) (ha1 : a ≤ 1)
    (hT1 : 1 ≤ T) :
    ∃ U, asymmetricUserKnnFit nth e X given = .ok U ∧ U.nrows = X.nrows ∧ U.cols = X.nrows ∧
      (∀ u, (U.row u).length ≤ k) ∧
      (X.nrows ≤ k → ∀ u < X.nrows, ∀ v < X.nrows, U.get u v = if u = v then 0 else
        asymmetric X.cols a s (X.get u) ((w.apply X).get v)) := by
  have hs1 : (0 : ℝ) ≤ s := by exact_mod_cast hs0
  have h0 : (0 : ℝ) ≤ a := by exact_mod_cast ha0
  have h1' : (a : ℝ) ≤ 1 := by exact_mod_cast ha1
  obtain ⟨S, U, -, hU, h1, h2, h3⟩ :=
    C60_user_rows_are_top_k_partial hnth w (.asymmetric a) s hs1 ⟨h0, h1'⟩ X T k hT1
  refine ⟨U, ?_, h1, h2, fun i => (h3 i).2.2, fun hc i hi j hj => ?_⟩
  · rw [asymmetricUserKnnFit_eq e X given s a k T w hn hs ha hk hw hT, hU]
  · obtain ⟨-, h4, -⟩ := C60_user_similarity_partial hnth w s hs1 X hX T k hT1 hc
    obtain ⟨W', hW', -, -, h⟩ := h4 a h0 h1'; rw [hU] at hW'; cases hW'; exact h i hi j hj

/-! ## Random walks -/

/-- what the learnt matrix of a random-walk recommender is, with its arguments already in place -/
theorem rp3Learn_is (hnth : NthOk nth) (X : CSR ℝ) (hX : Proper X) (hp : Positive X) (a be : ℝ) (b : Bool)
    (K : Option Nat) (T : Nat) (ha : 0 ≤ a) (hb : 0 ≤ be) (hT1 : 1 ≤ T) :
    ∃ full V W : CSC ℝ, (∀ j < X.cols, ∀ i < X.cols, full.get j i =
        (∑ u ∈ Finset.range X.nrows, toUser a X j u * toItem a X u i) / popularity X i ^ be) ∧
      (∀ i, V.cols.getD i [] = keepBest K (full.cols.getD i [])) ∧
      rp3Learn nth a be X K b T = .ok W ∧ W.rows = X.cols ∧ W.cols.length = X.cols ∧
      ∀ j i, W.get j i = if b then V.get j i / ∑ i' ∈ Finset.range X.cols, V.get j i' else V.get j i := by
  obtain ⟨P, full, hP, hf, h1, h2, h3⟩ := C36_rp3_penalises_popularity hnth a be ha hb X hX hp T hT1
  obtain ⟨P', hP', -, -, h4⟩ := C36_p3_random_walk hnth a ha X hX hp T hT1
  rw [hP] at hP'; cases hP'
  have hV : ∃ V, rp3Learn nth a be X K false T = .ok V ∧ V.rows = X.cols ∧ V.cols.length = X.cols ∧
      (∀ i, V.cols.getD i [] = keepBest K (full.cols.getD i [])) := by
    cases K with
    | none => exact ⟨full, hf, h1, h2, fun i => rfl⟩
    | some k =>
      obtain ⟨V, full', hV, hf', h5, h6, h7⟩ := C61_columns_are_top_k hnth a be ha hb X k T hT1
      rw [hf] at hf'; cases hf'
      exact ⟨V, hV, h5.trans h1, h6.trans h2, fun i => (h7 i).1⟩
  obtain ⟨V, hV, h5, h6, h7⟩ := hV
  refine ⟨full, V, if b then l1NormalizeRow V else V, fun j hj i hi => by rw [h3 j hj i hi, h4 j hj i hi],
    h7, ?_, ?_, ?_, ?_⟩
  · unfold rp3Learn at hV ⊢
    cases hr : rp3W nth a be (transpose X) T 128 (K.getD X.cols) with
    | error e => rw [hr] at hV; cases hV
    | ok R =>
      rw [hr] at hV
      simp only [Bool.false_eq_true, if_false] at hV
      cases hV
      rfl
  · cases b
    · exact h5
    · exact h5
  · cases b
    · exact h6
    · exact (C32_entries V).2.1.trans h6
  · intro j i
    cases b
    · simp
    · simpa [h6] using (C32_entries V).2.2.1 j i

/-- C82 (`RP3betaRecommender`).  `alpha`, `beta`, `top_k` and `normalize_weight` have their documented
effects: the walk with exponent `alpha`, divided by popularity to the power `beta`; the `top_k` best entries
of each column; rows divided by their sums. -/
theorem C82_rp3 (hnth : NthOk nth) (e : Env) (X : CSR ℝ) (hX : Proper X) (hp : Positive X) (given : Args)
    (a be : ℚ) (b : Bool) (K : Option Nat) (T : Nat)
    (hn : Only given ["alpha", "beta", "top_k", "normalize_weight", "n_threads"])
    (ha : Argument given "alpha" (.num 1) (.num a)) (hbe : Argument given "beta" (.num (3 / 5)) (.num be))
    (hk : Argument given "top_k" .none (optionalSize K))
    (hb : Argument given "normalize_weight" (.bool false) (.bool b)) (hT : ThreadsAre e given T)
    (ha0 : 0 ≤ a) (hb0 : 0 ≤ be) (hT1 : 1 ≤ T) :
    ∃ full V W : CSC ℝ, (∀ j < X.cols, ∀ i < X.cols, full.get j i =
        (∑ u ∈ Finset.range X.nrows, toUser a X j u * toItem a X u i) / popularity X i ^ (be : ℝ)) ∧
      (∀ i, V.cols.getD i [] = keepBest K (full.cols.getD i [])) ∧
      rp3Fit nth e X given = .ok W ∧ W.rows = X.cols ∧ W.cols.length = X.cols ∧
      ∀ j i, W.get j i = if b then V.get j i / ∑ i' ∈ Finset.range X.cols, V.get j i' else V.get j i := by
  rw [rp3Fit_eq e X given a be b K T hn ha hbe hk hb hT]
  exact rp3Learn_is hnth X hX hp a be b K T (by exact_mod_cast ha0) (by exact_mod_cast hb0) hT1

/-- C82 (`P3alphaRecommender`). -/
theorem C82_p3 (hnth : NthOk nth) (e : Env) (X : CSR ℝ) (hX : Proper X) (hp : Positive X) (given : Args)
    (a : ℚ) (b : Bool) (K : Option Nat) (T : Nat)
    (hn : Only given ["alpha", "top_k", "normalize_weight", "n_threads"])
    (ha : Argument given "alpha" (.num 1) (.num a)) (hk : Argument given "top_k" .none (optionalSize K))
    (hb : Argument given "normalize_weight" (.bool false) (.bool b)) (hT : ThreadsAre e given T)
    (ha0 : 0 ≤ a) (hT1 : 1 ≤ T) :
    ∃ full V W : CSC ℝ, (∀ j < X.cols, ∀ i < X.cols, full.get j i =
        ∑ u ∈ Finset.range X.nrows, toUser a X j u * toItem a X u i) ∧
      (∀ i, V.cols.getD i [] = keepBest K (full.cols.getD i [])) ∧
      p3Fit nth e X given = .ok W ∧ W.rows = X.cols ∧ W.cols.length = X.cols ∧
      ∀ j i, W.get j i = if b then V.get j i / ∑ i' ∈ Finset.range X.cols, V.get j i' else V.get j i := by
  rw [p3Fit_eq e X given a b K T hn ha hk hb hT, ← C36_beta_zero]
  obtain ⟨full, V, W, h1, h2⟩ := rp3Learn_is hnth X hX hp a 0 b K T (by exact_mod_cast ha0) (le_refl _) hT1
  exact ⟨full, V, W, fun j hj i hi => by simpa using h1 j hj i hi, h2⟩

/-! ## What is refused -/

/-- C82 (refusals).  A negative shrinkage, an exponent outside its range and zero threads are refused when the
recommender learns, whatever the other arguments are. -/
theorem C82_out_of_range (e : Env) (X : CSR ℝ) (given : Args) (s a b : ℚ) (nz : Bool) (k T : Nat) (w : Weighting)
    (hs : Argument given "shrinkage" (.num 0) (.num s)) (hk : Argument given "top_k" (.num 100) (.num k))
    (hT : ThreadsAre e given T) :
    (Only given ["shrinkage", "normalize", "top_k", "feature_weighting", "bm25_k1", "bm25_b", "n_threads"] →
      WeightingIs given w → s < 0 ∨ T = 0 →
      (Argument given "normalize" (.bool false) (.bool nz) →
        cosineKnnFit nth e X given = .error .invalidArgument) ∧
      (Argument given "normalize" (.bool true) (.bool nz) →
        cosineUserKnnFit nth e X given = .error .invalidArgument)) ∧
    (Only given ["shrinkage", "alpha", "top_k", "feature_weighting", "bm25_k1", "bm25_b", "n_threads"] →
      WeightingIs given w → Argument given "alpha" (.num (1 / 2)) (.num a) → s < 0 ∨ T = 0 ∨ a < 0 ∨ 1 < a →
      asymmetricKnnFit nth e X given = .error .invalidArgument ∧
      asymmetricUserKnnFit nth e X given = .error .invalidArgument) ∧
    (Only given ["shrinkage", "top_k", "n_threads"] → s < 0 ∨ T = 0 →
      jaccardKnnFit nth e X given = .error .invalidArgument) ∧
    (Only given ["shrinkage", "alpha", "beta", "top_k", "n_threads"] →
      Argument given "alpha" (.num (1 / 2)) (.num a) → Argument given "beta" (.num (1 / 2)) (.num b) →
      s < 0 ∨ T = 0 ∨ a < 0 ∨ b < 0 → tverskyKnnFit nth e X given = .error .invalidArgument) := by
  have key : ∀ (w : Weighting) (kind : Kind), s < 0 ∨ T = 0 ∨ ¬ kind.paramsOk →
      itemKnnW nth w kind s X T k = .error .invalidArgument ∧
      userKnnU nth w kind s X T k = .error .invalidArgument := by
    intro w kind h
    have : ∀ Y Z : CSR ℝ, ¬ Accepted kind (s : ℝ) Y Z T 128 := by
      intro Y Z hA
      rcases h with h | h | h
      · exact absurd hA.1 (not_le.mpr (by exact_mod_cast h))
      · have := hA.2.1; omega
      · exact h hA.2.2.2.1
    constructor
    · unfold itemKnnW; rw [computeSimilarity_error nth kind s _ _ T 128 k (this _ _)]
    · unfold userKnnU; rw [computeSimilarity_error nth kind s _ _ T 128 k (this _ _)]
  refine ⟨fun hn hw h => ⟨fun hb => ?_, fun hb => ?_⟩, fun hn hw ha h => ⟨?_, ?_⟩, fun hn h => ?_,
    fun hn ha hb h => ?_⟩
  · rw [cosineKnnFit_eq e X given s nz k T w hn hs hb hk hw hT]
    exact (key w _ (by tauto)).1
  · rw [cosineUserKnnFit_eq e X given s nz k T w hn hs hb hk hw hT]
    exact (key w _ (by tauto)).2
  · rw [asymmetricKnnFit_eq e X given s a k T w hn hs ha hk hw hT]
    refine (key w _ ?_).1
    rcases h with h | h | h | h
    · exact .inl h
    · exact .inr (.inl h)
    · exact .inr (.inr fun h' => absurd h'.1 (not_le.mpr (by exact_mod_cast h)))
    · exact .inr (.inr fun h' => absurd h'.2 (not_le.mpr (by exact_mod_cast h)))
  · rw [asymmetricUserKnnFit_eq e X given s a k T w hn hs ha hk hw hT]
    refine (key w _ ?_).2
    rcases h with h | h | h | h
    · exact .inl h
    · exact .inr (.inl h)
    · exact .inr (.inr fun h' => absurd h'.1 (not_le.mpr (by exact_mod_cast h)))
    · exact .inr (.inr fun h' => absurd h'.2 (not_le.mpr (by exact_mod_cast h)))
  · rw [jaccardKnnFit_eq e X given s k T hn hs hk hT]
    exact (key .none _ (by tauto)).1
  · rw [tverskyKnnFit_eq e X given s a b k T hn hs ha hb hk hT]
    refine (key .none _ ?_).1
    rcases h with h | h | h | h
    · exact .inl h
    · exact .inr (.inl h)
    · exact .inr (.inr fun h' => absurd h'.1 (not_le.mpr (by exact_mod_cast h)))
    · exact .inr (.inr fun h' => absurd h'.2 (not_le.mpr (by exact_mod_cast h)))

/-- C82 (refusals).  An argument that the class does not have is a `TypeError`; so is a misspelt one. -/
theorem C82_unknown_argument (e : Env) (X : CSR ℝ) (given : Args) (name : String) (v : Val)
    (hg : (name, v) ∈ given) :
    (name ∉ ["shrinkage", "normalize", "top_k", "feature_weighting", "bm25_k1", "bm25_b", "n_threads"] →
      cosineKnnFit nth e X given = .error .typeError ∧ cosineUserKnnFit nth e X given = .error .typeError) ∧
    (name ∉ ["shrinkage", "alpha", "top_k", "feature_weighting", "bm25_k1", "bm25_b", "n_threads"] →
      asymmetricKnnFit nth e X given = .error .typeError ∧
      asymmetricUserKnnFit nth e X given = .error .typeError) ∧
    (name ∉ ["shrinkage", "top_k", "n_threads"] → jaccardKnnFit nth e X given = .error .typeError) ∧
    (name ∉ ["shrinkage", "alpha", "beta", "top_k", "n_threads"] →
      tverskyKnnFit nth e X given = .error .typeError) ∧
    (name ∉ ["alpha", "top_k", "normalize_weight", "n_threads"] → p3Fit nth e X given = .error .typeError) ∧
    (name ∉ ["alpha", "beta", "top_k", "normalize_weight", "n_threads"] →
      rp3Fit nth e X given = .error .typeError) := by
  have key : ∀ c : RecClass, name ∉ c.params.map (·.1) → construct c given = .error .typeError := by
    intro c hc
    unfold construct
    rw [if_neg]
    intro h
    rw [List.all_eq_true] at h
    exact hc (of_decide_eq_true (h _ hg))
  refine ⟨fun h => ⟨?_, ?_⟩, fun h => ⟨?_, ?_⟩, fun h => ?_, fun h => ?_, fun h => ?_, fun h => ?_⟩
  · unfold cosineKnnFit; rw [key cosineKnn h]; rfl
  · unfold cosineUserKnnFit; rw [key cosineUserKnn h]; rfl
  · unfold asymmetricKnnFit; rw [key asymmetricCosineKnn h]; rfl
  · unfold asymmetricUserKnnFit; rw [key asymmetricCosineUserKnn h]; rfl
  · unfold jaccardKnnFit; rw [key jaccardKnn h]; rfl
  · unfold tverskyKnnFit; rw [key tverskyKnn h]; rfl
  · unfold p3Fit; rw [key p3alpha h]; rfl
  · unfold rp3Fit; rw [key rp3beta h]; rfl

/-- C82 (refusals).  A name of a weighting scheme that does not exist is a `ValueError`. -/
theorem C82_unknown_weighting (e : Env) (X : CSR ℝ) (given : Args) (name : String)
    (hg : given.lookup "feature_weighting" = some (.str name)) (hname : name ∉ ["NONE", "TF_IDF", "BM_25"]) :
    (Only given ["shrinkage", "normalize", "top_k", "feature_weighting", "bm25_k1", "bm25_b", "n_threads"] →
      cosineKnnFit nth e X given = .error .valueError ∧ cosineUserKnnFit nth e X given = .error .valueError) ∧
    (Only given ["shrinkage", "alpha", "top_k", "feature_weighting", "bm25_k1", "bm25_b", "n_threads"] →
      asymmetricKnnFit nth e X given = .error .valueError ∧
      asymmetricUserKnnFit nth e X given = .error .valueError) := by
  have key : ∀ c : RecClass, Only given (c.params.map (·.1)) →
      (c.params.map (fun d => (d.1, valueOf given d.1 d.2))).lookup "feature_weighting" =
        some (valueOf given "feature_weighting" (.str "NONE")) →
      c.checks = [.oneOf "feature_weighting" ["NONE", "TF_IDF", "BM_25"] .valueError] →
      construct c given = .error .valueError := by
    intro c hn hl hc
    unfold construct
    rw [if_pos (by rw [List.all_eq_true]; intro a ha; exact decide_eq_true (hn a ha)), hc]
    have : valueOf given "feature_weighting" (.str "NONE") = .str name := by unfold valueOf; rw [hg]; rfl
    rw [this] at hl
    simp only [List.findSome?_cons, Check.error, hl, if_neg hname]
  refine ⟨fun h => ⟨?_, ?_⟩, fun h => ⟨?_, ?_⟩⟩
  · unfold cosineKnnFit; rw [key cosineKnn h rfl rfl]; rfl
  · unfold cosineUserKnnFit; rw [key cosineUserKnn h rfl rfl]; rfl
  · unfold asymmetricKnnFit; rw [key asymmetricCosineKnn h rfl rfl]; rfl
  · unfold asymmetricUserKnnFit; rw [key asymmetricCosineUserKnn h rfl rfl]; rfl

/-- C82 (refusals).  Negative exponents of the random walks are refused when the recommender learns. -/
theorem C82_negative_exponents (e : Env) (X : CSR ℝ) (given : Args) (a be : ℚ) (b : Bool) (K : Option Nat) (T : Nat)
    (ha : Argument given "alpha" (.num 1) (.num a)) (hk : Argument given "top_k" .none (optionalSize K))
    (hb : Argument given "normalize_weight" (.bool false) (.bool b)) (hT : ThreadsAre e given T) :
    (Only given ["alpha", "top_k", "normalize_weight", "n_threads"] → a < 0 →
      p3Fit nth e X given = .error .invalidArgument) ∧
    (Only given ["alpha", "beta", "top_k", "normalize_weight", "n_threads"] →
      Argument given "beta" (.num (3 / 5)) (.num be) → a < 0 ∨ be < 0 →
      rp3Fit nth e X given = .error .invalidArgument) := by
  constructor
  · intro hn h
    rw [p3Fit_eq e X given a b K T hn ha hk hb hT, ← C36_beta_zero]
    exact C36_rejects_negative _ _ _ _ _ _ (.inl (by exact_mod_cast h))
  · intro hn hbe h
    rw [rp3Fit_eq e X given a be b K T hn ha hbe hk hb hT]
    exact C36_rejects_negative _ _ _ _ _ _ (by exact_mod_cast h)

/-! ## A concrete case -/

/-- a process with `IRSPACK_NUM_THREADS_DEFAULT` unset on two processors -/
def exampleEnv2 : Env := ⟨⟨fun c => c = ' ', fun _ => none⟩, none, some 2⟩

/-- BM25 weighting with `bm25_b` given and `bm25_k1` left out, a shrinkage, the other arguments left out. -/
example : ∃ W, cosineKnnFit sortNth exampleEnv2 exampleWalk
      [("feature_weighting", .str "BM_25"), ("shrinkage", .num 2), ("bm25_b", .num (1 / 2)),
       ("normalize", .bool true)] = .ok W ∧
    W.get 0 1 = cosine 2 2 (fun u => exampleWalk.get u 0)
      (fun u => ((Weighting.bm25 (6 / 5) (1 / 2)).apply exampleWalk).get u 1) := by
  obtain ⟨W, hW, -, -, -, h⟩ := C82_cosine_items sortNth_ok exampleEnv2 exampleWalk exampleWalk_ok.1
    (positive_noZero exampleWalk_ok.2)
    [("feature_weighting", .str "BM_25"), ("shrinkage", .num 2), ("bm25_b", .num (1 / 2)),
     ("normalize", .bool true)] 2 true 100 2 (.bm25 ((6 / 5 : ℚ) : ℝ) ((1 / 2 : ℚ) : ℝ))
    (by intro a ha; simp at ha; rcases ha with rfl | rfl | rfl | rfl <;> simp)
    (.inl rfl) (.inl rfl) (.inr ⟨rfl, by norm_num⟩)
    (.inr (.inr ⟨.inl rfl, 6 / 5, 1 / 2, .inr ⟨rfl, rfl⟩, .inl rfl, rfl⟩))
    (.inr ⟨.inr ⟨rfl, rfl⟩, rfl⟩) (by norm_num) (by norm_num)
  refine ⟨W, hW, ?_⟩
  have := h (by simp [exampleWalk]) 0 (by simp [exampleWalk]) 1 (by simp [exampleWalk])
  simpa [exampleWalk, CSR.nrows] using this

example : ∃ W, rp3Fit sortNth exampleEnv2 exampleWalk [("top_k", .num 1), ("alpha", .num 2)] = .ok W := by
  obtain ⟨_, _, W, -, -, hW, -⟩ := C82_rp3 sortNth_ok exampleEnv2 exampleWalk exampleWalk_ok.1 exampleWalk_ok.2
    [("top_k", .num 1), ("alpha", .num 2)] 2 (3 / 5) false (some 1) 2
    (by intro a ha; simp at ha; rcases ha with rfl | rfl <;> simp) (.inl rfl) (.inr ⟨rfl, rfl⟩)
    (.inl (by simp [optionalSize])) (.inr ⟨rfl, rfl⟩) (.inr ⟨.inr ⟨rfl, rfl⟩, rfl⟩) (by norm_num) (by norm_num)
    (by norm_num)
  exact ⟨W, hW⟩

end Irspack.Props
