import Verif.Model.Similarity
import Verif.Model.EarlyStop
import Verif.Model.IalsRecommender

/-!
# Training that is under way, fails or is cut off

`_learn` of the recommenders as the sequence of their assignments to attributes
(/repo/src/irspack/recommenders/p3.py:67-76, rp3.py:74-84, knn.py:67-80, user_knn.py:61-74, slim.py:78-101,
dense_slim.py:39-53, edlae.py:50-66, toppop.py:33-34, truncsvd.py:79-83, nmf.py:45-64, base_earlystop.py:80-122,
ials.py:140-146).

A call is cut off between two assignments, or while the value of one is computed, by a `KeyboardInterrupt` in the
thread that trains; what is there at that point is also what another thread sees while the call is under way.
What is computed (by scipy, the extension module or scikit-learn) is a parameter of each call, so that two calls
may compute different things: attributes may have been changed in between, and SLIM is not reproducible (C89).
-/

namespace Irspack.Interrupt

/-- one assignment, with the computation of its value, which may raise -/
abbrev Step (σ : Type) := σ → Except Err σ

/-- how a call ends -/
inductive End where
  | returned
  | raised (e : Err)
  | cut
  deriving DecidableEq

/-- Running a method: `cut = some n` cuts it off after `n` assignments, if there are more. -/
def exec {σ : Type} : List (Step σ) → Option Nat → σ → σ × End
  | [], _, s => (s, .returned)
  | _ :: _, some 0, s => (s, .cut)
  | a :: rest, some (n + 1), s =>
    match a s with
    | .error e => (s, .raised e)
    | .ok s' => exec rest (some n) s'
  | a :: rest, none, s =>
    match a s with
    | .error e => (s, .raised e)
    | .ok s' => exec rest none s'

/-- calls one after the other, whatever their ends -/
def execAll {σ : Type} (calls : List (List (Step σ) × Option Nat)) (s : σ) : σ :=
  calls.foldl (fun s c => (exec c.1 c.2 s).1) s

/-! ## One attribute -/

/-- The attribute `_W` (base.py:411-413), `U_` (base.py:437-440) or `score_` (toppop.py:28-31): `None` at first. -/
structure Obj (M : Type) where
  model : Option M

/-- `_learn` of all similarity recommenders but P3alpha and RP3beta, and of TopPop: one assignment at the end
(knn.py:78-80, user_knn.py:72-74, slim.py:83-101, dense_slim.py:53, edlae.py:66, toppop.py:33-34) -/
def storeLearn {M : Type} (fit : Except Err M) : List (Step (Obj M)) := [fun _ => fit.map (fun m => ⟨some m⟩)]

/-- the properties `W`, `U` and `score` (base.py:415-420, 442-447, toppop.py:36-40) and what is computed from them -/
def Obj.predict {M A : Type} (o : Obj M) (f : M → Except Err A) : Except Err A :=
  match o.model with
  | none => .error .runtimeError
  | some m => f m

/-- `P3alphaRecommender._learn` and `RP3betaRecommender._learn` (p3.py:67-76, rp3.py:74-84): `_W` is assigned, and
with `normalize_weight` assigned again. -/
noncomputable def walkLearn (compute : Except Err (CSC ℝ)) (normalizeWeight : Bool) : List (Step (Obj (CSC ℝ))) :=
  [fun _ => compute.map (fun m => ⟨some m⟩)] ++
    (if normalizeWeight then [fun o => .ok ⟨o.model.map Sim.l1NormalizeRow⟩] else [])

/-! ## TruncatedSVD -/

/-- `decomposer_` (`some none`: constructed, not fitted) and `z_` (truncsvd.py:60-61) -/
structure SvdObj (D Z : Type) where
  decomposer : Option (Option D)
  z : Option Z

/-- `_learn` (truncsvd.py:79-83): the new decomposer is stored before it is fitted.  `fit_transform` stores the
components in it and then returns. -/
def svdLearn {D Z : Type} (fit : Except Err (D × Z)) : List (Step (SvdObj D Z)) :=
  [fun o => .ok { o with decomposer := some none },
   fun o => fit.map (fun r => { o with decomposer := some (some r.1) }),
   fun o => fit.map (fun r => { o with z := some r.2 })]

/-- the property `decomposer` (truncsvd.py:73-77) and its components: an unfitted one has no such attribute -/
def SvdObj.components {D Z : Type} (o : SvdObj D Z) : Except Err D :=
  match o.decomposer with
  | none => .error .runtimeError
  | some none => .error .attributeError
  | some (some d) => .ok d

/-- `get_score`, `get_score_block` (truncsvd.py:85-91) -/
def SvdObj.score {D Z A : Type} (f : Z → D → Except Err A) (o : SvdObj D Z) : Except Err A :=
  match o.z with
  | none => .error .runtimeError
  | some z => do f z (← o.components)

/-- `get_score_cold_user` (truncsvd.py:93-97).  The `NotFittedError` of an unfitted decomposer is an
`AttributeError` (and a `ValueError`). -/
def SvdObj.coldScore {D Z A : Type} (g : D → Except Err A) (o : SvdObj D Z) : Except Err A := do g (← o.components)

/-! ## NMF -/

/-- `nmf_model` (`some none`: not fitted), `W` and `H`: no such attributes at first -/
structure NmfObj (D W H : Type) where
  model : Option (Option D)
  W : Option W
  H : Option H

/-- `_learn` (nmf.py:45-64): `fit`, then `fit_transform`, whose result is `W`; `H` is `components_` of the fitted
model. -/
def nmfLearn {D W H : Type} (comp : D → H) (fit : Except Err D) (fitTransform : Except Err (D × W)) :
    List (Step (NmfObj D W H)) :=
  [fun o => .ok { o with model := some none },
   fun o => fit.map (fun d => { o with model := some (some d) }),
   fun o => fitTransform.map (fun r => { o with model := some (some r.1) }),
   fun o => fitTransform.map (fun r => { o with W := some r.2 }),
   fun o =>
     match o.model with
     | some (some d) => .ok { o with H := some (comp d) }
     | _ => .error .attributeError]

/-- `get_score` (nmf.py:66-68) -/
def NmfObj.score {D W H A : Type} (f : W → H → Except Err A) (o : NmfObj D W H) : Except Err A :=
  match o.W, o.H with
  | some w, some h => f w h
  | _, _ => .error .attributeError

/-- `get_score_cold_user` (nmf.py:70-72) -/
def NmfObj.coldScore {D W H A : Type} (g : D → H → Except Err A) (o : NmfObj D W H) : Except Err A :=
  match o.model, o.H with
  | some (some d), some h => g d h
  | _, _ => .error .attributeError

/-! ## Recommenders with epochs -/

open EarlyStop in
/-- `learn()` of the recommenders with epochs (base_earlystop.py:103-104, 116-126 without an evaluator): a new trainer, then the
epochs.  `updates k` are the updates of the parameters in the epoch with index `k`: one for iALS and BPRFM, one for
each minibatch for Mult-VAE (multvae.py:240-261). -/
def epochsLearn {σ β : Type} (create : Except Err σ) (updates : Nat → List (Step σ)) (n : Nat) :
    List (Step (Rec σ β)) :=
  [fun r => create.map (fun s => { r with trainer := some s })] ++
    ((List.range n).flatMap updates).map (fun a r =>
      match r.trainer with
      | none => .error .runtimeError
      | some s => (a s).map (fun s' => { r with trainer := some s' }))

/-! ## `load_state` of iALS -/

open Ials in
/-- `IALSTrainer.load_state` (ials.py:140-146): user factors, item factors, feature weights, one after the other -/
def ialsLoad {K : Nat} (s : SavedState K) : List (Step (Trainer K)) :=
  [fun tr => .ok { tr with user := s.user }, fun tr => .ok { tr with item := s.item }] ++
    match s.weights with
    | none => []
    | some w => [fun tr => .ok { tr with userW := w.1 }, fun tr => .ok { tr with itemW := w.2 }]

end Irspack.Interrupt
