import Verif.Model.Similarity

/-!
# Arguments that are infinite or not a number

The argument checks of the extension module (/repo/cpp_source/argcheck.hpp, knn/knn.hpp, knn/similarities.hpp,
util.hpp) and the similarity formulas, for floating-point arguments that may be infinite or NaN.  The data are
finite.  Rounding, overflow of finite numbers and the sign of zero are not modelled.
-/

namespace Irspack.NanArgs
open Irspack Sim

/-- A floating-point number. -/
inductive Fp where
  | nan
  | ninf
  | fin (x : ℝ)
  | pinf

/-- `x < y`: false if either is NaN. -/
def Fp.lt : Fp → Fp → Prop
  | .nan, _ => False
  | _, .nan => False
  | .ninf, .ninf => False
  | .ninf, _ => True
  | .fin a, .fin b => a < b
  | .fin _, .pinf => True
  | .fin _, .ninf => False
  | .pinf, _ => False

/-- `x >= y`: false if either is NaN. -/
def Fp.ge : Fp → Fp → Prop
  | .nan, _ => False
  | _, .nan => False
  | x, y => ¬ x.lt y

/-- `x + y`. -/
noncomputable def Fp.add : Fp → Fp → Fp
  | .nan, _ => .nan
  | _, .nan => .nan
  | .pinf, .ninf => .nan
  | .ninf, .pinf => .nan
  | .pinf, _ => .pinf
  | _, .pinf => .pinf
  | .ninf, _ => .ninf
  | _, .ninf => .ninf
  | .fin a, .fin b => .fin (a + b)

/-- `-x`. -/
noncomputable def Fp.neg : Fp → Fp
  | .nan => .nan
  | .pinf => .ninf
  | .ninf => .pinf
  | .fin a => .fin (-a)

open Classical in
/-- `x * y`. -/
noncomputable def Fp.mul : Fp → Fp → Fp
  | .nan, _ => .nan
  | _, .nan => .nan
  | .fin a, .fin b => .fin (a * b)
  | .fin a, .pinf => if a = 0 then .nan else if 0 < a then .pinf else .ninf
  | .fin a, .ninf => if a = 0 then .nan else if 0 < a then .ninf else .pinf
  | .pinf, .fin a => if a = 0 then .nan else if 0 < a then .pinf else .ninf
  | .ninf, .fin a => if a = 0 then .nan else if 0 < a then .ninf else .pinf
  | .pinf, .pinf => .pinf
  | .ninf, .ninf => .pinf
  | .pinf, .ninf => .ninf
  | .ninf, .pinf => .ninf

open Classical in
/-- `x / y` of a finite number `x`; zero denominators count as `+0`. -/
noncomputable def Fp.divFin (a : ℝ) : Fp → Fp
  | .nan => .nan
  | .pinf => .fin 0
  | .ninf => .fin 0
  | .fin b => if b = 0 then (if a = 0 then .nan else if 0 < a then .pinf else .ninf) else .fin (a / b)

open Classical in
/-- `std::pow(x, y)` of a finite number `x ≥ 0`: 1 if `y` is zero or `x` is 1, even if the other is NaN. -/
noncomputable def Fp.powFin (a : ℝ) : Fp → Fp
  | .nan => if a = 1 then .fin 1 else .nan
  | .pinf => if a = 1 then .fin 1 else if a < 1 then .fin 0 else .pinf
  | .ninf => if a = 1 then .fin 1 else if a < 1 then .pinf else .fin 0
  | .fin b => if a = 0 ∧ b < 0 then .pinf else .fin (a ^ b)

open Classical in
/-- `check_arg_lower_bounded` (argcheck.hpp:12-19): refused if `x < low`. -/
noncomputable def checkLower (x low : Fp) : Except Err Unit :=
  if x.lt low then .error .invalidArgument else .ok ()

open Classical in
/-- `check_arg_upper_bounded` (argcheck.hpp:21-28). -/
noncomputable def checkUpper (x up : Fp) : Except Err Unit :=
  if up.lt x then .error .invalidArgument else .ok ()

/-- Two checks one after the other: the first that throws ends the function. -/
def andThen (a b : Except Err Unit) : Except Err Unit :=
  match a with
  | .error e => .error e
  | .ok () => b

/-- `check_arg_doubly_bounded` (argcheck.hpp:30-35). -/
noncomputable def checkBoth (x low up : Fp) : Except Err Unit :=
  andThen (checkLower x low) (checkUpper x up)

open Classical in
/-- `check_arg(cond, ...)` (argcheck.hpp:7-11). -/
noncomputable def checkArg (cond : Prop) : Except Err Unit :=
  if ¬ cond then .error .invalidArgument else .ok ()

/-- The similarity computers with floating-point arguments; cosine with `normalize = true`. -/
inductive KindFp where
  | cosine
  | asymmetric (alpha : Fp)
  | jaccard
  | tversky (alpha beta : Fp)

/-- The checks of the computers' constructors on their floating-point arguments (knn.hpp:35, similarities.hpp:66,
148-149).  The checks of the thread and chunk counts are in `computeSimilarity`. -/
noncomputable def construct (kind : KindFp) (shrinkage : Fp) : Except Err Unit :=
  andThen (checkLower shrinkage (.fin 0)) (match kind with
    | .cosine => .ok ()
    | .jaccard => .ok ()
    | .asymmetric alpha => checkBoth alpha (.fin 0) (.fin 1)
    | .tversky alpha beta => andThen (checkLower alpha (.fin 0)) (checkLower beta (.fin 0)))

/-- The checks of the P3alpha constructor (similarities.hpp:201). -/
noncomputable def constructP3 (alpha : Fp) : Except Err Unit := checkLower alpha (.fin 0)

/-- The checks of the RP3beta constructor (similarities.hpp:271-272). -/
noncomputable def constructRP3 (alpha beta : Fp) : Except Err Unit :=
  andThen (checkLower alpha (.fin 0)) (checkLower beta (.fin 0))

/-- The checks of `SLIM` on the penalties (util.hpp:235-236). -/
noncomputable def checkSlim (l2 l1 : Fp) : Except Err Unit :=
  andThen (checkArg (l2.ge (.fin 0))) (checkArg (l1.ge (.fin 0)))

/-- The check of the ratio in a row-wise split (util.hpp:122-125). -/
noncomputable def checkRatio (ratio : Fp) : Except Err Unit :=
  checkArg ((Fp.fin 1).ge ratio ∧ ratio.ge (.fin 0))

/-- The denominator of the similarity of the target row `t` and row `x` with (common) product `v`, before
`shrinkage` is added (similarities.hpp: Cosine 41-42, AsymmetricCosine 69, 78-83, Jaccard 126-127,
Tversky 178-180). -/
noncomputable def base (kind : KindFp) (x t : SpVec ℝ) (v : ℝ) : Fp :=
  match kind with
  | .cosine => .fin (Real.sqrt (sqNorm x) * Real.sqrt (sqNorm t))
  | .asymmetric alpha =>
    (Fp.powFin (sqNorm x) (Fp.add (.fin 1) alpha.neg)).mul (Fp.powFin (sqNorm t) alpha)
  | .jaccard => .fin (rowTotal (binarize x) + rowTotal (binarize t) - v)
  | .tversky alpha beta =>
    ((Fp.fin v).add (beta.mul (.fin (rowTotal (binarize x) - v)))).add
      (alpha.mul (.fin (rowTotal (binarize t) - v)))

/-- The denominator (similarities.hpp:42, 83, 127, 180). -/
noncomputable def denominator (kind : KindFp) (shrinkage : Fp) (x t : SpVec ℝ) (v : ℝ) : Fp :=
  ((base kind x t v).add shrinkage).add (.fin 1e-6)

/-- One row of `compute_similarity_imple` for the target row `t` (similarities.hpp:29-46, 72-87, 108-130,
158-184). -/
noncomputable def simRowFp (kind : KindFp) (shrinkage : Fp) (X : CSR ℝ) (t : SpVec ℝ) : List (Nat × Fp) :=
  let row := match kind with
    | .cosine => productRow t X
    | .asymmetric _ => productRow t X
    | .jaccard => productRow (binarize t) ⟨X.cols, X.rows.map binarize⟩
    | .tversky _ _ => productRow (binarize t) ⟨X.cols, X.rows.map binarize⟩
  row.map (fun e => (e.1, Fp.divFin e.2 (denominator kind shrinkage (X.row e.1) t e.2)))

/-- One row of the item-to-user weights in the constructors of P3alpha and RP3beta (similarities.hpp:214-228,
283-297), for interactions that are not negative: powers divided by their sum (0 if there are none). -/
noncomputable def walkRowFp (alpha : Fp) (row : SpVec ℝ) : List (Nat × Fp) :=
  let s := (row.map (fun e => Fp.powFin e.2 alpha)).foldl Fp.add (.fin 0)
  row.map (fun e => (e.1, match Fp.powFin e.2 alpha with
    | .fin a => Fp.divFin a s
    | .nan => .nan
    | .pinf => match s with
      | .fin _ => .pinf
      | _ => .nan
    | .ninf => match s with
      | .fin _ => .ninf
      | _ => .nan))

end Irspack.NanArgs
