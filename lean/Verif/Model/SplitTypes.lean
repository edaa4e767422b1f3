import Verif.Model.Split

/-!
# Splitting matrices of a given number type

`rowwise_train_test_split` (/repo/src/irspack/utils/__init__.py:28-69) converts the matrix to double precision
and the two parts back to the type of the source; between the two the values are held as `int64_t`
(/repo/cpp_source/util.hpp:72-115).  `Model/Split.lean` leaves these conversions out; here they are made.

Values are real numbers.  Overflow to infinity, subnormal numbers and NaN are not modelled.
-/

namespace Irspack.Split

/-- The number types of numpy matrices considered: booleans, signed and unsigned integers of so many bits,
single and double precision. -/
inductive NumType where
  | bool
  | int (bits : Nat)
  | uint (bits : Nat)
  | float32
  | float64
  deriving DecidableEq, Repr

/-- The matrix with a function applied to every stored value. -/
def Csr.mapValues {V W : Type} (f : V → W) (X : Csr V) : Csr W :=
  ⟨X.nCols, X.rows.map (fun row => row.map (fun p => (p.1, f p.2)))⟩

open Classical in
/-- `astype(original_dtype)` of a double (utils/__init__.py:66-69): booleans say whether the value is not zero,
integers are truncated, `fl32` rounds to single precision.  (What a value outside the range of an integer type
becomes is not modelled: the truncated value is returned.) -/
noncomputable def NumType.ofDouble (fl32 : ℝ → ℝ) : NumType → ℝ → ℝ
  | .bool, x => if x = 0 then 0 else 1
  | .int _, x => truncZ x
  | .uint _, x => truncZ x
  | .float32, x => fl32 x
  | .float64, x => x

open Classical in
/-- `rowwise_train_test_split` (utils/__init__.py:28-69) of a matrix of type `d`.  `fl` rounds to double
precision: `X.astype(np.float64)` (line 57), and the conversion of the `int64_t` sums to `double` in
`setFromTriplets` (util.hpp:108-109).  Converting a double outside the range of `int64_t` (util.hpp:99-106) is
undefined behaviour; the model stops there. -/
noncomputable def rowwiseSplitTyped (fl fl32 : ℝ → ℝ) (d : NumType) (X : Csr ℝ) (testRatio : ℝ)
    (nTest : Option Int) (ceil : Bool) (shuf : Nat → List Nat) : Except Err (Csr ℝ × Csr ℝ) :=
  let Xd := X.mapValues fl
  match rowwiseSplit fl Xd testRatio nTest ceil shuf with
  | .error e => .error e
  | .ok (a, b) =>
    if ∀ row ∈ Xd.rows, ∀ p ∈ row, (-2 ^ 63 : ℝ) ≤ p.2 ∧ p.2 < 2 ^ 63 then
      .ok (a.mapValues (fun v => d.ofDouble fl32 (fl v)), b.mapValues (fun v => d.ofDouble fl32 (fl v)))
    else .error .notModelled

end Irspack.Split
