/-!
# Common definitions

Exceptions as values.  C++ `std::invalid_argument` (thrown by `check_arg`,
/repo/cpp_source/argcheck.hpp) reaches Python as `ValueError`.
-/

namespace Irspack

/-- The exceptions that the modelled functions raise.
`invalidArgument` is `std::invalid_argument` (`check_arg` in /repo/cpp_source/argcheck.hpp:7-11),
which nanobind turns into `ValueError`; the others are the Python exceptions of the same name.
Messages are not modelled. -/
inductive Err where
  | invalidArgument
  | valueError
  | runtimeError
  | keyError
  | indexError
  | typeError
  | assertionError
  | zeroDivisionError
  | notImplemented
  | callBeforeFit
  | trialPruned
  | attributeError
  | osError
  /-- `NameError`, here its subclass `UnboundLocalError` -/
  | nameError
  /-- Not an exception: the code goes on with a NaN or an infinity.  The model stops there, and
  nothing is claimed about what the code does afterwards. -/
  | nonFinite
  /-- Not an exception: the code goes on with something that is not modelled.  The model stops there, and
  nothing is claimed about what the code does afterwards. -/
  | notModelled
  /-- Not an exception: the code reads or writes outside an array.  The model stops there, and nothing
  is claimed about what the code does afterwards. -/
  | outOfBounds
  deriving DecidableEq, Repr

end Irspack
