/-!
# Exceptions

The outcome of a function that may throw is `Option (Ret α)`: undefined behaviour, normal return, or an exception.
-/

namespace Sprout

/-- exceptions: `std::out_of_range`, `std::overflow_error`, `std::invalid_argument`, `std::runtime_error`,
`sprout::bad_rational` (`sprout/rational/exceptions.hpp`), `std::length_error` -/
inductive Exn
  | outOfRange | overflow | invalidArgument | runtimeError | badRational | lengthError
  deriving DecidableEq, Repr

/-- normal return or exception -/
inductive Ret (α : Type)
  | ret (a : α)
  | throw (e : Exn)
  deriving DecidableEq, Repr

end Sprout
