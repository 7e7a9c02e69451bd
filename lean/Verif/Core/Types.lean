/-
Enumerations of the public API.
-/
namespace Verif

/-- library/include/aoclsparse_types.h:304-324 `aoclsparse_status`. -/
inductive Status
  | success | notImplemented | invalidPointer | invalidSize | internalError
  | invalidValue | invalidIndexValue | maxit | userStop | wrongType
  | memoryError | numericalError | invalidOperation | unsortedInput | invalidKid
  deriving DecidableEq, Repr, Inhabited

end Verif
