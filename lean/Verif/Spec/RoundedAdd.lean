/-
Specification: the elements of a sparse sum in any arithmetic.  Nothing here models library code.
-/
import Verif.Spec.RoundedMm

namespace Verif

/-- The element of alpha·op(A) + B at a position where op(A) stores `x` and B stores `y`, if they store
something there: what only one operand stores is not touched by an addition. -/
def sumStored {R : Type} [Add R] [Mul R] (alpha : R) : Option R → Option R → Option R
  | some a, some b => some (alpha * a + b)
  | some a, none => some (alpha * a)
  | none, y => y

end Verif
