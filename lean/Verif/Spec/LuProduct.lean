/-
The product of the two factors of an incomplete factorisation, as a matrix.  Nothing here models library code.
-/
import Verif.Spec.Ilu
import Mathlib.Data.Matrix.Mul

namespace Verif

/-- L U, with L the unit lower triangular factor stored below the diagonal of `F` and U the upper triangular factor
stored on and above it -/
def luProduct {R : Type} [Semiring R] (n : Nat) (F : Mat R) : Matrix (Fin n) (Fin n) R :=
  (Matrix.of fun i j : Fin n => unitLower F i j) * (Matrix.of fun i j : Fin n => upperPart F i j)

end Verif
