/-
Specification of a linear solve on strided vectors.  Nothing here models library code.
-/
import Verif.Core.Mem
import Verif.Spec.Operator
import Mathlib.Algebra.BigOperators.Ring.Finset

namespace Verif
open Finset

/-- `x'` holds, at stride `incx`, a solution of `M · x = alpha · b` (`b` at stride `incb`,
`m` unknowns); nothing else in the array changed. -/
structure IsSolve {R : Type} [Semiring R] (M : Mat R) (m : Nat) (alpha : R) (b : List R)
    (incb : Nat) (x : List R) (incx : Nat) (x' : List R) : Prop where
  length : x'.length = x.length
  solves : ∀ i, i < m → ∑ j ∈ range m, M i j * x'.getD (j * incx) 0 = alpha * b.getD (i * incb) 0
  rest : ∀ k, (∀ i, i < m → k ≠ i * incx) → x'[k]? = x[k]?

end Verif
