/-
Specification of a linear solve with several right-hand sides.  Nothing here models library code.
-/
import Verif.Spec.Solve
import Verif.Spec.Sparse

namespace Verif
open Finset

/-- `X'` holds, in an `m × n` dense array with leading dimension `ldx`, a solution of `M · X = alpha · B`
(`B` with leading dimension `ldb`); nothing else in the array changed. -/
structure IsSolveMm {R : Type} [Semiring R] (col : Bool) (M : Mat R) (m n : Nat) (alpha : R) (B : List R)
    (ldb : Nat) (X : List R) (ldx : Nat) (X' : List R) : Prop where
  length : X'.length = X.length
  solves : ∀ i j, i < m → j < n →
    ∑ k ∈ range m, M i k * X'.getD (denseOff col ldx k j) 0 = alpha * B.getD (denseOff col ldb i j) 0
  rest : ∀ p, (∀ i j, i < m → j < n → p ≠ denseOff col ldx i j) → X'[p]? = X[p]?

end Verif
