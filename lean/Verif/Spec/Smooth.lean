/-
Specification of the smoothers.  Nothing here models library code.
-/
import Verif.Spec.Operator
import Mathlib.Algebra.BigOperators.Ring.Finset
import Mathlib.Algebra.Field.Defs

namespace Verif
open Finset

/-- One step of the symmetric Gauss-Seidel method for `M x = b` from the start `alpha * x`: with the
strictly lower part L, the diagonal D and the strictly upper part U of `M`, a forward sweep
`(L + D) z = b - alpha U x` and a backward sweep `(U + D) x' = b - L z`.  Only the first `m` cells
change. -/
structure IsSymgs {R : Type} [Ring R] (M : Mat R) (m : Nat) (alpha : R) (b x x' : List R) : Prop where
  length : x'.length = x.length
  sweeps : ∃ z : Nat → R,
    (∀ i, i < m → ∑ j ∈ range m with j ≤ i, M i j * z j
      = b.getD i 0 - alpha * ∑ j ∈ range m with i < j, M i j * x.getD j 0) ∧
    (∀ i, i < m → ∑ j ∈ range m with i ≤ j, M i j * x'.getD j 0
      = b.getD i 0 - ∑ j ∈ range m with j < i, M i j * z j)
  rest : ∀ i, m ≤ i → x'[i]? = x[i]?

/-- One forward sweep of successive over-relaxation for `M x = b` from the start `alpha * x` with the
relaxation factor `omega`.  Only the first `m` cells change. -/
structure IsSor {R : Type} [Field R] (M : Mat R) (m : Nat) (omega alpha : R) (b x x' : List R) : Prop where
  length : x'.length = x.length
  sweep : ∀ i, i < m → x'.getD i 0 = (1 - omega) * (alpha * x.getD i 0) + omega * ((b.getD i 0
    - ∑ j ∈ range m with j < i, M i j * x'.getD j 0
    - ∑ j ∈ range m with i < j, M i j * (alpha * x.getD j 0)) / M i i)
  rest : ∀ i, m ≤ i → x'[i]? = x[i]?

end Verif
