/-
Specification of symmetric Gauss-Seidel preconditioning.
-/
import Verif.Spec.Operator
import Mathlib.Algebra.BigOperators.Group.Finset.Basic
import Mathlib.Algebra.Field.Basic

namespace Verif
open Finset

/-- `z'` is `z` with its first `n` cells replaced by the solution of `(L + D) D⁻¹ (D + U) z' = r`, where L, D and U
are the strictly lower part, the diagonal and the strictly upper part of `M`. -/
structure IsSgs {R : Type} [Field R] (M : Mat R) (n : Nat) (r z z' : List R) : Prop where
  length : z'.length = z.length
  solves : ∀ i, i < n →
    ∑ j ∈ range n, (if j ≤ i then M i j * ((∑ k ∈ range n, if j ≤ k then M j k * z'.getD k 0 else 0) / M j j) else 0)
      = r.getD i 0
  rest : ∀ k, n ≤ k → z'[k]? = z[k]?

end Verif
