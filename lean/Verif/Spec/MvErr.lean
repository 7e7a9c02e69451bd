/-
Specification: how far the result of a matrix-vector product is from `alpha * M * x + beta * y`.
Nothing here models library code.
-/
import Verif.Spec.Contract
import Verif.Spec.Mv

namespace Verif

/-- Element `i < m` of `y'` differs from `alpha * (M x) i + beta * y i` by at most `(1+u)^(K i) - 1` times
`|alpha| * (N |x|) i + |beta| * |y i|`; the elements from `m` on are those of `y`.  Used with `N i j` the sum of the
sizes of what is stored at `(i, j)`, so that `N = |M|` if nothing is stored twice. -/
structure MvErr (ρ : Rounding) {R : Type} [Zero R] (v : R → ℝ) (K : Nat → Nat) (alpha beta : R) (M N : Mat ℝ) (m n : Nat)
    (x y y' : List R) : Prop where
  length : y'.length = y.length
  rows : ∀ i, i < m → ∃ r z, y[i]? = some r ∧ y'[i]? = some z ∧
    |v z - (v alpha * matVec M n (x.map v) i + v beta * v r)|
      ≤ ((1 + ρ.u) ^ K i - 1) * (|v alpha| * matVec N n (x.map fun a => |v a|) i + |v beta| * |v r|)
  rest : ∀ i, m ≤ i → y'[i]? = y[i]?

end Verif
