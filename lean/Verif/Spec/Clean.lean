/-
Specification of a matrix prepared for triangular access.  Nothing here models library code.
-/
import Verif.Core.Mem
import Verif.Spec.Sparse

namespace Verif

/-- Row `i` of `A` is its strictly lower part, its diagonal and its strictly upper part, in this
order; the diagonal entry is present exactly once wherever the matrix has a diagonal; `idiag[i]`
is where the lower part ends and `iurow[i]` where the upper part begins (positions in the base
of the matrix). -/
def CleanRow {R : Type} (A : Csr R) (idiag iurow : List Int) (i : Nat)
    (L D U : List (Int × R)) : Prop :=
  A.row i = L ++ D ++ U ∧ (∀ e ∈ L, e.1 < i) ∧ (∀ e ∈ D, e.1 = i) ∧ (∀ e ∈ U, (i : Int) < e.1) ∧
    rd idiag i = some (A.p i + L.length) ∧ rd iurow i = some (A.p i + L.length + D.length) ∧
    (i < A.n → D.length = 1)

/-- every row is split at its diagonal -/
def Clean {R : Type} (A : Csr R) (idiag iurow : List Int) : Prop :=
  ∀ i, i < A.m → ∃ L D U, CleanRow A idiag iurow i L D U

end Verif
