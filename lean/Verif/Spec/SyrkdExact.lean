/-
Specification of the elements of the dense product op(A)·op(A)ᵀ, in an arithmetic without algebraic laws.
Nothing here models library code.
-/
import Verif.Spec.MdExact

namespace Verif

/-- the products `(alpha * a_ik) * a_jk` of the values stored in rows i and j of op(A), for k = 0, 1, … -/
def gramProds {R : Type} [Mul R] (alpha : R) (op : Op) (isT : Bool) (A : Csr R) (i j : Nat) : List R :=
  (List.range (opCols op isT A)).flatMap fun k =>
    (opVals op isT A i k).flatMap fun a => (opVals op isT A j k).map fun b => alpha * a * b

end Verif
