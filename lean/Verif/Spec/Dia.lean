/-
Specification of the DIA format.  Nothing here models library code.
-/
import Verif.Spec.Mv

namespace Verif
open Finset

/-- The matrix of a DIA structure with `m` rows: diagonal number `d < nd` has offset `off d`
(column minus row) and keeps its element of row `i` at position `i + m * d`. -/
def diaMat {R : Type} [Semiring R] (m nd : Nat) (off : List Int) (dval : List R) : Mat R :=
  fun i j => ∑ d ∈ range nd, if off.getD d 0 = (j : Int) - (i : Int) then dval.getD (i + m * d) 0 else 0

end Verif
