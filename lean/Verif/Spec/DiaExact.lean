/-
The elements of a product with a matrix stored by diagonals in an arithmetic without algebraic laws: which
operations are done, and in which order.  Nothing here models library code.
-/
import Verif.Spec.BsrExact
import Verif.Spec.Dia

namespace Verif

variable {R : Type} [Zero R] [One R] [Add R] [Mul R] [DecidableEq R]

/-- the element of diagonal `d` in row `i` with the element of x it is multiplied with, if the diagonal
crosses that row -/
def diaPair (m n : Nat) (off : List Int) (dval x : List R) (i d : Nat) : Option (R × R) :=
  if 0 ≤ (i : Int) + off.getD d 0 ∧ (i : Int) + off.getD d 0 < n then
    some (dval.getD (i + m * d) 0, x.getD ((i : Int) + off.getD d 0).toNat 0)
  else none

/-- row `i`: the diagonals in the order in which they are stored -/
def diaPairs (m n nd : Nat) (off : List Int) (dval x : List R) (i : Nat) : List (R × R) :=
  (List.range nd).filterMap (diaPair m n off dval x i)

/-- new value of an element that was `w`, diagonal by diagonal: the products times alpha are added to the
element times beta -/
def diaByDiags (alpha beta w : R) (L : List (R × R)) : R :=
  L.foldl (fun r ab => r + alpha * ab.1 * ab.2) (if beta = 0 then 0 else if beta = 1 then w else beta * w)

/-- new value of an element that was `w`, row by row: the sum of the products times alpha, plus the element
times beta -/
def diaByRow (alpha beta w : R) (L : List (R × R)) : R :=
  let r := alpha * dotRight 0 L
  if beta = 0 then r else if beta = 1 then w + r else w * beta + r

end Verif
