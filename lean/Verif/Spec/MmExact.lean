/-
The elements of a sparse times dense product in an arithmetic without algebraic laws: which operations
are done, and in which order.  Nothing here models library code.
-/
import Verif.Spec.Sparse
import Verif.Model.Csrmv
import Verif.Model.Csrmm

namespace Verif

variable {R : Type} [Zero R] [Add R] [Mul R]

/-- for every entry stored in row `i` of A the entry, conjugated by `cj`, and the element of column `j`
of B it is multiplied with -/
def mmPairs (cj : R → R) (col : Bool) (A : Csr R) (B : List R) (ldb i j : Nat) : List (R × R) :=
  (A.row i).map fun e => (cj e.2, B.getD (denseOff col ldb e.1.toNat j) 0)

/-- products added up from left to right, every product on the left of the sum so far -/
def dotLeft (r : R) (L : List (R × R)) : R := L.foldl (fun r ab => ab.1 * ab.2 + r) r

/-- products added up by registers of `K` elements, the rest one by one -/
def dotLanes (V : Model.Vec R) (K : Nat) (L : List (R × R)) : R :=
  dotLeft (if L.length / K ≠ 0 then
      0 + V.hsum ((List.range (L.length / K)).foldl (fun v t => V.fma ((L.drop (K * t)).take K) v) V.zero)
    else 0) (L.drop (K * (L.length / K)))

/-- element of the result that was `c`, scalar code, column-major: `beta * c + alpha * (sum of products)` -/
def mmEltCol (alpha beta c : R) (L : List (R × R)) : R := beta * c + alpha * dotLeft 0 L

/-- element of the result, vector code, column-major -/
def mmEltColVec (V : Model.Vec R) (K : Nat) (alpha beta c : R) (L : List (R × R)) : R :=
  dotLanes V K L * alpha + beta * c

/-- element of the result, scalar code, row-major: the products are added to the scaled element -/
def mmEltRow (alpha beta c : R) (L : List (R × R)) : R :=
  L.foldl (fun x ab => x + ab.1 * ab.2 * alpha) (c * beta)

/-- element of the result, vector code, row-major -/
def mmEltRowVec (alpha beta c : R) (L : List (R × R)) : R :=
  L.foldl (fun x ab => alpha * ab.1 * ab.2 + x) (c * beta)

/-- element `j` of a row of `n` elements, vector code -/
def mmEltRowKt (K n : Nat) (alpha beta c : R) (j : Nat) (L : List (R × R)) : R :=
  if j < K * (n / K) then mmEltRowVec alpha beta c L else mmEltRow alpha beta c L

/-- element `(i, j)` of the result that was `c`, by kernel and layout -/
def mmElt (ker : Model.MmKernel R) (col : Bool) (n : Nat) (alpha beta : R) (j : Nat) (L : List (R × R)) (c : R) : R :=
  match ker, col with
  | .ref, true => mmEltCol alpha beta c L
  | .ref, false => mmEltRow alpha beta c L
  | .kt K V, true => mmEltColVec V K alpha beta c L
  | .kt K _, false => mmEltRowKt K n alpha beta c j L

end Verif
