/-
Specification of the elements of a product of two sparse matrices with dense result, in an arithmetic
without algebraic laws.  Nothing here models library code.
-/
import Verif.Spec.RoundedMm

namespace Verif

/-- the values stored at position `(i, j)` of op(A), in the order in which they are stored -/
def opVals {R : Type} (op : Op) (ta : Bool) (A : Csr R) (i j : Nat) : List R :=
  if ta != decide (op ≠ .none) then ((A.row j).filter fun e => e.1 = (i : Int)).map (·.2)
  else ((A.row i).filter fun e => e.1 = (j : Int)).map (·.2)

/-- the products `(alpha * a_ik) * b_kj` of the values stored in op(A) and op(B), for k = 0, 1, … -/
def mdProds {R : Type} [Mul R] (alpha : R) (opA : Op) (ta : Bool) (A : Csr R) (opB : Op) (tb : Bool) (B : Csr R)
    (i j : Nat) : List R :=
  (List.range (opCols opA ta A)).flatMap fun k =>
    (opVals opA ta A i k).flatMap fun a => (opVals opB tb B k j).map fun b => alpha * a * b

/-- an element of C after the multiplication by beta -/
def scaledCell {R : Type} [Zero R] [One R] [Mul R] [DecidableEq R] (beta c : R) : R :=
  if beta = 0 then 0 else if beta = 1 then c else beta * c

end Verif
