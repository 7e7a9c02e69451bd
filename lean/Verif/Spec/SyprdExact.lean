/-
Specification of the elements of the dense product op(A)·B·op(A)ᵀ with a symmetric matrix B, in an arithmetic
without algebraic laws.  Nothing here models library code.
-/
import Verif.Spec.BsrExact
import Verif.Spec.Dense2
import Verif.Spec.MvErr

namespace Verif

variable {R : Type}

/-- the elements of row `i` of op(A), with their columns: in the order in which they are stored if the row is a
row of the stored matrix, otherwise in the order of the columns -/
def opRowL (op : Op) (isT : Bool) (A : Csr R) (i : Nat) : List (Nat × R) :=
  if isT != decide (op ≠ .none) then
    (List.range A.m).flatMap fun k => ((A.row k).filter fun e => e.1 = (i : Int)).map fun e => (k, e.2)
  else (A.row i).map fun e => (e.1.toNat, e.2)

/-- the symmetric matrix with the upper triangle that is stored in a dense array -/
def symUp [Zero R] (col : Bool) (ld : Nat) (B : List R) (k l : Nat) : R :=
  if k ≤ l then B.getD (denseOff col ld k l) 0 else B.getD (denseOff col ld l k) 0

/-- element `c` of a row `L` of op(A), times `alpha`, times B: the sum starts at 0; with row-major arrays the
elements of the row are multiplied by `alpha`, with column-major arrays the sum is -/
def pdT [Zero R] [Add R] [Mul R] (col : Bool) (ld : Nat) (B : List R) (alpha : R) (L : List (Nat × R)) (c : Nat) : R :=
  if col then dotRight 0 (L.map fun e => (e.2, symUp true ld B e.1 c)) * alpha
  else dotRight 0 (L.map fun e => (symUp false ld B e.1 c, alpha * e.2))

/-- an element of the result: the old one times `beta`, to which the products of the row `Li` times B with the
elements of the row `Lj` are added one after another -/
def pdElt [Zero R] [One R] [Add R] [Mul R] [DecidableEq R] (col : Bool) (ld : Nat) (B : List R) (alpha beta : R)
    (Li Lj : List (Nat × R)) (c : R) : R :=
  if alpha = 0 ∧ beta = 1 then c
  else
    let s := if beta = 0 then 0 else beta * c
    if alpha = 0 then s else dotRight s (Lj.map fun e => (pdT col ld B alpha Li e.1, e.2))

end Verif
