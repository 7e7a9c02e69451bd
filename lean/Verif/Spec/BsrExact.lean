/-
The elements of a product with a block sparse row matrix in an arithmetic without algebraic laws: which
operations are done, and in which order.  Nothing here models library code.
-/
import Verif.Spec.MmExact
import Verif.Spec.Bsr
import Verif.Model.Bsrmv

namespace Verif

variable {R : Type} [Zero R] [One R] [Add R] [Mul R] [DecidableEq R]

/-- the same structure with other values -/
def Bsr.mapTo {S : Type} (f : R → S) (B : Bsr R) : Bsr S :=
  ⟨B.mb, B.nb, B.bd, B.rowMajor, B.base, B.ptr, B.ind, B.val.map f⟩

/-- products added up from left to right, every product on the right of the sum so far -/
def dotRight (r : R) (L : List (R × R)) : R := L.foldl (fun r ab => r + ab.1 * ab.2) r

/-- the elements of row `r` of block `k`, each with the element of x it is multiplied with: first column
first, or last column first (`rev`) -/
def bsrBlockPairs (rev : Bool) (B : Bsr R) (x : List R) (k r : Nat) : List (R × R) :=
  (if rev then (List.range B.bd).reverse else List.range B.bd).map fun c =>
    (B.elem k r c, x.getD ((B.col k).toNat * B.bd + c) 0)

/-- row `r` of block row `I`: its blocks in the order in which they are stored -/
def bsrPairs (rev : Bool) (B : Bsr R) (x : List R) (I r : Nat) : List (R × R) :=
  (List.range (B.hi I - B.lo I)).flatMap fun t => bsrBlockPairs rev B x (B.lo I + t) r

/-- the three ways in which an element is computed -/
inductive BsrWay
  | general | unrolled | vector
  deriving DecidableEq, Repr

/-- which of them: by the data type and the size of the blocks alone -/
def bsrWay (ty : Model.ScalarTy) (bd : Nat) : BsrWay :=
  if (2 ≤ bd ∧ bd ≤ 8) ∨ bd = 16 then
    if (ty = .double ∧ (bd = 4 ∨ bd = 8 ∨ bd = 16)) ∨ (ty = .float ∧ (bd = 8 ∨ bd = 16)) then .vector
    else .unrolled
  else .general

/-- the sum of the products -/
def bsrSum (way : BsrWay) (B : Bsr R) (x : List R) (I r : Nat) : R :=
  match way with
  | .general => dotRight 0 (bsrPairs false B x I r)
  | _ => dotLeft 0 (bsrPairs true B x I r)

/-- beta times the old value `w` added -/
def bsrPlus (way : BsrWay) (beta s w : R) : R :=
  match way with
  | .vector => w * beta + s
  | _ => s + beta * w

/-- The new value of an element that was `w`: the sum of the products, times alpha unless that is one, plus
beta times the old value unless beta is zero. -/
def bsrElt (way : BsrWay) (alpha beta : R) (B : Bsr R) (x : List R) (w : R) (I r : Nat) : R :=
  let s := if alpha = 1 then bsrSum way B x I r else bsrSum way B x I r * alpha
  if beta = 0 then s else bsrPlus way beta s w

end Verif
