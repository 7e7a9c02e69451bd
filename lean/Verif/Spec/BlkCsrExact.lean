/-
Elements of a masked block CSR product in an arithmetic without algebraic laws: which operations are done,
and in which order.  Nothing here models library code.
-/
import Verif.Spec.BlkCsr
import Verif.Spec.MmExact

namespace Verif

variable {R : Type}

/-- a structure with its values mapped -/
def BlkCsr.mapTo {S : Type} (f : R → S) (B : BlkCsr R) : BlkCsr S :=
  ⟨B.m, B.n, B.base, B.nR, B.ptr, B.ind, B.masks, B.val.map f⟩

/-- lane `b` of row `r` of block `k`: the value stored there, zero if the mask says there is none -/
def BlkCsr.lane [Zero R] (B : BlkCsr R) (k r b : Nat) : R :=
  if (B.mask (k * B.nR + r)).testBit b then
    B.val.getD (B.valPos (k * B.nR + r) + ((List.range b).filter (B.mask (k * B.nR + r)).testBit).length) 0
  else 0

/-- what lane `b` of the register of row `i` multiplies: one pair for every block of the group of the row -/
def blkPairs [Zero R] (B : BlkCsr R) (x : List R) (g r b : Nat) : List (R × R) :=
  (List.range (B.hi g - B.lo g)).map fun t => (B.lane (B.lo g + t) r b, x.getD ((B.col (B.lo g + t)).toNat + b) 0)

variable [Zero R] [One R] [Add R] [Mul R] [DecidableEq R]

/-- the sum of eight lanes -/
def blkAdd8 (l : Nat → R) : R := ((l 0 + l 4) + (l 1 + l 5)) + ((l 2 + l 6) + (l 3 + l 7))

/-- sum of the products of row `i`: eight sums from left to right, then the sum of the lanes -/
def blkSum (B : BlkCsr R) (x : List R) (i : Nat) : R :=
  blkAdd8 fun b => dotLeft 0 (blkPairs B x (i / B.nR) (i % B.nR) b)

/-- element `i` of the result that was `w` -/
def blkElt (alpha beta : R) (B : BlkCsr R) (x : List R) (i : Nat) (w : R) : R :=
  let s := if alpha ≠ 1 then alpha * blkSum B x i else blkSum B x i
  if beta ≠ 0 then s + beta * w else s

end Verif
