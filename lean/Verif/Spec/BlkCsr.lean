/-
Specification of the masked block CSR format (`nR` x 8 blocks).  Nothing here models library code.
-/
import Verif.Spec.Mv

namespace Verif
open Finset

/-- positions of the set bits of a byte, lowest first -/
def bitPos (mk : Nat) : List Nat := (List.range 8).filter mk.testBit

/-- A block CSR matrix: groups of `nR` rows are cut into blocks 8 columns wide.  A block has a first
column and `nR` byte masks saying which of the 8 columns of each row are present; the values present
are stored block after block, row after row. -/
structure BlkCsr (R : Type) where
  m : Nat
  n : Nat
  base : Int
  nR : Nat
  ptr : List Int
  ind : List Int
  masks : List Nat
  val : List R

namespace BlkCsr
variable {R : Type} (B : BlkCsr R)

/-- blocks of group `g` are numbered from `lo g` to `hi g` (exclusive), counting from zero -/
def lo (g : Nat) : Nat := (B.ptr.getD (g * B.nR) 0 - B.base).toNat
def hi (g : Nat) : Nat := (B.ptr.getD (g * B.nR + 1) 0 - B.base).toNat

/-- number of row groups -/
def groups : Nat := (B.m + B.nR - 1) / B.nR

/-- total number of blocks -/
def nblocks : Nat := (B.ptr.getD B.m 0 - B.base).toNat

/-- zero-based first column of block `k` -/
def col (k : Nat) : Int := B.ind.getD k 0 - B.base

/-- mask number `q` (row `r` of block `k` has number `k * nR + r`) -/
def mask (q : Nat) : Nat := B.masks.getD q 0

/-- where the values of mask `q` start: all values announced by earlier masks come before -/
def valPos (q : Nat) : Nat := ((List.range q).map fun t => (bitPos (B.mask t)).length).sum

/-- entries (column, value) of row `r` of block `k` -/
def cell (k r : Nat) : List (Int × R) :=
  List.zip ((bitPos (B.mask (k * B.nR + r))).map fun (b : Nat) => B.col k + (b : Int))
    (B.val.drop (B.valPos (k * B.nR + r)))

/-- entries of matrix row `i` -/
def row (i : Nat) : List (Int × R) :=
  (List.range (B.hi (i / B.nR) - B.lo (i / B.nR))).flatMap fun t =>
    B.cell (B.lo (i / B.nR) + t) (i % B.nR)

/-- Well-formedness: groups follow each other, every block lies inside the columns of the matrix,
and the arrays hold what the pointers and masks announce. -/
structure WF : Prop where
  base01 : B.base = 0 ∨ B.base = 1
  nR_pos : 0 < B.nR
  ptr_len : B.m + 1 ≤ B.ptr.length
  ptr_base : ∀ i, i ≤ B.m → B.base ≤ B.ptr.getD i 0
  lo_zero : B.lo 0 = 0
  lo_hi : ∀ g, g < B.groups → B.lo g ≤ B.hi g
  hi_lo : ∀ g, g + 1 < B.groups → B.hi g = B.lo (g + 1)
  hi_last : ∀ g, g + 1 = B.groups → B.hi g = B.nblocks
  ind_len : B.nblocks ≤ B.ind.length
  masks_len : B.nblocks * B.nR ≤ B.masks.length
  val_len : B.valPos (B.nblocks * B.nR) ≤ B.val.length
  col_range : ∀ k, k < B.nblocks → 0 ≤ B.col k ∧ B.col k + 8 ≤ B.n

/-- The matrix denoted. -/
def mat [Semiring R] : Mat R := fun i j =>
  (((B.row i).filter fun e => e.1 = (j : Int)).map Prod.snd).sum

end BlkCsr
end Verif
