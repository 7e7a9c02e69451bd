/-
Specification of the BSR format.  Nothing here models library code.
-/
import Verif.Spec.Mv
import Mathlib.Order.Interval.Finset.Nat

namespace Verif
open Finset

/-- A block sparse row matrix: `mb` x `nb` blocks of `bd` x `bd` elements. -/
structure Bsr (R : Type) where
  mb : Nat
  nb : Nat
  bd : Nat
  rowMajor : Bool
  base : Int
  ptr : List Int
  ind : List Int
  val : List R
  deriving DecidableEq, Repr

namespace Bsr
variable {R : Type} (B : Bsr R)

def p (i : Nat) : Int := B.ptr.getD i 0

/-- blocks of block row `i` are numbered from `lo i` to `hi i` (exclusive), counting from zero -/
def lo (i : Nat) : Nat := (B.p i - B.base).toNat
def hi (i : Nat) : Nat := (B.p (i + 1) - B.base).toNat

/-- zero-based block column of block `k` -/
def col (k : Nat) : Int := B.ind.getD k 0 - B.base

/-- position of element (r, c) inside a block -/
def pos (r c : Nat) : Nat := if B.rowMajor then r * B.bd + c else c * B.bd + r

/-- element (r, c) of block `k` -/
def elem [Zero R] (k r c : Nat) : R := B.val.getD (k * (B.bd * B.bd) + B.pos r c) 0

/-- A well-formed BSR structure: the pointers start at the base, do not decrease, and the arrays
hold the number of blocks they announce (the arrays may be longer). -/
structure WF : Prop where
  base01 : B.base = 0 ∨ B.base = 1
  bd_pos : 0 < B.bd
  ptr_len : B.ptr.length = B.mb + 1
  ptr_first : B.p 0 = B.base
  ptr_mono : ∀ i, i < B.mb → B.p i ≤ B.p (i + 1)
  ind_len : B.p B.mb - B.base ≤ B.ind.length
  val_len : (B.p B.mb - B.base) * (B.bd * B.bd : Nat) ≤ B.val.length
  ind_range : ∀ k : Nat, (k : Int) < B.p B.mb - B.base → 0 ≤ B.col k ∧ B.col k < B.nb

/-- the block columns of each block row are strictly increasing -/
def SortedBlocks : Prop :=
  ∀ I, I < B.mb → ∀ k l, B.lo I ≤ k → k < l → l < B.hi I → B.col k < B.col l

/-- The matrix denoted: an element is the sum of the corresponding elements of the blocks covering
it (`mb * bd` rows and `nb * bd` columns). -/
def mat [Semiring R] : Mat R := fun i j =>
  ∑ k ∈ Ico (B.lo (i / B.bd)) (B.hi (i / B.bd)),
    if B.col k = ((j / B.bd : Nat) : Int) then B.elem k (i % B.bd) (j % B.bd) else 0

end Bsr
end Verif
