/-
Specification: a matrix given by its two triangles.  Nothing here models library code.
-/
import Verif.Spec.Sparse
import Verif.Spec.MatCheck
import Verif.Spec.Mv

namespace Verif
variable {R : Type}

/-- `L` lists, row by row, entries of a lower triangle; each row ends with its only diagonal entry. -/
structure IsLowerPart (L : Csr R) : Prop where
  first : L.p 0 = L.base
  mono : ∀ i, i < L.m → L.p i ≤ L.p (i + 1)
  rows : ∀ i, i < L.m → ∃ l, L.cols i = l ++ [(i : Int)] ∧ ∀ j ∈ l, 0 ≤ j ∧ j < i

/-- `U` lists, row by row, entries of an upper triangle; each row begins with its only diagonal
entry. -/
structure IsUpperPart (U : Csr R) : Prop where
  first : U.p 0 = U.base
  mono : ∀ i, i < U.m → U.p i ≤ U.p (i + 1)
  rows : ∀ i, i < U.m → ∃ l, U.cols i = (i : Int) :: l ∧ ∀ j ∈ l, (i : Int) < j ∧ j < U.n

/-- the matrix whose lower triangle with the diagonal is in `L` and whose strictly upper triangle is
in `U` -/
def pairMat [Semiring R] (L U : Csr R) : Mat R := fun i j => if j ≤ i then L.mat i j else U.mat i j

/-- the data a request reads: all of the pair if the matrix type is general, else the triangle named
by the fill mode, with the diagonal of that triangle -/
def readMat [Semiring R] (t : MType) (f : Fill) (L U : Csr R) : Mat R :=
  match t, f with
  | .general, _ => pairMat L U
  | _, .lower => L.mat
  | _, .upper => U.mat

/-- the two structures agree on the diagonal -/
def SameDiag [Semiring R] (L U : Csr R) : Prop := ∀ i, i < L.m → L.mat i i = U.mat i i

/-- the arrays of a compressed structure are as long as its pointers say -/
structure Sized (A : Csr R) : Prop where
  ptr : A.ptr.length = A.m + 1
  ind : A.p A.m = A.base + A.ind.length
  val : A.val.length = A.ind.length

end Verif
