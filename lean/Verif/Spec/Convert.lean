/-
Specification of conversions between formats.  Nothing here models library code, except for the shape of
a handle, which is that of Model/Convert.
-/
import Verif.Model.Convert
import Verif.Spec.Mm
import Verif.Spec.Bsr

namespace Verif
open Model

variable {R : Type}

/-- the entry (row, column, value) of a matrix, as an entry of op of the matrix -/
def opEntry [Star R] (op : Op) (e : Int × Int × R) : Int × Int × R :=
  match op with
  | .none => e
  | .trans => (e.2.1, e.1, e.2.2)
  | .conjTrans => (e.2.1, e.1, star e.2.2)

/-- the entries of the matrix given by the arrays `A`, which are its rows or (`isT`) its columns, in the
order in which they are stored -/
def userTriples (isT : Bool) (A : Csr R) : List (Int × Int × R) :=
  if isT then A.triples.map swapRC else A.triples

/-- every row of `B` lists the entries of the list `T` in that row, in the order of `T` -/
def Csr.RowsOf (B : Csr R) (T : List (Int × Int × R)) : Prop :=
  ∀ i, i < B.m → B.row i = (T.filter fun e => e.1 = (i : Int)).map (·.2)

/-- the handle created from CSR arrays, or (`isT`) CSC arrays -/
def Csr.handle (vt : Nat) (isT : Bool) (A : Csr R) : CvH R :=
  ⟨userRows isT A, userCols isT A, A.nnz, vt, 0,
    some (.csr ⟨isT, A.m, A.n, A.nnz, A.base, A.ptr, A.ind, A.val⟩)⟩

/-- the handle created from COO arrays -/
def Coo.handle (vt : Nat) (A : Coo R) : CvH R :=
  ⟨A.m, A.n, A.row.length, vt, 7, some (.coo ⟨A.base, A.row, A.col, A.val⟩)⟩

/-- the handle of a BSR matrix -/
def Bsr.handle (vt : Nat) (B : Bsr R) : CvH R :=
  ⟨(B.mb * B.bd : Nat), (B.nb * B.bd : Nat), (B.ind.length * B.bd * B.bd : Nat), vt, 10,
    some (.bsr ⟨B.mb, B.nb, B.ind.length, B.bd, B.rowMajor, B.base, B.ptr, B.ind, B.val⟩)⟩

end Verif
