/-
The value types in the products of two sparse matrices
  library/src/level3/aoclsparse_sp2m.cpp   27-50
  library/src/level3/aoclsparse_csr2m.cpp  311-534  (which element of the values of C is written, as bytes)
-/
import Verif.Core.Mem
import Verif.Core.Types

namespace Verif
namespace Model

/-- aoclsparse_types.h:203-209 — the value types -/
inductive ValTy
  | s | d | c | z
  deriving DecidableEq

/-- aoclsparse_mat_structures.hpp:201 — bytes of a value -/
def ValTy.size : ValTy → Int
  | .s => 4
  | .d => 8
  | .c => 8
  | .z => 16

/-- sp2m.cpp:40-49, spmm.cpp:53-64, sypr.cpp:37-46 — the instance of the template called for matrices of the two types -/
def spInstance (a b : ValTy) : Except Status ValTy :=
  if a = .s ∧ b = .s then .ok .s
  else if a = .d ∧ b = .d then .ok .d
  else if a = .c ∧ b = .c then .ok .c
  else if a = .z ∧ b = .z then .ok .z
  else .error .wrongType

/-- csr2m.cpp:396, 408, 500 — the store of element `k` of type `T` into the values of C, an array of `nnz` elements of
type `tC` seen as bytes; undefined if it does not fit -/
def finStore (T tC : ValTy) (nnz k : Int) (_ : Unit) : Option Unit :=
  if 0 ≤ k ∧ (k + 1) * T.size ≤ nnz * tC.size then some () else none

/-- sp2m.cpp:27-50, csr2m.cpp:311-534 — the finalize stage on matrices of types `a` and `b` and a result made by the
counting stage for values of type `tC`: which values of C are written.  Simplified: all other arguments are those of
the counting stage, and the elements of C are written in order.  The type of C is not looked at. -/
def finTypes (a b tC : ValTy) (nnz : Int) : Option Status :=
  match spInstance a b with
  | .error e => some e
  | .ok T => do
    forC 0 nnz (finStore T tC nnz) ()
    some .success

end Model
end Verif
