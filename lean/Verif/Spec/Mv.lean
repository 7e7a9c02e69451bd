/-
Specification of matrix-vector products.  Nothing here models library code.
-/
import Verif.Spec.Operator
import Verif.Spec.Sparse
import Mathlib.Algebra.BigOperators.Group.Finset.Basic
import Mathlib.Algebra.BigOperators.Ring.Finset

namespace Verif
open Finset

/-- `(M x)_i`, the first `n` columns of `M`; `x` is a vector given as a list -/
def matVec {R : Type} [Semiring R] (M : Mat R) (n : Nat) (x : List R) (i : Nat) : R :=
  ∑ j ∈ range n, M i j * x.getD j 0

/-- `y'` is `alpha * M * x + beta * y` on its first `m` cells and equals `y` elsewhere. -/
structure IsMv {R : Type} [Semiring R] (alpha beta : R) (M : Mat R) (m n : Nat)
    (x y y' : List R) : Prop where
  length : y'.length = y.length
  rows : ∀ i, i < m → y'[i]? = some (alpha * matVec M n x i + beta * y.getD i 0)
  rest : ∀ i, m ≤ i → y'[i]? = y[i]?

/-- the matrix stored in a CSR structure (duplicate entries add up) -/
def Csr.mat {R : Type} [Semiring R] (A : Csr R) : Mat R := A.entry

/-- the matrix a user describes by the arrays `A`: they are its rows (CSR, `isT = false`) or its
columns (CSC, `isT = true`) -/
def userMat {R : Type} [Semiring R] (isT : Bool) (A : Csr R) : Mat R :=
  if isT then transM A.mat else A.mat

/-- number of rows of the user's matrix -/
def userRows {R : Type} (isT : Bool) (A : Csr R) : Nat := if isT then A.n else A.m
/-- number of columns of the user's matrix -/
def userCols {R : Type} (isT : Bool) (A : Csr R) : Nat := if isT then A.m else A.n

/-- the user's matrix has a stored entry at `(i, j)` -/
def userStored {R : Type} (isT : Bool) (A : Csr R) (i j : Nat) : Prop :=
  if isT then (i : Int) ∈ (A.row j).map (·.1) else (j : Int) ∈ (A.row i).map (·.1)

/-- op(A) has a stored entry at `(i, j)`; `op` is the operation, `ta` the orientation of the
arrays -/
def opStored {R : Type} (op : Op) (ta : Bool) (A : Csr R) (i j : Nat) : Prop :=
  if op = .none then userStored ta A i j else userStored ta A j i

end Verif
