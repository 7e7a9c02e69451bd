/-
Specification of triple products of sparse matrices with a symmetric or Hermitian matrix in the middle.
Nothing here models library code.
-/
import Verif.Spec.Syrk

namespace Verif
open Finset

variable {R : Type}

/-- op(M)·S·op(M)ᴴ, where op(M) has `K` columns -/
def triple [Semiring R] [Star R] (op : Op) (M S : Mat R) (K : Nat) : Mat R := fun i j =>
  ∑ k ∈ range K, ∑ l ∈ range K, applyOp op M i k * S k l * star (applyOp op M j l)

/-- position `(k, l)` of the symmetric matrix described by the triangle `f` of B is stored; the diagonal
always counts as stored -/
def symStored (f : Fill) (B : Csr R) (k l : Nat) : Prop :=
  k = l ∨ (strictTri f k l ∧ (l : Int) ∈ B.cols k) ∨ (strictTri f l k ∧ (k : Int) ∈ B.cols l)

/-- position `(i, j)` of op(A)·B·op(A)ᴴ is a sum of at least one product of stored elements -/
def tripleStored (op : Op) (ta : Bool) (A : Csr R) (f : Fill) (B : Csr R) (i j : Nat) : Prop :=
  ∃ k < opCols op ta A, ∃ l < opCols op ta A,
    opStored op ta A i k ∧ symStored f B k l ∧ opStored op ta A j l

open Classical in
/-- the number of elements of the result: the positions of the upper triangle that are sums of products
of stored elements; none if B has no elements -/
noncomputable def tripleCount (op : Op) (ta : Bool) (A : Csr R) (f : Fill) (B : Csr R) : Nat :=
  if B.nnz = 0 then 0
  else Set.ncard {p : Nat × Nat | p.1 ≤ p.2 ∧ p.2 < opRows op ta A ∧ tripleStored op ta A f B p.1 p.2}

/-- the number of elements of B·op(A)ᴴ, which is computed on the way -/
noncomputable def tempCount (op : Op) (ta : Bool) (A : Csr R) (f : Fill) (B : Csr R) : Nat :=
  Set.ncard {p : Nat × Nat | p.1 < opCols op ta A ∧ p.2 < opRows op ta A ∧
    ∃ l < opCols op ta A, symStored f B p.1 l ∧ opStored op ta A p.2 l}

end Verif
