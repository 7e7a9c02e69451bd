/-
Specification of products of a matrix with its own (conjugate) transpose.
Nothing here models library code.
-/
import Verif.Spec.Mm

namespace Verif
open Finset

variable {R : Type}

/-- op(M)·op(M)ᴴ, where op(M) has `K` columns: A·Aᴴ without operation, Aᴴ·A with the conjugate
transpose, Aᵀ·A with the transpose of a real matrix -/
def gram [Semiring R] [Star R] (op : Op) (M : Mat R) (K : Nat) : Mat R := fun i j =>
  ∑ k ∈ range K, applyOp op M i k * star (applyOp op M j k)

/-- position `(i, j)` of op(A)·op(A)ᴴ is a sum of at least one product of stored elements -/
def gramStored (op : Op) (ta : Bool) (A : Csr R) (i j : Nat) : Prop :=
  ∃ k < opCols op ta A, opStored op ta A i k ∧ opStored op ta A j k

/-- the sparse matrix `C` is the upper triangle, with the diagonal, of the `K × K` matrix `G`; elements
are stored only at positions in `P`, at most once -/
structure IsUpper [Semiring R] (K : Nat) (base : Int) (G : Mat R) (P : Nat → Nat → Prop) (C : Csr R) :
    Prop where
  m : C.m = K
  n : C.n = K
  base : C.base = base
  wf : C.WF
  nodup : C.NoDup
  upper : ∀ i j : Nat, i < K → (j : Int) ∈ C.cols i → i ≤ j ∧ P i j
  mat : ∀ i j : Nat, i ≤ j → j < K → C.mat i j = G i j

/-- the arrays hold the matrix `C`: the row pointers, and the elements at the front of arrays that may
be longer -/
structure HoldsCsr (C : Csr R) (ptr ind : List Int) (val : List R) : Prop where
  ptr : ptr = C.ptr
  ind : ind.take C.nnz = C.ind
  val : val.take C.nnz = C.val

end Verif
