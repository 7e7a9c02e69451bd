/-
Specification of matrix products.
-/
import Verif.Spec.Mv
import Verif.Spec.MatCheck
import Mathlib.Data.Set.Card

namespace Verif
open Finset

variable {R : Type}

/-- the product of an `·×K` and a `K×·` matrix -/
def matMul [Semiring R] (K : Nat) (M N : Mat R) : Mat R := fun i j => ∑ k ∈ range K, M i k * N k j

/-- number of rows of op(A) -/
def opRows (op : Op) (ta : Bool) (A : Csr R) : Nat :=
  if op = .none then userRows ta A else userCols ta A
/-- number of columns of op(A) -/
def opCols (op : Op) (ta : Bool) (A : Csr R) : Nat :=
  if op = .none then userCols ta A else userRows ta A

/-- position `(i, j)` of op(A)·op(B) is a sum of at least one stored product -/
def prodStored (opA : Op) (ta : Bool) (A : Csr R) (opB : Op) (tb : Bool) (B : Csr R)
    (i j : Nat) : Prop :=
  ∃ k < opCols opA ta A, opStored opA ta A i k ∧ opStored opB tb B k j

/-- the number of positions of op(A)·op(B) that are sums of stored products -/
noncomputable def prodCount (opA : Op) (ta : Bool) (A : Csr R) (opB : Op) (tb : Bool)
    (B : Csr R) : Nat :=
  Set.ncard {p : Nat × Nat | p.1 < opRows opA ta A ∧ p.2 < opCols opB tb B ∧
    prodStored opA ta A opB tb B p.1 p.2}

/-- `C'` is `alpha * M * B + beta * C`, where `M` is `m × k`, `B` is a dense `k × n` and `C` a dense
`m × n` matrix with leading dimensions `ldb` and `ldc`, in column- or row-major order; nothing else
in the array changes. -/
structure IsMm [Semiring R] (col : Bool) (alpha beta : R) (M : Mat R) (m k n ldb ldc : Nat)
    (B C C' : List R) : Prop where
  length : C'.length = C.length
  cells : ∀ i j, i < m → j < n → C'[denseOff col ldc i j]? =
    some (alpha * (∑ l ∈ range k, M i l * B.getD (denseOff col ldb l j) 0) +
      beta * C.getD (denseOff col ldc i j) 0)
  rest : ∀ p, (∀ i j, i < m → j < n → p ≠ denseOff col ldc i j) → C'[p]? = C[p]?

/-- in the `m × n` window of a dense array with leading dimension `ld` every element `c` at `(i, j)` is
replaced by `F i j c`; nothing else in the array changes -/
structure IsCells [Zero R] (col : Bool) (m n ld : Nat) (F : Nat → Nat → R → R) (C C' : List R) : Prop where
  length : C'.length = C.length
  cells : ∀ i j, i < m → j < n →
    C'[denseOff col ld i j]? = some (F i j (C.getD (denseOff col ld i j) 0))
  rest : ∀ p, (∀ i j, i < m → j < n → p ≠ denseOff col ld i j) → C'[p]? = C[p]?

/-- the same dimensions and stored positions -/
def SamePat (A A' : Csr R) : Prop :=
  A'.m = A.m ∧ A'.n = A.n ∧ ∀ i c, c ∈ A'.cols i ↔ c ∈ A.cols i

end Verif
