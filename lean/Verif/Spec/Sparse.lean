/-
Specification vocabulary for compressed sparse matrices.  Nothing here models
library code: these are the definitions a reader needs in order to read the
property theorems.
-/
import Mathlib.Algebra.BigOperators.Group.Finset.Basic
import Mathlib.Algebra.BigOperators.Group.List.Basic

namespace Verif



/-- A compressed sparse matrix as the three arrays of the API plus its
dimensions and index base.  `m` is the number of compressed rows.  A CSC
description of an `r × c` matrix is a `Csr` with `m = c`, `n = r`, whose
"rows" are the columns of the matrix. -/
structure Csr (R : Type) where
  m : Nat
  n : Nat
  base : Int
  ptr : List Int
  ind : List Int
  val : List R
  deriving DecidableEq, Repr

/-- exchange the row and column of a coordinate -/
def swapRC {R : Type} (e : Int × Int × R) : Int × Int × R := (e.2.1, e.1, e.2.2)

namespace Csr

variable {R : Type} (A : Csr R)

/-- number of stored entries -/
def nnz : Nat := A.ind.length

/-- pointer `i` (meaningful for `i ≤ m` in a well-formed matrix) -/
def p (i : Nat) : Int := A.ptr.getD i 0

/-- Well-formed CSR arrays: the library's documented input requirements. -/
structure WF : Prop where
  base01 : A.base = 0 ∨ A.base = 1
  ptr_len : A.ptr.length = A.m + 1
  ptr_first : A.p 0 = A.base
  ptr_mono : ∀ i, i < A.m → A.p i ≤ A.p (i + 1)
  ptr_last : A.p A.m = A.base + A.ind.length
  val_len : A.val.length = A.ind.length
  ind_range : ∀ c ∈ A.ind, A.base ≤ c ∧ c < A.base + A.n

/-- The stored entries of row `i`, in storage order, as (zero-based column, value). -/
def row (i : Nat) : List (Int × R) :=
  (((A.ind.zip A.val).drop (A.p i - A.base).toNat).take (A.p (i + 1) - A.p i).toNat).map
    fun e => (e.1 - A.base, e.2)

/-- All stored entries, row by row, as (row, zero-based column, value). -/
def entries : List (Nat × Int × R) :=
  (List.range A.m).flatMap fun i => (A.row i).map fun e => (i, e.1, e.2)

/-- All stored entries as (row, column, value) coordinates, zero-based. -/
def triples : List (Int × Int × R) := A.entries.map fun e => ((e.1 : Int), e.2.1, e.2.2)

/-- The matrix denoted: entry `(i, j)` is the sum of the values stored for it. -/
def entry [AddCommMonoid R] (i j : Nat) : R :=
  (((A.row i).filter fun e => e.1 = (j : Int)).map (·.2)).sum

/-- The value stored at `(i, j)` (the first one if there are several), zero if none.
Unlike `entry` it needs no addition, so it also makes sense for floating-point data. -/
def get [Zero R] (i j : Nat) : R :=
  (((A.row i).find? fun e => e.1 = (j : Int)).map (·.2)).getD 0

/-- no coordinate is stored twice -/
def NoDup : Prop := ∀ i, i < A.m → ((A.row i).map (·.1)).Nodup

/-- every row lists its columns in non-decreasing order -/
def Sorted : Prop := ∀ i, i < A.m → ((A.row i).map (·.1)).Pairwise (· ≤ ·)

instance : Decidable A.Sorted := by unfold Sorted; infer_instance
instance : Decidable A.NoDup := by unfold NoDup; infer_instance

instance : Decidable A.WF :=
  decidable_of_iff
    ((A.base = 0 ∨ A.base = 1) ∧ A.ptr.length = A.m + 1 ∧ A.p 0 = A.base ∧
      (∀ i, i < A.m → A.p i ≤ A.p (i + 1)) ∧ A.p A.m = A.base + A.ind.length ∧
      A.val.length = A.ind.length ∧ ∀ c ∈ A.ind, A.base ≤ c ∧ c < A.base + A.n)
    ⟨fun ⟨a, b, c, d, e, f, g⟩ => ⟨a, b, c, d, e, f, g⟩,
     fun ⟨a, b, c, d, e, f, g⟩ => ⟨a, b, c, d, e, f, g⟩⟩

end Csr

/-- offset of element (i, j) in a dense array with leading dimension `ld` -/
def denseOff (colOrder : Bool) (ld : Nat) (i j : Nat) : Nat :=
  if colOrder then i + ld * j else i * ld + j

/-- A coordinate (COO) matrix as the API's three arrays. -/
structure Coo (R : Type) where
  m : Nat
  n : Nat
  base : Int
  row : List Int
  col : List Int
  val : List R
  deriving DecidableEq, Repr

namespace Coo
variable {R : Type} (A : Coo R)

structure WF : Prop where
  base01 : A.base = 0 ∨ A.base = 1
  col_len : A.col.length = A.row.length
  val_len : A.val.length = A.row.length
  row_range : ∀ c ∈ A.row, A.base ≤ c ∧ c < A.base + A.m
  col_range : ∀ c ∈ A.col, A.base ≤ c ∧ c < A.base + A.n

/-- Stored entries in storage order as (zero-based row, zero-based column, value). -/
def entries : List (Int × Int × R) :=
  (A.row.zip (A.col.zip A.val)).map fun e => (e.1 - A.base, e.2.1 - A.base, e.2.2)

def entry [AddCommMonoid R] (i j : Nat) : R :=
  ((A.entries.filter fun e => e.1 = (i : Int) ∧ e.2.1 = (j : Int)).map (·.2.2)).sum

instance : Decidable A.WF :=
  decidable_of_iff
    ((A.base = 0 ∨ A.base = 1) ∧ A.col.length = A.row.length ∧ A.val.length = A.row.length ∧
      (∀ c ∈ A.row, A.base ≤ c ∧ c < A.base + A.m) ∧
      ∀ c ∈ A.col, A.base ≤ c ∧ c < A.base + A.n)
    ⟨fun ⟨a, b, c, d, e⟩ => ⟨a, b, c, d, e⟩, fun ⟨a, b, c, d, e⟩ => ⟨a, b, c, d, e⟩⟩

end Coo

end Verif
