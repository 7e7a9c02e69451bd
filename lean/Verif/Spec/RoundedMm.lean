/-
Specification of products of sparse matrices in an arithmetic without algebraic laws.  Nothing here
models library code.
-/
import Verif.Spec.Mm
import Verif.Spec.Rounding
import Verif.Spec.RoundedIlu

namespace Verif

/-- the matrix with `f` applied to every stored value -/
def Csr.mapTo {R S : Type} (f : R → S) (A : Csr R) : Csr S :=
  ⟨A.m, A.n, A.base, A.ptr, A.ind, A.val.map f⟩

/-- A number of an arithmetic `F` that remembers, if it is a product, its factors: adding it is then
the operation `c += a * b` of `F`, which may or may not be fused. -/
structure Lazy {R : Type} (F : Fpu R) where
  val : R
  fac : Option (R × R)

namespace Lazy
variable {R : Type} {F : Fpu R}
/-- a stored number -/
def of (F : Fpu R) (a : R) : Lazy F := ⟨a, none⟩
instance [Zero R] : Zero (Lazy F) := ⟨⟨0, none⟩⟩
instance [Mul R] : Mul (Lazy F) := ⟨fun a b => ⟨a.val * b.val, some (a.val, b.val)⟩⟩
instance [Add R] : Add (Lazy F) := ⟨fun c p => match p.fac with
  | some (a, b) => ⟨F.smac a b c.val, none⟩
  | none => ⟨c.val + p.val, none⟩⟩
end Lazy

/-- the number of entries stored at position `(i, j)` of op(A) -/
def opCount {R : Type} (op : Op) (ta : Bool) (A : Csr R) (i j : Nat) : Nat :=
  if ta != decide (op ≠ .none) then ((A.row j).map (·.1)).count (i : Int)
  else ((A.row i).map (·.1)).count (j : Int)

/-- the number of products `a_ik * b_kj` of stored entries that element `(i, j)` of op(A)·op(B) is a sum
of -/
def prodTerms {R : Type} (opA : Op) (ta : Bool) (A : Csr R) (opB : Op) (tb : Bool) (B : Csr R)
    (i j : Nat) : Nat :=
  ∑ k ∈ Finset.range (opCols opA ta A), opCount opA ta A i k * opCount opB tb B k j

/-- the value stored at position `(i, j)` of op(A), conjugated by `cj` if op is the conjugate transpose -/
def opStoredVal {R : Type} (cj : R → R) (op : Op) (ta : Bool) (A : Csr R) (i j : Nat) : Option R :=
  (if ta != decide (op ≠ .none) then A.stored j i else A.stored i j).map
    (if op = .conjTrans then cj else id)

/-- the sum of the elements of a list, added up from left to right -/
def sumLeft {R : Type} [Zero R] [Add R] : List R → R
  | [] => 0
  | v :: l => l.foldl (· + ·) v

/-- the products `a_ik * b_kj` of stored entries for increasing `k` -/
def prodVals {R : Type} [Mul R] (cj : R → R) (opA : Op) (ta : Bool) (A : Csr R) (opB : Op) (tb : Bool)
    (B : Csr R) (i j : Nat) : List R :=
  (List.range (opCols opA ta A)).filterMap fun k =>
    match opStoredVal cj opA ta A i k, opStoredVal cj opB tb B k j with
    | some a, some b => some (a * b)
    | _, _ => none

end Verif
