/-
Calls on a matrix handle that the other modules model on the arrays and the copies of the handle.
-/
import Verif.Model.Mv
import Verif.Model.Csrmm

namespace Verif
namespace Model
variable {R : Type} [Zero R] [One R] [Add R] [Mul R] [DecidableEq R]

/-- csrmm.hpp:628 — `dynamic_cast<aoclsparse::csr *>`: the CSR object, if the object is one.  Simplified: a copy in
groups of four rows is a CSR object too; it has the identifier of the user's CSR arrays, which come first, so that the
search for an identifier never reaches it. -/
def Stored.csr? : Stored R → Option (MCopy R)
  | .csr c _ _ => some c
  | _ => none

/-- the objects of a handle after its CSR objects were changed to `cs`, in order -/
def putCopies : List (Stored R) → List (MCopy R) → List (Stored R)
  | .csr _ o iu :: l, c :: cs => .csr c o iu :: putCopies l cs
  | .csr c o iu :: l, [] => .csr c o iu :: l
  | s :: l, cs => s :: putCopies l cs
  | [], _ => []

/-- csrmm.hpp:447-480 — the status of aoclsparse_csrmm_t on a handle of another value type: the checks before the one
of the value type, and this one -/
def mmBadType (A : RawMat R) (op : Int) (d : Option Descr) (order : Int) (B C : Option (List R)) : Status :=
  match d, B, C with
  | some d, some _, some _ =>
    if A.fmt ≠ 0 then .notImplemented
    else if isOp op = false then .invalidValue
    else if d.type ≠ 0 ∧ d.type ≠ 1 ∧ d.type ≠ 2 then .notImplemented
    else if (d.type = 1 ∨ d.type = 2) ∧ A.um ≠ A.un then .invalidSize
    else if order ≠ 0 ∧ order ≠ 1 then .invalidValue
    else .wrongType
  | _, _, _ => .invalidPointer

/-- csrmm.hpp:429-838 — aoclsparse_csrmm_t on a handle: `csrmm` with the arrays of the handle and the CSR objects in
its list (null pointers are skipped by the cast).  `sameType`: the handle holds values of the type of the call.
Simplified: a handle without objects is refused first. -/
def csrmmH (w : Nat) (isReal : Bool) (tm : MmTeam) (ker : MmKernel R) (g : Garb R) (cj : R → R) (sameType : Bool)
    (op : Int) (alpha : R) (A : Option (MvHandle R)) (d : Option Descr) (order : Int) (B : Option (List R))
    (n ldb : Int) (beta : R) (C : Option (List R)) (ldc : Int) :
    Option (Status × Option (List R) × Option (MvHandle R)) :=
  match A with
  | none => some (.invalidPointer, C, none)
  | some H =>
    if sameType = false then some (mmBadType H.raw op d order B C, C, some H)
    else
      match H.mats with
      | [] => some (.notImplemented, C, some H)
      | s :: rest => do
        let r ← csrmm w isReal tm ker g cj op alpha (some H.raw) (rest.filterMap Stored.csr?) d order B n ldb beta C ldc
        some (r.1, r.2.1, some { H with mats := s :: putCopies rest r.2.2 })

end Model
end Verif
