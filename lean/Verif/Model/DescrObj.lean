/-
Model of the matrix descriptor objects: library/src/include/aoclsparse_descr.h and the functions of
library/src/extra/aoclsparse_auxiliary.cpp:191-363 that create, copy, destroy, change and read them.

The heap holds the descriptors in the order of their creation; the address of a descriptor is its
number in that order and a destroyed one leaves `none` behind (an address is never used again).  A
descriptor pointer of the caller is `none` (null) or `some a`; two pointers of the caller may be the
same.  Access to a destroyed or never created descriptor is undefined: `none`.  Enum arguments are
arbitrary integers, as a C caller can pass them.
-/
import Verif.Core.Mem
import Verif.Core.Types

namespace Verif
namespace Model

/-- aoclsparse_descr.h:36-46 — _aoclsparse_mat_descr with its default values -/
structure DescObj where
  type : Int := 0
  fill : Int := 0
  diag : Int := 0
  base : Int := 0
deriving DecidableEq, Repr

/-- the descriptors created so far; `none`: deleted -/
abbrev DHeap := List (Option DescObj)

/-- dereference of a descriptor pointer that is not null -/
def DHeap.load (h : DHeap) (a : Nat) : Option DescObj := (h[a]?).join

/-- a store through a descriptor pointer that is not null -/
def DHeap.store (h : DHeap) (a : Nat) (d : DescObj) : Option DHeap :=
  match h.load a with
  | none => none
  | some _ => some (h.set a (some d))

/-- auxiliary.cpp:191-210 — aoclsparse_create_mat_descr: `out` tells whether the place for the result
is given, `fails` whether `new` throws bad_alloc.  Returns the status, the address written to the
caller's variable if any, and the heap. -/
def createDescr (h : DHeap) (out fails : Bool) : Status × Option Nat × DHeap :=
  if out = false then (.invalidPointer, none, h)
  else if fails then (.memoryError, none, h)
  else (.success, some h.length, h ++ [some ({} : DescObj)])

/-- auxiliary.cpp:215-233 — aoclsparse_copy_mat_descr -/
def copyDescr (h : DHeap) (dest src : Option Nat) : Option (Status × DHeap) :=
  match dest, src with
  | none, _ => some (.invalidPointer, h)
  | some _, none => some (.invalidPointer, h)
  | some d, some s => do
    let x ← h.load s
    let y ← h.load d
    let h ← h.store d { y with type := x.type, fill := x.fill, diag := x.diag, base := x.base }
    some (.success, h)

/-- auxiliary.cpp:238-246 — aoclsparse_destroy_mat_descr -/
def destroyDescr (h : DHeap) (p : Option Nat) : Option (Status × DHeap) :=
  match p with
  | none => some (.success, h)
  | some a => do
    let _ ← h.load a
    some (.success, h.set a none)

/-- auxiliary.cpp:251-265 — aoclsparse_set_mat_index_base -/
def setMatIndexBase (h : DHeap) (p : Option Nat) (base : Int) : Option (Status × DHeap) :=
  match p with
  | none => some (.invalidPointer, h)
  | some a =>
    if base ≠ 0 ∧ base ≠ 1 then some (.invalidValue, h)
    else do
      let d ← h.load a
      let h ← h.store a { d with base := base }
      some (.success, h)

/-- auxiliary.cpp:270-280 — aoclsparse_get_mat_index_base -/
def getMatIndexBase (h : DHeap) (p : Option Nat) : Option Int :=
  match p with
  | none => some 0
  | some a => do
    let d ← h.load a
    some d.base

/-- auxiliary.cpp:285-300 — aoclsparse_set_mat_type -/
def setMatType (h : DHeap) (p : Option Nat) (type : Int) : Option (Status × DHeap) :=
  match p with
  | none => some (.invalidPointer, h)
  | some a =>
    if type ≠ 0 ∧ type ≠ 1 ∧ type ≠ 2 ∧ type ≠ 3 then some (.invalidValue, h)
    else do
      let d ← h.load a
      let h ← h.store a { d with type := type }
      some (.success, h)

/-- auxiliary.cpp:305-315 — aoclsparse_get_mat_type -/
def getMatType (h : DHeap) (p : Option Nat) : Option Int :=
  match p with
  | none => some 0
  | some a => do
    let d ← h.load a
    some d.type

/-- auxiliary.cpp:317-331 — aoclsparse_set_mat_fill_mode -/
def setMatFillMode (h : DHeap) (p : Option Nat) (fill : Int) : Option (Status × DHeap) :=
  match p with
  | none => some (.invalidPointer, h)
  | some a =>
    if fill ≠ 0 ∧ fill ≠ 1 then some (.invalidValue, h)
    else do
      let d ← h.load a
      let h ← h.store a { d with fill := fill }
      some (.success, h)

/-- auxiliary.cpp:333-341 — aoclsparse_get_mat_fill_mode -/
def getMatFillMode (h : DHeap) (p : Option Nat) : Option Int :=
  match p with
  | none => some 0
  | some a => do
    let d ← h.load a
    some d.fill

/-- auxiliary.cpp:343-358 — aoclsparse_set_mat_diag_type -/
def setMatDiagType (h : DHeap) (p : Option Nat) (diag : Int) : Option (Status × DHeap) :=
  match p with
  | none => some (.invalidPointer, h)
  | some a =>
    if diag ≠ 1 ∧ diag ≠ 0 ∧ diag ≠ 2 then some (.invalidValue, h)
    else do
      let d ← h.load a
      let h ← h.store a { d with diag := diag }
      some (.success, h)

/-- auxiliary.cpp:360-368 — aoclsparse_get_mat_diag_type -/
def getMatDiagType (h : DHeap) (p : Option Nat) : Option Int :=
  match p with
  | none => some 0
  | some a => do
    let d ← h.load a
    some d.diag

end Model
end Verif
