/-
Model of the calls that change the values of a handle, reorder it, copy it or give its arrays back:
  library/src/extra/aoclsparse_auxiliary.hpp 215-270 (update_values), 313-473 (export_coo, set_value)
  library/src/extra/aoclsparse_auxiliary.cpp 775-878 (copy, order_mat), 1156-1297 (copy of the arrays,
  sort_mat), 1302-1412 (export_csr, export_csc)
for handles created from CSR, CSC or COO arrays.
-/
import Verif.Model.Symgs
import Verif.Model.Ilu
import Verif.Spec.Sparse

namespace Verif
namespace Model

variable {R : Type}

/-! ### set_value -/

/-- auxiliary.hpp:404-411 — one position of the row: `error` is the early return after the write -/
def setCsrScan (ind : List Int) (col : Int) (v : R) (i : Int) (val : List R) :
    Option (Except (List R) (List R)) := do
  let c ← rd ind i
  if c = col then do
    let val ← wr val i v
    some (.error val)
  else some (.ok val)

/-- auxiliary.hpp:387-413 — aoclsparse_set_csr_value (pointers not null) -/
def setCsrValue (base : Int) (ptr ind : List Int) (val : List R) (row col : Int) (v : R) :
    Option (Status × List R) :=
  if base ≠ 1 ∧ base ≠ 0 then some (.invalidValue, val)
  else do
    let b ← rd ptr (row - base)
    let e ← rd ptr (row - base + 1)
    let r ← forE (b - base) (e - base) (setCsrScan ind col v) val
    match r with
    | .error val => some (.success, val)
    | .ok val => some (.invalidIndexValue, val)

/-- auxiliary.hpp:374-383 — one position of a COO matrix -/
def setCooScan (rows cols : List Int) (row col : Int) (v : R) (i : Int) (val : List R) :
    Option (Except (List R) (List R)) := do
  let r ← rd rows i
  if r = row then do
    let c ← rd cols i
    if c = col then do
      let val ← wr val i v
      some (.error val)
    else some (.ok val)
  else some (.ok val)

/-- auxiliary.hpp:356-385 — aoclsparse_set_coo_value (pointers not null) -/
def setCooValue (nnz : Int) (rows cols : List Int) (val : List R) (row col : Int) (v : R) :
    Option (Status × List R) := do
  let r ← forE 0 nnz (setCooScan rows cols row col v) val
  match r with
  | .error val => some (.success, val)
  | .ok val => some (.invalidIndexValue, val)

/-- auxiliary.hpp:255-269, 462-471 — the handle after a change of the values of its first object: the
user's array holds `val`, the other objects are deleted and their pointers set to null. -/
def MvHandle.newVals (H : MvHandle R) (val : List R) : MvHandle R :=
  match H.mats with
  | .csr c o iu :: rest =>
    { H with
      raw := { H.raw with val := val }
      mats := [.csr { c with val := val } o iu]
      nulls := H.nulls + rest.length }
  | _ => H

/-- auxiliary.hpp:426-433 — the coordinate is outside the matrix -/
def outOfRange (m n base row col : Int) : Bool :=
  decide ((m + base ≤ row ∨ row < base) ∨ (n + base ≤ col ∨ col < base))

/-- auxiliary.hpp:415-473 — aoclsparse_set_value_t on a CSR or CSC handle.  `sameType`: the handle holds
values of the type of the call. -/
def setValue (sameType : Bool) (A : Option (MvHandle R)) (row col : Int) (v : R) :
    Option (Status × Option (MvHandle R)) :=
  match A with
  | none => some (.invalidPointer, none)
  | some H =>
    match H.mats with
    | [] => some (.invalidPointer, some H)
    | .csr c o iu :: rest =>
      if outOfRange H.raw.um H.raw.un c.base row col then some (.invalidValue, some H)
      else if sameType = false then some (.wrongType, some H)
      else do
        let r ← setCsrValue c.base c.ptr c.ind c.val (if c.doid = gt then col else row)
          (if c.doid = gt then row else col) v
        if r.1 ≠ .success then some (r.1, some H)
        else some (.success, some (H.newVals r.2))
    | _ => some (.notImplemented, some H)

/-- auxiliary.hpp:415-473 — aoclsparse_set_value_t on a COO handle -/
def setValueCoo (sameType : Bool) (A : Option (Coo R)) (row col : Int) (v : R) :
    Option (Status × Option (Coo R)) :=
  match A with
  | none => some (.invalidPointer, none)
  | some C =>
    if outOfRange C.m C.n C.base row col then some (.invalidValue, some C)
    else if sameType = false then some (.wrongType, some C)
    else do
      let r ← setCooValue C.row.length C.row C.col C.val row col v
      if r.1 ≠ .success then some (r.1, some C)
      else some (.success, some { C with val := r.2 })

/-! ### update_values -/

/-- memcpy of `len` values over the front of `dst`; undefined if one of the arrays is shorter -/
def copyVals (len : Int) (src dst : List R) : Option (List R) :=
  if 0 ≤ len ∧ len ≤ src.length ∧ len ≤ dst.length then
    some (src.take len.toNat ++ dst.drop len.toNat)
  else none

/-- auxiliary.hpp:215-270 — aoclsparse_update_values_t on a CSR or CSC handle -/
def updateValues (sameType : Bool) (A : Option (MvHandle R)) (len : Int) (val : Option (List R)) :
    Option (Status × Option (MvHandle R)) :=
  match A, val with
  | some H, some val =>
    match H.mats with
    | [] => some (.invalidPointer, some H)
    | .csr c o iu :: rest =>
      if len ≠ H.raw.nnz then some (.invalidSize, some H)
      else if sameType = false then some (.wrongType, some H)
      else do
        let v ← copyVals len val c.val
        some (.success, some (H.newVals v))
    | _ => some (.notImplemented, some H)
  | A, _ => some (.invalidPointer, A)

/-- auxiliary.hpp:215-270 — aoclsparse_update_values_t on a COO handle -/
def updateValuesCoo (sameType : Bool) (A : Option (Coo R)) (len : Int) (val : Option (List R)) :
    Option (Status × Option (Coo R)) :=
  match A, val with
  | some C, some val =>
    if len ≠ C.row.length then some (.invalidSize, some C)
    else if sameType = false then some (.wrongType, some C)
    else do
      let v ← copyVals len val C.val
      some (.success, some { C with val := v })
  | A, _ => some (.invalidPointer, A)

/-- auxiliary.hpp:215-270, 415-473 — an update as the smoother of Model/Ilu sees it: the user's values
change, `ilu_info` does not -/
def IluHandle.newVals (H : IluHandle R) (val : List R) : IluHandle R :=
  { H with raw := { H.raw with val := val } }

/-! ### order_mat -/

/-- auxiliary.cpp:1258-1297 — aoclsparse_sort_mat on the first object.  The number of rows of the user's
matrix is passed also for CSC arrays. -/
def sortMat (srt : (Int → Int → Bool) → List Int → List Int) (m nnz base : Int) (ptr ind : List Int)
    (val : List R) : Option (List Int × List R) :=
  sortIdxVal srt m nnz base ptr ind val base ind val

/-- auxiliary.cpp:840-878 — aoclsparse_order_mat on a CSR or CSC handle -/
def orderMat (srt : (Int → Int → Bool) → List Int → List Int) (A : Option (MvHandle R)) :
    Option (Status × Option (MvHandle R)) :=
  match A with
  | none => some (.invalidPointer, none)
  | some H =>
    if H.raw.um < 0 ∨ H.raw.un < 0 ∨ H.raw.nnz < 0 then some (.invalidValue, some H)
    else if H.raw.fmt ≠ 0 then some (.notImplemented, some H)
    else if H.raw.um = 0 ∨ H.raw.un = 0 ∨ H.raw.nnz = 0 then some (.success, some H)
    else match H.mats with
      | .csr c o iu :: rest => do
        let r ← sortMat srt H.raw.um H.raw.nnz c.base c.ptr c.ind c.val
        some (.success, some { H with
          raw := { H.raw with ind := r.1, val := r.2 }
          mats := .csr { c with ind := r.1, val := r.2 } o iu :: rest })
      | _ => some (.notImplemented, some H)

/-! ### export -/

/-- what a call of export returns: the arrays of an object and the sizes; `pos` is the position of the
object in the list of the handle (0: the user's own arrays) -/
structure Exported (R : Type) where
  pos : Nat
  base : Int
  m : Int
  n : Int
  nnz : Int
  ptr : List Int
  ind : List Int
  val : List R

/-- auxiliary.cpp:1325-1338, 1385-1397 — the loop over the objects: `want` says which ones qualify; the
last one is taken unless an optimized one is met.  `i` is the position, `best` the object so far. -/
def exportFrom (want : MCopy R → Bool) : List (Stored R) → Nat → Option (Nat × MCopy R) →
    Option (Nat × MCopy R)
  | [], _, best => best
  | .csr c o _ :: l, i, best =>
    if want c then if o then some (i, c) else exportFrom want l (i + 1) (some (i, c))
    else exportFrom want l (i + 1) best
  | .br4 b B :: l, i, best =>
    -- an aoclsparse::csr object, too: its arrays are those of the four-row format
    if want ⟨gn, 0, 0, 0, b, B.ptr, B.ind, B.val, none, none⟩ then
      exportFrom want l (i + 1) (some (i, ⟨gn, 0, 0, 0, b, B.ptr, B.ind, B.val, none, none⟩))
    else exportFrom want l (i + 1) best
  | _ :: l, i, best => exportFrom want l (i + 1) best

/-- auxiliary.cpp:1302-1354 — aoclsparse_export_csr_t.  `ptrs`: none of the pointers to the outputs is
null. -/
def exportCsr (sameType ptrs : Bool) (A : Option (MvHandle R)) : Option (Status × Option (Exported R)) :=
  match A with
  | none => some (.invalidPointer, none)
  | some H =>
    if ptrs = false then some (.invalidPointer, none)
    else if sameType = false then some (.wrongType, none)
    else if H.mats = [] then some (.invalidPointer, none)
    else match exportFrom (fun c => decide (c.doid ≠ gt)) H.mats 0 none with
      | none => some (.invalidValue, none)
      | some (i, c) => do
        let e ← rd c.ptr H.raw.um
        some (.success, some ⟨i, c.base, H.raw.um, H.raw.un, e - c.base, c.ptr, c.ind, c.val⟩)

/-- the number of entries an object was allocated for (`base_mtx::nnz`): that of the handle for the
user's arrays, `nz` for a copy -/
def exportNnz (H : MvHandle R) (c : MCopy R) (i : Nat) : Int :=
  if i = 0 then H.raw.nnz else c.ind.length

/-- auxiliary.cpp:1360-1412 — aoclsparse_export_csc_t.  Simplification: `nnz` of a copy is the length of
its index array. -/
def exportCsc (sameType ptrs : Bool) (A : Option (MvHandle R)) : Option (Status × Option (Exported R)) :=
  match A with
  | none => some (.invalidPointer, none)
  | some H =>
    if ptrs = false then some (.invalidPointer, none)
    else if sameType = false then some (.wrongType, none)
    else if H.mats = [] then some (.invalidPointer, none)
    else match exportFrom (fun c => decide (c.doid = gt)) H.mats 0 none with
      | none => some (.invalidValue, none)
      | some (i, c) =>
        some (.success, some ⟨i, c.base, H.raw.um, H.raw.un, exportNnz H c i, c.ptr, c.ind, c.val⟩)

/-! ### copy -/

/-- `n` elements from the front of an array -/
def copyFront {α : Type} (n : Int) (a : List α) : Option (List α) :=
  if 0 ≤ n ∧ n ≤ a.length then some (a.take n.toNat) else none

/-- auxiliary.cpp:1156-1181 — aoclsparse_copy_csr (pointers not null): fresh arrays of `m + 1` and `nnz`
elements -/
def copyCsr (m nnz : Int) (ptr ind : List Int) (val : List R) : Option (List Int × List Int × List R) := do
  let p ← copyFront (m + 1) ptr
  let i ← copyFront nnz ind
  let v ← copyFront nnz val
  some (p, i, v)

/-- auxiliary.cpp:775-834, 1212-1256 — aoclsparse_copy from a CSR or CSC handle to a null destination.
`same`: source and `*dest` are the same handle.  The new handle knows nothing of the order of the
entries. -/
def copyH (same : Bool) (A : Option (MvHandle R)) : Option (Status × Option (MvHandle R)) :=
  match A with
  | none => some (.invalidPointer, none)
  | some H =>
    if H.raw.um < 0 ∨ H.raw.un < 0 ∨ H.raw.nnz < 0 then some (.invalidSize, none)
    else if same then some (.invalidPointer, none)
    else match H.mats with
      | [] => some (.invalidPointer, none)
      | .csr c _ _ :: _ => do
        let r ← copyCsr c.m H.raw.nnz c.ptr c.ind c.val
        some (.success, some (.fresh
          { H.raw with m := c.m, n := c.n, base := c.base, ptr := r.1, ind := r.2.1, val := r.2.2 } false))
      | _ => some (.invalidValue, none)

end Model
end Verif
