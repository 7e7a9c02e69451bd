/-
Model of library/src/conversion/aoclsparse_convert.hpp: aoclsparse_csr2dense_template
(lines 657-925).

A descriptor is given by its raw field codes (type, fill, diag, base).  The dense array is a
`List`; offsets are computed as in the code.  `w` is the bit width of aoclsparse_int, used only
by the overflow guard of line 739.
-/
import Verif.Core.Mem
import Verif.Core.Types
import Verif.Model.Overflow
import Mathlib.Algebra.Star.Basic

namespace Verif
namespace Model

variable {R : Type} [Zero R] [One R] [Star R]

/-- aoclsparse_mat_descr (include/aoclsparse_descr.h): raw field values. -/
structure Descr where
  type : Nat
  fill : Nat
  diag : Nat
  base : Int
  deriving DecidableEq, Repr

/-- convert.hpp:746-752 — zero the window, column order. -/
def zeroCol (m n ld : Int) (a : List R) : Option (List R) :=
  forC 0 n (fun col a => forC 0 m (fun row a => wr a (row + ld * col) 0) a) a

/-- convert.hpp:812-818 — zero the window, row order. -/
def zeroRow (m n ld : Int) (a : List R) : Option (List R) :=
  forC 0 m (fun row a => forC 0 n (fun col a => wr a (col + ld * row) 0) a) a

/-- convert.hpp:772-775 (839-842, 887-890) — diagonal written before the row. -/
def denseDiag (diag : Nat) (ld row : Int) (a : List R) : Option (List R) :=
  if diag = 1 then wr a (row * ld + row) 1
  else if diag = 2 then wr a (row * ld + row) 0
  else some a

/-- convert.hpp:779-806 — one stored entry, symmetric matrix, column order. -/
def denseSymCol (fill diag : Nat) (ld row col : Int) (v : R) (a : List R) : Option (List R) :=
  if row = col then
    if diag = 0 then wr a (row + col * ld) v else some a
  else if fill = 0 then
    if col < row then do
      let a ← wr a (row * ld + col) v
      wr a (col * ld + row) v
    else some a
  else
    if col > row then do
      let a ← wr a (row * ld + col) v
      wr a (col * ld + row) v
    else some a

/-- convert.hpp:846-879 — one stored entry, symmetric or Hermitian matrix, row order. -/
def denseSymRow (herm : Bool) (fill diag : Nat) (ld row col : Int) (v : R) (a : List R) :
    Option (List R) :=
  if row = col then
    if diag = 0 then wr a (row * ld + col) v else some a
  else if fill = 0 then
    if col < row then do
      let a ← wr a (row * ld + col) v
      wr a (col * ld + row) (if herm then star v else v)
    else some a
  else
    if col > row then do
      let a ← wr a (row * ld + col) v
      wr a (col * ld + row) (if herm then star v else v)
    else some a

/-- convert.hpp:894-919 — one stored entry, triangular matrix, row order. -/
def denseTriRow (fill diag : Nat) (ld row col : Int) (v : R) (a : List R) : Option (List R) :=
  if row = col then
    if diag = 0 then wr a (row * ld + col) v else some a
  else if fill = 0 then
    if col < row then wr a (row * ld + col) v else some a
  else
    if col > row then wr a (row * ld + col) v else some a

/-- the loop over rows and stored entries shared by all branches -/
def denseLoop (m base : Int) (ptr ind : List Int) (val : List R)
    (pre : Int → List R → Option (List R))
    (body : Int → Int → R → List R → Option (List R)) (a : List R) : Option (List R) :=
  forC 0 m (fun row a => do
    let a ← pre row a
    let s ← rd ptr row
    let e ← rd ptr (row + 1)
    forC (s - base) (e - base) (fun at_ a => do
      let c ← rd ind at_
      let v ← rd val at_
      body row (c - base) v a) a) a

/-- convert.hpp:744-922 — the conversion after all argument checks. -/
def csr2denseCore (m n : Int) (d : Descr) (ptr ind : List Int) (val : List R) (ld : Int)
    (colOrder : Bool) (a : List R) : Option (List R) :=
  if colOrder then do
    let a ← zeroCol m n ld a
    if d.type = 0 then
      denseLoop m d.base ptr ind val (fun _ a => some a)
        (fun row col v a => wr a (col * ld + row) v) a
    else if d.type = 1 then
      denseLoop m d.base ptr ind val (denseDiag d.diag ld)
        (denseSymCol d.fill d.diag ld) a
    else some a
  else do
    let a ← zeroRow m n ld a
    if d.type = 0 then
      denseLoop m d.base ptr ind val (fun _ a => some a)
        (fun row col v a => wr a (row * ld + col) v) a
    else if d.type = 1 ∨ d.type = 2 then
      denseLoop m d.base ptr ind val (denseDiag d.diag ld)
        (denseSymRow (decide (d.type = 2)) d.fill d.diag ld) a
    else if d.type = 3 then
      denseLoop m d.base ptr ind val (denseDiag d.diag ld)
        (denseTriRow d.fill d.diag ld) a
    else some a

/-- convert.hpp:657-925 — aoclsparse_csr2dense_template. -/
def csr2dense (w : Nat) (m n : Int) (d : Option Descr) (val : Option (List R))
    (ptr ind : Option (List Int)) (a : Option (List R)) (ld : Int) (colOrder : Bool) :
    Option (Status × Option (List R)) :=
  match d with
  | none => some (.invalidPointer, a)
  | some d =>
    if d.base ≠ 0 ∧ d.base ≠ 1 then some (.invalidValue, a)
    else if d.type ≠ 0 ∧ d.type ≠ 1 ∧ d.type ≠ 3 ∧ d.type ≠ 2 then some (.invalidValue, a)
    else if colOrder = true ∧ (d.type = 3 ∨ d.type = 2) then some (.notImplemented, a)
    else if d.type ≠ 0 ∧ (d.fill ≠ 0 ∧ d.fill ≠ 1) then some (.invalidValue, a)
    else if d.type ≠ 0 ∧ (d.diag ≠ 0 ∧ d.diag ≠ 1 ∧ d.diag ≠ 2) then some (.invalidValue, a)
    else if m < 0 ∨ n < 0 then some (.invalidSize, a)
    else if m = 0 ∨ n = 0 then some (.success, a)
    else
      match val, ptr, ind, a with
      | some val, some ptr, some ind, some a' =>
        if prodOvf w (if colOrder then n else m) ld then some (.invalidSize, a)
        else do
          let r ← csr2denseCore m n d ptr ind val ld colOrder a'
          some (.success, some r)
      | _, _, _, _ => some (.invalidPointer, a)

end Model
end Verif
