/-
Models of the counting-sort conversions
  library/src/conversion/aoclsparse_convert.hpp
    aoclsparse_csr2csc_template  (lines 552-655)
    aoclsparse_coo2csr_template  (lines 932-1021)

A nullable array argument is `Option (List _)`, `none` being `nullptr`.
The output arrays are passed in with their (arbitrary) previous content.
-/
import Verif.Core.Mem
import Verif.Core.Types

namespace Verif
namespace Model

variable {R : Type}

/-- `csc_col_ptr`, `csc_row_ind`, `csc_val` (in this order). -/
abbrev CscOut (R : Type) := List Int × List Int × List R

/-- convert.hpp:614-618 (and 984-988) — zero the pointer array. -/
def zeroPtr (n : Int) (cp : List Int) : Option (List Int) :=
  forC 0 (n + 1) (fun i cp => wr cp i 0) cp

/-- convert.hpp:620-624 (and 990-994) — count the entries with each key. -/
def countKeys (nnz base : Int) (key : List Int) (cp : List Int) : Option (List Int) :=
  forC 0 nnz (fun i cp => do
    let c ← rd key i
    let x ← rd cp (c - base + 1)
    wr cp (c - base + 1) (x + 1)) cp

/-- convert.hpp:626-630 (and 996-1000) — prefix sum. -/
def scanPtr (n : Int) (cp : List Int) : Option (List Int) :=
  forC 0 n (fun i cp => do
    let b ← rd cp (i + 1)
    let a ← rd cp i
    wr cp (i + 1) (b + a)) cp

/-- convert.hpp:639-644 (and 1005-1009) — place one entry in its bucket. -/
def placeOne (key : Int) (idxVal : Int) (v : R) (s : CscOut R) : Option (CscOut R) := do
  let (cp, ri, cv) := s
  let idx ← rd cp key
  let ri ← wr ri idx idxVal
  let cv ← wr cv idx v
  let cp ← wr cp key (idx + 1)
  some (cp, ri, cv)

/-- convert.hpp:647-653 (and 1012-1018) — shift the pointers by one place. -/
def shiftPtr (n base : Int) (cp : List Int) : Option (List Int) := do
  let cp ← forD n 1 (fun i cp => do
    let x ← rd cp (i - 1)
    wr cp i (x + base)) cp
  wr cp 0 base

/-- convert.hpp:614-653 — body of csr2csc after the argument checks. -/
def csr2cscCore (m n nnz baseCSR baseCSC : Int) (ptr ind : List Int) (val : List R)
    (out : CscOut R) : Option (CscOut R) := do
  let (cp, ri, cv) := out
  let cp ← zeroPtr n cp
  let cp ← countKeys nnz baseCSR ind cp
  let cp ← scanPtr n cp
  let (cp, ri, cv) ← forC 0 m (fun i s => do
    let row_begin ← rd ptr i
    let row_end ← rd ptr (i + 1)
    forC (row_begin - baseCSR) (row_end - baseCSR) (fun j s => do
      let c ← rd ind j
      let v ← rd val j
      placeOne (c - baseCSR) (i + baseCSC) v s) s) (cp, ri, cv)
  let cp ← shiftPtr n baseCSC cp
  some (cp, ri, cv)

/-- convert.hpp:552-655 — aoclsparse_csr2csc_template with its argument checks.
`none` is undefined behaviour; on the quick-return path the pointer array is
written without a null check, exactly as in the code. -/
def csr2csc (m n nnz baseCSR baseCSC : Int) (ptr ind : Option (List Int)) (val : Option (List R))
    (cp ri : Option (List Int)) (cv : Option (List R)) :
    Option (Status × Option (List Int) × Option (List Int) × Option (List R)) :=
  if m < 0 ∨ n < 0 ∨ nnz < 0 then some (.invalidSize, cp, ri, cv)
  else if m = 0 ∨ n = 0 ∨ nnz = 0 then
    match cp with
    | none => none        -- null pointer dereference (n + 1 > 0 iterations)
    | some cp => do
      let cp ← forC 0 (n + 1) (fun i cp => wr cp i baseCSC) cp
      some (.success, some cp, ri, cv)
  else if baseCSR ≠ 0 ∧ baseCSR ≠ 1 then some (.invalidValue, cp, ri, cv)
  else if baseCSC ≠ 0 ∧ baseCSC ≠ 1 then some (.invalidValue, cp, ri, cv)
  else
    match val, ptr, ind, cv, ri, cp with
    | some val, some ptr, some ind, some cv, some ri, some cp => do
      let (cp, ri, cv) ← csr2cscCore m n nnz baseCSR baseCSC ptr ind val (cp, ri, cv)
      some (.success, some cp, some ri, some cv)
    | _, _, _, _, _, _ => some (.invalidPointer, cp, ri, cv)

/-- convert.hpp:984-1018 — body of coo2csr after the argument checks. -/
def coo2csrCore (M nnz base : Int) (row col : List Int) (val : List R)
    (out : CscOut R) : Option (CscOut R) := do
  let (cp, ri, cv) := out
  let cp ← zeroPtr M cp
  let cp ← countKeys nnz base row cp
  let cp ← scanPtr M cp
  let (cp, ri, cv) ← forC 0 nnz (fun i s => do
    let r ← rd row i
    let c ← rd col i
    let v ← rd val i
    placeOne (r - base) c v s) (cp, ri, cv)
  let cp ← shiftPtr M base cp
  some (cp, ri, cv)

/-- convert.hpp:932-1021 — aoclsparse_coo2csr_template. -/
def coo2csr (M N nnz base : Int) (row col : Option (List Int)) (val : Option (List R))
    (cp ri : Option (List Int)) (cv : Option (List R)) :
    Option (Status × Option (List Int) × Option (List Int) × Option (List R)) :=
  if M < 0 ∨ N < 0 ∨ nnz < 0 then some (.invalidSize, cp, ri, cv)
  else
    match val, row, col, cv, cp, ri with
    | some val, some row, some col, some cv, some cp, some ri =>
      if M = 0 ∨ N = 0 ∨ nnz = 0 then do
        let cp ← forC 0 (M + 1) (fun i cp => wr cp i base) cp
        some (.success, some cp, some ri, some cv)
      else do
        let (cp, ri, cv) ← coo2csrCore M nnz base row col val (cp, ri, cv)
        some (.success, some cp, some ri, some cv)
    | _, _, _, _, _, _ => some (.invalidPointer, cp, ri, cv)

end Model
end Verif
