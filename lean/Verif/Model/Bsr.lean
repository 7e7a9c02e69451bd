/-
Model of the CSR to BSR conversion
  library/src/conversion/aoclsparse_convert.cpp: aoclsparse_csr2bsr_nnz (596-729)
  library/src/conversion/aoclsparse_convert.hpp: aoclsparse_csr2bsr_template (387-550)

The argument checks are in `csr2bsrNnz` / `csr2bsr`; allocation failure and the 32-bit overflow of
the running sum are not modelled here (integers are unbounded).
-/
import Verif.Core.Mem
import Verif.Core.Types

namespace Verif
namespace Model

variable {R : Type}

/-- convert.cpp:676-690 — one CSR entry; state (blockcol, erase, nblocks) -/
def bsrNnzStep (base bd : Int) (ind : List Int) (j : Int) (s : List Int × List Int × Int) :
    Option (List Int × List Int × Int) := do
  let c ← rd ind j
  let b := (c - base).tdiv bd
  let x ← rd s.1 b
  if x = 0 then do
    let bc ← wr s.1 b 1
    let er ← wr s.2.1 s.2.2 b
    some (bc, er, s.2.2 + 1)
  else some s

/-- convert.cpp:663-691 — the CSR rows of one block row (the loop with `break` at the last CSR row
runs over `min bd (m - bi * bd)` rows) -/
def bsrNnzRows (m base bd : Int) (ptr ind : List Int) (bi : Int) (s : List Int × List Int × Int) :
    Option (List Int × List Int × Int) :=
  forC 0 (min bd (m - bi * bd)) (fun i s => do
    let b ← rd ptr (bi * bd + i)
    let e ← rd ptr (bi * bd + i + 1)
    forC (b - base) (e - base) (bsrNnzStep base bd ind) s) s

/-- convert.cpp:655-701 — one block row; state (blockcol, erase, bsr_row_ptr) -/
def bsrNnzRow (m base bd : Int) (ptr ind : List Int) (bi : Int)
    (s : List Int × List Int × List Int) : Option (List Int × List Int × List Int) := do
  let r ← bsrNnzRows m base bd ptr ind bi (s.1, s.2.1, 0)
  let rp ← wr s.2.2 (bi + 1) r.2.2
  let bc ← forC 0 r.2.2 (fun i bc => do
    let e ← rd r.2.1 i
    wr bc e 0) r.1
  some (bc, r.2.1, rp)

/-- convert.cpp:705-713 — the prefix sum; state (bsr_row_ptr, running_sum) -/
def bsrNnzSum (i : Int) (s : List Int × Int) : Option (List Int × Int) := do
  let v ← rd s.1 (i + 1)
  let rp ← wr s.1 (i + 1) (s.2 + v)
  some (rp, s.2 + v)

/-- convert.cpp:634-729 — after the argument checks; `g` is the unspecified initial content of
`erase` (std::vector::resize zero-fills, any content will do) -/
def csr2bsrNnzCore (m n base : Int) (ptr ind : List Int) (bd : Int) (g : List Int)
    (rowPtr : List Int) : Option (List Int × Int) := do
  let mb := (m + bd - 1).tdiv bd
  let nb := (n + bd - 1).tdiv bd
  let s ← forC 0 mb (bsrNnzRow m base bd ptr ind) (List.replicate nb.toNat 0, g, rowPtr)
  let rp ← wr s.2.2 0 base
  let s ← forC 0 mb bsrNnzSum (rp, base)
  let last ← rd s.1 mb
  some (s.1, last - base)

/-- convert.cpp:596-729 — aoclsparse_csr2bsr_nnz -/
def csr2bsrNnz (m n : Int) (base : Int) (ptr ind : Option (List Int)) (bd : Int)
    (rowPtr : Option (List Int)) (nnz : Option Int) :
    Option (Status × Option (List Int) × Option Int) :=
  if m < 0 ∨ n < 0 ∨ bd ≤ 0 then some (.invalidSize, rowPtr, nnz)
  else match ptr, ind, rowPtr, nnz with
  | some ptr, some ind, some rp, some z =>
    if m = 0 ∨ n = 0 then some (.success, some rp, some 0)
    else if base ≠ 0 ∧ base ≠ 1 then some (.invalidValue, some rp, some z)
    else (csr2bsrNnzCore m n base ptr ind bd
        (List.replicate ((n + bd - 1).tdiv bd).toNat 0) rp).bind fun s =>
      some (.success, some s.1, some s.2)
  | _, _, rp, z => some (.invalidPointer, rp, z)

/-- working state of the filling pass -/
structure BsrSt (R : Type) where
  bc : List Int
  idx : Int
  ind : List Int
  val : List R

/-- convert.hpp:484-492 — a block column seen for the first time -/
def bsrNew (base bd b : Int) (s : BsrSt R) : Option (BsrSt R) := do
  let x ← rd s.bc b
  if x = -1 then do
    let bc ← wr s.bc b (s.idx * bd * bd)
    let bi ← wr s.ind s.idx (b + base)
    some { s with bc := bc, ind := bi, idx := s.idx + 1 }
  else some s

/-- convert.hpp:472-499 — one CSR entry in intra-block row `i` -/
def bsrStep (rowOrder : Bool) (base bd : Int) (ind : List Int) (val : List R) (i j : Int)
    (s : BsrSt R) : Option (BsrSt R) := do
  let c0 ← rd ind j
  let c := c0 - base
  let b := c.tdiv bd
  let jj := c.tmod bd
  let s ← bsrNew base bd b s
  let v ← rd val j
  let q ← rd s.bc b
  let bv ← wr s.val (if rowOrder then q + jj + i * bd else q + i + jj * bd) v
  some { s with val := bv }

/-- convert.hpp:459-500 — the CSR rows of one block row -/
def bsrRows (rowOrder : Bool) (m base bd : Int) (ptr ind : List Int) (val : List R) (bi : Int)
    (s : BsrSt R) : Option (BsrSt R) :=
  forC 0 (min bd (m - bi * bd)) (fun i s => do
    let b ← rd ptr (bi * bd + i)
    let e ← rd ptr (bi * bd + i + 1)
    forC (b - base) (e - base) (bsrStep rowOrder base bd ind val i) s) s

/-- convert.hpp:447-507 — one block row; state (blockcol, bsr_col_ind, bsr_val) -/
def bsrRow (rowOrder : Bool) (m base bd : Int) (ptr ind : List Int) (val : List R)
    (rowPtr : List Int) (bi : Int) (s : List Int × List Int × List R) :
    Option (List Int × List Int × List R) := do
  let b ← rd rowPtr bi
  let e ← rd rowPtr (bi + 1)
  let r ← bsrRows rowOrder m base bd ptr ind val bi ⟨s.1, b - base, s.2.1, s.2.2⟩
  let bc ← forC (b - base) (e - base) (fun k bc => do
    let c ← rd r.ind k
    wr bc (c - base) (-1)) r.bc
  some (bc, r.ind, r.val)

/-- convert.hpp:523-527 — std::swap of two cells -/
def swapCells {α : Type} (a : List α) (p q : Int) : Option (List α) := do
  let x ← rd a p
  let y ← rd a q
  let a ← wr a p y
  wr a q x

/-- convert.hpp:519-531 — one comparison of the bubble sort; state (bsr_col_ind, bsr_val) -/
def bsrCmp (bd : Int) (k : Int) (s : List Int × List R) : Option (List Int × List R) := do
  let x ← rd s.1 k
  let y ← rd s.1 (k + 1)
  if x > y then do
    let v ← forC 0 (bd * bd) (fun b v => swapCells v (bd * bd * k + b) (bd * bd * (k + 1) + b)) s.2
    let i ← swapCells s.1 k (k + 1)
    some (i, v)
  else some s

/-- convert.hpp:511-534 — the bubble sort of one block row -/
def bsrSortRow (base bd : Int) (rowPtr : List Int) (i : Int) (s : List Int × List R) :
    Option (List Int × List R) := do
  let b ← rd rowPtr i
  let e ← rd rowPtr (i + 1)
  forC (b - base) (e - base) (fun _ s => forC (b - base) (e - base - 1) (bsrCmp bd) s) s

/-- convert.hpp:431-537 — aoclsparse_csr2bsr_template after the argument checks:
(bsr_col_ind, bsr_val) -/
def csr2bsrCore (rowOrder : Bool) (m n base : Int) (ptr ind : List Int) (val : List R) (bd : Int)
    (bval : List R) (rowPtr bind : List Int) : Option (List Int × List R) := do
  let mb := (m + bd - 1).tdiv bd
  let nb := (n + bd - 1).tdiv bd
  let s ← forC 0 mb (bsrRow rowOrder m base bd ptr ind val rowPtr)
    (List.replicate nb.toNat (-1), bind, bval)
  forC 0 mb (bsrSortRow base bd rowPtr) s.2

/-- convert.hpp:387-550 — aoclsparse_csr2bsr_template: status and the new (bsr_col_ind, bsr_val) -/
def csr2bsr (rowOrder : Bool) (m n base : Int) (ptr ind : Option (List Int)) (val : Option (List R))
    (bd : Int) (bval : Option (List R)) (rowPtr bind : Option (List Int)) :
    Option (Status × Option (List Int) × Option (List R)) :=
  if m < 0 ∨ n < 0 then some (.invalidSize, bind, bval)
  else if m = 0 ∨ n = 0 then some (.success, bind, bval)
  else if bd ≤ 0 then some (.invalidValue, bind, bval)
  else if base ≠ 0 ∧ base ≠ 1 then some (.invalidValue, bind, bval)
  else match val, ptr, ind, bval, rowPtr, bind with
  | some val, some ptr, some ind, some bv, some rp, some bi =>
    (csr2bsrCore rowOrder m n base ptr ind val bd bv rp bi).bind fun s =>
      some (.success, some s.1, some s.2)
  | _, _, _, bv, _, bi => some (.invalidPointer, bi, bv)

end Model
end Verif
