/-
Model of the conversions between handles
  conversion/aoclsparse_convert.cpp      convert_csr_t 1018-1165, convert_csr 1167-1216,
                                         convert_bsr_t 1220-1428, convert_bsr 1431-1476
  extra/aoclsparse_auxiliary.cpp         create_coo_t 1091-1151
  include/aoclsparse_mat_structures.hpp  csr 169-212, _aoclsparse_matrix 773-859
-/
import Verif.Model.Csc
import Verif.Model.Bsr
import Verif.Model.Expand

namespace Verif
namespace Model

variable {R : Type}

/-- mat_structures.hpp:690-750 — an object of class coo -/
structure CooObj (R : Type) where
  base : Int
  row : List Int
  col : List Int
  val : List R
  deriving DecidableEq

/-- mat_structures.hpp:260-343 — an object of class bsr -/
structure BsrObj (R : Type) where
  bm : Int
  bn : Int
  bnnz : Int
  bd : Int
  rowOrder : Bool
  base : Int
  ptr : List Int
  ind : List Int
  val : List R
  deriving DecidableEq

/-- mat_structures.hpp:147-251 — an object of class csr (`isT`: its doid is gt, i.e. it was given as
CSC arrays) -/
structure CsrObj (R : Type) where
  isT : Bool
  m : Int
  n : Int
  nnz : Int
  base : Int
  ptr : List Int
  ind : List Int
  val : List R
  deriving DecidableEq

/-- the classes of objects a handle can hold; the others play no part here -/
inductive MtxObj (R : Type)
  | csr (A : CsrObj R)
  | coo (A : CooObj R)
  | bsr (A : BsrObj R)
  | other (base : Int)
  deriving DecidableEq

/-- the index base of an object -/
def MtxObj.base : MtxObj R → Int
  | .csr A => A.base
  | .coo A => A.base
  | .bsr A => A.base
  | .other b => b

/-- mat_structures.hpp:773-859 — a handle: user dimensions, number of entries, value type, input format
and the first object (`none`: there is none) -/
structure CvH (R : Type) where
  m : Int
  n : Int
  nnz : Int
  vt : Nat
  format : Nat
  first : Option (MtxObj R)
  deriving DecidableEq

/-- auxiliary.cpp:1122-1128 — the check of one coordinate -/
def cooCheckStep (base M N : Int) (row col : List Int) (i : Int) (s : Unit) :
    Option (Except Status Unit) := do
  let r ← rd row i
  if r < base ∨ r ≥ M + base then some (.error .invalidIndexValue)
  else do
    let c ← rd col i
    if c < base ∨ c ≥ N + base then some (.error .invalidIndexValue) else some (.ok s)

/-- auxiliary.cpp:1091-1151 — aoclsparse_create_?coo, `mat` not null.  Simplification: the counter of
the loop is an `int` in the code whatever the width of aoclsparse_int. -/
def createCooH (vt : Nat) (base M N nnz : Int) (row col : Option (List Int)) (val : Option (List R)) :
    Option (Status × Option (CvH R)) :=
  if M < 0 ∨ N < 0 ∨ nnz < 0 then some (.invalidSize, none)
  else match row, col, val with
  | some row, some col, some val => do
    let r ← forE 0 nnz (cooCheckStep base M N row col) ()
    match r with
    | .error e => some (e, none)
    | .ok _ => some (.success, some ⟨M, N, nnz, vt, 7, some (.coo ⟨base, row, col, val⟩)⟩)
  | _, _, _ => some (.invalidPointer, none)

/-- memcpy of the first `n` elements; a negative `n` becomes a huge unsigned size -/
def copyInto {α : Type} (n : Int) (src dst : List α) : Option (List α) :=
  if n < 0 then none
  else forC 0 n (fun i d => do
    let v ← rd src i
    wr d i v) dst

/-- mat_structures.hpp:169-212 — the arrays of a new csr object -/
def cvAlloc (g : Garb R) (m nnz base : Int) : CscOut R :=
  (if nnz = 0 then List.replicate (m + 1).toNat base else alloc (m + 1).toNat g.p,
    alloc nnz.toNat g.i, alloc nnz.toNat g.v)

/-- the three (non-null) output arrays of a conversion after the call -/
def cvOut (r : Status × Option (List Int) × Option (List Int) × Option (List R)) (old : CscOut R) :
    Status × CscOut R :=
  (r.1, r.2.1.getD old.1, r.2.2.1.getD old.2.1, r.2.2.2.getD old.2.2)

/-- convert.cpp:1078-1106 — a COO source -/
def convertCsrCoo (op : Int) (src : CvH R) (A : CooObj R) (out : CscOut R) :
    Option (Status × CscOut R) :=
  if op = 111 then do
    let r ← coo2csr src.m src.n src.nnz A.base (some A.row) (some A.col) (some A.val) (some out.1)
      (some out.2.1) (some out.2.2)
    some (cvOut r out)
  else do
    let r ← coo2csr src.n src.m src.nnz A.base (some A.col) (some A.row) (some A.val) (some out.1)
      (some out.2.1) (some out.2.2)
    some (cvOut r out)

/-- convert.cpp:1110-1146 — a CSR or CSC source -/
def convertCsrCsr (op : Int) (A : CsrObj R) (out : CscOut R) : Option (Status × CscOut R) :=
  if (A.isT = false ∧ op = 111) ∨ (A.isT = true ∧ op ≠ 111) then do
    let p ← copyInto (A.m + 1) A.ptr out.1
    let i ← copyInto A.nnz A.ind out.2.1
    let v ← copyInto A.nnz A.val out.2.2
    some (.success, p, i, v)
  else do
    let r ← csr2csc A.m A.n A.nnz A.base A.base (some A.ptr) (some A.ind) (some A.val) (some out.1)
      (some out.2.1) (some out.2.2)
    some (cvOut r out)

/-- convert.cpp:1067-1151 — the switch over the input format (7: COO, 0: CSR or CSC) -/
def convertCsrObj (op : Int) (src : CvH R) (x : MtxObj R) (out : CscOut R) :
    Option (Status × CscOut R) :=
  if src.format = 7 then
    match x with
    | .coo A => convertCsrCoo op src A out
    | _ => some (.notImplemented, out)
  else if src.format = 0 then
    match x with
    | .csr A => convertCsrCsr op A out
    | _ => some (.notImplemented, out)
  else some (.notImplemented, out)

/-- convert.cpp:1018-1165 — aoclsparse_convert_csr_t for a valid source handle; `x` its first object -/
def convertCsrT (g : Garb R) (cj : R → R) (src : CvH R) (x : MtxObj R) (op : Int) :
    Option (Status × Option (CvH R)) := do
  let m := if op = 111 then src.m else src.n
  let n := if op = 111 then src.n else src.m
  let r ← convertCsrObj op src x (cvAlloc g m src.nnz x.base)
  if r.1 ≠ .success then some (r.1, none)
  else do
    let v ← conjLoop (decide ((src.vt = 2 ∨ src.vt = 3) ∧ op = 113)) cj src.nnz r.2.2.2
    some (.success, some ⟨m, n, src.nnz, src.vt, 0,
      some (.csr ⟨false, m, n, src.nnz, x.base, r.2.1, r.2.2.1, v⟩)⟩)

/-- convert.cpp:1167-1216 — aoclsparse_convert_csr; `dest`: the output pointer is not null.  The result
is the status and the handle stored through it.  `op` is not checked: whatever is not `none` (111) is
taken as a transpose. -/
def convertCsr (g : Garb R) (cj : R → R) (src : Option (CvH R)) (op : Int) (dest : Bool) :
    Option (Status × Option (CvH R)) :=
  match src, dest with
  | some src, true =>
    if src.vt < 4 then
      match src.first with
      | none => some (.invalidPointer, none)
      | some x => convertCsrT g cj src x op
    else some (.invalidValue, none)
  | _, _ => some (.invalidPointer, none)

/-- convert.cpp:1303-1351, 1390-1424 — the blocks of the `m` x `n` matrix with arrays `ptr`, `ind`,
`val`: count, allocate, clear, fill, and the handle for them -/
def convertBsrFill [Zero R] (g : Garb R) (vt : Nat) (m n base : Int) (ptr ind : List Int)
    (val : List R) (bd : Int) (rowOrder : Bool) : Option (Status × Option (CvH R)) := do
  let mb := (m + bd - 1).tdiv bd
  let nb := (n + bd - 1).tdiv bd
  let r ← csr2bsrNnz m n base (some ptr) (some ind) bd (some (alloc (mb + 1).toNat g.p)) (some 0)
  match r with
  | (.success, some rp, some z) => do
    let bv ← forC 0 (z * bd * bd) (fun i v => wr v i 0) (alloc (z * bd * bd).toNat g.v)
    let q ← csr2bsr rowOrder m n base (some ptr) (some ind) (some val) bd (some bv) (some rp)
      (some (alloc z.toNat g.i))
    match q with
    | (.success, some bi, some bv) =>
      some (.success, some ⟨mb * bd, nb * bd, z * bd * bd, vt, 10,
        some (.bsr ⟨mb, nb, z, bd, rowOrder, base, rp, bi, bv⟩)⟩)
    | (st, _, _) => some (st, none)
  | (st, _, _) => some (st, none)

/-- convert.cpp:1220-1428 — convert_bsr_t: with op = none the arrays of the source are used with the
dimensions of the handle, otherwise those of a CSR copy of op(A).  `g` is the content of the memory
obtained for the copy, `g'` of that for the blocks. -/
def convertBsrT [Zero R] (g g' : Garb R) (cj : R → R) (src : CvH R) (A : CsrObj R) (bd : Int)
    (rowOrder : Bool) (op : Int) : Option (Status × Option (CvH R)) :=
  if op = 111 then convertBsrFill g' src.vt src.m src.n A.base A.ptr A.ind A.val bd rowOrder
  else do
    let r ← convertCsr g cj (some src) op true
    match r with
    | (.success, some h) =>
      match h.first with
      | some (.csr T) => convertBsrFill g' src.vt T.m T.n A.base T.ptr T.ind T.val bd rowOrder
      | _ => some (.invalidPointer, none)
    | (st, _) => some (st, none)

/-- convert.cpp:1431-1476 — aoclsparse_convert_bsr; `old` is the handle stored in the output variable
before the call (`dest = false`: the pointer to it is null).  The first failing check leaves it alone. -/
def convertBsr [Zero R] (g g' : Garb R) (cj : R → R) (src : Option (CvH R)) (bd order op : Int)
    (dest : Bool) (old : Option (CvH R)) : Option (Status × Option (CvH R)) :=
  match src, dest with
  | some src, true =>
    if bd ≤ 0 then some (.invalidValue, old)
    else if order ≠ 0 ∧ order ≠ 1 then some (.invalidValue, old)
    else if op ≠ 111 ∧ op ≠ 112 ∧ op ≠ 113 then some (.notImplemented, old)
    else if src.format ≠ 0 then some (.notImplemented, none)
    else if src.vt < 4 then
      match src.first with
      | some (.csr A) => convertBsrT g g' cj src A bd (decide (order = 0)) op
      | _ => some (.invalidPointer, none)
    else some (.invalidValue, none)
  | _, _ => some (.invalidPointer, old)

end Model
end Verif
