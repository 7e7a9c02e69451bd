/-
Model of the product of a sparse matrix with its (conjugate) transpose
  library/src/level3/aoclsparse_syrk.cpp, aoclsparse_syrk.hpp
Memory allocation is assumed to succeed.
-/
import Verif.Model.Oft
import Verif.Model.Expand

namespace Verif
namespace Model

variable {R : Type}

/-- the handle of an input: its arrays, the type of its values (0 double, 1 float, 2 and 3 complex)
and whether `A->sort == aoclsparse_fully_sorted` -/
structure SyMat (R : Type) where
  raw : RawMat R
  vt : Nat
  sorted : Bool

/-- the handle of a result: `m`, `n`, `nnz` are the members of the handle, `objNnz` is the member `nnz`
of the CSR object in it, the arrays are those of the CSR object -/
structure SyOut (R : Type) where
  m : Int
  n : Int
  nnz : Int
  objNnz : Int
  base : Int
  ptr : List Int
  ind : List Int
  val : List R
  deriving DecidableEq

/-! ### the estimate of the number of elements -/

/-- syrk.cpp:87-93 — count the elements of every column -/
def estCols (m n : Int) (A : Arrs R) : Option (List Int) :=
  forC 0 m (fun i c => do
    let b ← rd A.ptr i
    let e ← rd A.ptr (i + 1)
    forC b e (fun idx c => do
      let col ← rd A.ind (idx - A.base)
      incAt (col - A.base) c) c) (List.replicate n.toNat 0)

/-- syrk.cpp:98-100 — the estimate of row `i` of A·Aᴴ.  Simplification: the sum is not truncated (it is
at most nnz unless a column is stored twice in the row). -/
def estRowN (A : Arrs R) (cnt : List Int) (i : Int) : Option Int := do
  let b ← rd A.ptr i
  let e ← rd A.ptr (i + 1)
  forC b e (fun idx s => do
    let col ← rd A.ind (idx - A.base)
    let x ← rd cnt (col - A.base)
    some (s + (x - 1))) 0

/-- syrk.cpp:101-103 (137-139) — the contribution of a row with estimate `x` -/
def estAdd (m x total : Int) : Int := total + ((if x > m - 1 then m - 1 else x) + 1).tdiv 2 + 1

/-- syrk.cpp:74-104 — the estimate for A·Aᴴ -/
def estimateN (m n : Int) (A : Arrs R) : Option Int := do
  let cnt ← estCols m n A
  forC 0 m (fun i total => do
    let x ← estRowN A cnt i
    some (estAdd m x total)) 0

/-- syrk.cpp:121-133 — the estimates of the rows of Aᴴ·A (same simplification) -/
def estRowsT (m n : Int) (A : Arrs R) : Option (List Int) :=
  forC 0 m (fun i r => do
    let b ← rd A.ptr i
    let e ← rd A.ptr (i + 1)
    forC b e (fun idx r => do
      let col ← rd A.ind (idx - A.base)
      let x ← rd r (col - A.base)
      wr r (col - A.base) (x + (e - b - 1))) r) (List.replicate n.toNat 0)

/-- syrk.cpp:106-140 — the estimate for Aᴴ·A -/
def estimateT (m n : Int) (A : Arrs R) : Option Int := do
  let r ← estRowsT m n A
  forC 0 n (fun j total => do
    let x ← rd r j
    some (estAdd n x total)) 0

/-- syrk.cpp:60-152 — estimate_nnz -/
def estimateNnz (w : Nat) (op : Int) (m n : Int) (A : Arrs R) : Option (Except Status Int) := do
  let t ← if op = 111 then estimateN m n A else estimateT m n A
  if sumOverflow 64 w t then some (.error .invalidSize) else some (.ok t)

/-! ### rows multiplied by a dense row -/

/-- syrk.hpp:89-90, 107-108 — write `f v` to the dense row for the elements `v` of row `i` -/
def aatScatter (A : Arrs R) (f : R → R) (i : Int) (trow : List R) : Option (List R) := do
  let b ← rd A.ptr i
  let e ← rd A.ptr (i + 1)
  forC b e (fun j t => do
    let col ← rd A.ind (j - A.base)
    let v ← rd A.val (j - A.base)
    wr t (col - A.base) (f v)) trow

variable [Zero R] [Add R] [Mul R]

/-- syrk.hpp:93-97 — the product of the dense row with row `j` -/
def aatDot (cj : R → R) (A : Arrs R) (trow : List R) (j : Int) : Option R := do
  let b ← rd A.ptr j
  let e ← rd A.ptr (j + 1)
  forC b e (fun k c => do
    let col ← rd A.ind (k - A.base)
    let t ← rd trow (col - A.base)
    let v ← rd A.val (k - A.base)
    some (c + t * cj v)) 0

/-- syrk.hpp:91-104 — element `j` of the row; the state is index array, value array and number of
elements -/
def aatElem [DecidableEq R] (cj : R → R) (A : Arrs R) (trow : List R) (j : Int)
    (s : List Int × List R × Int) : Option (List Int × List R × Int) := do
  let c ← aatDot cj A trow j
  if c ≠ 0 then do
    let ind ← wr s.1 s.2.2 (j + A.base)
    let val ← wr s.2.1 s.2.2 c
    some (ind, val, s.2.2 + 1)
  else some s

/-- syrk.hpp:87-109 — row `i`; the state is the dense row, the row pointers and the above -/
def aatRow [DecidableEq R] (cj : R → R) (m : Int) (A : Arrs R) (i : Int)
    (s : List R × List Int × List Int × List R × Int) :
    Option (List R × List Int × List Int × List R × Int) := do
  let trow ← aatScatter A id i s.1
  let c ← forC i m (aatElem cj A trow) s.2.2
  let ptr ← wr s.2.1 (i + 1) (A.base + c.2.2)
  let trow ← aatScatter A (fun _ => 0) i trow
  some (trow, ptr, c)

/-- syrk.hpp:46-112 — aoclsparse_aat_dense_row into the given arrays -/
def aatDense [DecidableEq R] (cj : R → R) (m n : Int) (A : Arrs R) (ptr ind : List Int)
    (val : List R) : Option (List Int × List Int × List R × Int) := do
  let ptr ← wr ptr 0 A.base
  let s ← forC 0 m (aatRow cj m A) (List.replicate n.toNat 0, ptr, ind, val, 0)
  some (s.2.1, s.2.2.1, s.2.2.2.1, s.2.2.2.2)

/-! ### syrk -/

/-- the arrays of the handle -/
def RawMat.arrs (A : RawMat R) : Arrs R := ⟨A.base, A.ptr, A.ind, A.val⟩

/-- syrk.hpp:168-175 — the operation on the stored arrays -/
def syEff (isT : Bool) (op : Int) : Int := if isT then (if op = 111 then 113 else 111) else op

/-- syrk.hpp:221-330 — the computation into the given arrays -/
def syrkKernel [DecidableEq R] (cj : R → R) (eff : Int) (A : RawMat R) (ptr ind : List Int)
    (val : List R) : Option (Except Status (List Int × List Int × List R × Int)) :=
  if eff = 111 then
    if A.isT = false ∧ A.m < 3000 ∧ A.m < A.n ∧ A.nnz ≤ A.m * 10 then
      (aatDense cj A.m A.n A.arrs ptr ind val).map .ok
    else
      (orient true A).bind fun a =>
        match a with
        | .error st => some (.error st)
        | .ok t => (conjLoop (!A.isT) cj A.nnz t.val).bind fun v =>
          (atbFill true cj id A.n A.m A.m { t with val := v } { t with val := v } A.base ptr ind
            val).map .ok
  else if A.isT then
    (atbFill true id cj A.m A.n A.n A.arrs A.arrs A.base ptr ind val).map .ok
  else (atbFill true cj id A.m A.n A.n A.arrs A.arrs A.base ptr ind val).map .ok

/-- the row pointers of a new CSR object (mat_structures.hpp:188-193) -/
def newPtr (g : Garb R) (m nnz base : Int) : List Int :=
  if nnz = 0 then List.replicate (m + 1).toNat base else alloc (m + 1).toNat g.p

/-- syrk.hpp:177-343 — the part after the checks of the arguments: the status and the handle stored
through the output pointer (`none`: a null pointer).  `g` is the content of fresh memory. -/
def syrkRun [DecidableEq R] (w : Nat) (g : Garb R) (cj : R → R) (op : Int) (A : SyMat R) :
    Option (Status × Option (SyOut R)) :=
  let r := A.raw
  let eff := syEff r.isT op
  if A.sorted = false ∧ eff ≠ 111 then some (.unsortedInput, none)
  else (estimateNnz w eff r.m r.n r.arrs).bind fun e =>
    match e with
    | .error st => some (st, none)
    | .ok est =>
      let mC := if eff = 111 then r.m else r.n
      let ptr := newPtr g mC est r.base
      let ind := alloc est.toNat g.i
      let val := alloc est.toNat g.v
      if r.um = 0 ∨ r.un = 0 ∨ r.nnz = 0 then
        (forC 0 (mC + 1) (fun i p => wr p i r.base) ptr).bind fun p =>
          some (.success, some ⟨mC, mC, 0, est, r.base, p, ind, val⟩)
      else (syrkKernel cj eff r ptr ind val).bind fun k =>
        match k with
        | .error st => some (st, none)
        | .ok c => some (.success, some ⟨mC, mC, c.2.2.2, est, r.base, c.1, c.2.1, c.2.2.1⟩)

/-- syrk.cpp:38-58, syrk.hpp:122-343 — aoclsparse_syrk.  `dest`: the output pointer is not null;
`old` is its content before the call.  Handles of input format CSR hold a CSR object with doid gn or
gt. -/
def syrkApi [DecidableEq R] (w : Nat) (g : Garb R) (cj : R → R) (op : Int) (A : Option (SyMat R))
    (dest : Bool) (old : Option (SyOut R)) : Option (Status × Option (SyOut R)) :=
  match A with
  | none => some (.invalidPointer, old)
  | some A =>
    if A.vt < 4 then
      if dest = false then some (.invalidPointer, old)
      else if ¬ isOp op then some (.invalidValue, none)
      else if A.raw.fmt ≠ 0 then some (.notImplemented, none)
      else if (A.vt = 2 ∨ A.vt = 3) ∧ op = 112 then some (.notImplemented, none)
      else syrkRun w g cj op A
    else some (.wrongType, old)

end Model
end Verif
