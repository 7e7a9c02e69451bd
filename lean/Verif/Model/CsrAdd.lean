/-
Model of the sparse addition
  library/src/level3/aoclsparse_csradd.hpp
Parallel regions: see Core/Team.  Memory allocation is assumed to succeed.
-/
import Verif.Core.Team
import Verif.Core.Prefix
import Verif.Model.Csc
import Verif.Model.Overflow

namespace Verif
namespace Model

/-- mat_structures.hpp:147-251, 774-859 — the compressed arrays an operation reads from a handle
of input format `fmt`; `isT` if they describe the transpose (`doid == gt`, a CSC input).
`m`, `n` are the dimensions of the stored arrays. -/
structure RawMat (R : Type) where
  fmt : Nat
  isT : Bool
  m : Int
  n : Int
  nnz : Int
  base : Int
  ptr : List Int
  ind : List Int
  val : List R

/-- the number of rows of the user's matrix (`A->m`) -/
def RawMat.um {R : Type} (A : RawMat R) : Int := if A.isT then A.n else A.m
/-- the number of columns of the user's matrix (`A->n`) -/
def RawMat.un {R : Type} (A : RawMat R) : Int := if A.isT then A.m else A.n

/-- The arrays of a matrix in the order they are passed to a kernel. -/
structure Arrs (R : Type) where
  base : Int
  ptr : List Int
  ind : List Int
  val : List R

/-- threads requested, threads in the team of the counting region, and the orders in which the
threads of the counting and of the main region run -/
structure Threads where
  req : Nat
  team : Nat
  ord1 : List Nat
  ord2 : List Nat

variable {R : Type} [Zero R] [Add R] [Mul R]

/-- csradd.hpp:76-81 — mark and count an entry of A -/
def addCntA (i : Int) (col : Int) (s : List Int × Int) : Option (List Int × Int) := do
  let nnz ← wr s.1 col i
  some (nnz, s.2 + 1)

/-- csradd.hpp:84-92 — count an entry of B if its column is not marked -/
def addCntB (i : Int) (col : Int) (s : List Int × Int) : Option (List Int × Int) := do
  let t ← rd s.1 col
  if t ≠ i then do
    let nnz ← wr s.1 col i
    some (nnz, s.2 + 1)
  else some s

/-- csradd.hpp:71-94 — count row `i` -/
def addCntRow (A B : Arrs R) (i : Int) (s : List Int × List Int) :
    Option (List Int × List Int) := do
  let st ← rd A.ptr i
  let en ← rd A.ptr (i + 1)
  let c ← forC (st - A.base) (en - A.base) (fun j c => do
    let col ← rd A.ind j
    addCntA i col c) (s.1, 0)
  let st ← rd B.ptr i
  let en ← rd B.ptr (i + 1)
  let c ← forC (st - B.base) (en - B.base) (fun j c => do
    let col ← rd B.ind j
    addCntB i (col - B.base + A.base) c) c
  let ptr ← wr s.2 (i + 1) c.2
  some (c.1, ptr)

/-- csradd.hpp:100-104 (csr2m.cpp:211-215) — prefix sum of the row counts; the accumulator has
64 bits.  Simplification: the stored values are not truncated to `w` bits (they are discarded
if they do not fit). -/
def prefixSum (m : Int) (start : Int) (ptr : List Int) : Option (Int × List Int) :=
  forC 1 (m + 1) (fun i s => do
    let c ← rd s.2 i
    let ptr ← wr s.2 i (s.1 + c)
    some (s.1 + c, ptr)) (start, ptr)

/-- csradd.hpp:32-119 — aoclsparse_add_csr_count_nnz; `ptr` is the new row pointer array -/
def addCount (w : Nat) (th : Threads) (M N : Int) (A B : Arrs R) (ptr : List Int) :
    Option (Except Status (List Int)) := do
  let ptr ← wr ptr 0 A.base
  let ptr ← inTeam w th.ord1 th.team M (List.replicate (N + 1).toNat (-1)) (addCntRow A B) ptr
  let s ← prefixSum M A.base ptr
  if sumOverflow 64 w s.1 then some (.error .invalidSize)
  else some (.ok s.2)

/-- locals of a thread of the main region -/
structure AddLoc where
  nnz : List Int
  colRec : List Int
  idx : Int

/-- state of the main region: locals and the arrays of C -/
structure AddSt (R : Type) where
  loc : AddLoc
  ind : List Int
  val : List R

/-- csradd.hpp:266-276 — an entry of A -/
def addStepA (cj : R → R) (alpha : R) (i col : Int) (v : R) (s : AddSt R) : Option (AddSt R) := do
  let nnz ← wr s.loc.nnz col i
  let colRec ← wr s.loc.colRec col s.loc.idx
  let ind ← wr s.ind s.loc.idx col
  let val ← wr s.val s.loc.idx (alpha * cj v)
  some ⟨⟨nnz, colRec, s.loc.idx + 1⟩, ind, val⟩

/-- csradd.hpp:279-293 — an entry of B -/
def addStepB (i col : Int) (v : R) (s : AddSt R) : Option (AddSt R) := do
  let t ← rd s.loc.nnz col
  if t ≠ i then do
    let ind ← wr s.ind s.loc.idx col
    let val ← wr s.val s.loc.idx v
    let nnz ← wr s.loc.nnz col i
    some ⟨⟨nnz, s.loc.colRec, s.loc.idx + 1⟩, ind, val⟩
  else do
    let r ← rd s.loc.colRec col
    let x ← rd s.val r
    let val ← wr s.val r (x + v)
    some ⟨s.loc, s.ind, val⟩

/-- csradd.hpp:266-293 — the two loops over row `i` -/
def addMerge (cj : R → R) (alpha : R) (A B : Arrs R) (i : Int) (s : AddSt R) :
    Option (AddSt R) := do
  let st ← rd A.ptr i
  let en ← rd A.ptr (i + 1)
  let s ← forC (st - A.base) (en - A.base) (fun j s => do
    let col ← rd A.ind j
    let v ← rd A.val j
    addStepA cj alpha i col v s) s
  let st ← rd B.ptr i
  let en ← rd B.ptr (i + 1)
  forC (st - B.base) (en - B.base) (fun j s => do
    let col ← rd B.ind j
    let v ← rd B.val j
    addStepB i (col - B.base + A.base) v s) s

/-- csradd.hpp:259-298 — row `i` when the row pointers are known -/
def addRowPre (cj : R → R) (alpha : R) (A B : Arrs R) (ptr : List Int) (i : Int)
    (s : AddLoc × List Int × List R) : Option (AddLoc × List Int × List R) := do
  let p ← rd ptr i
  let r ← addMerge cj alpha A B i ⟨{ s.1 with idx := p - A.base }, s.2.1, s.2.2⟩
  some (r.loc, r.ind, r.val)

/-- csradd.hpp:259-298 — row `i` when the row pointers are built on the fly -/
def addRowSeq (cj : R → R) (alpha : R) (A B : Arrs R) (i : Int)
    (s : AddLoc × List Int × List Int × List R) :
    Option (AddLoc × List Int × List Int × List R) := do
  let r ← addMerge cj alpha A B i ⟨s.1, s.2.2.1, s.2.2.2⟩
  let ptr ← wr s.2.1 (i + 1) (r.loc.idx + A.base)
  some (r.loc, ptr, r.ind, r.val)

/-- csradd.hpp:248-253 — fresh locals -/
def addLoc0 (N : Int) : AddLoc :=
  ⟨List.replicate (N + 1).toNat (-1), List.replicate (N + 1).toNat (-1), 0⟩

/-- csradd.hpp:122-320 — aoclsparse_add_csr_ref.  `gp`, `gi`, `gv` are the contents of freshly
allocated arrays.  The result is C: dimensions, base and its arrays, cut to `nnz` entries. -/
def addCsr (w : Nat) (th : Threads) (gp gi : Nat → Int) (gv : Nat → R) (cj : R → R) (M N : Int)
    (Annz Bnnz : Int) (A : Arrs R) (alpha : R) (B : Arrs R) :
    Option (Except Status (Arrs R)) :=
  if M = 0 ∨ N = 0 ∨ (Annz = 0 ∧ Bnnz = 0) then
    some (.ok ⟨A.base, List.replicate (M + 1).toNat A.base, [], []⟩)
  else if th.req ≠ 1 ∨ Annz + Bnnz > intMax w then do
    let c ← addCount w th M N A B (alloc (M + 1).toNat gp)
    match c with
    | .error _ => some (.error .internalError)
    | .ok ptr => do
      let e ← rd ptr M
      let nnz := (e - A.base).toNat
      let r ← inTeam w th.ord2 th.req M (addLoc0 N) (addRowPre cj alpha A B ptr)
        (alloc nnz gi, alloc nnz gv)
      some (.ok ⟨A.base, ptr, r.1, r.2⟩)
  else do
    let n0 := (Annz + Bnnz).toNat
    let ptr ← wr (alloc (M + 1).toNat gp) 0 A.base
    let r ← inTeam w th.ord2 th.req M (addLoc0 N) (addRowSeq cj alpha A B)
      (ptr, alloc n0 gi, alloc n0 gv)
    let e ← rd r.1 M
    let nnz := (e - A.base).toNat
    some (.ok ⟨A.base, r.1, r.2.1.take nnz, r.2.2.take nnz⟩)

/-- csradd.hpp:380-408 (412-445) — the arrays of the matrix or of its transpose; the temporaries
are zero-initialised vectors -/
def orient (tr : Bool) (A : RawMat R) : Option (Except Status (Arrs R)) :=
  if tr then do
    let r ← csr2csc A.m A.n A.nnz A.base A.base (some A.ptr) (some A.ind) (some A.val)
      (some (List.replicate (A.n + 1).toNat 0)) (some (List.replicate A.nnz.toNat 0))
      (some (List.replicate A.nnz.toNat 0))
    match r with
    | (.success, some cp, some ri, some cv) => some (.ok ⟨A.base, cp, ri, cv⟩)
    | (st, _, _, _) => some (.error st)
  else some (.ok ⟨A.base, A.ptr, A.ind, A.val⟩)

/-- a computed matrix: dimensions and arrays -/
structure OutMat (R : Type) where
  m : Int
  n : Int
  arrs : Arrs R

/-- csradd.hpp:346-520 — the part of aoclsparse_add_t after the argument checks -/
def addRun (w : Nat) (th : Threads) (gp gi : Nat → Int) (gv : Nat → R) (cjg : R → R) (op : Int)
    (A : RawMat R) (alpha : R) (B : RawMat R) : Option (Except Status (OutMat R)) :=
  let needsT := (A.isT == decide (op = 111))
  let M := if needsT then A.n else A.m
  let N := if needsT then A.m else A.n
  (orient needsT A).bind fun a =>
    match a with
    | .error e => some (.error e)
    | .ok a =>
      (orient B.isT B).bind fun b =>
        match b with
        | .error e => some (.error e)
        | .ok b =>
          (addCsr w th gp gi gv (if op = 113 then cjg else id) M N A.nnz B.nnz a alpha b).bind
            fun c =>
              match c with
              | .error e => some (.error e)
              | .ok c => some (.ok ⟨M, N, c⟩)

/-- csradd.hpp:322-530 — aoclsparse_add_t (`A`, `B` hold values of the type of the call; the output
handle pointer is not null) -/
def add (w : Nat) (th : Threads) (gp gi : Nat → Int) (gv : Nat → R) (cjg : R → R) (op : Int)
    (A : Option (RawMat R)) (alpha : R) (B : Option (RawMat R)) :
    Option (Except Status (OutMat R)) :=
  match A, B with
  | some A, some B =>
    if A.fmt ≠ 0 ∨ B.fmt ≠ 0 then some (.error .notImplemented)
    else if (op = 111 ∧ (A.um ≠ B.um ∨ A.un ≠ B.un)) ∨
        (op ≠ 111 ∧ (A.um ≠ B.un ∨ A.un ≠ B.um)) then some (.error .invalidSize)
    else addRun w th gp gi gv cjg op A alpha B
  | _, _ => some (.error .invalidPointer)

end Model
end Verif
