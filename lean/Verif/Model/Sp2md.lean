/-
Model of the product of two sparse matrices with dense result
  library/src/level3/aoclsparse_sp2md.hpp (kernels and aoclsparse_sp2md_t)
  library/src/level3/aoclsparse_spmmd.cpp (wrappers)

Pointer shifts `colidx_a = ind - base` are written as `ind[j - base]`.  Simplifications: the handles
hold values of the type of the call; allocation does not fail; offsets into C are unbounded
integers (the guard on `dim * ldc` is modelled).
-/
import Verif.Model.Csrmm
import Verif.Model.Expand

namespace Verif
namespace Model

variable {R : Type} [Zero R] [One R] [Add R] [Mul R] [DecidableEq R]

/-- the offset of element `(i, j)` of C: sp2md.hpp:85, 103 (column-major), 143-153, 162-171
(row-major) -/
def mdOff (col : Bool) (ldc i j : Int) : Int := if col then i + j * ldc else i * ldc + j

/-- sp2md.hpp:83-86, 101-104, 151-154, 169-172 — add `v` times row `k` of B to row `r` of C -/
def mdAxpy (col : Bool) (ldc : Int) (B : Arrs R) (r k : Int) (v : R) (C : List R) : Option (List R) := do
  let lo ← rd B.ptr k
  let hi ← rd B.ptr (k + 1)
  forC lo hi (fun q C => do
    let c ← rd B.ind (q - B.base)
    let b ← rd B.val (q - B.base)
    addAt C (mdOff col ldc r (c - B.base)) (v * b)) C

/-- sp2md.hpp:38-108 (aoclsparse_sp2md_ref_col), 112-176 (aoclsparse_sp2md_ref_row), entry `j` of row
`i` of A; `tr` is `opA != none`, `cj` the identity or conjugation (CONJ_A) -/
def mdEntry (col tr : Bool) (cj : R → R) (A B : Arrs R) (alpha : R) (ldc i j : Int) (C : List R) :
    Option (List R) := do
  let c ← rd A.ind (j - A.base)
  let v ← rd A.val (j - A.base)
  if tr then mdAxpy col ldc B (c - A.base) i (alpha * cj v) C
  else mdAxpy col ldc B i (c - A.base) (alpha * cj v) C

/-- sp2md.hpp:71-107, 142-175 — the loops over A -/
def mdKernel (col tr : Bool) (cj : R → R) (mA : Int) (A B : Arrs R) (alpha : R) (ldc : Int)
    (C : List R) : Option (List R) :=
  forC 0 mA (fun i C => do
    let lo ← rd A.ptr i
    let hi ← rd A.ptr (i + 1)
    forC lo hi (mdEntry col tr cj A B alpha ldc i) C) C

/-- the double loop over the elements of C, sp2md.hpp:378-388 (row-major), 404-414 (column-major) -/
def mdLoops (col : Bool) (m n ldc : Int) (cell : Int → List R → Option (List R)) (C : List R) :
    Option (List R) :=
  if col then forC 0 n (fun j C => forC 0 m (fun i C => cell (mdOff col ldc i j) C) C) C
  else forC 0 m (fun i C => forC 0 n (fun j C => cell (mdOff col ldc i j) C) C) C

/-- sp2md.hpp:374-388, 402-414 — scale C by beta -/
def mdScale (col : Bool) (beta : R) (m n ldc : Int) (C : List R) : Option (List R) :=
  if beta = 0 then mdLoops col m n ldc (fun p C => wr C p 0) C
  else if beta ≠ 1 then mdLoops col m n ldc (fun p C => do
    let v ← rd C p
    wr C p (beta * v)) C
  else some C

/-- std::copy of the first `n` elements into a fresh array -/
def copyN {α : Type} (n : Int) (src : List α) (g : Nat → α) : Option (List α) :=
  forC 0 n (fun i d => do
    let v ← rd src i
    wr d i v) (alloc n.toNat g)

/-- sp2md.hpp:307-371 — the matrix B as it is used: the stored arrays, or a copy of them or of their
transpose, conjugated if asked -/
def mdB (g : Garb R) (cj : R → R) (tr conj : Bool) (B : RawMat R) : Option (Except Status (Arrs R)) :=
  if ¬ tr ∧ ¬ conj then some (.ok ⟨B.base, B.ptr, B.ind, B.val⟩)
  else if tr then
    (orientG true g B).bind fun b =>
      match b with
      | .error e => some (.error e)
      | .ok b => (conjLoop conj cj B.nnz b.val).bind fun v => some (.ok { b with val := v })
  else do
    let p ← copyN (B.m + 1) B.ptr g.p
    let i ← copyN B.nnz B.ind g.i
    let v ← forC 0 B.nnz (fun i d => do
      let x ← rd B.val i
      wr d i (cj x)) (alloc B.nnz.toNat g.v)
    some (.ok ⟨B.base, p, i, v⟩)

/-- sp2md.hpp:291-440 — the part of aoclsparse_sp2md_t after the argument checks -/
def mdRun (isReal : Bool) (g : Garb R) (cj : R → R) (opA : Int) (dA : Descr) (A : RawMat R) (opB : Int)
    (dB : Descr) (B : RawMat R) (alpha beta : R) (C : List R) (col : Bool) (mc nc ldc : Int) :
    Option (Status × List R) :=
  let effA := effDoid A.doid (getDoid isReal dA.type dA.fill opA)
  let effB := effDoid B.doid (getDoid isReal dB.type dB.fill opB)
  (mdB g cj (decide (effB &&& 2 ≠ 0)) (decide (effB &&& 1 ≠ 0)) B).bind fun b =>
    match b with
    | .error e => some (e, C)
    | .ok b => (mdScale col beta mc nc ldc C).bind fun C =>
      if alpha = 0 then some (.success, C)
      else (mdKernel col (decide (effA &&& 2 ≠ 0)) (if effA &&& 1 ≠ 0 then cj else id) A.m
        ⟨A.base, A.ptr, A.ind, A.val⟩ b alpha ldc C).map fun C => (.success, C)

/-- sp2md.hpp:188-440 — aoclsparse_sp2md_t; the descriptors are dereferenced without a check -/
def sp2md (w : Nat) (isReal : Bool) (g : Garb R) (cj : R → R) (opA : Int) (dA : Option Descr)
    (A : Option (RawMat R)) (opB : Int) (dB : Option Descr) (B : Option (RawMat R)) (alpha beta : R)
    (C : Option (List R)) (layout ldc : Int) : Option (Status × Option (List R)) :=
  match dA, dB with
  | some dA, some dB =>
    if dA.type ≠ 0 ∨ dB.type ≠ 0 then some (.notImplemented, C)
    else if layout ≠ 0 ∧ layout ≠ 1 then some (.invalidValue, C)
    else match A, B, C with
      | some A, some B, some C' =>
        if A.fmt ≠ 0 ∨ B.fmt ≠ 0 then some (.notImplemented, C)
        else
          -- 223-249: the dimensions of op(A) and op(B)
          let mc := if opA = 111 then A.um else A.un
          let ka := if opA = 111 then A.un else A.um
          let kb := if opB = 111 then B.um else B.un
          let nc := if opB = 111 then B.un else B.um
          if ka ≠ kb then some (.invalidSize, C)
          else if ldc < (if layout = 0 then nc else mc) then some (.invalidSize, C)
          else if prodOvf w (if layout = 0 then mc else nc) ldc then some (.invalidSize, C)
          else if A.base ≠ dA.base ∨ B.base ≠ dB.base then some (.invalidValue, C)
          else (mdRun isReal g cj opA dA A opB dB B alpha beta C' (layout = 1) mc nc ldc).map
            fun r => (r.1, some r.2)
      | _, _, _ => some (.invalidPointer, C)
  | _, _ => none

/-- spmmd.cpp:39-150 — the wrappers: general descriptors with the bases of the matrices -/
def spmmd (w : Nat) (isReal : Bool) (g : Garb R) (cj : R → R) (op : Int) (A B : Option (RawMat R))
    (layout : Int) (C : Option (List R)) (ldc : Int) : Option (Status × Option (List R)) :=
  match A, B with
  | some A, some B =>
    if A.fmt ≠ 0 ∨ B.fmt ≠ 0 then some (.notImplemented, C)
    else sp2md w isReal g cj op (some ⟨0, 0, 0, A.base⟩) (some A) 111 (some ⟨0, 0, 0, B.base⟩) (some B)
      1 0 C layout ldc
  | _, _ => some (.invalidPointer, C)

end Model
end Verif
