/-
Model of the dense products with a matrix and its own (conjugate) transpose
  library/src/level3/aoclsparse_syrkd.cpp, aoclsparse_syrkd.hpp  (op(A)·op(A)ᴴ)
  library/src/level3/aoclsparse_syprd.cpp, aoclsparse_syprd.hpp  (op(A)·B·op(A)ᴴ)
Memory allocation is assumed to succeed.
-/
import Verif.Model.Syrk
import Verif.Model.Sp2md

namespace Verif
namespace Model

variable {R : Type} [Zero R] [Add R] [Mul R]

/-! ### scaling the upper triangle -/

/-- syrkd.hpp:259-309, syprd.hpp:66-93, 169-192 — `cell` at every position of the upper triangle -/
def upLoops (col : Bool) (m ldc : Int) (cell : Int → List R → Option (List R)) (C : List R) :
    Option (List R) :=
  forC 0 m (fun i C => forC i m (fun j C => cell (mdOff col ldc i j) C) C) C

/-- one element multiplied by `beta` -/
def upMul (beta : R) (p : Int) (C : List R) : Option (List R) := do
  let v ← rd C p
  wr C p (beta * v)

/-- the same lines — scale the upper triangle by `beta`, or set it to zero -/
def upScale [DecidableEq R] (col : Bool) (beta : R) (m ldc : Int) (C : List R) : Option (List R) :=
  if beta ≠ 0 then upLoops col m ldc (upMul beta) C
  else upLoops col m ldc (fun p C => wr C p 0) C

/-! ### syrkd -/

/-- syrkd.hpp:54-75 — compute_output_row, one element; `cjl` is CONJLEFT -/
def sdElem (col cjl : Bool) (cj : R → R) (W : Arrs R) (ldc i : Int) (a : R) (k : Int) (C : List R) :
    Option (List R) := do
  let c ← rd W.ind k
  if c - W.base < i then some C
  else do
    let v ← rd W.val k
    addAt C (mdOff col ldc i (c - W.base)) (a * (if cjl then v else cj v))

/-- syrkd.hpp:41-76, 124-132 — compute_output_row for row `row` -/
def sdRow (col cjl : Bool) (cj : R → R) (W : Arrs R) (ldc i : Int) (a : R) (row : Int) (C : List R) :
    Option (List R) := do
  let b ← rd W.ptr row
  let e ← rd W.ptr (row + 1)
  forC (b - W.base) (e - W.base) (sdElem col cjl cj W ldc i a) C

/-- syrkd.hpp:78-165 — aoclsparse_syrkd_online_atb; the pointers are not null -/
def sdAtb (col cjl : Bool) (cj : R → R) (m k : Int) (alpha : R) (A : Arrs R) (ldc : Int) (C : List R) :
    Option (List R) := do
  let o ← oftInit (atbCfg A) m k A.ptr A.base
  let s ← forC 0 k (atbVisit (fun v => alpha * (if cjl then cj v else v)) A m.toNat
    (sdRow col cjl cj A ldc)) (o, C)
  some s.2

/-- syrkd.hpp:317-403 — the product added to C -/
def sdKernel (col : Bool) (cj : R → R) (eff : Int) (A : RawMat R) (alpha : R) (ldc : Int) (C : List R) :
    Option (Status × List R) :=
  if eff = 111 then
    (orient true A).bind fun a =>
      match a with
      | .error st => some (st, C)
      | .ok t => (sdAtb col A.isT cj A.n A.m alpha t ldc C).map fun C => (.success, C)
  else (sdAtb col (!A.isT) cj A.m A.n alpha A.arrs ldc C).map fun C => (.success, C)

/-- syrkd.hpp:167-405 — aoclsparse_syrkd_t after the check of the operation's support.  Handles of input
format CSR hold a CSR object with doid gn or gt. -/
def syrkdRun [DecidableEq R] (w : Nat) (cj : R → R) (op : Int) (A : SyMat R) (alpha beta : R)
    (C : List R) (col : Bool) (ldc : Int) : Option (Status × List R) :=
  let r := A.raw
  let eff := syEff r.isT op
  let mC := if eff = 111 then r.m else r.n
  if A.sorted = false ∧ eff ≠ 111 then some (.unsortedInput, C)
  else if ldc < mC then some (.invalidValue, C)
  else if prodOvf w mC ldc then some (.invalidSize, C)
  else (upScale col beta mC ldc C).bind fun C =>
    if r.um = 0 ∨ r.un = 0 ∨ r.nnz = 0 then some (.success, C)
    else sdKernel col cj eff r alpha ldc C

/-- syrkd.cpp:38-113, syrkd.hpp:167-196 — the four wrappers with the checks of the arguments: `t` is the
type of the function (0 double, 1 float, 2 and 3 complex), `re` takes the real part of a complex number -/
def syrkdApi [DecidableEq R] (w t : Nat) (cj re : R → R) (op : Int) (A : Option (SyMat R))
    (alpha beta : R) (C : Option (List R)) (layout ldc : Int) : Option (Status × Option (List R)) :=
  match A, C with
  | some A, some C' =>
    let cplx := t = 2 ∨ t = 3
    if ¬ isOp op then some (.invalidValue, C)
    else if layout ≠ 0 ∧ layout ≠ 1 then some (.invalidValue, C)
    else if A.raw.fmt ≠ 0 then some (.notImplemented, C)
    else if A.vt ≠ t then some (.wrongType, C)
    else if (A.vt = 2 ∨ A.vt = 3) ∧ op = 112 then some (.notImplemented, C)
    else (syrkdRun w cj op A (if cplx then re alpha else alpha) (if cplx then re beta else beta) C'
      (decide (layout = 1)) ldc).map fun r => (r.1, some r.2)
  | _, _ => some (.invalidPointer, C)

/-! ### syprd -/

/-- syprd.hpp:117-118 — clear the row -/
def pdClear (n : Int) (t : List R) : Option (List R) := forC 0 n (fun j t => wr t j 0) t

/-- syprd.hpp:119-135 (row-major) — element `k` of row `i` of M times its row of the Hermitian matrix B -/
def pdRowElem (cjl : Bool) (cj : R → R) (n : Int) (M : Arrs R) (B : List R) (ldb : Int) (alpha : R)
    (k : Int) (t : List R) : Option (List R) := do
  let c ← rd M.ind (k - M.base)
  let v ← rd M.val (k - M.base)
  let a := alpha * (if cjl then cj v else v)
  let t ← forC 0 (c - M.base) (fun j t => do
    let b ← rd B (j * ldb + (c - M.base))
    addAt t j (cj b * a)) t
  forC (c - M.base) n (fun j t => do
    let b ← rd B ((c - M.base) * ldb + j)
    addAt t j (b * a)) t

/-- syprd.hpp:111-135 — row `i` of alpha·M·B, row-major -/
def pdTempRow (cjl : Bool) (cj : R → R) (n : Int) (M : Arrs R) (B : List R) (ldb : Int) (alpha : R)
    (i : Int) (t : List R) : Option (List R) := do
  let b ← rd M.ptr i
  let e ← rd M.ptr (i + 1)
  let t ← pdClear n t
  forC b e (pdRowElem cjl cj n M B ldb alpha) t

/-- syprd.hpp:215-226 — element `k` of the row of M times the element of B in column `j` -/
def pdColElem (cjl : Bool) (cj : R → R) (M : Arrs R) (B : List R) (ldb : Int) (j k : Int) (s : R) :
    Option R := do
  let c ← rd M.ind (k - M.base)
  let b ← if j < c - M.base then (rd B ((c - M.base) * ldb + j)).map cj
    else rd B (j * ldb + (c - M.base))
  let v ← rd M.val (k - M.base)
  some (s + (if cjl then cj v else v) * b)

/-- syprd.hpp:206-228 — row `i` of alpha·M·B, column-major -/
def pdTempCol (cjl : Bool) (cj : R → R) (n : Int) (M : Arrs R) (B : List R) (ldb : Int) (alpha : R)
    (i : Int) (t : List R) : Option (List R) := do
  let b ← rd M.ptr i
  let e ← rd M.ptr (i + 1)
  forC 0 n (fun j t => do
    let s ← forC b e (pdColElem cjl cj M B ldb j) 0
    wr t j (s * alpha)) t

/-- syprd.hpp:144-153 (237-246) — element `(i, j)` of C: the row times row `j` of M -/
def pdDot (col cjl : Bool) (cj : R → R) (M : Arrs R) (ldc : Int) (t : List R) (i j : Int) (C : List R) :
    Option (List R) := do
  let b ← rd M.ptr j
  let e ← rd M.ptr (j + 1)
  forC b e (fun k C => do
    let c ← rd M.ind (k - M.base)
    let x ← rd t (c - M.base)
    let v ← rd M.val (k - M.base)
    addAt C (mdOff col ldc i j) (x * (if cjl then v else cj v))) C

/-- syprd.hpp:111-154 (203-247) — row `i`; the state is the dense row and C -/
def pdRow (col cjl : Bool) (cj : R → R) (m n : Int) (M : Arrs R) (B : List R) (ldb : Int) (alpha : R)
    (ldc : Int) (i : Int) (s : List R × List R) : Option (List R × List R) := do
  let t ← (if col then pdTempCol else pdTempRow) cjl cj n M B ldb alpha i s.1
  let C ← forC i m (fun j C => pdDot col cjl cj M ldc t i j C) s.2
  some (t, C)

/-- syprd.hpp:42-156 (aoclsparse_syprd_row_ref), 158-250 (aoclsparse_syprd_col_ref) -/
def pdKernel [DecidableEq R] (col cjl : Bool) (cj : R → R) (m n : Int) (M : Arrs R) (B : List R)
    (ldb : Int) (alpha beta : R) (C : List R) (ldc : Int) : Option (List R) := do
  let C ← upScale col beta m ldc C
  if alpha = 0 then some C
  else do
    let s ← forC 0 m (pdRow col cjl cj m n M B ldb alpha ldc) (List.replicate n.toNat 0, C)
    some s.2

/-- syprd.hpp:407-577 — the dispatch to the kernels -/
def syprdRun [DecidableEq R] (cjl : Bool) (cj : R → R) (eff : Int) (A : RawMat R) (B : List R)
    (ldb : Int) (alpha beta : R) (C : List R) (col : Bool) (ldc : Int) : Option (Status × List R) :=
  if eff = 111 then
    (pdKernel col cjl cj A.m A.n A.arrs B ldb alpha beta C ldc).map fun C => (.success, C)
  else (orient true A).bind fun a =>
    match a with
    | .error _ => some (.internalError, C)
    | .ok t => (pdKernel col cjl cj A.n A.m t B ldb alpha beta C ldc).map fun C => (.success, C)

/-- syprd.hpp:318-327 — the operation on the stored arrays -/
def pdEff (isT : Bool) (op : Int) : Int := if isT then (if op = 111 then 112 else 111) else op

/-- `max(1, x)` as written in syprd.hpp:376, 384 -/
def atLeast1 (x : Int) : Int := if 1 ≥ x then 1 else x

/-- syprd.hpp:298-412 — the checks after that of the operation's support -/
def syprdSized [DecidableEq R] [One R] (w t : Nat) (cj : R → R) (op : Int) (A : RawMat R) (B : List R)
    (ldb : Int) (alpha beta : R) (C : List R) (col : Bool) (ldc : Int) : Option (Status × List R) :=
  let kb := if op = 111 then A.un else A.um
  let kc := if op = 111 then A.um else A.un
  if A.um < 0 ∨ A.un < 0 then some (.invalidSize, C)
  else if A.um = 0 then some (.success, C)
  else if alpha = 0 ∧ beta = 1 then some (.success, C)
  else if ldb < atLeast1 kb then some (.invalidSize, C)
  else if ldc < atLeast1 kc then some (.invalidSize, C)
  else if prodOvf w kc ldc ∨ prodOvf w kb ldb then some (.invalidSize, C)
  else syprdRun (decide ((t = 2 ∨ t = 3) ∧ op = 113)) cj (pdEff A.isT op) A B ldb alpha beta C col ldc

/-- syprd.cpp:42-168, syprd.hpp:252-577 — the four wrappers (`t` is the type of the function) and
aoclsparse_syprd.  Handles of input format CSR hold a CSR object with doid gn or gt as their first
object, handles of other formats do not hold a CSR object first. -/
def syprdApi [DecidableEq R] [One R] (w t : Nat) (cj : R → R) (op : Int) (A : Option (SyMat R))
    (B : Option (List R)) (orderB ldb : Int) (alpha beta : R) (C : Option (List R))
    (orderC ldc : Int) : Option (Status × Option (List R)) :=
  match A, B, C with
  | some A, some B, some C' =>
    if A.vt ≠ t then some (.wrongType, C)
    else if ¬ isOp op then some (.invalidValue, C)
    else if orderB ≠ 0 ∧ orderB ≠ 1 then some (.invalidValue, C)
    else if orderC ≠ 0 ∧ orderC ≠ 1 then some (.invalidValue, C)
    else if orderB ≠ orderC then some (.invalidOperation, C)
    else if A.raw.fmt ≠ 0 then some (.invalidPointer, C)
    else if (A.vt = 2 ∨ A.vt = 3) ∧ op = 112 then some (.notImplemented, C)
    else (syprdSized w t cj op A.raw B ldb alpha beta C' (decide (orderB = 1)) ldc).map
      fun r => (r.1, some r.2)
  | _, _, _ => some (.invalidPointer, C)

end Model
end Verif
