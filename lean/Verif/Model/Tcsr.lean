/-
Model of the TCSR format: a square matrix given by two separate CSR structures, the lower triangle
(diagonal last in each row) and the upper triangle (diagonal first in each row).
  extra/aoclsparse_auxiliary.hpp      create_tcsr_t 54-193
  include/aoclsparse_mat_structures.hpp  tcsr 439-553
  level2/aoclsparse_tcsrmv.cpp        aoclsparse_dtcsrmv_avx2
  level2/aoclsparse_tcsr.hpp          tcsrmv 43-195
  level2/aoclsparse_mv.cpp            mv, the path of a TCSR handle
  level2/aoclsparse_trsv.cpp          trsv, the path of a TCSR handle
-/
import Verif.Model.MatCheck
import Verif.Model.Mv
import Verif.Model.Trsv
import Verif.Core.Prefix

namespace Verif
namespace Model

variable {R : Type}

/-- mat_structures.hpp:439-553 — a TCSR object: the user's six arrays (not copied), and the positions
of the diagonal in the lower and of the first strictly upper entry in the upper triangle. -/
structure Tcsr (R : Type) where
  m : Int
  n : Int
  nnz : Int
  base : Int
  ptrL : List Int
  ptrU : List Int
  indL : List Int
  indU : List Int
  valL : List R
  valU : List R
  idiag : List Int
  iurow : List Int
  deriving DecidableEq

/-- auxiliary.hpp:98-137 — the checks of one triangle -/
def tcsrPart (M N nnz : Int) (ptr ind : List Int) (val : List R) (shape : Shape) (base : Int) :
    Option (Except Status MatSort) :=
  (matCheck M N nnz (some ptr) (some ind) (some val) shape base false).map fun r =>
    match r with
    | .error e => .error e
    | .ok (st, fd) =>
      if st = .unsorted then .error .unsortedInput
      else if fd = false then .error .invalidValue
      else .ok st

/-- auxiliary.hpp:169-176 — one iteration of the loop that fills `idiag` and `iurow` -/
def tcsrPosStep (ptrL ptrU : List Int) (i : Int) (s : List Int × List Int) :
    Option (List Int × List Int) := do
  let a ← rd ptrL (i + 1)
  let d ← wr s.1 i (a - 1)
  let b ← rd ptrU i
  let u ← wr s.2 i (b + 1)
  some (d, u)

/-- auxiliary.hpp:139-191 — building the object; `gd`, `gu` are the contents of the two new arrays
before the loop.  Simplification: allocation does not fail. -/
def tcsrBuild (gd gu : Nat → Int) (base M N nnz : Int) (ptrL ptrU indL indU : List Int)
    (valL valU : List R) (sL sU : MatSort) : Option (Except Status (Tcsr R × MatSort)) := do
  let s ← forC 0 M (tcsrPosStep ptrL ptrU) (alloc M.toNat gd, alloc M.toNat gu)
  some (.ok (⟨M, N, nnz, base, ptrL, ptrU, indL, indU, valL, valU, s.1, s.2⟩,
    if sL = .partially ∨ sU = .partially then .partially else .fully))

/-- auxiliary.hpp:54-193 — aoclsparse_create_?tcsr: the object and the recorded order of the rows -/
def createTcsr (gd gu : Nat → Int) (base M N nnz : Int) (ptrL ptrU indL indU : Option (List Int))
    (valL valU : Option (List R)) : Option (Except Status (Tcsr R × MatSort)) :=
  match ptrL, ptrU, indL, indU, valL, valU with
  | some ptrL, some ptrU, some indL, some indU, some valL, some valU =>
    if base ≠ 1 ∧ base ≠ 0 then some (.error .invalidValue)
    else if M < 0 ∨ N < 0 ∨ nnz < 0 then some (.error .invalidSize)
    else if M ≠ N then some (.error .invalidSize)
    else do
      let pL ← rd ptrL M
      let pU ← rd ptrU M
      if nnz ≠ (pL - base) + (pU - base) - M then some (.error .invalidSize)
      else do
        let rL ← tcsrPart M N (pL - base) ptrL indL valL .lower base
        match rL with
        | .error e => some (.error e)
        | .ok sL => do
          let rU ← tcsrPart M N (pU - base) ptrU indU valU .upper base
          match rU with
          | .error e => some (.error e)
          | .ok sU => tcsrBuild gd gu base M N nnz ptrL ptrU indL indU valL valU sL sU
  | _, _, _, _, _, _ => some (.error .invalidPointer)

section mv
variable [Zero R] [One R] [Add R] [Mul R] [DecidableEq R]

/-- tcsrmv.cpp:74-82, 98-106 — the loop over full blocks of `K` entries from `lo` -/
def tcsrBlocks (V : Vec R) (K : Nat) (ind : List Int) (val x : List R) (base lo hi : Int) (v : V.σ) :
    Option V.σ :=
  forS lo (hi - (hi - lo).tmod K) K (fun j v => do
    let L ← lanesAt K ind val x base (j - base)
    some (V.fma L v)) v

/-- tcsrmv.cpp:109-129 — `if(k_iterL || k_iterU) result += horizontal sum` -/
def tcsrFin (V : Vec R) (K : Nat) (nL nU : Int) (v : V.σ) (r : R) : R :=
  if nL.tdiv K ≠ 0 ∨ nU.tdiv K ≠ 0 then r + V.hsum v else r

/-- tcsrmv.cpp:61-135 — row `i` of the product: the lower triangle with the diagonal, then the upper triangle
without its first entry; both share the vector accumulator -/
def tcsrRow (V : Vec R) (K : Nat) (base : Int) (T : Tcsr R) (x : List R) (i : Int) : Option R := do
  let lo ← rd T.ptrL i
  let hi ← rd T.ptrL (i + 1)
  let v ← tcsrBlocks V K T.indL T.valL x base lo hi V.zero
  let r ← dotSeq T.indL T.valL x base (hi - (hi - lo).tmod K) hi 0
  let ulo ← rd T.ptrU i
  let uhi ← rd T.ptrU (i + 1)
  let v ← tcsrBlocks V K T.indU T.valU x base (ulo + 1) uhi v
  dotSeq T.indU T.valU x base (uhi - (uhi - (ulo + 1)).tmod K) uhi
    (tcsrFin V K (hi - lo) (uhi - (ulo + 1)) v r)

/-- tcsrmv.cpp:35-146 — aoclsparse_dtcsrmv_avx2 (rows in sequence; each row writes its own element) -/
def dtcsrmv (base : Int) (alpha : R) (T : Tcsr R) (x : List R) (beta : R) (y : List R) :
    Option (List R) :=
  forC 0 T.m (fun i y => do
    let r ← tcsrRow (vecLanes 4 hsum4l) 4 base T x i
    storeRowA alpha beta r i y) y

/-- tcsr.hpp:43-92 — the doid names the upper triangle -/
def tcsrUpper (e : Nat) : Bool := e = 6 ∨ e = 7 ∨ e = 10 ∨ e = 11 ∨ (16 ≤ e ∧ e ≤ 19)

/-- tcsr.hpp:43-92 and trsv.cpp:158-177 — the arrays (val, ind, ptr, idiag, iurow) of the triangle.
In tcsr.hpp the triangular kernels get `rstart = ptr`, `rend = ptr + 1`. -/
def Tcsr.tri (T : Tcsr R) (upper : Bool) : List R × List Int × List Int × List Int × List Int :=
  if upper then (T.valU, T.indU, T.ptrU, T.ptrU, T.iurow)
  else (T.valL, T.indL, T.ptrL, T.idiag, T.ptrL.drop 1)

/-- tcsr.hpp:95-183 — tcsrmv for the doid `e` and a real value type; `V`, `K` is the vector kernel of
the instruction set (b512 with AVX512F, b256 otherwise). -/
def tcsrmv (dbl : Bool) (V : Vec R) (K : Nat) (e : Nat) (alpha : R) (T : Tcsr R) (diag fill : Nat)
    (base : Int) (x : List R) (beta : R) (y : List R) : Option (Status × List R) :=
  let a := T.tri (tcsrUpper e)
  if e = gn then if dbl then done (dtcsrmv base alpha T x beta y) else some (.notImplemented, y)
  else if e < 4 then some (.notImplemented, y)
  else if e < 12 then
    done (csrmvSymmKt V K id base alpha T.m diag fill a.1 a.2.1 a.2.2.1 a.2.2.2.1 a.2.2.2.2 x beta y)
  else if e = 12 ∨ e = 16 then
    if dbl then
      done (csrmvTriAvx2 base alpha T.m diag fill a.1 a.2.1 a.2.2.1 a.2.2.2.1 a.2.2.2.2 x beta y)
    else
      done (csrmvTri base alpha T.m diag fill a.1 a.2.1 a.2.2.1 a.2.2.2.1 a.2.2.2.2 x beta y)
  else if e = 14 ∨ e = 18 then
    done (csrmvTriTh id base alpha T.m T.n diag fill a.1 a.2.1 a.2.2.1 a.2.2.2.1 a.2.2.2.2 x beta y)
  else if e < 20 then some (.notImplemented, y)
  else some (.internalError, y)

/-- magic_box.hpp:76-142 — get_arch_score of the TCSR format, real value types -/
def tcsrScore (isa : Isa) (dbl : Bool) (e : Nat) : Nat :=
  if e = gn ∧ dbl = true then getSupported isa [2]
  else if 4 ≤ e ∧ e < 12 then getSupported isa [3, 2, 1]
  else if e = 12 ∨ e = 16 then if dbl then getSupported isa [2, 1] else getSupported isa [1]
  else if e = 14 ∨ e = 18 then getSupported isa [1]
  else 0

/-- mv.cpp:118-349 — the only object of the handle is the TCSR object, of doid gn: it is taken if its
score for the request is not 0; the descriptor becomes general if the request is gn. -/
def mvTcsrRun (isa : Isa) (dbl : Bool) (V : Vec R) (K : Nat) (op : Int) (alpha : R) (T : Tcsr R)
    (d : Descr) (x : List R) (beta : R) (y : List R) : Option (Status × List R) :=
  let req := getDoid true d.type d.fill op
  if tcsrScore isa dbl (effDoid gn req) = 0 then some (.notImplemented, y)
  else tcsrmv dbl V K (effDoid gn req) alpha T d.diag d.fill T.base x beta y

/-- mv.cpp:41-350 — aoclsparse_?mv on a TCSR handle.  `real`: the value type is real. -/
def mvTcsr (isa : Isa) (real dbl : Bool) (V : Vec R) (K : Nat) (sameType : Bool) (op : Int)
    (alpha : Option R) (T : Option (Tcsr R)) (d : Option Descr) (x : Option (List R))
    (beta : Option R) (y : Option (List R)) : Option (Status × Option (List R)) :=
  match alpha, beta, T, d, x, y with
  | some alpha, some beta, some T, some d, some x, some y =>
    if T.base ≠ d.base then some (.invalidValue, some y)
    else if op ≠ 111 ∧ op ≠ 112 ∧ op ≠ 113 then some (.invalidValue, some y)
    else if sameType = false then some (.wrongType, some y)
    else if d.type ≠ 0 ∧ d.type ≠ 1 ∧ d.type ≠ 2 ∧ d.type ≠ 3 then some (.invalidValue, some y)
    else if (d.type = 1 ∨ d.type = 2) ∧ T.m ≠ T.n then some (.invalidSize, some y)
    else if real = false then some (.notImplemented, some y)
    else if d.type = 2 then some (.notImplemented, some y)
    else if T.m = 0 ∨ T.n = 0 ∨ (T.nnz = 0 ∧ d.type = 0) then do
      let y ← vscale beta (if op = 111 then T.m else T.n) y
      some (.success, some y)
    else do
      let r ← mvTcsrRun isa dbl V K (if op = 113 then 112 else op) alpha T d x beta y
      some (r.1, some r.2)
  | _, _, _, _, _, y => some (.invalidPointer, y)

end mv

/-- trsv.cpp:158-177 — the triangle the solve works on, in the form of the optimised CSR copy -/
def Tcsr.opt (T : Tcsr R) (fill : Nat) : OptCsr R :=
  let a := T.tri (fill ≠ 0)
  ⟨true, T.base, a.2.2.1, a.2.1, a.1, a.2.2.2.1, a.2.2.2.2, true⟩

/-- trsv.cpp:48-417 — aoclsparse::trsv on a TCSR handle -/
def trsvTcsr [Field R] [DecidableEq R] (isReal : Bool) (w : Nat) (cjg : R → R) (im : TrsvImpl R)
    (sameType : Bool) (op : Int) (alpha : R) (T : Option (Tcsr R)) (d : Option Descr)
    (b : Option (List R)) (incb : Int) (x : Option (List R)) (incx : Int) :
    Option (Except Status (List R)) :=
  match T, x, b, d with
  | some T, some x, some b, some d =>
    if T.m ≤ 0 ∨ T.nnz ≤ 0 then some (.error .invalidSize)
    else if T.m ≠ T.n ∨ incb ≤ 0 ∨ incx ≤ 0 then some (.error .invalidValue)
    else if T.base ≠ d.base then some (.error .invalidValue)
    else if d.base ≠ 0 ∧ d.base ≠ 1 then some (.error .invalidValue)
    else if op ≠ 111 ∧ op ≠ 112 ∧ op ≠ 113 then some (.error .notImplemented)
    else if d.type ≠ 1 ∧ d.type ≠ 3 then some (.error .invalidValue)
    else if d.diag = 2 then some (.error .invalidValue)
    else if d.fill ≠ 0 ∧ d.fill ≠ 1 then some (.error .notImplemented)
    else if sameType = false then some (.error .wrongType)
    else trsvRun isReal w cjg im d op alpha T.m false (T.opt d.fill) b incb x incx
  | _, _, _, _ => some (.error .invalidPointer)

end Model
end Verif
