/-
Model of the triangular solver
  library/src/level2/aoclsparse_trsv_kr.hpp (reference kernels)
  library/src/level2/aoclsparse_trsv_kt.cpp (vectorised kernels)
  library/src/level2/aoclsparse_trsv.cpp    (aoclsparse::trsv)
Scalars are exact.  `cj` is complex conjugation when the template parameter CONJ is set, the
identity otherwise.  `x_fix[icol_fix[idx] * incx]`, with `x_fix = x - base * incx` and
`icol_fix = icol - base`, is `x[icol[idx - base] * incx - base * incx]`.
-/
import Verif.Core.Step
import Verif.Model.Csrmv
import Verif.Model.CsrOpt
import Verif.Model.Doid
import Verif.Model.Dense
import Verif.Model.Overflow

namespace Verif
namespace Model

variable {R : Type} [Zero R] [Add R] [Sub R] [Neg R] [Mul R] [Div R] [DecidableEq R]

/-- trsv_kr.hpp:62-65, 157-160, trsv_kt.cpp:128-133, 363-368 —
`xi -= cj(a_fix[idx]) * x_fix[icol_fix[idx] * incx]` -/
def trsvSub (cj : R → R) (base : Int) (a : List R) (icol : List Int) (incx : Int) (x : List R)
    (idx : Int) (xi : R) : Option R := do
  let c ← rd icol (idx - base)
  let v ← rd a (idx - base)
  let xc ← rd x (c * incx - base * incx)
  some (xi - cj v * xc)

/-- trsv_kr.hpp:105-111, 163-171, trsv_kt.cpp:137-143 — `if(!unit) x[i*incx] /= cj(a_fix[d])` -/
def trsvDiv (cj : R → R) (base : Int) (a : List R) (unit : Bool) (d i incx : Int) (x : List R) :
    Option (List R) :=
  if unit then some x
  else do
    let v ← rd a (d - base)
    let xi ← rd x (i * incx)
    wr x (i * incx) (xi / cj v)

/-- trsv_kr.hpp:59-75 — one row of ref_trsv_l -/
def refLRow (cj : R → R) (alpha : R) (base : Int) (a : List R) (icol ilrow idiag : List Int)
    (b : List R) (incb incx : Int) (unit : Bool) (i : Int) (x : List R) : Option (List R) := do
  let bi ← rd b (i * incb)
  let lo ← rd ilrow i
  let hi ← rd idiag i
  let xi ← forC lo hi (trsvSub cj base a icol incx x) (alpha * bi)
  if unit then wr x (i * incx) xi
  else do
    let v ← rd a (hi - base)
    wr x (i * incx) (xi / cj v)

/-- trsv_kr.hpp:39-79 — ref_trsv_l -/
def refTrsvL (cj : R → R) (alpha : R) (m base : Int) (a : List R) (icol ilrow idiag : List Int)
    (b : List R) (incb : Int) (x : List R) (incx : Int) (unit : Bool) : Option (List R) :=
  forC 0 m (refLRow cj alpha base a icol ilrow idiag b incb incx unit) x

/-- trsv_kr.hpp:101-102, 197-198 — `x[i * incx] = alpha * b[i * incb]` -/
def trsvInit (alpha : R) (m : Int) (b : List R) (incb : Int) (x : List R) (incx : Int) :
    Option (List R) :=
  forC 0 m (fun i x => do
    let bi ← rd b (i * incb)
    wr x (i * incx) (alpha * bi)) x

/-- trsv_kr.hpp:115-118, 215-218 — `x_fix[icol_fix[idx]*incx] -= cj(a_fix[idx]) * x[i*incx]` -/
def refProp (cj : R → R) (base : Int) (a : List R) (icol : List Int) (incx i idx : Int)
    (x : List R) : Option (List R) := do
  let c ← rd icol (idx - base)
  let v ← rd a (idx - base)
  let xc ← rd x (c * incx - base * incx)
  let xi ← rd x (i * incx)
  wr x (c * incx - base * incx) (xc - cj v * xi)

/-- trsv_kr.hpp:105-119 — one step of ref_trsv_lth -/
def refLthRow (cj : R → R) (base : Int) (a : List R) (icol ilrow idiag : List Int)
    (incx : Int) (unit : Bool) (i : Int) (x : List R) : Option (List R) := do
  let d ← rd idiag i
  let x ← trsvDiv cj base a unit d i incx x
  let lo ← rd ilrow i
  forC lo d (refProp cj base a icol incx i) x

/-- trsv_kr.hpp:82-122 — ref_trsv_lth -/
def refTrsvLth (cj : R → R) (alpha : R) (m base : Int) (a : List R) (icol ilrow idiag : List Int)
    (b : List R) (incb : Int) (x : List R) (incx : Int) (unit : Bool) : Option (List R) := do
  let x ← trsvInit alpha m b incb x incx
  forD (m - 1) 0 (refLthRow cj base a icol ilrow idiag incx unit) x

/-- trsv_kr.hpp:151-171 — one row of ref_trsv_u -/
def refURow (cj : R → R) (alpha : R) (base : Int) (a : List R) (icol ilrow iurow : List Int)
    (b : List R) (incb incx : Int) (unit : Bool) (i : Int) (x : List R) : Option (List R) := do
  let idxstart ← rd iurow i
  let e ← rd ilrow (i + 1)
  let idxend := e - 1
  let bi ← rd b (i * incb)
  let xi ← forC idxstart (idxend + 1) (trsvSub cj base a icol incx x) (alpha * bi)
  let x ← wr x (i * incx) xi
  trsvDiv cj base a unit (idxstart - 1) i incx x

/-- trsv_kr.hpp:129-174 — ref_trsv_u -/
def refTrsvU (cj : R → R) (alpha : R) (m base : Int) (a : List R) (icol ilrow iurow : List Int)
    (b : List R) (incb : Int) (x : List R) (incx : Int) (unit : Bool) : Option (List R) :=
  forD (m - 1) 0 (refURow cj alpha base a icol ilrow iurow b incb incx unit) x

/-- trsv_kr.hpp:201-219 — one step of ref_trsv_uth -/
def refUthRow (cj : R → R) (base : Int) (a : List R) (icol ilrow iurow : List Int)
    (incx : Int) (unit : Bool) (i : Int) (x : List R) : Option (List R) := do
  let idxstart ← rd iurow i
  let x ← trsvDiv cj base a unit (idxstart - 1) i incx x
  let e ← rd ilrow (i + 1)
  let idxend := e - 1
  forC idxstart (idxend + 1) (refProp cj base a icol incx i) x

/-- trsv_kr.hpp:179-222 — ref_trsv_uth -/
def refTrsvUth (cj : R → R) (alpha : R) (m base : Int) (a : List R) (icol ilrow iurow : List Int)
    (b : List R) (incb : Int) (x : List R) (incx : Int) (unit : Bool) : Option (List R) := do
  let x ← trsvInit alpha m b incb x incx
  forC 0 m (refUthRow cj base a icol ilrow iurow incx unit) x

/-! ### vectorised kernels -/

/-- trsv_kt.cpp:99-105, 119-125 — `K` lanes `(cj(a_fix[idx+l]), x_fix[icol_fix[idx+l]*incx])` -/
def trsvLanes (cj : R → R) (K : Nat) (base : Int) (a : List R) (icol : List Int) (incx : Int)
    (x : List R) (idx : Int) : Option (List (R × R)) :=
  (List.range K).mapM fun (l : Nat) => do
    let c ← rd icol (idx + (l : Int) - base)
    let v ← rd a (idx + (l : Int) - base)
    let xc ← rd x (c * incx - base * incx)
    some (cj v, xc)

/-- trsv_kt.cpp:92-134, 327-369 — the row product subtracted from `xi`: blocks of `K`, horizontal
sum, remainder (padded register when it has `K-1` entries, scalar loop otherwise); positions
`lo ≤ idx < hi`.  `kt_dot_p` of a register padded with zeros is a multiply-accumulate into zero. -/
def ktRowDot (V : Vec R) (K : Nat) (cj : R → R) (base : Int) (a : List R) (icol : List Int)
    (incx : Int) (x : List R) (lo hi : Int) (xi : R) : Option R := do
  let idxcnt := hi - lo
  let idxrem := idxcnt.tmod K
  let s ← forS lo (hi - idxrem) K (fun idx s => do
    let L ← trsvLanes cj K base a icol incx x idx
    some (V.fma L s)) V.zero
  let xi := if idxcnt - K ≥ 0 then xi - V.hsum s else xi
  if idxrem = (K : Int) - 1 then do
    let L ← trsvLanes cj (K - 1) base a icol incx x (hi - idxrem)
    some (xi - V.hsum (V.fma (L ++ [(0, 0)]) V.zero))
  else forC (hi - idxrem) hi (trsvSub cj base a icol incx x) xi

/-- trsv_kt.cpp:92-145 — one row of kt_trsv_l -/
def ktLRow (V : Vec R) (K : Nat) (cj : R → R) (alpha : R) (base : Int) (a : List R)
    (icol ilrow idiag : List Int) (b : List R) (incb incx : Int) (unit : Bool) (i : Int)
    (x : List R) : Option (List R) := do
  let idxend ← rd idiag i
  let bi ← rd b (i * incb)
  let lo ← rd ilrow i
  let xi ← ktRowDot V K cj base a icol incx x lo idxend (alpha * bi)
  let x ← wr x (i * incx) xi
  trsvDiv cj base a unit idxend i incx x

/-- trsv_kt.cpp:64-148 — kt_trsv_l -/
def ktTrsvL (V : Vec R) (K : Nat) (cj : R → R) (alpha : R) (m base : Int) (a : List R)
    (icol ilrow idiag : List Int) (b : List R) (incb : Int) (x : List R) (incx : Int)
    (unit : Bool) : Option (List R) :=
  forC 0 m (ktLRow V K cj alpha base a icol ilrow idiag b incb incx unit) x

/-- trsv_kt.cpp:326-381 — one row of kt_trsv_u -/
def ktURow (V : Vec R) (K : Nat) (cj : R → R) (alpha : R) (base : Int) (a : List R)
    (icol ilrow iurow : List Int) (b : List R) (incb incx : Int) (unit : Bool) (i : Int)
    (x : List R) : Option (List R) := do
  let idxstart ← rd iurow i
  let e ← rd ilrow (i + 1)
  let idxend := e - 1
  let bi ← rd b (i * incb)
  let xi ← ktRowDot V K cj base a icol incx x idxstart (idxend + 1) (alpha * bi)
  let x ← wr x (i * incx) xi
  trsvDiv cj base a unit (idxstart - 1) i incx x

/-- trsv_kt.cpp:298-384 — kt_trsv_u -/
def ktTrsvU (V : Vec R) (K : Nat) (cj : R → R) (alpha : R) (m base : Int) (a : List R)
    (icol ilrow iurow : List Int) (b : List R) (incb : Int) (x : List R) (incx : Int)
    (unit : Bool) : Option (List R) :=
  forD (m - 1) 0 (ktURow V K cj alpha base a icol ilrow iurow b incb incx unit) x

/-- trsv_kt.cpp:226-235, 244-256 — `K` lanes of `x` gathered, `cj(a) * mxi` added, and written
back lane by lane -/
def ktScat (cj : R → R) (K : Nat) (base : Int) (a : List R) (icol : List Int) (incx : Int)
    (mxi : R) (idx : Int) (x : List R) : Option (List R) := do
  let L ← trsvLanes cj K base a icol incx x idx
  let xvec := L.map fun p => p.1 * mxi + p.2
  forC 0 K (fun l x => do
    let c ← rd icol (idx + l - base)
    let w ← rd xvec l
    wr x (c * incx - base * incx) w) x

/-- trsv_kt.cpp:258-264 — `x_fix[icol_fix[idx]*incx] -= cj(a_fix[idx]) * xi` -/
def ktProp1 (cj : R → R) (base : Int) (a : List R) (icol : List Int) (incx : Int) (xi : R)
    (idx : Int) (x : List R) : Option (List R) := do
  let c ← rd icol (idx - base)
  let v ← rd a (idx - base)
  let xc ← rd x (c * incx - base * incx)
  wr x (c * incx - base * incx) (xc - cj v * xi)

/-- trsv_kt.cpp:222-265, 458-501 — propagate `xi` through the entries `lo ≤ idx < hi` -/
def ktRowScat (cj : R → R) (K : Nat) (base : Int) (a : List R) (icol : List Int) (incx : Int)
    (lo hi : Int) (xi : R) (x : List R) : Option (List R) := do
  let mxi := -xi
  let idxcnt := hi - lo
  let idxrem := idxcnt.tmod K
  let x ← forS lo (hi - idxrem) K (ktScat cj K base a icol incx mxi) x
  if idxrem = (K : Int) - 1 then ktScat cj (K - 1) base a icol incx mxi (hi - idxrem) x
  else forC (hi - idxrem) hi (ktProp1 cj base a icol incx xi) x

/-- trsv_kt.cpp:207-209, 442-444 — the right-hand side is copied only if `alpha != 0` -/
def ktInit (alpha : R) (m : Int) (b : List R) (incb : Int) (x : List R) (incx : Int) :
    Option (List R) :=
  if alpha ≠ 0 then trsvInit alpha m b incb x incx else some x

/-- trsv_kt.cpp:212-265 — one step of kt_trsv_lt -/
def ktLtRow (K : Nat) (cj : R → R) (base : Int) (a : List R) (icol ilrow idiag : List Int)
    (incx : Int) (unit : Bool) (i : Int) (x : List R) : Option (List R) := do
  let idxend ← rd idiag i
  let x ← trsvDiv cj base a unit idxend i incx x
  let xi ← rd x (i * incx)
  let lo ← rd ilrow i
  ktRowScat cj K base a icol incx lo idxend xi x

/-- trsv_kt.cpp:180-268 — kt_trsv_lt -/
def ktTrsvLt (K : Nat) (cj : R → R) (alpha : R) (m base : Int) (a : List R)
    (icol ilrow idiag : List Int) (b : List R) (incb : Int) (x : List R) (incx : Int)
    (unit : Bool) : Option (List R) := do
  let x ← ktInit alpha m b incb x incx
  forD (m - 1) 0 (ktLtRow K cj base a icol ilrow idiag incx unit) x

/-- trsv_kt.cpp:447-501 — one step of kt_trsv_ut -/
def ktUtRow (K : Nat) (cj : R → R) (base : Int) (a : List R) (icol ilrow iurow : List Int)
    (incx : Int) (unit : Bool) (i : Int) (x : List R) : Option (List R) := do
  let idxstart ← rd iurow i
  let e ← rd ilrow (i + 1)
  let idxend := e - 1
  let x ← trsvDiv cj base a unit (idxstart - 1) i incx x
  let xi ← rd x (i * incx)
  ktRowScat cj K base a icol incx idxstart (idxend + 1) xi x

/-- trsv_kt.cpp:415-504 — kt_trsv_ut -/
def ktTrsvUt (K : Nat) (cj : R → R) (alpha : R) (m base : Int) (a : List R)
    (icol ilrow iurow : List Int) (b : List R) (incb : Int) (x : List R) (incx : Int)
    (unit : Bool) : Option (List R) := do
  let x ← ktInit alpha m b incb x incx
  forC 0 m (ktUtRow K cj base a icol ilrow iurow incx unit) x

/-! ### the solver -/

/-- the implementations of one column of the kernel table: scalar, or vectorised with `K` lanes -/
inductive TrsvImpl (R : Type) where
  | ref
  | kt (V : Vec R) (K : Nat)

/-- trsv.cpp:315-358, 381-400 — the kernel table (rows selected by `doid - 12`) and the choice of
`ilend` (`idiag` for a lower, `iurow` for an upper triangle) -/
def trsvKernel (cjg : R → R) (im : TrsvImpl R) (doid : Nat) (alpha : R) (m base : Int)
    (a : List R) (icol ilrow idiag iurow : List Int) (b : List R) (incb : Int) (x : List R)
    (incx : Int) (unit : Bool) : Option (List R) :=
  match im with
  | .ref =>
    if doid = 12 then refTrsvL id alpha m base a icol ilrow idiag b incb x incx unit
    else if doid = 13 then refTrsvL cjg alpha m base a icol ilrow idiag b incb x incx unit
    else if doid = 14 then refTrsvLth id alpha m base a icol ilrow idiag b incb x incx unit
    else if doid = 15 then refTrsvLth cjg alpha m base a icol ilrow idiag b incb x incx unit
    else if doid = 16 then refTrsvU id alpha m base a icol ilrow iurow b incb x incx unit
    else if doid = 17 then refTrsvU cjg alpha m base a icol ilrow iurow b incb x incx unit
    else if doid = 18 then refTrsvUth id alpha m base a icol ilrow iurow b incb x incx unit
    else refTrsvUth cjg alpha m base a icol ilrow iurow b incb x incx unit
  | .kt V K =>
    if doid = 12 then ktTrsvL V K id alpha m base a icol ilrow idiag b incb x incx unit
    else if doid = 13 then ktTrsvL V K cjg alpha m base a icol ilrow idiag b incb x incx unit
    else if doid = 14 then ktTrsvLt K id alpha m base a icol ilrow idiag b incb x incx unit
    else if doid = 15 then ktTrsvLt K cjg alpha m base a icol ilrow idiag b incb x incx unit
    else if doid = 16 then ktTrsvU V K id alpha m base a icol ilrow iurow b incb x incx unit
    else if doid = 17 then ktTrsvU V K cjg alpha m base a icol ilrow iurow b incb x incx unit
    else if doid = 18 then ktTrsvUt K id alpha m base a icol ilrow iurow b incb x incx unit
    else ktTrsvUt K cjg alpha m base a icol ilrow iurow b incb x incx unit

/-- the parts of a matrix handle the solver reads: input format, dimensions, the user's arrays
(non-null), and whether they hold the transpose (`doid == gt`, a CSC input) -/
structure SolveMat (R : Type) where
  fmt : Nat
  m : Int
  n : Int
  nnz : Int
  base : Int
  isT : Bool
  ptr : List Int
  ind : List Int
  val : List R

/-- trsv.cpp:143-155 — the operation identifier, symmetric matrices treated as triangular -/
def trsvDoid (isReal : Bool) (d : Descr) (op : Int) : Nat :=
  if d.type = 1 then getDoid isReal 3 d.fill op else getDoid isReal d.type d.fill op

/-- trsv.cpp:133-137, 191-192, 362-416 — after the optimised copy is available -/
def trsvRun (isReal : Bool) (w : Nat) (cjg : R → R) (im : TrsvImpl R) (d : Descr) (op : Int)
    (alpha : R) (m : Int) (isT : Bool) (o : OptCsr R) (b : List R) (incb : Int) (x : List R)
    (incx : Int) : Option (Except Status (List R)) :=
  let unit := decide (d.diag = 1)
  if o.fulldiag = false ∧ unit = false then some (.error .invalidValue)
  else
    let doid := if isT then transDoid (trsvDoid isReal d op) else trsvDoid isReal d op
    if doid < 12 ∨ doid > 19 then some (.error .internalError)
    else if prodOvf w (m - 1) incx = true ∨ prodOvf w (m - 1) incb = true then
      some (.error .invalidSize)
    else
      (trsvKernel cjg im doid alpha m o.base o.val o.ind o.ptr o.idiag o.iurow b incb x incx
        unit).map .ok

/-- trsv.cpp:48-417 — aoclsparse::trsv on a matrix that has not been optimised yet (no TCSR
input; the value type of the handle is that of the call).  `im` is the kernel picked by the
dispatcher. -/
def trsv (isReal : Bool) (w : Nat) (cjg : R → R) (srt : (Int → Int → Bool) → List Int → List Int)
    (gi : Nat → Int) (gv : Nat → R) (im : TrsvImpl R) (op : Int) (alpha : R)
    (A : Option (SolveMat R)) (d : Option Descr) (b : Option (List R)) (incb : Int)
    (x : Option (List R)) (incx : Int) : Option (Except Status (List R)) :=
  match A, x, b, d with
  | some A, some x, some b, some d =>
    if A.fmt ≠ 0 then some (.error .notImplemented)
    else if A.m ≤ 0 ∨ A.nnz ≤ 0 then some (.error .invalidSize)
    else if A.m ≠ A.n ∨ incb ≤ 0 ∨ incx ≤ 0 then some (.error .invalidValue)
    else if A.base ≠ d.base then some (.error .invalidValue)
    else if d.base ≠ 0 ∧ d.base ≠ 1 then some (.error .invalidValue)
    else if op ≠ 111 ∧ op ≠ 112 ∧ op ≠ 113 then some (.error .notImplemented)
    else if d.type ≠ 1 ∧ d.type ≠ 3 then some (.error .invalidValue)
    else if d.diag = 2 then some (.error .invalidValue)
    else if d.fill ≠ 0 ∧ d.fill ≠ 1 then some (.error .notImplemented)
    else
      (csrOptimize srt gi gv A.m A.n A.nnz A.base A.ptr A.ind A.val).bind fun r =>
        match r with
        | .error e => some (.error e)
        | .ok o => trsvRun isReal w cjg im d op alpha A.m A.isT o b incb x incx
  | _, _, _, _ => some (.error .invalidPointer)

end Model
end Verif
