/-
The triangular solvers of Model/Trsv with the multiply-accumulate operations as parameters, for
floating-point arithmetic.  With `SolveFpu.plain` they are the kernels of Model/Trsv (`C55_plain`).
Real data only: no conjugation, and the complex registers are not covered here.
  library/src/level2/aoclsparse_trsv_kr.hpp
  library/src/level2/aoclsparse_trsv_kt.cpp
  library/src/level2/aoclsparse_trsv.cpp
-/
import Verif.Model.Trsv
import Verif.Model.Rounded
import Verif.Spec.RoundedSolve

namespace Verif
namespace Model

variable {R : Type} [Zero R] [One R] [Add R] [Sub R] [Neg R] [Mul R] [Div R] [DecidableEq R]

/-- trsv_kr.hpp:62-65, 157-160, trsv_kt.cpp:128-133, 363-368 —
`xi -= a_fix[idx] * x_fix[icol_fix[idx] * incx]` -/
def trsvSubFp (F : SolveFpu R) (base : Int) (a : List R) (icol : List Int) (incx : Int)
    (x : List R) (idx : Int) (xi : R) : Option R := do
  let c ← rd icol (idx - base)
  let v ← rd a (idx - base)
  let xc ← rd x (c * incx - base * incx)
  some (F.msub v xc xi)

/-- trsv_kr.hpp:59-75 — one row of ref_trsv_l -/
def refLRowFp (F : SolveFpu R) (alpha : R) (base : Int) (a : List R) (icol ilrow idiag : List Int)
    (b : List R) (incb incx : Int) (unit : Bool) (i : Int) (x : List R) : Option (List R) := do
  let bi ← rd b (i * incb)
  let lo ← rd ilrow i
  let hi ← rd idiag i
  let xi ← forC lo hi (trsvSubFp F base a icol incx x) (alpha * bi)
  if unit then wr x (i * incx) xi
  else do
    let v ← rd a (hi - base)
    wr x (i * incx) (xi / v)

/-- trsv_kr.hpp:115-118, 215-218 — `x_fix[icol_fix[idx]*incx] -= a_fix[idx] * x[i*incx]` -/
def refPropFp (F : SolveFpu R) (base : Int) (a : List R) (icol : List Int) (incx i idx : Int)
    (x : List R) : Option (List R) := do
  let c ← rd icol (idx - base)
  let v ← rd a (idx - base)
  let xc ← rd x (c * incx - base * incx)
  let xi ← rd x (i * incx)
  wr x (c * incx - base * incx) (F.msub v xi xc)

/-- trsv_kr.hpp:105-119 — one step of ref_trsv_lth -/
def refLthRowFp (F : SolveFpu R) (base : Int) (a : List R) (icol ilrow idiag : List Int)
    (incx : Int) (unit : Bool) (i : Int) (x : List R) : Option (List R) := do
  let d ← rd idiag i
  let x ← trsvDiv id base a unit d i incx x
  let lo ← rd ilrow i
  forC lo d (refPropFp F base a icol incx i) x

/-- trsv_kr.hpp:151-171 — one row of ref_trsv_u -/
def refURowFp (F : SolveFpu R) (alpha : R) (base : Int) (a : List R) (icol ilrow iurow : List Int)
    (b : List R) (incb incx : Int) (unit : Bool) (i : Int) (x : List R) : Option (List R) := do
  let idxstart ← rd iurow i
  let e ← rd ilrow (i + 1)
  let idxend := e - 1
  let bi ← rd b (i * incb)
  let xi ← forC idxstart (idxend + 1) (trsvSubFp F base a icol incx x) (alpha * bi)
  let x ← wr x (i * incx) xi
  trsvDiv id base a unit (idxstart - 1) i incx x

/-- trsv_kr.hpp:201-219 — one step of ref_trsv_uth -/
def refUthRowFp (F : SolveFpu R) (base : Int) (a : List R) (icol ilrow iurow : List Int)
    (incx : Int) (unit : Bool) (i : Int) (x : List R) : Option (List R) := do
  let idxstart ← rd iurow i
  let x ← trsvDiv id base a unit (idxstart - 1) i incx x
  let e ← rd ilrow (i + 1)
  let idxend := e - 1
  forC idxstart (idxend + 1) (refPropFp F base a icol incx i) x

/-! ### vectorised kernels -/

/-- trsv_kt.cpp:92-134, 327-369 — the row product subtracted from `xi`: blocks of `K`, horizontal
sum, remainder (padded register when it has `K-1` entries, scalar loop otherwise); positions
`lo ≤ idx < hi`.  `kt_dot_p` of a register padded with zeros is a multiply-accumulate into zero. -/
def ktRowDotFp (F : SolveFpu R) (K : Nat) (hs : List R → R) (base : Int) (a : List R)
    (icol : List Int) (incx : Int) (x : List R) (lo hi : Int) (xi : R) : Option R := do
  let idxcnt := hi - lo
  let idxrem := idxcnt.tmod K
  let s ← forS lo (hi - idxrem) K (fun idx (s : List R) => do
    let L ← trsvLanes id K base a icol incx x idx
    some ((vecFp F.toFpu K hs).fma L s)) (List.replicate K 0)
  let xi := if idxcnt - K ≥ 0 then xi - hs s else xi
  if idxrem = (K : Int) - 1 then do
    let L ← trsvLanes id (K - 1) base a icol incx x (hi - idxrem)
    some (xi - hs ((vecFp F.toFpu K hs).fma (L ++ [(0, 0)]) (List.replicate K 0)))
  else forC (hi - idxrem) hi (trsvSubFp F base a icol incx x) xi

/-- trsv_kt.cpp:92-145 — one row of kt_trsv_l -/
def ktLRowFp (F : SolveFpu R) (K : Nat) (hs : List R → R) (alpha : R) (base : Int) (a : List R)
    (icol ilrow idiag : List Int) (b : List R) (incb incx : Int) (unit : Bool) (i : Int)
    (x : List R) : Option (List R) := do
  let idxend ← rd idiag i
  let bi ← rd b (i * incb)
  let lo ← rd ilrow i
  let xi ← ktRowDotFp F K hs base a icol incx x lo idxend (alpha * bi)
  let x ← wr x (i * incx) xi
  trsvDiv id base a unit idxend i incx x

/-- trsv_kt.cpp:326-381 — one row of kt_trsv_u -/
def ktURowFp (F : SolveFpu R) (K : Nat) (hs : List R → R) (alpha : R) (base : Int) (a : List R)
    (icol ilrow iurow : List Int) (b : List R) (incb incx : Int) (unit : Bool) (i : Int)
    (x : List R) : Option (List R) := do
  let idxstart ← rd iurow i
  let e ← rd ilrow (i + 1)
  let idxend := e - 1
  let bi ← rd b (i * incb)
  let xi ← ktRowDotFp F K hs base a icol incx x idxstart (idxend + 1) (alpha * bi)
  let x ← wr x (i * incx) xi
  trsvDiv id base a unit (idxstart - 1) i incx x

/-- trsv_kt.cpp:226-235, 244-256 — `K` lanes of `x` gathered, `fmadd(a, -xi, x)`, and written
back lane by lane -/
def ktScatFp (F : SolveFpu R) (K : Nat) (base : Int) (a : List R) (icol : List Int) (incx : Int)
    (mxi : R) (idx : Int) (x : List R) : Option (List R) := do
  let L ← trsvLanes id K base a icol incx x idx
  let xvec := L.map fun p => F.vmac p.1 mxi p.2
  forC 0 K (fun l x => do
    let c ← rd icol (idx + l - base)
    let w ← rd xvec l
    wr x (c * incx - base * incx) w) x

/-- trsv_kt.cpp:258-264 — `x_fix[icol_fix[idx]*incx] -= a_fix[idx] * xi` -/
def ktProp1Fp (F : SolveFpu R) (base : Int) (a : List R) (icol : List Int) (incx : Int) (xi : R)
    (idx : Int) (x : List R) : Option (List R) := do
  let c ← rd icol (idx - base)
  let v ← rd a (idx - base)
  let xc ← rd x (c * incx - base * incx)
  wr x (c * incx - base * incx) (F.msub v xi xc)

/-- trsv_kt.cpp:222-265, 458-501 — propagate `xi` through the entries `lo ≤ idx < hi` -/
def ktRowScatFp (F : SolveFpu R) (K : Nat) (base : Int) (a : List R) (icol : List Int) (incx : Int)
    (lo hi : Int) (xi : R) (x : List R) : Option (List R) := do
  let mxi := -xi
  let idxcnt := hi - lo
  let idxrem := idxcnt.tmod K
  let x ← forS lo (hi - idxrem) K (ktScatFp F K base a icol incx mxi) x
  if idxrem = (K : Int) - 1 then ktScatFp F (K - 1) base a icol incx mxi (hi - idxrem) x
  else forC (hi - idxrem) hi (ktProp1Fp F base a icol incx xi) x

/-- trsv_kt.cpp:212-265 — one step of kt_trsv_lt -/
def ktLtRowFp (F : SolveFpu R) (K : Nat) (base : Int) (a : List R) (icol ilrow idiag : List Int)
    (incx : Int) (unit : Bool) (i : Int) (x : List R) : Option (List R) := do
  let idxend ← rd idiag i
  let x ← trsvDiv id base a unit idxend i incx x
  let xi ← rd x (i * incx)
  let lo ← rd ilrow i
  ktRowScatFp F K base a icol incx lo idxend xi x

/-- trsv_kt.cpp:447-501 — one step of kt_trsv_ut -/
def ktUtRowFp (F : SolveFpu R) (K : Nat) (base : Int) (a : List R) (icol ilrow iurow : List Int)
    (incx : Int) (unit : Bool) (i : Int) (x : List R) : Option (List R) := do
  let idxstart ← rd iurow i
  let e ← rd ilrow (i + 1)
  let idxend := e - 1
  let x ← trsvDiv id base a unit (idxstart - 1) i incx x
  let xi ← rd x (i * incx)
  ktRowScatFp F K base a icol incx idxstart (idxend + 1) xi x

/-! ### the kernel table -/

/-- scalar, or vectorised with `K` lanes and horizontal sum `hs` -/
inductive FpTrsv (R : Type) where
  | ref
  | kt (K : Nat) (hs : List R → R)

/-- trsv.cpp:315-358, 381-400 — the kernel table for real data, rows selected by `doid - 12`.
ref: trsv_kr.hpp:39-79, 82-122, 129-174, 179-222; kt: trsv_kt.cpp:64-148, 180-268, 298-384,
415-504. -/
def trsvFp (F : SolveFpu R) (im : FpTrsv R) (doid : Nat) (alpha : R) (m base : Int) (a : List R)
    (icol ilrow idiag iurow : List Int) (b : List R) (incb : Int) (x : List R) (incx : Int)
    (unit : Bool) : Option (List R) :=
  match im with
  | .ref =>
    if doid = 12 then forC 0 m (refLRowFp F alpha base a icol ilrow idiag b incb incx unit) x
    else if doid = 14 then do
      let x ← trsvInit alpha m b incb x incx
      forD (m - 1) 0 (refLthRowFp F base a icol ilrow idiag incx unit) x
    else if doid = 16 then
      forD (m - 1) 0 (refURowFp F alpha base a icol ilrow iurow b incb incx unit) x
    else do
      let x ← trsvInit alpha m b incb x incx
      forC 0 m (refUthRowFp F base a icol ilrow iurow incx unit) x
  | .kt K hs =>
    if doid = 12 then forC 0 m (ktLRowFp F K hs alpha base a icol ilrow idiag b incb incx unit) x
    else if doid = 14 then do
      let x ← ktInit alpha m b incb x incx
      forD (m - 1) 0 (ktLtRowFp F K base a icol ilrow idiag incx unit) x
    else if doid = 16 then
      forD (m - 1) 0 (ktURowFp F K hs alpha base a icol ilrow iurow b incb incx unit) x
    else do
      let x ← ktInit alpha m b incb x incx
      forC 0 m (ktUtRowFp F K base a icol ilrow iurow incx unit) x

/-- the kernels of Model/Trsv with the operations one by one -/
def FpTrsv.impl : FpTrsv R → TrsvImpl R
  | .ref => .ref
  | .kt K hs => .kt (vecLanes K hs) K

end Model
end Verif
