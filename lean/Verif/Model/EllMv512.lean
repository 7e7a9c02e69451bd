/-
Model of the AVX-512 kernels for the transposed ELL and hybrid formats
  library/src/level2/aoclsparse_ellmv_avx512.cpp      149-229 (elltmv), 231-421 (ellthybmv)
-/
import Verif.Model.EllMv
import Verif.Model.Csrmv
import Verif.Model.VecOps

namespace Verif
namespace Model

variable {R : Type} [Zero R] [One R] [Add R] [Mul R] [DecidableEq R]

/-- ellmv_avx512.cpp:176-190 — `res = fmadd(ell_val[off..off+8), x[…], res)` -/
def elltFma8 (ec : List Int) (ev x : List R) (base off : Int) (v : List R) : Option (List R) := do
  let L ← lanesAt 8 ec ev x base off
  some (List.zipWith (fun ab c => ab.1 * ab.2 + c) L v)

/-- ellmv_avx512.cpp:192-201 — scale and store eight rows -/
def storeRow8 (alpha beta : R) (r : List R) (j : Int) (y : List R) : Option (List R) := do
  let r := if alpha ≠ 1 then r.map (alpha * ·) else r
  if beta ≠ 0 then do
    let vy ← vload y j 8
    vstore y j (List.zipWith (fun a b => beta * a + b) vy r)
  else vstore y j r

/-- ellmv_avx512.cpp:169-202 — eight rows -/
def elltGroup8 (alpha : R) (m : Int) (ev : List R) (ec : List Int) (w base : Int) (x : List R) (beta : R)
    (j : Int) (y : List R) : Option (List R) := do
  let res ← forC 0 w (fun i v => elltFma8 ec ev x base (j * 8 + i * m) v) (List.replicate 8 0)
  storeRow8 alpha beta res (j * 8) y

/-- ellmv_avx512.cpp:149-229 — aoclsparse_elltmv_avx512 -/
def elltmvAvx512 (alpha : R) (m : Int) (ev : List R) (ec : List Int) (w base : Int)
    (x : List R) (beta : R) (y : List R) : Option (List R) := do
  let y ← forC 0 (m.tdiv 8) (elltGroup8 alpha m ev ec w base x beta) y
  forC (m.tdiv 8 * 8) m (fun j y => do
    let r ← elltRow m w base ec ev x j
    storeRow alpha beta r j y) y

/-- ellmv_avx512.cpp:231-421 — aoclsparse_ellthybmv_avx512.  The ELL pass (281-328) has the text of
elltmv_avx512; the dot product of a CSR row (344-406) has the text of the AVX-512 CSR kernel
(csrmv_avx512.cpp:57-115). -/
def ellthybmvAvx512 (alpha : R) (m : Int) (ev : List R) (ec : List Int) (w ell_m : Int)
    (cval : List R) (cptr cind : List Int) (map : List Int) (base : Int)
    (x : List R) (beta : R) (y : List R) : Option (List R) :=
  hybMv (fun y => elltmvAvx512 alpha m ev ec w base x beta y)
    (fun rs re => GnKernel.avx512.dot cind cval x base rs re) alpha m ell_m cptr map beta y

end Model
end Verif
