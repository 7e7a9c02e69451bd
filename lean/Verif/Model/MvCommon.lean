/-
Pieces of code repeated verbatim in most matrix-vector kernels.
Vector registers are tuples of lanes; `_mm256_fmadd_pd(a, b, c)` is `a * b + c` lane by lane.
-/
import Verif.Core.Mem
import Verif.Core.Types
import Mathlib.Algebra.Ring.Defs

namespace Verif
namespace Model

variable {R : Type} [Zero R] [One R] [Add R] [Mul R] [DecidableEq R]

/-- level2/aoclsparse_csrmv_kr.hpp:494-508, level2/aoclsparse_ellmv.hpp:73-83 (and every other
kernel): `if(alpha != 1) result = alpha * result; if(beta != 0) result += beta * y[i];
y[i] = result;` -/
def storeRow (alpha beta r : R) (i : Int) (y : List R) : Option (List R) :=
  let r := if alpha ≠ 1 then alpha * r else r
  if beta ≠ 0 then do
    let yi ← rd y i
    wr y i (r + beta * yi)
  else wr y i r

/-- `val[p] * x[ind[p] - base]` -/
def term (ind : List Int) (val x : List R) (base p : Int) : Option R := do
  let c ← rd ind p
  let v ← rd val p
  let xv ← rd x (c - base)
  some (v * xv)

/-- level2/aoclsparse_csrmv_kr.hpp:975-987 — one 4-wide fused multiply-add at position `p` -/
def fma4 (ind : List Int) (val x : List R) (base p : Int) (v : R × R × R × R) :
    Option (R × R × R × R) := do
  let t0 ← term ind val x base p
  let t1 ← term ind val x base (p + 1)
  let t2 ← term ind val x base (p + 2)
  let t3 ← term ind val x base (p + 3)
  some (t0 + v.1, t1 + v.2.1, t2 + v.2.2.1, t3 + v.2.2.2)

/-- `_mm256_hadd_pd` followed by the addition of the two 128-bit halves
(level2/aoclsparse_ellmv.hpp:149-172) -/
def hsum4 (v : R × R × R × R) : R := (v.1 + v.2.1) + (v.2.2.1 + v.2.2.2)

/-- level2/aoclsparse_ellmv.hpp:673-725 (same text in csrmv_kr.hpp:966-1017) — dot product of one
CSR row with `x`, in groups of four, horizontal sum, scalar remainder -/
def dot4 (ind : List Int) (val x : List R) (base start nnz : Int) : Option R := do
  let k_iter := nnz.tdiv 4
  let k_rem := nnz.tmod 4
  let s ← forC 0 k_iter (fun _ (s : (R × R × R × R) × Int) => do
    let v ← fma4 ind val x base s.2 s.1
    some (v, s.2 + 4)) ((0, 0, 0, 0), start)
  let result := if k_iter ≠ 0 then hsum4 s.1 else 0
  let r ← forC 0 k_rem (fun _ (r : R × Int) => do
    let t ← term ind val x base r.2
    some (r.1 + t, r.2 + 1)) (result, s.2)
  some r.1

end Model
end Verif
