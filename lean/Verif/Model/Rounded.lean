/-
The CSR matrix-vector kernels of Model/Csrmv with the multiply-accumulate operations as
parameters, for floating-point arithmetic.  With `Fpu.plain` they are the kernels of Model/Csrmv
(`csrmvFp_plain`).  Real data only: the complex registers are not covered here.
  library/src/level2/aoclsparse_csrmv_kr.hpp
  library/src/level2/aoclsparse_csrmv_kt.cpp
  library/src/level2/aoclsparse_csrmv_avx512.cpp
-/
import Verif.Model.Csrmv
import Verif.Spec.Rounding

namespace Verif
namespace Model

variable {R : Type} [Zero R] [One R] [Add R] [Mul R] [DecidableEq R]

/-- the operands `val[p]` and `x[ind[p] - base]` (csrmv_kr.hpp:489-492) -/
def pairAt (ind : List Int) (val x : List R) (base p : Int) : Option (R × R) := do
  let c ← rd ind p
  let v ← rd val p
  let xv ← rd x (c - base)
  some (v, xv)

/-- csrmv_kr.hpp:489-492 — `for(j = lo; j < hi; j++) result += val_fix[j] * x_fix[ind_fix[j]];` -/
def dotSeqFp (F : Fpu R) (ind : List Int) (val x : List R) (base lo hi : Int) (init : R) :
    Option R :=
  forC lo hi (fun j r => do
    let t ← pairAt ind val x base (j - base)
    some (F.smac t.1 t.2 r)) init

/-- `_mm256_fmadd_pd` and friends in every lane, horizontal sum `hs` -/
def vecFp (F : Fpu R) (K : Nat) (hs : List R → R) : Vec R where
  σ := List R
  zero := List.replicate K 0
  fma := fun L v => List.zipWith (fun ab c => F.vmac ab.1 ab.2 c) L v
  hsum := hs

/-- csrmv_kr.hpp:966-1017 — blocked dot product -/
def dotKFp (F : Fpu R) (K : Nat) (hs fin : List R → R) (ind : List Int) (val x : List R)
    (base lo hi : Int) : Option R := do
  let k_rem := (hi - lo).tmod K
  let v ← forS lo (hi - k_rem) K (fun j (v : List R) => do
    let L ← lanesAt K ind val x base (j - base)
    some ((vecFp F K hs).fma L v)) (List.replicate K 0)
  dotSeqFp F ind val x base (hi - k_rem) hi (fin v)

/-- The kernels for real data (csrmv.hpp:127-158, 313-353). -/
inductive FpKernel (R : Type) where
  /-- ref_csrmv_gn -/
  | ref
  /-- aoclsparse_csrmv_vectorized (float) -/
  | vec8
  /-- aoclsparse_csrmv_vectorized_avx2 (double) -/
  | avx2
  /-- aoclsparse_csrmv_vectorized_avx512 (double) -/
  | avx512
  /-- csrmv_kt with registers of `K` elements and horizontal sum `hs` -/
  | kt (K : Nat) (hs : List R → R)

/-- kt_l0_avx2.hpp:342-351 — kt_hsum_p for eight floats -/
def hsum8k : List R → R
  | [x0, x1, x2, x3, x4, x5, x6, x7] =>
    ((x0 + x1) + (x2 + x3)) + ((x4 + x5) + (x6 + x7))
  | _ => 0

/-- `if(k_iter) result = horizontal sum;` (csrmv_kr.hpp:787-808, 990-1006) -/
def finFp (K : Nat) (hs : List R → R) (lo hi : Int) (v : List R) : R :=
  if (hi - lo).tdiv K ≠ 0 then hs v else 0

/-- dot product of a row.  ref: csrmv_kr.hpp:486-492; vec8: 760-814; avx2: 966-1017;
avx512: csrmv_avx512.cpp:57-115; kt: csrmv_kt.cpp:58-80. -/
def FpKernel.dot (F : Fpu R) (k : FpKernel R) (ind : List Int) (val x : List R)
    (base lo hi : Int) : Option R :=
  match k with
  | .ref => dotSeqFp F ind val x base lo hi 0
  | .vec8 => dotKFp F 8 hsum8f (finFp 8 hsum8f lo hi) ind val x base lo hi
  | .avx2 => dotKFp F 4 hsum4l (finFp 4 hsum4l lo hi) ind val x base lo hi
  | .avx512 => dotKFp F 8 hsum8d (finFp 8 hsum8d lo hi) ind val x base lo hi
  | .kt K hs => dotKFp F K hs hs ind val x base lo hi

/-- csrmv_kr.hpp:494-508 — `if(alpha != 1) result = alpha * result; if(beta != 0) result +=
beta * y[i]` for a row whose product is `r` -/
def finishRow (F : Fpu R) (alpha beta r yi : R) : R :=
  if alpha ≠ 1 then (if beta ≠ 0 then F.lin alpha r beta yi else alpha * r)
  else if beta ≠ 0 then F.smac beta yi r else r

/-- csrmv_kt.cpp:82-91 — `result *= alpha; is_beta_zero ? result : is_beta_one ? y[i] + result :
y[i] * beta + result` (the operands of the sum and of the products are exchanged, which the
commutative floating-point operations do not see; `y[i] + result` may be fused) -/
def finishKt (F : Fpu R) (alpha beta r yi : R) : R :=
  if beta = 0 then alpha * r
  else if beta = 1 then F.smac alpha r yi else F.lin alpha r beta yi

/-- how the result of a row is combined -/
def FpKernel.finish (F : Fpu R) (k : FpKernel R) (alpha beta r yi : R) : R :=
  match k with
  | .kt _ _ => finishKt F alpha beta r yi
  | _ => finishRow F alpha beta r yi

/-- csrmv_kr.hpp:448-513, 734-831, 949-1040, csrmv_avx512.cpp:36-134, csrmv_kt.cpp:30-94 — the row
loop.  `y[i]` is always read here; with `beta = 0` its value is not used. -/
def csrmvFp (F : Fpu R) (k : FpKernel R) (base : Int) (alpha : R) (m : Int) (val : List R)
    (ind ptr : List Int) (x : List R) (beta : R) (y : List R) : Option (List R) :=
  forC 0 m (fun i y => do
    let lo ← rd ptr i
    let hi ← rd ptr (i + 1)
    let r ← k.dot F ind val x base lo hi
    let yi ← rd y i
    wr y i (k.finish F alpha beta r yi)) y

/-- the kernel of Model/Csrmv with the operations one by one -/
def FpKernel.gn : FpKernel R → GnKernel R
  | .ref => .ref
  | .vec8 => .vec8
  | .avx2 => .avx2
  | .avx512 => .avx512
  | .kt K hs => .kt K (vecLanes K hs)

end Model
end Verif
