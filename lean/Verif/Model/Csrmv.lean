/-
Model of the CSR matrix-vector kernels for general matrices
  library/src/level2/aoclsparse_csrmv_kr.hpp
  library/src/level2/aoclsparse_csrmv_kt.cpp
  library/src/level2/aoclsparse_csrmv_avx512.cpp

Row pointers hold indices in the matrix base; the code shifts the array base addresses
(`csr_val_fix = csr_val - base`), i.e. `csr_val_fix[j]` is `csr_val[j - base]`.

Vector registers: a register is a list of lanes.  `Vec` collects what a kernel does with its
accumulator registers, so that one text covers the widths and data types the C++ templates are
instantiated with.
-/
import Verif.Core.Par
import Verif.Core.Step
import Verif.Model.MvCommon
import Mathlib.Algebra.Star.Basic
import Mathlib.Algebra.BigOperators.Group.List.Basic

namespace Verif
namespace Model

variable {R : Type} [Zero R] [One R] [Add R] [Mul R] [DecidableEq R]

/-- csrmv_kr.hpp:489-492 — `for(j = lo; j < hi; j++) result += val_fix[j] * x_fix[ind_fix[j]];` -/
def dotSeq (ind : List Int) (val x : List R) (base lo hi : Int) (init : R) : Option R :=
  forC lo hi (fun j r => do
    let t ← term ind val x base (j - base)
    some (r + t)) init

/-- accumulator registers of a blocked dot product -/
structure Vec (R : Type) where
  /-- the accumulators -/
  σ : Type
  /-- `kt_setzero_p` -/
  zero : σ
  /-- multiply-accumulate of the lanes `(a, b)` -/
  fma : List (R × R) → σ → σ
  /-- horizontal sum -/
  hsum : σ → R

/-- `_mm256_fmadd_pd` and friends: `a * b + c` in every lane, horizontal sum `hs` -/
def vecLanes (K : Nat) (hs : List R → R) : Vec R where
  σ := List R
  zero := List.replicate K 0
  fma := fun L v => List.zipWith (fun ab c => ab.1 * ab.2 + c) L v
  hsum := hs

/-- csrmv_kr.hpp:790-808 — horizontal sum of eight floats -/
def hsum8f : List R → R
  | [x0, x1, x2, x3, x4, x5, x6, x7] =>
    ((x0 + x4) + (x2 + x6)) + ((x1 + x5) + (x3 + x7))
  | _ => 0

/-- csrmv_kr.hpp:991-1006 — horizontal sum of four doubles -/
def hsum4l : List R → R
  | [x0, x1, x2, x3] => (x0 + x1) + (x2 + x3)
  | _ => 0

/-- csrmv_avx512.cpp:88-105 — the two 256-bit halves are added, then as for four doubles -/
def hsum8d : List R → R
  | [x0, x1, x2, x3, x4, x5, x6, x7] => ((x0 + x4) + (x1 + x5)) + ((x2 + x6) + (x3 + x7))
  | _ => 0

/-- the `K` lane pairs `(val[p+l], x[ind[p+l] - base])` -/
def lanesAt (K : Nat) (ind : List Int) (val x : List R) (base p : Int) : Option (List (R × R)) :=
  (List.range K).mapM fun (l : Nat) => do
    let c ← rd ind (p + (l : Int))
    let v ← rd val (p + (l : Int))
    let xv ← rd x (c - base)
    some (v, xv)

/-- csrmv_kr.hpp:966-1017 — blocked dot product: groups of `K` accumulated in registers,
`fin` turns the registers into the running result, scalar remainder loop. -/
def dotK (V : Vec R) (K : Nat) (fin : V.σ → R) (ind : List Int) (val x : List R)
    (base lo hi : Int) : Option R := do
  let k_rem := (hi - lo).tmod K
  let v ← forS lo (hi - k_rem) K (fun j v => do
    let L ← lanesAt K ind val x base (j - base)
    some (V.fma L v)) V.zero
  dotSeq ind val x base (hi - k_rem) hi (fin v)

/-- `if(k_iter) result = horizontal sum;` with `result` previously `init` (kr.hpp:787-808, 990-1006) -/
def finIf (V : Vec R) (K : Nat) (lo hi : Int) (init : R) (v : V.σ) : R :=
  if (hi - lo).tdiv K ≠ 0 then V.hsum v else init

/-- csrmv_kt.cpp:82-91 — `result *= alpha; y[i] = is_beta_zero ? result : is_beta_one ?
y[i] + result : y[i] * beta + result;` -/
def storeRowKt (alpha beta r : R) (i : Int) (y : List R) : Option (List R) :=
  let r := r * alpha
  if beta = 0 then wr y i r
  else do
    let yi ← rd y i
    wr y i (if beta = 1 then yi + r else yi * beta + r)

/-- The general-matrix kernels selected by aoclsparse_csrmv_t (csrmv.hpp:127-158, 313-353). -/
inductive GnKernel (R : Type) where
  /-- ref_csrmv_gn -/
  | ref
  /-- aoclsparse_csrmv_vectorized (float) -/
  | vec8
  /-- aoclsparse_csrmv_vectorized_avx2 (double) -/
  | avx2
  /-- aoclsparse_csrmv_vectorized_avx512 (double) -/
  | avx512
  /-- csrmv_kt with registers `V` of `K` elements -/
  | kt (K : Nat) (V : Vec R)

/-- dot product of the row occupying `lo ≤ j < hi`.  ref: csrmv_kr.hpp:486-492;
vec8: 760-814; avx2: 966-1017; avx512: csrmv_avx512.cpp:57-115; kt: csrmv_kt.cpp:58-80. -/
def GnKernel.dot (k : GnKernel R) (ind : List Int) (val x : List R) (base lo hi : Int) : Option R :=
  match k with
  | .ref => dotSeq ind val x base lo hi 0
  | .vec8 => dotK (vecLanes 8 hsum8f) 8 (finIf (vecLanes 8 hsum8f) 8 lo hi 0) ind val x base lo hi
  | .avx2 => dotK (vecLanes 4 hsum4l) 4 (finIf (vecLanes 4 hsum4l) 4 lo hi 0) ind val x base lo hi
  | .avx512 => dotK (vecLanes 8 hsum8d) 8 (finIf (vecLanes 8 hsum8d) 8 lo hi 0) ind val x base lo hi
  | .kt K V => dotK V K V.hsum ind val x base lo hi

/-- how the result of a row reaches `y[i]` -/
def GnKernel.store (k : GnKernel R) (alpha beta r : R) (i : Int) (y : List R) :
    Option (List R) :=
  match k with
  | .kt _ _ => storeRowKt alpha beta r i y
  | _ => storeRow alpha beta r i y

/-- csrmv_kr.hpp:448-513, 734-831, 949-1040, csrmv_avx512.cpp:36-134, csrmv_kt.cpp:30-94 —
the row loop (executed sequentially) -/
def csrmvGn (k : GnKernel R) (base : Int) (alpha : R) (m : Int) (val : List R)
    (ind ptr : List Int) (x : List R) (beta : R) (y : List R) : Option (List R) :=
  forC 0 m (fun i y => do
    let lo ← rd ptr i
    let hi ← rd ptr (i + 1)
    let r ← k.dot ind val x base lo hi
    k.store alpha beta r i y) y

/-- The accesses to `y` of one iteration of the parallel row loop, whose dot product is `r`. -/
def GnKernel.prog (k : GnKernel R) (alpha beta r : R) (i : Int) : Prog R :=
  match k with
  | .kt _ _ =>
    if beta = 0 then .wr i (r * alpha) .done
    else .rd i fun yi => .wr i (if beta = 1 then yi + r * alpha else yi * beta + r * alpha) .done
  | _ =>
    if beta ≠ 0 then .rd i fun yi =>
      .wr i ((if alpha ≠ 1 then alpha * r else r) + beta * yi) .done
    else .wr i (if alpha ≠ 1 then alpha * r else r) .done

/-- the iterations of the `#pragma omp parallel for` row loop -/
def csrmvGnProgs (k : GnKernel R) (base : Int) (alpha : R) (m : Nat) (val : List R)
    (ind ptr : List Int) (x : List R) (beta : R) : Option (List (Prog R)) :=
  (List.range m).mapM fun (i : Nat) => do
    let lo ← rd ptr (i : Int)
    let hi ← rd ptr ((i : Int) + 1)
    let r ← k.dot ind val x base lo hi
    some (k.prog alpha beta r (i : Int))

/-- csrmv_kr.hpp:534-549 (repeated in every transposed/symmetric/triangular kernel) —
`beta * y` over the first `n` elements -/
def scaleY (beta : R) (n : Int) (y : List R) : Option (List R) :=
  if beta = 0 then forC 0 n (fun i y => wr y i 0) y
  else if beta ≠ 1 then forC 0 n (fun i y => do
    let v ← rd y i
    wr y i (beta * v)) y
  else some y

/-- `y[i] += v` -/
def addAt (y : List R) (i : Int) (v : R) : Option (List R) := do
  let a ← rd y i
  wr y i (a + v)

/-- csrmv_kr.hpp:520-567 — ref_csrmv_th; `cj` is the identity (is_herm = false) or conjugation -/
def csrmvTh (cj : R → R) (base : Int) (alpha : R) (m n : Int) (val : List R) (ind ptr : List Int)
    (x : List R) (beta : R) (y : List R) : Option (List R) := do
  let y ← scaleY beta n y
  forC 0 m (fun i y => do
    let lo ← rd ptr i
    let hi ← rd ptr (i + 1)
    let xi ← rd x i
    let axi := alpha * xi
    forC lo hi (fun j y => do
      let c ← rd ind (j - base)
      let v ← rd val (j - base)
      addAt y (c - base) (cj v * axi)) y) y

/-- csrmv_kt.cpp:166-193 — one row of csrmvt_kt: groups of `K` multiplied by `alpha * x[i]` and
scattered lane by lane, then the remainder -/
def csrmvtRow (K : Nat) (base : Int) (alpha : R) (val : List R) (ind : List Int) (lo hi : Int)
    (xi : R) (y : List R) : Option (List R) := do
  let k_rem := (hi - lo).tmod K
  let y ← forS lo (hi - k_rem) K (fun j y => do
    let vy ← (List.range K).mapM fun (l : Nat) => do
      let v ← rd val (j - base + (l : Int))
      some (v * (alpha * xi))
    forC 0 K (fun k y => do
      let c ← rd ind (j + k - base)
      let v ← rd vy k
      addAt y (c - base) v) y) y
  forC (hi - k_rem) hi (fun j y => do
    let c ← rd ind (j - base)
    let v ← rd val (j - base)
    addAt y (c - base) (v * alpha * xi)) y

/-- csrmv_kt.cpp:133-193 — the private buffer of thread `tid` -/
def csrmvtBuf (K : Nat) (base : Int) (alpha : R) (m n : Int) (val : List R) (ind ptr : List Int)
    (x : List R) (nthreads tid : Nat) : Option (List R) := do
  let start := (m * tid).tdiv nthreads
  let stop := (m * (tid + 1)).tdiv nthreads
  forC start stop (fun i b => do
    let lo ← rd ptr i
    let hi ← rd ptr (i + 1)
    let xi ← rd x i
    csrmvtRow K base alpha val ind lo hi xi b) (List.replicate n.toNat 0)

/-- csrmv_kt.cpp:196-203 — critical section: add a buffer to `y` -/
def mergeBuf (n : Int) (y b : List R) : Option (List R) :=
  forC 0 n (fun i y => do
    let v ← rd b i
    addAt y i v) y

/-- csrmv_kt.cpp:96-207 — csrmvt_kt with OpenMP.  `nthreads` threads are requested; `order` lists
the threads of the team in the order in which they enter the critical section.  (Allocation
failure of a private buffer is not modelled.) -/
def csrmvtKt (K : Nat) (base : Int) (alpha : R) (m n : Int) (val : List R) (ind ptr : List Int)
    (x : List R) (beta : R) (y : List R) (nthreads : Nat) (order : List Nat) :
    Option (List R) := do
  let y ← scaleY beta n y
  order.foldlM (fun y tid => do
    let b ← csrmvtBuf K base alpha m n val ind ptr x nthreads tid
    mergeBuf n y b) y

end Model
end Verif
