/-
Model of the BSR matrix-vector product
  library/src/level2/aoclsparse_bsrmv.cpp (33-216), aoclsparse_bsrmv_kr.hpp (31-152),
  library/src/level2/aoclsparse_bsrmv_bldr.hpp, aoclsparse_bsrmv_kt.cpp (29-108)

The compile-time recursions of the builder are recursive functions here.  The array of vector
registers `sum_v[KERNEL_DIM / tsz]` is one list of `KERNEL_DIM` lanes; register `q` is the lanes from
`q * tsz` on.
-/
import Verif.Model.VecOps
import Verif.Model.Dense
import Verif.Core.Types

namespace Verif
namespace Model

variable {R : Type}

/-- aoclsparse_data_type of the instantiation -/
inductive ScalarTy
  | float | double | cfloat | cdouble
  deriving DecidableEq, Repr

/-- bsrmv_bldr.hpp:151-159 — row_compute: `sum[r] = val[r] * *x + sum[r]` for the rows below `n` -/
def bsrRowCompute [Add R] [Mul R] (val x : List R) (off xo : Int) : Nat → List R → Option (List R)
  | 0, s => some s
  | n + 1, s => do
    let s ← bsrRowCompute val x off xo n s
    let v ← rd val (off + n)
    let xv ← rd x xo
    let t ← rd s n
    wr s n (v * xv + t)

/-- bsrmv_bldr.hpp:212-222 — compute: the columns, last one first -/
def bsrCompute [Add R] [Mul R] (row : Nat) (val x : List R) : Nat → Int → Int → List R → Option (List R)
  | 0, _, _, s => some s
  | n + 1, off, xo, s => do
    let s ← bsrCompute row val x n (off + row) (xo + 1) s
    bsrRowCompute val x off xo row s

/-- bsrmv_bldr.hpp:45-54 — alpha_scal: `n` cells from `p` on -/
def bsrAlpha [Mul R] (alpha : R) : Nat → Int → List R → Option (List R)
  | 0, _, s => some s
  | n + 1, p, s => do
    let s ← bsrAlpha alpha n (p + 1) s
    let v ← rd s p
    wr s p (v * alpha)

/-- bsrmv_bldr.hpp:81-90 — beta_scal: the cells below `n` -/
def bsrBeta [Add R] [Mul R] (beta : R) (y : List R) (yo : Int) : Nat → List R → Option (List R)
  | 0, s => some s
  | n + 1, s => do
    let s ← bsrBeta beta y yo n s
    let v ← rd s n
    let w ← rd y (yo + n)
    wr s n (v + beta * w)

/-- bsrmv_bldr.hpp:116-125 — store_res: the cells below `n` -/
def bsrStore (s : List R) (yo : Int) : Nat → List R → Option (List R)
  | 0, y => some y
  | n + 1, y => do
    let y ← bsrStore s yo n y
    let v ← rd s n
    wr y (yo + n) v

/-- bsrmv_bldr.hpp:225-246 — compute_column_chunks with `c` registers left to process -/
def bsrChunks [Add R] [Mul R] (K blk : Nat) (val : List R) (off : Int) (xv : R) :
    Nat → List R → Option (List R)
  | 0, s => some s
  | c + 1, s => do
    let s ← bsrChunks K blk val off xv c s
    let p := (blk : Int) - ((c + 1) * K : Nat)
    let cv ← vload val (off + p) K
    let sv ← vload s p K
    vstore s p (List.zipWith (fun a b => a * xv + b) cv sv)

/-- bsrmv_bldr.hpp:249-268 — compute_v with `c` columns left -/
def bsrComputeV [Add R] [Mul R] (K blk : Nat) (val x : List R) (off xo : Int) :
    Nat → List R → Option (List R)
  | 0, s => some s
  | c + 1, s => do
    let s ← bsrComputeV K blk val x off xo c s
    let col := (blk : Int) - ((c + 1 : Nat) : Int)
    let xv ← rd x (xo + col)
    bsrChunks K blk val (off + col * blk) xv (blk / K) s

/-- bsrmv_bldr.hpp:56-65 — alpha_scal_v: `c` registers from lane `p` on -/
def bsrAlphaV [Mul R] (K : Nat) (alpha : R) : Nat → Int → List R → Option (List R)
  | 0, _, s => some s
  | c + 1, p, s => do
    let s ← bsrAlphaV K alpha c (p + K) s
    let v ← vload s p K
    vstore s p (v.map (· * alpha))

/-- bsrmv_bldr.hpp:92-100 — beta_scal_v -/
def bsrBetaV [Add R] [Mul R] (K : Nat) (beta : R) (y : List R) : Nat → Int → Int → List R →
    Option (List R)
  | 0, _, _, s => some s
  | c + 1, p, yo, s => do
    let s ← bsrBetaV K beta y c (p + K) (yo + K) s
    let v ← vload s p K
    let w ← vload y yo K
    vstore s p (List.zipWith (fun a b => a * beta + b) w v)

/-- bsrmv_bldr.hpp:127-136 — store_res_v -/
def bsrStoreV (K : Nat) (s : List R) : Nat → Int → Int → List R → Option (List R)
  | 0, _, _, y => some y
  | c + 1, p, yo, y => do
    let y ← bsrStoreV K s c (p + K) (yo + K) y
    let v ← vload s p K
    vstore y yo v

/-- `if constexpr(b) { f }` -/
def onlyIf (b : Bool) (f : List R → Option (List R)) (s : List R) : Option (List R) :=
  if b then f s else some s

section
variable [Zero R] [One R] [Add R] [Mul R] [DecidableEq R]

/-- bsrmv_kr.hpp:54-70 — one block of bsrmv_gn: row `bi` of the block times x -/
def bsrGnBlock (base bd : Int) (val : List R) (ind : List Int) (x : List R) (bi aj : Int) (sum : R) :
    Option R := do
  let c ← rd ind aj
  let col := c - base
  forC 0 bd (fun bj sum => do
    let v ← rd val (bd * bd * aj + bi + bd * bj)
    let xv ← rd x (bd * col + bj)
    some (sum + v * xv)) sum

/-- bsrmv_kr.hpp:71-83 — scale and store one element -/
def bsrGnStore (alphaS betaS : Bool) (alpha beta : R) (sum : R) (p : Int) (y : List R) :
    Option (List R) := do
  let sum := if alphaS then sum * alpha else sum
  if betaS then do
    let w ← rd y p
    wr y p (sum + beta * w)
  else wr y p sum

/-- bsrmv_kr.hpp:44-85 — one block row of bsrmv_gn -/
def bsrGnRow (alphaS betaS : Bool) (alpha beta : R) (base bd : Int) (val : List R)
    (ind ptr : List Int) (x : List R) (ai : Int) (y : List R) : Option (List R) := do
  let b ← rd ptr ai
  let e ← rd ptr (ai + 1)
  forC 0 bd (fun bi y => do
    let sum ← forC (b - base) (e - base) (bsrGnBlock base bd val ind x bi) 0
    bsrGnStore alphaS betaS alpha beta sum (ai * bd + bi) y) y

/-- bsrmv_kr.hpp:113-150 — one block row of bsrmv_nxn -/
def bsrNxnRow (alphaS betaS : Bool) (alpha beta : R) (base : Int) (d : Nat) (val : List R)
    (ind ptr : List Int) (x : List R) (ai : Int) (y : List R) : Option (List R) := do
  let b ← rd ptr ai
  let e ← rd ptr (ai + 1)
  let s ← forC (b - base) (e - base) (fun aj s => do
    let c ← rd ind aj
    bsrCompute d val x d (((d * d : Nat) : Int) * aj) ((d : Int) * (c - base)) s)
    (List.replicate d 0)
  let s ← onlyIf alphaS (bsrAlpha alpha d 0) s
  let s ← onlyIf betaS (bsrBeta beta y (ai * d) d) s
  bsrStore s (ai * d) d y

/-- bsrmv_kt.cpp:72-105 — one block row of bsrmv_nxn_v -/
def bsrVecRow (K : Nat) (alphaS betaS : Bool) (alpha beta : R) (base : Int) (d : Nat) (val : List R)
    (ind ptr : List Int) (x : List R) (ai : Int) (y : List R) : Option (List R) := do
  let b ← rd ptr ai
  let e ← rd ptr (ai + 1)
  let s ← forC (b - base) (e - base) (fun aj s => do
    let c ← rd ind aj
    bsrComputeV K d val x (((d * d : Nat) : Int) * aj) ((d : Int) * (c - base)) d s)
    (List.replicate d 0)
  let s ← onlyIf alphaS (bsrAlphaV K alpha (d / K) 0) s
  let s ← onlyIf betaS (bsrBetaV K beta y (d / K) 0 (ai * d)) s
  bsrStoreV K s (d / K) 0 (ai * d) y

/-- the kernel to run -/
inductive BsrKer
  | gn
  | nxn (d : Nat)
  | vec (K d : Nat)
  deriving DecidableEq, Repr

/-- bsrmv.cpp:33-68 (get_kernel) and 149-170 (table look-up): the kernel for block size `dim`;
`avx512` says that the library was built for and runs on an AVX-512 machine -/
def bsrKernel (ty : ScalarTy) (avx512 : Bool) (dim : Int) : BsrKer :=
  if (dim > 1 ∧ dim ≤ 8) ∨ dim = 16 then
    match ty with
    | .double =>
      if dim = 4 then .vec 4 4
      else if dim = 8 then .vec (if avx512 then 8 else 4) 8
      else if dim = 16 then .vec (if avx512 then 8 else 4) 16
      else .nxn dim.toNat
    | .float =>
      if dim = 8 then .vec 8 8
      else if dim = 16 then .vec (if avx512 then 16 else 8) 16
      else .nxn dim.toNat
    | _ => .nxn dim.toNat
  else .gn

/-- one block row of the selected kernel -/
def bsrKerRow (ker : BsrKer) (alphaS betaS : Bool) (alpha beta : R) (base bd : Int) (val : List R)
    (ind ptr : List Int) (x : List R) (ai : Int) (y : List R) : Option (List R) :=
  match ker with
  | .gn => bsrGnRow alphaS betaS alpha beta base bd val ind ptr x ai y
  | .nxn d => bsrNxnRow alphaS betaS alpha beta base d val ind ptr x ai y
  | .vec K d => bsrVecRow K alphaS betaS alpha beta base d val ind ptr x ai y

/-- bsrmv.cpp:72-216 — aoclsparse_?bsrmv: status and the new y.  `trans` is the operation code,
`none` a null pointer. -/
def bsrmv (ty : ScalarTy) (avx512 : Bool) (trans : Nat) (alpha : Option R) (mb nb bd : Int)
    (val : Option (List R)) (ind ptr : Option (List Int)) (descr : Option Descr)
    (x : Option (List R)) (beta : Option R) (y : Option (List R)) :
    Option (Status × Option (List R)) :=
  match alpha, beta with
  | some alpha, some beta =>
    match descr with
    | none => some (.invalidPointer, y)
    | some d =>
      if d.base ≠ 0 ∧ d.base ≠ 1 then some (.invalidValue, y)
      else if d.type ≠ 0 then some (.notImplemented, y)
      else if trans ≠ 111 then some (.notImplemented, y)
      else if mb < 0 ∨ nb < 0 ∨ bd ≤ 0 then some (.invalidSize, y)
      else if mb = 0 ∨ nb = 0 then some (.success, y)
      else match val, ptr, ind, x, y with
        | some val, some ptr, some ind, some x, some y =>
          (forC 0 mb (bsrKerRow (bsrKernel ty avx512 bd) (decide (alpha ≠ 1)) (decide (beta ≠ 0))
            alpha beta d.base bd val ind ptr x) y).bind fun y => some (.success, some y)
        | _, _, _, _, y => some (.invalidPointer, y)
  | _, _ => some (.invalidPointer, y)

end

end Model
end Verif
