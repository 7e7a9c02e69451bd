/-
Model of the DIA format
  library/src/conversion/aoclsparse_convert.cpp: aoclsparse_csr2dia_ndiag (510-566)
  library/src/conversion/aoclsparse_convert.hpp: aoclsparse_csr2dia_template (290-385)
  library/src/level2/aoclsparse_diamv.hpp: diamv_ref (33-73),
    diamv_compute_kernel_heuristic (104-140), aoclsparse_diamv_t (143-270)
  library/src/level2/aoclsparse_diamv_kt.cpp: diamv_rowmaj_kt_impl (36-124),
    diamv_diagmaj_kt_impl (126-205)

Allocation failure is not modelled.
-/
import Verif.Model.VecOps
import Verif.Model.Csrmv
import Verif.Model.CsrmvSym

namespace Verif
namespace Model

variable {R : Type}

/-- convert.cpp:550-563 — one entry: mark its diagonal, count it when new;
state (diag_idx, count) -/
def ndiagStep (m base : Int) (ind : List Int) (i j : Int) (s : List Int × Int) :
    Option (List Int × Int) := do
  let c ← rd ind j
  let offset := c - base - i + m
  let x ← rd s.1 offset
  if x = 0 then do
    let d ← wr s.1 offset 1
    some (d, s.2 + 1)
  else some s

/-- convert.cpp:510-566 — aoclsparse_csr2dia_ndiag (pointers non-null, sizes non-negative) -/
def csr2diaNdiag (m n base : Int) (ptr ind : List Int) : Option Int := do
  let s ← forC 0 m (fun i s => do
    let b ← rd ptr i
    let e ← rd ptr (i + 1)
    forC (b - base) (e - base) (ndiagStep m base ind i) s) (List.replicate (m + n).toNat 0, 0)
  some s.2

/-- convert.hpp:345-357 — one entry: mark its diagonal -/
def diaMark (m base : Int) (ind : List Int) (i j : Int) (d : List Int) : Option (List Int) := do
  let c ← rd ind j
  let offset := c - base - i + m
  let x ← rd d offset
  if x = 0 then wr d offset 1 else some d

/-- convert.hpp:358-372 — number the marked diagonals; state (diag_idx, dia_offset, d) -/
def diaNumber (m : Int) (i : Int) (s : List Int × List Int × Int) :
    Option (List Int × List Int × Int) := do
  let x ← rd s.1 i
  if x ≠ 0 then do
    let d ← wr s.1 i s.2.2
    let o ← wr s.2.1 s.2.2 (i - m)
    some (d, o, s.2.2 + 1)
  else some s

/-- convert.hpp:373-382 — one entry: store its value -/
def diaPut (m base : Int) (ind : List Int) (val : List R) (idx : List Int) (i j : Int)
    (dv : List R) : Option (List R) := do
  let c ← rd ind j
  let offset := c - base - i + m
  let v ← rd val j
  let q ← rd idx offset
  wr dv (i + m * q) v

/-- convert.hpp:290-385 — aoclsparse_csr2dia_template (pointers non-null, sizes non-negative):
the new (dia_offset, dia_val) -/
def csr2dia (m n base : Int) (ptr ind : List Int) (val : List R) (numDiag : Int)
    (off : List Int) (dval : List R) : Option (List Int × List R) :=
  if m = 0 ∨ n = 0 ∨ numDiag = 0 then some (off, dval)
  else do
    let idx ← forC 0 m (fun i s => do
      let b ← rd ptr i
      let e ← rd ptr (i + 1)
      forC (b - base) (e - base) (diaMark m base ind i) s) (List.replicate (m + n).toNat 0)
    let s ← forC 0 (m + n) (diaNumber m) (idx, off, 0)
    let dv ← forC 0 m (fun i dv => do
      let b ← rd ptr i
      let e ← rd ptr (i + 1)
      forC (b - base) (e - base) (diaPut m base ind val s.1 i) dv) dval
    some (s.2.1, dv)

section mv
variable [Zero R] [One R] [Add R] [Mul R] [DecidableEq R]

/-- diamv.hpp:58-71 — one diagonal of the reference kernel -/
def diaRefDiag (alpha : R) (m n : Int) (dval : List R) (off : List Int) (x : List R) (i : Int)
    (y : List R) : Option (List R) := do
  let offset ← rd off i
  let istart := max 0 (-offset)
  let jstart := max 0 offset
  let num := min (m - istart) (n - jstart)
  forC 0 num (fun j y => do
    let v ← rd dval (istart + i * m + j)
    let xv ← rd x (j + jstart)
    addAt y (istart + j) (alpha * v * xv)) y

/-- diamv.hpp:33-73 — diamv_ref -/
def diamvRef (alpha : R) (m n : Int) (dval : List R) (off : List Int) (nd : Int) (x : List R)
    (beta : R) (y : List R) : Option (List R) :=
  (scaleY beta m y).bind fun y => forC 0 nd (diaRefDiag alpha m n dval off x) y

/-- diamv_kt.cpp:74-90 — scalar_row -/
def diaScalarRow (alpha beta : R) (m n : Int) (dval : List R) (off : List Int) (nd : Int)
    (x : List R) (row : Int) (y : List R) : Option (List R) := do
  let sum ← forC 0 nd (fun j s => do
    let o ← rd off j
    let col := row + o
    if 0 ≤ col ∧ col < n then do
      let v ← rd dval (j * m + row)
      let xv ← rd x col
      some (s + v * xv)
    else some s) 0
  let r := alpha * sum
  let yi ← rd y row
  wr y row (if beta = 0 then r else if beta = 1 then yi + r else yi * beta + r)

/-- diamv_kt.cpp:98-118 — one block of `K` rows -/
def diaVecRow (K : Nat) (alpha beta : R) (m : Int) (dval : List R) (off : List Int) (nd : Int)
    (x : List R) (i : Int) (y : List R) : Option (List R) := do
  let sum ← forC 0 nd (fun j s => do
    let o ← rd off j
    let v ← vload dval (j * m + i) K
    let xv ← vload x (i + o) K
    some (List.zipWith (fun ab c => ab.1 * ab.2 + c) (List.zip v xv) s)) (List.replicate K 0)
  let r := sum.map fun s => s * alpha
  let yv ← vload y i K
  vstore y i (if beta = 0 then r else if beta = 1 then List.zipWith (· + ·) yv r
    else List.zipWith (fun yi ri => yi * beta + ri) yv r)

/-- diamv_kt.cpp:36-124 — diamv_rowmaj_kt_impl with registers of `K` elements -/
def diamvRowmaj (K : Nat) (alpha : R) (m n : Int) (dval : List R) (off : List Int) (nd : Int)
    (rb re : Int) (x : List R) (beta : R) (y : List R) : Option (List R) := do
  let y ← forC 0 (min rb m) (diaScalarRow alpha beta m n dval off nd x) y
  let s ← whileFrom K rb re (diaVecRow K alpha beta m dval off nd x) y
  forC s.1 m (diaScalarRow alpha beta m n dval off nd x) s.2

/-- diamv_kt.cpp:144-171 — `y = beta * y` in blocks -/
def diaScale (K : Nat) (m : Int) (beta : R) (y : List R) : Option (List R) :=
  if beta = 0 then do
    let s ← whileFrom K 0 m (fun i y => vstore y i (List.replicate K 0)) y
    forC s.1 m (fun i y => wr y i 0) s.2
  else if beta ≠ 1 then do
    let s ← whileFrom K 0 m (fun i y => do
      let yv ← vload y i K
      vstore y i (yv.map fun v => v * beta)) y
    forC s.1 m (fun i y => do
      let v ← rd y i
      wr y i (v * beta)) s.2
  else some y

/-- diamv_kt.cpp:187-197 — one block of a diagonal -/
def diaVecDiag (K : Nat) (alpha : R) (dval x : List R) (vp xp yp : Int) (j : Int) (y : List R) :
    Option (List R) := do
  let vv ← vload dval (vp + j) K
  let vx ← vload x (xp + j) K
  let vy ← vload y (yp + j) K
  vstore y (yp + j) (List.zipWith (fun ab c => ab.1 * ab.2 + c)
    (List.zip (vv.map fun v => v * alpha) vx) vy)

/-- diamv_kt.cpp:176-201 — one diagonal -/
def diaKtDiag (K : Nat) (alpha : R) (m n : Int) (dval : List R) (off : List Int) (x : List R)
    (d : Int) (y : List R) : Option (List R) := do
  let offset ← rd off d
  let istart := max 0 (-offset)
  let jstart := max 0 offset
  let num := min (m - istart) (n - jstart)
  if num ≤ 0 then some y
  else do
    let s ← whileFrom K 0 num (diaVecDiag K alpha dval x (istart + d * m) jstart istart) y
    forC s.1 num (fun j y => do
      let v ← rd dval (istart + d * m + j)
      let xv ← rd x (jstart + j)
      addAt y (istart + j) (alpha * v * xv)) s.2

/-- diamv_kt.cpp:126-205 — diamv_diagmaj_kt_impl -/
def diamvDiagmaj (K : Nat) (alpha : R) (m n : Int) (dval : List R) (off : List Int) (nd : Int)
    (x : List R) (beta : R) (y : List R) : Option (List R) :=
  (diaScale K m beta y).bind fun y => forC 0 nd (diaKtDiag K alpha m n dval off x) y

/-- diamv.hpp:104-140 — diamv_compute_kernel_heuristic: (use_diagmaj, row_begin, row_end) -/
def diaHeuristic (m n : Int) (off : List Int) (nd : Int) : Option (Bool × Int × Int) :=
  if nd = 0 then some (false, 0, m)
  else do
    let o0 ← rd off 0
    let mm ← forC 1 nd (fun j (s : Int × Int) => do
      let o ← rd off j
      some (min s.1 o, max s.2 o)) (o0, o0)
    let rb := max 0 (-mm.1)
    let re := min m (max 0 (n - mm.2))
    let interior := if re > rb then re - rb else 0
    let pct := if m > 0 then (100 * (m - interior)).tdiv m else 0
    some (decide (pct > 8) || decide (nd > 25) || decide (m < 10000) || decide (n > 300000), rb, re)

/-- the kernel a call ends up with (diamv.hpp:236-252): the reference one, or a family with
registers of `K` elements -/
inductive DiaKernel where
  | ref
  | kt (K : Nat)

/-- diamv.hpp:143-270 — aoclsparse_diamv_t after the argument checks; `mode` -1 auto, 0 reference,
1 row-major, 2 diagonal-major (any other value is auto); `ker` is what the kernel table yields
for the requested or detected instruction set -/
def diamv (ker : DiaKernel) (mode : Int) (alpha : R) (m n : Int) (dval : List R) (off : List Int)
    (nd : Int) (x : List R) (beta : R) (y : List R) : Option (List R) :=
  if m = 0 ∨ n = 0 then some y
  else do
    let h ← diaHeuristic m n off nd
    let dm := if mode = 1 then false else if mode = 2 then true else h.1
    match (if mode = 0 then .ref else ker) with
    | .ref => diamvRef alpha m n dval off nd x beta y
    | .kt K =>
      if dm then diamvDiagmaj K alpha m n dval off nd x beta y
      else diamvRowmaj K alpha m n dval off nd h.2.1 h.2.2 x beta y

end mv
end Model
end Verif
