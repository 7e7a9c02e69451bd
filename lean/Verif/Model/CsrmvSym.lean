/-
Model of the symmetric, Hermitian and triangular CSR matrix-vector kernels
  library/src/level2/aoclsparse_csrmv_kr.hpp
  library/src/level2/aoclsparse_csrmv_kt.cpp
Enumerations are their integer codes (fill_mode: lower 0; diag_type: non_unit 0, unit 1, zero 2).
-/
import Verif.Model.Csrmv

namespace Verif
namespace Model

variable {R : Type} [Zero R] [One R] [Add R] [Mul R] [DecidableEq R]

/-- csrmv_kr.hpp:41-92 — aoclsparse_csrmv_symm, the kernel of the public real csrmv for symmetric
matrices (no preparation of the matrix) -/
def csrmvSymm (base : Int) (alpha : R) (m : Int) (val : List R) (ind ptr : List Int)
    (x : List R) (beta : R) (y : List R) : Option (List R) := do
  let y ← scaleY beta m y
  forC 0 m (fun i y => do
    let hi ← rd ptr (i + 1)
    let diag_idx := hi - base - 1
    let c ← rd ind diag_idx
    let last_ele_diag : Int := if c - base = i then 1 else 0
    let v ← rd val diag_idx
    let xi ← rd x i
    let y ← addAt y i ((if last_ele_diag = 1 then 1 else 0) * alpha * v * xi)
    let lo ← rd ptr i
    forC (lo - base) (hi - base - last_ele_diag) (fun j y => do
      let v ← rd val j
      let c ← rd ind j
      let xc ← rd x (c - base)
      let y ← addAt y i (alpha * v * xc)
      addAt y (c - base) (alpha * v * xi)) y) y

/-- csrmv_kt.cpp:233-243, csrmv_kr.hpp:122-131 — first and last+1 position of the strict triangle
in row `i` -/
def symmBounds (fill : Nat) (ptr idiag iurow : List Int) (i : Int) : Option (Int × Int) :=
  if fill = 0 then do
    let lo ← rd ptr i
    let hi ← rd idiag i
    some (lo, hi)
  else do
    let lo ← rd iurow i
    let hi ← rd ptr (i + 1)
    some (lo, hi)

/-- csrmv_kt.cpp:312-316 — diagonal contribution, `val[idiag[i]] * x[i]`, `x[i]` or nothing
(nothing is added for a zero diagonal) -/
def symmDiag (cd : R → R) (diag : Nat) (base : Int) (val : List R) (idiag : List Int) (i : Int)
    (xi r : R) : Option R :=
  if diag = 0 then do
    let d ← rd idiag i
    let v ← rd val (d - base)
    some (r + cd v * xi)
  else if diag = 1 then some (r + xi)
  else some r

/-- csrmv_kt.cpp:270-308 — one row of csrmv_symm_kt: the dot product with the strict triangle and
its transposed contribution; `cj` is conjugation when HERM, else the identity -/
def symmKtRow (V : Vec R) (K : Nat) (cj : R → R) (base : Int) (alpha : R) (val : List R)
    (ind : List Int) (x : List R) (lo hi : Int) (xi : R) (y : List R) : Option (R × List R) := do
  let k_rem := (hi - lo).tmod K
  let s ← forS lo (hi - k_rem) K (fun j s => do
    let L ← lanesAt K ind val x base (j - base)
    let vy := L.map fun p => cj p.1 * (alpha * xi)
    let y ← forC 0 K (fun k y => do
      let c ← rd ind (j + k - base)
      let w ← rd vy k
      addAt y (c - base) w) s.2
    some (V.fma L s.1, y)) (V.zero, y)
  forC (hi - k_rem) hi (fun j s => do
    let c ← rd ind (j - base)
    let v ← rd val (j - base)
    let xc ← rd x (c - base)
    let y ← addAt s.2 (c - base) (alpha * cj v * xi)
    some (s.1 + v * xc, y)) (V.hsum s.1, s.2)

/-- csrmv_kt.cpp:216-322 — csrmv_symm_kt -/
def csrmvSymmKt (V : Vec R) (K : Nat) (cj : R → R) (base : Int) (alpha : R) (m : Int)
    (diag fill : Nat) (val : List R) (ind ptr idiag iurow : List Int) (x : List R) (beta : R)
    (y : List R) : Option (List R) := do
  let y ← scaleY beta m y
  forC 0 m (fun i y => do
    let b ← symmBounds fill ptr idiag iurow i
    let xi ← rd x i
    let s ← symmKtRow V K cj base alpha val ind x b.1 b.2 xi y
    let r ← symmDiag id diag base val idiag i xi s.1
    addAt s.2 i (r * alpha)) y

/-- csrmv_kr.hpp:160-166, 225-231, 312-318 — strict triangle of a row in the scalar kernels:
`sum += alpha*cr(v) * x[j]; y[j] += alpha*cc(v) * x[i]` (indices kept in the matrix base) -/
def symmRowSeq (cr cc : R → R) (base : Int) (alpha : R) (val : List R) (ind : List Int)
    (x : List R) (lo hi : Int) (xi sum : R) (y : List R) : Option (R × List R) :=
  forC lo hi (fun j s => do
    let v ← rd val (j - base)
    let c ← rd ind (j - base)
    let xc ← rd x (c - base)
    let y ← addAt s.2 (c - base) (alpha * cc v * xi)
    some (s.1 + alpha * cr v * xc, y)) (sum, y)

/-- csrmv_kr.hpp:168-172 and the like — diagonal contribution times alpha -/
def symmDiagA (cd : R → R) (diag : Nat) (base : Int) (alpha : R) (val : List R)
    (idiag : List Int) (i : Int) (xi r : R) : Option R :=
  if diag = 0 then do
    let d ← rd idiag i
    let v ← rd val (d - base)
    some (r + alpha * cd v * xi)
  else if diag = 1 then some (r + alpha * xi)
  else some r

/-- csrmv_kr.hpp:108-178 — aoclsparse_csrmv_symm_internal -/
def csrmvSymmInternal (base : Int) (alpha : R) (m : Int) (diag fill : Nat) (val : List R)
    (ind ptr idiag iurow : List Int) (x : List R) (beta : R) (y : List R) : Option (List R) := do
  let y ← scaleY beta m y
  forC 0 m (fun i y => do
    let b ← symmBounds fill ptr idiag iurow i
    let xi ← rd x i
    let s ← symmRowSeq id id base alpha val ind x b.1 b.2 xi 0 y
    let r ← symmDiagA id diag base alpha val idiag i xi s.1
    addAt s.2 i r) y

/-- csrmv_kr.hpp:183-269 (aoclsparse_csrmvh_symm_internal: `cr = cc = cd = conj`) and 275-359
(aoclsparse_csrmv_herm_internal: `cr = cd = id`, `cc = conj`): the two functions have the same
text up to these conjugations.  For the upper triangle the diagonal is added first and the
strict triangle starts at `idiag[i] + 1`. -/
def csrmvSymmScalar (cr cc cd : R → R) (base : Int) (alpha : R) (m : Int) (diag fill : Nat)
    (val : List R) (ind ptr idiag : List Int) (x : List R) (beta : R) (y : List R) :
    Option (List R) := do
  let y ← scaleY beta m y
  if fill = 0 then
    forC 0 m (fun i y => do
      let lo ← rd ptr i
      let hi ← rd idiag i
      let xi ← rd x i
      let s ← symmRowSeq cr cc base alpha val ind x lo hi xi 0 y
      let r ← symmDiagA cd diag base alpha val idiag i xi s.1
      addAt s.2 i r) y
  else
    forC 0 m (fun i y => do
      let lo ← rd idiag i
      let hi ← rd ptr (i + 1)
      let xi ← rd x i
      let r ← symmDiagA cd diag base alpha val idiag i xi 0
      let s ← symmRowSeq cr cc base alpha val ind x (lo + 1) hi xi r y
      addAt s.2 i s.1) y

/-- csrmv_kr.hpp:404-412 — strict triangle of a row in hermt_internal -/
def hermtRow (cj : R → R) (base : Int) (alpha : R) (val : List R) (ind : List Int)
    (x : List R) (lo hi i : Int) (xi : R) (y : List R) : Option (List R) :=
  forC lo hi (fun j y => do
    let v ← rd val (j - base)
    let c ← rd ind (j - base)
    let xc ← rd x (c - base)
    let y ← addAt y i (alpha * cj v * xc)
    addAt y (c - base) (alpha * v * xi)) y

/-- csrmv_kr.hpp:413-417 — diagonal in hermt_internal -/
def hermtDiag (diag : Nat) (base : Int) (alpha : R) (val : List R)
    (idiag : List Int) (i : Int) (xi : R) (y : List R) : Option (List R) :=
  if diag = 0 then do
    let d ← rd idiag i
    let v ← rd val (d - base)
    addAt y i (alpha * v * xi)
  else if diag = 1 then addAt y i (alpha * xi)
  else some y

/-- csrmv_kr.hpp:364-444 — aoclsparse_csrmv_hermt_internal -/
def csrmvHermt (cj : R → R) (base : Int) (alpha : R) (m : Int) (diag fill : Nat) (val : List R)
    (ind ptr idiag : List Int) (x : List R) (beta : R) (y : List R) : Option (List R) := do
  let y ← scaleY beta m y
  if fill = 0 then
    forC 0 m (fun i y => do
      let lo ← rd ptr i
      let hi ← rd idiag i
      let xi ← rd x i
      let y ← hermtRow cj base alpha val ind x lo hi i xi y
      hermtDiag diag base alpha val idiag i xi y) y
  else
    forC 0 m (fun i y => do
      let lo ← rd idiag i
      let hi ← rd ptr (i + 1)
      let xi ← rd x i
      let y ← hermtDiag diag base alpha val idiag i xi y
      hermtRow cj base alpha val ind x (lo + 1) hi i xi y) y

/-! ### triangular -/

/-- csrmv.hpp:111-125 — the row bounds handed to the triangular kernels: `row .. iurow` for the
lower triangle, `idiag .. row + 1` for the upper one -/
def triBounds (fill : Nat) (ptr idiag iurow : List Int) (i : Int) : Option (Int × Int) :=
  if fill = 0 then do
    let lo ← rd ptr i
    let hi ← rd iurow i
    some (lo, hi)
  else do
    let lo ← rd idiag i
    let hi ← rd ptr (i + 1)
    some (lo, hi)

/-- csrmv_kr.hpp:676-686 — `start_offset` for a matrix of non-general type -/
def triStart (fill diag : Nat) : Int := if (diag = 1 ∨ diag = 2) ∧ fill ≠ 0 then 1 else 0
/-- csrmv_kr.hpp:676-686 — `end_offset` -/
def triEnd (fill diag : Nat) : Int := if (diag = 1 ∨ diag = 2) ∧ fill = 0 then -1 else 0

/-- `if(cond) r += x[i]` -/
def addIf (cond : Prop) [Decidable cond] (x : List R) (i : Int) (r : R) : Option R :=
  if cond then do
    let xi ← rd x i
    some (r + xi)
  else some r

/-- csrmv_kr.hpp:657-728 — ref_csrmv_tri (descriptor type triangular) -/
def csrmvTri (base : Int) (alpha : R) (m : Int) (diag fill : Nat) (val : List R)
    (ind ptr idiag iurow : List Int) (x : List R) (beta : R) (y : List R) : Option (List R) := do
  let y ← scaleY beta m y
  forC 0 m (fun i y => do
    let b ← triBounds fill ptr idiag iurow i
    let r ← addIf (triStart fill diag ≠ 0 ∧ diag = 1) x i 0
    let r ← dotSeq ind val x base (b.1 + triStart fill diag) (b.2 + triEnd fill diag) r
    let r ← addIf (triEnd fill diag ≠ 0 ∧ diag = 1) x i r
    addAt y i (alpha * r)) y

/-- `if(cond) y[i] += v` -/
def addAtIf (cond : Prop) [Decidable cond] (y : List R) (i : Int) (v : R) : Option (List R) :=
  if cond then addAt y i v else some y

/-- csrmv_kr.hpp:576-649 — ref_csrmv_tri_th (descriptor type triangular); `cj` is conjugation
when is_herm -/
def csrmvTriTh (cj : R → R) (base : Int) (alpha : R) (m n : Int) (diag fill : Nat) (val : List R)
    (ind ptr idiag iurow : List Int) (x : List R) (beta : R) (y : List R) : Option (List R) := do
  let y ← scaleY beta n y
  forC 0 m (fun i y => do
    let b ← triBounds fill ptr idiag iurow i
    let xi ← rd x i
    let axi := alpha * xi
    let y ← addAtIf (triStart fill diag ≠ 0 ∧ diag = 1) y i axi
    let y ← forC (b.1 + triStart fill diag) (b.2 + triEnd fill diag) (fun j y => do
      let c ← rd ind (j - base)
      let v ← rd val (j - base)
      addAt y (c - base) (cj v * axi)) y
    addAtIf (triEnd fill diag ≠ 0 ∧ diag = 1) y i axi) y

/-- csrmv_kr.hpp:878-945 — the value computed for row `i` by the double-precision triangular
kernel, before scaling: note that the horizontal sum *replaces* the running result. -/
def triAvx2Row (base : Int) (diag fill : Nat) (val : List R) (ind ptr idiag iurow : List Int)
    (x : List R) (i : Int) : Option R := do
  let b ← triBounds fill ptr idiag iurow i
  let lo := b.1 + triStart fill diag
  let hi := b.2 + triEnd fill diag
  let init ← addIf (triStart fill diag ≠ 0 ∧ diag = 1) x i 0
  let r ← dotK (vecLanes 4 hsum4l) 4 (finIf (vecLanes 4 hsum4l) 4 lo hi init) ind val x base lo hi
  addIf (triEnd fill diag ≠ 0 ∧ diag = 1) x i r

/-- csrmv_kr.hpp:933-942 — `result = alpha*result; if(beta != 0) result += beta*y[i]; y[i] = …` -/
def storeRowA (alpha beta r : R) (i : Int) (y : List R) : Option (List R) :=
  if beta ≠ 0 then do
    let yi ← rd y i
    wr y i (alpha * r + beta * yi)
  else wr y i (alpha * r)

/-- csrmv_kr.hpp:833-947 — aoclsparse_csrmv_vectorized_avx2ptr (rows in sequence) -/
def csrmvTriAvx2 (base : Int) (alpha : R) (m : Int) (diag fill : Nat) (val : List R)
    (ind ptr idiag iurow : List Int) (x : List R) (beta : R) (y : List R) : Option (List R) :=
  forC 0 m (fun i y => do
    let r ← triAvx2Row base diag fill val ind ptr idiag iurow x i
    storeRowA alpha beta r i y) y

end Model
end Verif
