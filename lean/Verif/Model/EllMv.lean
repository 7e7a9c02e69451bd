/-
Models of library/src/level2/aoclsparse_ellmv.hpp
  aoclsparse_ellmv_ref (34-87), aoclsparse_dellmv_avx2 (89-209), aoclsparse_ellmv_t (211-310)
  aoclsparse_elltmv_ref (317-360), aoclsparse_elltmv_avx2 (362-445), aoclsparse_elltmv_t (447-546)
  aoclsparse_ellthybmv_avx2 (554-761)
OpenMP loops are given as sequential loops here; independence of the schedule is a separate
matter (Core/Par).  Allocation failure of the temporary of ellthybmv is not modelled; the
AVX-512 variants (other translation units) are not modelled.
-/
import Verif.Model.MvCommon
import Verif.Model.Dense

namespace Verif
namespace Model

variable {R : Type} [Zero R] [One R] [Add R] [Mul R] [DecidableEq R]

/-- leave a loop with `break`, carrying the current state -/
def unbreak {σ : Type} : Except σ σ → σ
  | .ok s => s
  | .error s => s

/-- ellmv.hpp:56-71 — one row, scalar loop with `break` at the first padding index -/
def ellRowRef (w base : Int) (ec : List Int) (ev x : List R) (i : Int) : Option R := do
  let r ← forE 0 w (fun p res => do
    let idx := i * w + p
    let c ← rd ec idx
    let col := c - base
    if col ≥ 0 then do
      let v ← rd ev idx
      let xv ← rd x col
      some (.ok (res + v * xv))
    else some (.error res)) (0 : R)
  some (unbreak r)

/-- ellmv.hpp:34-87 -/
def ellmvRef (alpha : R) (m : Int) (ev : List R) (ec : List Int) (w base : Int)
    (x : List R) (beta : R) (y : List R) : Option (List R) :=
  forC 0 m (fun i y => do
    let r ← ellRowRef w base ec ev x i
    storeRow alpha beta r i y) y

/-- ellmv.hpp:125-148 — the 4-wide loop; the result also carries `k_rem` -/
def ellVecLoop (w base : Int) (ec : List Int) (ev x : List R) (i : Int) :
    Option (Except ((R × R × R × R) × Int) ((R × R × R × R) × Int)) :=
  forE 0 (w.tdiv 4) (fun _ (s : (R × R × R × R) × Int) => do
    let c ← rd ec (s.2 + 3)
    if c - base ≥ 0 then do
      let v ← fma4 ec ev x base s.2 s.1
      some (.ok (v, s.2 + 4))
    else some (.error s)) ((0, 0, 0, 0), i * w)

/-- ellmv.hpp:177-190 — remainder loop with `break` -/
def ellRemLoop (base : Int) (ec : List Int) (ev x : List R) (k_rem : Int) (result : R)
    (pos : Int) : Option (Except (R × Int) (R × Int)) :=
  forE 0 k_rem (fun _ (r : R × Int) => do
    let c ← rd ec r.2
    let col := c - base
    if col ≥ 0 then do
      let v ← rd ev r.2
      let xv ← rd x col
      some (.ok (r.1 + v * xv, r.2 + 1))
    else some (.error r)) (result, pos)

/-- ellmv.hpp:111-190 — one row of aoclsparse_dellmv_avx2 -/
def ellRowAvx2 (w base : Int) (ec : List Int) (ev x : List R) (i : Int) : Option R := do
  let k_iter := w.tdiv 4
  let o ← ellVecLoop w base ec ev x i
  let k_rem := match o with
    | .ok _ => w.tmod 4
    | .error _ => 4
  let s := unbreak o
  let result := if k_iter ≠ 0 then hsum4 s.1 else 0
  let r ← ellRemLoop base ec ev x k_rem result s.2
  some (unbreak r).1

/-- ellmv.hpp:89-209 -/
def dellmvAvx2 (alpha : R) (m : Int) (ev : List R) (ec : List Int) (w base : Int)
    (x : List R) (beta : R) (y : List R) : Option (List R) :=
  forC 0 m (fun i y => do
    let r ← ellRowAvx2 w base ec ev x i
    storeRow alpha beta r i y) y

/-- ellmv.hpp:225-288 (and 461-524) — the argument checks shared by aoclsparse_ellmv_t and
aoclsparse_elltmv_t; `kernel` is the implementation chosen at the end.  `d` is the descriptor. -/
def ellmvT (kernel : R → Int → List R → List Int → Int → Int → List R → R → List R →
      Option (List R))
    (op : Int) (alpha : R) (m n : Int) (ev : Option (List R)) (ec : Option (List Int)) (w : Int)
    (d : Option Descr) (x : Option (List R)) (beta : R) (y : Option (List R)) :
    Option (Status × Option (List R)) :=
  match d with
  | none => some (.invalidPointer, y)
  | some d =>
    if d.base ≠ 0 ∧ d.base ≠ 1 then some (.invalidValue, y)
    else if d.type ≠ 0 then some (.notImplemented, y)
    else if op ≠ 111 then some (.notImplemented, y)
    else if m < 0 then some (.invalidSize, y)
    else if n < 0 then some (.invalidSize, y)
    else if w < 0 then some (.invalidSize, y)
    else if (m = 0 ∨ n = 0) ∧ w ≠ 0 then some (.invalidSize, y)
    else if m = 0 ∨ n = 0 ∨ w = 0 then some (.success, y)
    else match ev, ec, x, y with
      | some ev, some ec, some x, some y => do
        let y' ← kernel alpha m ev ec w d.base x beta y
        some (.success, some y')
      | _, _, _, _ => some (.invalidPointer, y)

/-- ellmv.hpp:339-343 — one row of the transposed ELL product -/
def elltRow (m w base : Int) (ec : List Int) (ev x : List R) (j : Int) : Option R :=
  forC 0 w (fun i rd_ => do
    let t ← term ec ev x base (i * m + j)
    some (rd_ + t)) 0

/-- ellmv.hpp:317-360 -/
def elltmvRef (alpha : R) (m : Int) (ev : List R) (ec : List Int) (w base : Int)
    (x : List R) (beta : R) (y : List R) : Option (List R) :=
  forC 0 m (fun j y => do
    let r ← elltRow m w base ec ev x j
    storeRow alpha beta r j y) y

/-- ellmv.hpp:404-417 — scaling and storing a block of four rows -/
def storeRow4 (alpha beta : R) (r : R × R × R × R) (j : Int) (y : List R) : Option (List R) := do
  let r := if alpha ≠ 1 then (alpha * r.1, alpha * r.2.1, alpha * r.2.2.1, alpha * r.2.2.2) else r
  let r ← if beta ≠ 0 then do
      let y0 ← rd y j
      let y1 ← rd y (j + 1)
      let y2 ← rd y (j + 2)
      let y3 ← rd y (j + 3)
      some (beta * y0 + r.1, beta * y1 + r.2.1, beta * y2 + r.2.2.1, beta * y3 + r.2.2.2)
    else some r
  let y ← wr y j r.1
  let y ← wr y (j + 1) r.2.1
  let y ← wr y (j + 2) r.2.2.1
  wr y (j + 3) r.2.2.2

/-- ellmv.hpp:362-445 -/
def elltmvAvx2 (alpha : R) (m : Int) (ev : List R) (ec : List Int) (w base : Int)
    (x : List R) (beta : R) (y : List R) : Option (List R) := do
  let y ← forC 0 (m.tdiv 4) (fun j y => do
    let joff := j * 4
    let res ← forC 0 w (fun i v => fma4 ec ev x base (joff + i * m) v) (0, 0, 0, 0)
    storeRow4 alpha beta res joff y) y
  forC (m.tdiv 4 * 4) m (fun j y => do
    let r ← elltRow m w base ec ev x j
    storeRow alpha beta r j y) y

/-- ellmv.hpp:595-598 — save the rows of `y` owned by the CSR part -/
def saveRows (k : Int) (map : List Int) (y : List R) : Option (List R) :=
  forC 0 k (fun i t => do
    let r ← rd map i
    let v ← rd y r
    some (t ++ [v])) []

/-- ellmv.hpp:657-660 — restore them -/
def restoreRows (k : Int) (map : List Int) (t y : List R) : Option (List R) :=
  forC 0 k (fun i y => do
    let r ← rd map i
    let v ← rd t i
    wr y r v) y

/-- ellmv.hpp:573-576 and 582-602, 652-761, ellmv_avx512.cpp:251-420 — the hybrid product around its
ELL pass `ell` (a function of `y`) and the dot product `dot` of the CSR entries from `rs` to `re`
(positions in the base).  `y_tmp` is a fresh array filled in order. -/
def hybMv (ell : List R → Option (List R)) (dot : Int → Int → Option R) (alpha : R) (m ell_m : Int)
    (cptr : List Int) (map : List Int) (beta : R) (y : List R) : Option (List R) :=
  if ell_m = m then ell y
  else do
    let t ← if beta ≠ 0 then saveRows (m - ell_m) map y else some []
    let y ← ell y
    let y ← if beta ≠ 0 then restoreRows (m - ell_m) map t y else some y
    forC 0 (m - ell_m) (fun i y => do
      let off ← rd map i
      let rs ← rd cptr off
      let re ← rd cptr (off + 1)
      let r ← dot rs re
      storeRow alpha beta r off y) y

/-- ellmv.hpp:554-761 — aoclsparse_ellthybmv_avx2.  The ELL pass (604-651) has the same text as
elltmv_avx2 and is modelled by it. -/
def ellthybmvAvx2 (alpha : R) (m : Int) (ev : List R) (ec : List Int) (w ell_m : Int)
    (cval : List R) (cptr cind : List Int) (map : List Int) (base : Int)
    (x : List R) (beta : R) (y : List R) : Option (List R) :=
  hybMv (fun y => elltmvAvx2 alpha m ev ec w base x beta y)
    (fun rs re => dot4 cind cval x base (rs - base) (re - base - (rs - base))) alpha m ell_m cptr map beta y

end Model
end Verif
