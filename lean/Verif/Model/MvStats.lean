/-
The counts from which aoclsparse_optimize chooses the format of a matrix for products, in machine integers.
-/
import Verif.Core.Mem
import Verif.Model.Overflow

namespace Verif
namespace Model

/-- the variables of analysis.cpp:73: mx_nnz_lt_nnza, mn_nnz_gt_nnza, cmx, cmn -/
structure WidthSt where
  mx : Int
  mn : Int
  cmx : Int
  cmn : Int

/-- analysis.cpp:74-89 — one row.  Simplification: `nnzi <= nnza` compares with the quotient `nnz / m` in double
precision; here with the exact quotient (no difference while nnz is below 2^52). -/
def widthStep (m nnz : Int) (ptr : List Int) (i : Int) (s : WidthSt) : Option WidthSt := do
  let b ← rd ptr i
  let e ← rd ptr (i + 1)
  let k := e - b
  let le := decide (k * m ≤ nnz)
  some
    { mx := if k > s.mx ∧ le then k else s.mx
      mn := if k < s.mn ∧ !le then k else s.mn
      cmx := if le then s.cmx + 1 else s.cmx
      cmn := if le then s.cmn else s.cmn + 1 }

/-- analysis.cpp:71-93 — the width of the ELL part -/
def statWidth (m nnz : Int) (ptr : List Int) : Option Int := do
  let s ← forC 0 m (widthStep m nnz ptr) ⟨0, nnz, 0, 0⟩
  some (if s.cmx ≥ s.cmn then s.mx else s.mn)

/-- analysis.cpp:96-109 — the entries of the rows longer than the width.  The counts of rows (at most `m`) are left
out. -/
def statRest (w : Nat) (m : Int) (ptr : List Int) (width : Int) : Option Int :=
  forC 0 m (fun i s => do
    let b ← rd ptr i
    let e ← rd ptr (i + 1)
    if e - b ≤ width then some s else chk w (s + (e - b))) 0

/-- analysis.cpp:110 — the cells of the hybrid of ELL and CSR: `ell_width * m + ell_csr_nnz` -/
def statEll (w : Nat) (m : Int) (ptr : List Int) (width : Int) : Option Int := do
  let r ← statRest w m ptr width
  let a ← chk w (width * m)
  chk w (a + r)

/-- analysis.cpp:114-123 — four rows: `tnnz += 4 * row_nnz` -/
def statGroup (w : Nat) (ptr : List Int) (g s : Int) : Option Int := do
  let p0 ← rd ptr (4 * g)
  let p1 ← rd ptr (4 * g + 1)
  let p2 ← rd ptr (4 * g + 2)
  let p3 ← rd ptr (4 * g + 3)
  let p4 ← rd ptr (4 * g + 4)
  let d ← chk w (4 * max (max (p1 - p0) (p2 - p1)) (max (p3 - p2) (p4 - p3)))
  chk w (s + d)

/-- analysis.cpp:112-128 — the cells of the copy in blocks of four rows.  The loop runs for `i = 4g`, `4g + 4 ≤ m`. -/
def statBr4 (w : Nat) (m : Int) (ptr : List Int) : Option Int := do
  let s ← forC 0 (m / 4) (statGroup w ptr) 0
  forC (4 * (m / 4)) m (fun j s => do
    let b ← rd ptr j
    let e ← rd ptr (j + 1)
    chk w (s + (e - b))) s

/-- analysis.cpp:129-133 — `tnnz - ell_nnz`, if tnnz is not zero -/
def statDiff (w : Nat) (t ell : Int) : Option Int :=
  if t ≠ 0 then chk w (t - ell) else some 0

/-- analysis.cpp:68-133 — width, cells of the hybrid, cells of the blocks, and the difference from which the ratio is
computed -/
def mvStats (w : Nat) (m nnz : Int) (ptr : List Int) : Option (Int × Int × Int) := do
  let width ← statWidth m nnz ptr
  let ell ← statEll w m ptr width
  let t ← statBr4 w m ptr
  let _ ← statDiff w t ell
  some (width, ell, t)

end Model
end Verif
