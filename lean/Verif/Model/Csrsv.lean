/-
Model of the deprecated triangular solver on raw CSR arrays
  library/src/level2/aoclsparse_csrsv.hpp (aoclsparse_csrsv_t, aoclsparse_csr_lsolve, _usolve)
  library/src/level2/aoclsparse_csrsv.cpp (the two C wrappers, which only forward)
Scalars are exact.  `base` is read from the descriptor and is zero when the kernels run; it is
kept as an argument as in the code.
-/
import Verif.Core.Mem
import Verif.Model.Overflow
import Verif.Model.Dense

namespace Verif
namespace Model

variable {R : Type} [Sub R] [Mul R] [Div R]

/-- The right-hand side argument `x`: an array of its own, or the pointer `y` passed twice
(the code does not ask them to differ). -/
inductive SvRhs (R : Type)
  | own (x : List R)
  | same
  deriving DecidableEq, Repr

/-- csrsv.hpp:107, 152 — the array `x[row]` is read from, given the present content of `y` -/
def SvRhs.arr : SvRhs R → List R → List R
  | .own x, _ => x
  | .same, y => y

/-- csrsv.hpp:115, 160 — `y[row] -= csr_val[j] * y[csr_col_ind[j] - base]` -/
def svSub (base : Int) (val : List R) (row j c : Int) (y : List R) : Option (List R) := do
  let v ← rd val j
  let yc ← rd y (c - base)
  let yr ← rd y row
  wr y row (yr - v * yc)

/-- csrsv.hpp:109-126 — one entry of a row of the lower solve; `.error` is `break` -/
def lsolveEntry (base : Int) (val : List R) (ind : List Int) (nonUnit : Bool) (row j : Int)
    (s : List R × Int) : Option (Except (List R × Int) (List R × Int)) := do
  let c ← rd ind j
  if c - base < row then do
    let y ← svSub base val row j c s.1
    some (.ok (y, s.2))
  else if nonUnit && decide (c - base = row) then some (.error (s.1, j))
  else some (.error s)

/-- the state after a loop, left by `break` or not -/
def exState {σ : Type} : Except σ σ → σ
  | .ok s => s
  | .error s => s

/-- csrsv.hpp:129-132, 170-173 — `if(non_unit) y[row] /= csr_val[diag_j]` -/
def svDiv (val : List R) (nonUnit : Bool) (row : Int) (s : List R × Int) :
    Option (List R × Int) :=
  if nonUnit then do
    let d ← rd val s.2
    let yr ← rd s.1 row
    let y ← wr s.1 row (yr / d)
    some (y, s.2)
  else some s

/-- csrsv.hpp:105-133 — one row of the lower solve; the state is `y` and `diag_j` -/
def lsolveRow (base : Int) (alpha : R) (val : List R) (ind ptr : List Int) (x : SvRhs R)
    (nonUnit : Bool) (row : Int) (s : List R × Int) : Option (List R × Int) := do
  let xr ← rd (x.arr s.1) row
  let y ← wr s.1 row (alpha * xr)
  let lo ← rd ptr row
  let hi ← rd ptr (row + 1)
  let r ← forE (lo - base) (hi - base) (lsolveEntry base val ind nonUnit row) (y, s.2)
  svDiv val nonUnit row (exState r)

/-- csrsv.hpp:91-134 — aoclsparse_csr_lsolve: `diag_j` is set to 0 once, before the row loop -/
def lsolve (alpha : R) (m : Int) (val : List R) (ind ptr : List Int) (x : SvRhs R) (y : List R)
    (nonUnit : Bool) (base : Int) : Option (List R × Int) :=
  forC 0 m (lsolveRow base alpha val ind ptr x nonUnit) (y, 0)

/-- csrsv.hpp:162-166 — `if(non_unit) if(csr_col_ind[j] - base == row) diag_j = j` -/
def usolveDiag (base : Int) (nonUnit : Bool) (row j c diag : Int) : Int :=
  if nonUnit && decide (c - base = row) then j else diag

/-- csrsv.hpp:154-167 — one entry of a row of the upper solve -/
def usolveEntry (base : Int) (val : List R) (ind : List Int) (nonUnit : Bool) (row j : Int)
    (s : List R × Int) : Option (List R × Int) := do
  let c ← rd ind j
  if c - base > row then do
    let y ← svSub base val row j c s.1
    some (y, usolveDiag base nonUnit row j c s.2)
  else some (s.1, usolveDiag base nonUnit row j c s.2)

/-- csrsv.hpp:150-174 — one row of the upper solve -/
def usolveRow (base : Int) (alpha : R) (val : List R) (ind ptr : List Int) (x : SvRhs R)
    (nonUnit : Bool) (row : Int) (s : List R × Int) : Option (List R × Int) := do
  let xr ← rd (x.arr s.1) row
  let y ← wr s.1 row (alpha * xr)
  let lo ← rd ptr row
  let hi ← rd ptr (row + 1)
  let r ← forC (lo - base) (hi - base) (usolveEntry base val ind nonUnit row) (y, s.2)
  svDiv val nonUnit row r

/-- csrsv.hpp:137-175 — aoclsparse_csr_usolve -/
def usolve (alpha : R) (m : Int) (val : List R) (ind ptr : List Int) (x : SvRhs R) (y : List R)
    (nonUnit : Bool) (base : Int) : Option (List R × Int) :=
  forD (m - 1) 0 (usolveRow base alpha val ind ptr x nonUnit) (y, 0)

/-- csrsv.hpp:78-88 — which solver runs, with which diagonal -/
def csrsvRun (alpha : R) (m : Int) (val : List R) (ind ptr : List Int) (d : Descr) (x : SvRhs R)
    (y : List R) : Option (Status × Option (List R)) := do
  let s ← if d.fill = 0 then lsolve alpha m val ind ptr x y (decide (d.diag = 0)) d.base
    else usolve alpha m val ind ptr x y (decide (d.diag = 0)) d.base
  some (.success, some s.1)

/-- csrsv.hpp:46-76 — the checks after the null checks -/
def csrsvChecked (trans : Int) (alpha : R) (m : Int) (val : List R) (ind ptr : List Int)
    (d : Descr) (x : SvRhs R) (y : List R) : Option (Status × Option (List R)) :=
  if d.base ≠ 0 then some (.notImplemented, some y)
  else if d.type ≠ 0 ∧ d.type ≠ 1 then some (.notImplemented, some y)
  else if trans ≠ 111 then some (.notImplemented, some y)
  else if m < 0 then some (.invalidSize, some y)
  else if m = 0 then some (.success, some y)
  else csrsvRun alpha m val ind ptr d x y

/-- csrsv.hpp:29-89 — aoclsparse_csrsv_t; a null pointer is `none`.  The second component is the
array `y` after the call. -/
def csrsv (trans : Int) (alpha : Option R) (m : Int) (val : Option (List R))
    (ind ptr : Option (List Int)) (d : Option Descr) (x : Option (SvRhs R))
    (y : Option (List R)) : Option (Status × Option (List R)) :=
  match val, ptr, ind, x, y, d, alpha with
  | some val, some ptr, some ind, some x, some y, some d, some alpha =>
    csrsvChecked trans alpha m val ind ptr d x y
  | _, _, _, _, y, _, _ => some (.invalidPointer, y)

end Model
end Verif
