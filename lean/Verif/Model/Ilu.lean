/-
Model of the incomplete factorisation smoother
  library/src/solvers/aoclsparse_ilu0.hpp  (factorisation and solve)
  library/src/solvers/aoclsparse_ilu.hpp   (aoclsparse_ilu_template)
  library/src/analysis/aoclsparse_analysis.cpp 386-425 (aoclsparse_optimize_ilu)
Simplifications: allocation does not fail; `int col_idx`, `int jw` (ilu0.hpp:80-81, 106) are unbounded
integers; scalars are exact and `nz` stands for aoclsparse_is_nearzero.
-/
import Verif.Core.Mem
import Verif.Core.Prefix
import Verif.Model.CsrAdd
import Verif.Model.Dense
import Verif.Model.MatCheck

namespace Verif
namespace Model

variable {R : Type}

/-! ### factorisation -/

/-- ilu0.hpp:60-64 — `col_idx_mapper[csr_col_ind[j] - base] = j` -/
def iluMap (base : Int) (ind : List Int) (j : Int) (map : List Int) : Option (List Int) := do
  let c ← rd ind j
  wr map (c - base) j

/-- ilu0.hpp:104-108 — `col_idx_mapper[csr_col_ind[mn] - base] = 0` -/
def iluUnmap (base : Int) (ind : List Int) (j : Int) (map : List Int) : Option (List Int) := do
  let c ← rd ind j
  wr map (c - base) 0

section
variable [Sub R] [Mul R] [Div R]

/-- ilu0.hpp:78-87 — subtract one multiple of row `k` from row `i` -/
def iluElim (base : Int) (ind map : List Int) (j jj : Int) (v : List R) : Option (List R) := do
  let c ← rd ind jj
  let jw ← rd map (c - base)
  if jw ≠ 0 then do
    let a ← rd v jw
    let l ← rd v j
    let u ← rd v jj
    wr v jw (a - l * u)
  else some v

/-- how the loop over `j` is left early: `break` with the values of `j` and `k`, or `return` -/
inductive IluExit (R : Type) where
  | brk (j k : Int) (v : List R)
  | ret (v : List R)

/-- ilu0.hpp:67-93 — the body of the loop over `j`; the state is the values and `k` (`none` while it is
not initialised) -/
def iluPiv (nz : R → Bool) (base : Int) (ptr ind diag map : List Int) (i j : Int)
    (s : List R × Option Int) : Option (Except (IluExit R) (List R × Option Int)) := do
  let c ← rd ind j
  if c - base < i then do
    let dk ← rd diag (c - base)
    let d ← rd s.1 dk
    if nz d then some (.error (.ret s.1))
    else do
      let a ← rd s.1 j
      let v ← wr s.1 j (a / d)
      let hi ← rd ptr (c - base + 1)
      let v ← forC (dk + 1) (hi - base) (iluElim base ind map j) v
      some (.ok (v, some (c - base)))
  else some (.error (.brk j (c - base) s.1))

/-- the state of the loop over the rows: values, lu_diag_ptr, col_idx_mapper and `k` -/
structure IluSt (R : Type) where
  v : List R
  diag : List Int
  map : List Int
  k : Option Int

/-- ilu0.hpp:94-108 — after the loop over `j`: record and check the pivot, reset the mapper -/
def iluPivot (nz : R → Bool) (base : Int) (ind : List Int) (i j1 j2 j : Int) (k : Option Int)
    (v : List R) (diag map : List Int) : Option (Except (List R × List Int) (IluSt R)) := do
  let diag ← wr diag i j
  let kk ← k
  if kk ≠ i then some (.error (v, diag))
  else do
    let d ← rd v j
    if nz d then some (.error (v, diag))
    else do
      let map ← forC j1 j2 (iluUnmap base ind) map
      some (.ok ⟨v, diag, map, k⟩)

/-- ilu0.hpp:55-109 — one row; an error is `return aoclsparse_status_numerical_error` -/
def iluRow (nz : R → Bool) (base : Int) (ptr ind : List Int) (i : Int) (s : IluSt R) :
    Option (Except (List R × List Int) (IluSt R)) := do
  let p ← rd ptr i
  let q ← rd ptr (i + 1)
  let map ← forC (p - base) (q - base) (iluMap base ind) s.map
  let r ← forE (p - base) (q - base) (iluPiv nz base ptr ind s.diag map i) (s.v, s.k)
  match r with
  | .error (.ret v) => some (.error (v, s.diag))
  | .error (.brk j k v) => iluPivot nz base ind i (p - base) (q - base) j (some k) v s.diag map
  | .ok t => iluPivot nz base ind i (p - base) (q - base) (q - base) t.2 t.1 s.diag map

/-- ilu0.hpp:33-111 — aoclsparse_ilu0_factorization: status, values and lu_diag_ptr -/
def ilu0Fact (nz : R → Bool) (n base : Int) (diag : List Int) (v : List R) (ptr ind : List Int) :
    Option (Status × List R × List Int) := do
  let r ← forE 0 n (iluRow nz base ptr ind) ⟨v, diag, List.replicate n.toNat 0, none⟩
  match r with
  | .error e => some (.numericalError, e.1, e.2)
  | .ok s => some (.success, s.v, s.diag)

/-! ### solve -/

/-- ilu0.hpp:129-132, 143-147 — `csr_val[k] * xv[column_indices[k] - base]` subtracted from `a` -/
def iluSub (base : Int) (v : List R) (ind : List Int) (x : List R) (k : Int) (a : R) : Option R := do
  let c ← rd ind k
  let w ← rd v k
  let xc ← rd x (c - base)
  some (a - w * xc)

/-- ilu0.hpp:125-135 — one row of the forward solve -/
def iluFwd (base : Int) (diag : List Int) (v : List R) (ptr ind : List Int) (b : List R) (i : Int)
    (x : List R) : Option (List R) := do
  let s ← rd b i
  let lo ← rd ptr i
  let hi ← rd diag i
  let s ← forC (lo - base) hi (iluSub base v ind x) s
  wr x i s

/-- ilu0.hpp:143-148 — `xv[i] = xv[i] - csr_val[k] * xv[col]` -/
def iluBwdSub (base : Int) (v : List R) (ind : List Int) (i k : Int) (x : List R) :
    Option (List R) := do
  let xi ← rd x i
  let r ← iluSub base v ind x k xi
  wr x i r

/-- ilu0.hpp:139-157 — one row of the backward solve -/
def iluBwd (nz : R → Bool) (base : Int) (diag : List Int) (v : List R) (ptr ind : List Int) (i : Int)
    (x : List R) : Option (List R) := do
  let dk ← rd diag i
  let hi ← rd ptr (i + 1)
  let x ← forC (dk + 1) (hi - base) (iluBwdSub base v ind i) x
  let d ← rd v dk
  if nz d = false then do
    let xi ← rd x i
    wr x i (xi / d)
  else some x

/-- ilu0.hpp:113-160 — aoclsparse_ilu_solve -/
def iluSolve (nz : R → Bool) (n base : Int) (diag : List Int) (v : List R) (ptr ind : List Int)
    (x b : List R) : Option (List R) := do
  let x ← forC 0 n (iluFwd base diag v ptr ind b) x
  forD (n - 1) 0 (iluBwd nz base diag v ptr ind) x

/-! ### handle -/

deriving instance DecidableEq for RawMat

/-- The parts of a handle the smoother looks at: the user's arrays, `sort`, `fulldiag`, and `ilu_info`
(ilu_ready, ilu_factorized, lu_diag_ptr, precond_csr_val). -/
structure IluHandle (R : Type) where
  raw : RawMat R
  sort : MatSort
  fulldiag : Bool
  ready : Bool
  factorized : Bool
  diag : List Int
  val : List R
  deriving DecidableEq

/-- a handle that was just created -/
def IluHandle.fresh (A : RawMat R) (sort : MatSort) (fulldiag : Bool) : IluHandle R :=
  ⟨A, sort, fulldiag, false, false, [], []⟩

/-- analysis.cpp:390-425 — aoclsparse_optimize_ilu: the working arrays; `g` is what the new array
lu_diag_ptr contains -/
def optimizeIlu (g : Nat → Int) (H : IluHandle R) : IluHandle R :=
  if H.ready then H
  else { H with ready := true, diag := alloc H.raw.um.toNat g, val := H.raw.val.take H.raw.nnz.toNat }

/-- ilu0.hpp:162-200 — aoclsparse_ilu0_template: status, whether `*precond_csr_val` points to the
values (otherwise it is null), `x` and the handle -/
def ilu0Template (nz : R → Bool) (H : IluHandle R) (x b : List R) :
    Option (Status × Bool × List R × IluHandle R) :=
  if H.factorized then do
    let x ← iluSolve nz H.raw.un H.raw.base H.diag H.val H.raw.ptr H.raw.ind x b
    some (.success, true, x, H)
  else do
    let r ← ilu0Fact nz H.raw.un H.raw.base H.diag H.val H.raw.ptr H.raw.ind
    if r.1 ≠ .success then some (r.1, false, x, { H with val := r.2.1, diag := r.2.2 })
    else do
      let x ← iluSolve nz H.raw.un H.raw.base r.2.2 r.2.1 H.raw.ptr H.raw.ind x b
      some (.success, true, x, { H with val := r.2.1, diag := r.2.2, factorized := true })

/-- ilu.hpp:33-140 — aoclsparse_ilu_template.  `precond`: the pointer `precond_csr_val` is not null.  The
Boolean of the result: `*precond_csr_val` was set to the factors. -/
def ilu (nz : R → Bool) (g : Nat → Int) (sameType : Bool) (op : Int) (A : Option (IluHandle R))
    (d : Option Descr) (precond : Bool) (x b : Option (List R)) :
    Option (Status × Bool × Option (List R) × Option (IluHandle R)) :=
  match A, d, x, b with
  | some H, some d, some xs, some bs =>
    if precond = false then some (.invalidPointer, false, x, A)
    else if H.raw.base ≠ d.base then some (.invalidValue, false, x, A)
    else if op ≠ 111 then some (.notImplemented, false, x, A)
    else if H.raw.fmt ≠ 0 then some (.notImplemented, false, x, A)
    else if d.type ≠ 0 then some (.notImplemented, false, x, A)
    else if H.sort ≠ .fully ∧ H.sort ≠ .partially then some (.unsortedInput, false, x, A)
    else if H.fulldiag = false then some (.numericalError, false, x, A)
    else if sameType = false then some (.wrongType, false, x, A)
    else if H.raw.um < 0 ∨ H.raw.un < 0 ∨ H.raw.um ≠ H.raw.un then some (.invalidSize, false, x, A)
    else if H.raw.um = 0 ∨ H.raw.un = 0 then some (.success, false, x, A)
    else do
      let r ← ilu0Template nz (optimizeIlu g H) xs bs
      some (r.1, r.2.1, some r.2.2.1, some r.2.2.2)
  | _, _, _, _ => some (.invalidPointer, false, x, A)

end
end Model
end Verif
