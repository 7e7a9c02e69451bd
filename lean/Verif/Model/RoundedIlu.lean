/-
The incomplete factorisation smoother with the arithmetic as a parameter
  library/src/solvers/aoclsparse_ilu0.hpp, aoclsparse_ilu.hpp
The functions of Verif/Model/Ilu.lean; only `a - b * c` is an operation of its own here, because the
compiler may fuse it (`-ffp-contract=fast`).  Real data.  Simplifications as in Verif/Model/Ilu.lean.
-/
import Verif.Model.Ilu
import Verif.Spec.RoundedSolve

namespace Verif
namespace Model

variable {R : Type}

section
variable [Div R] (F : SolveFpu R)

/-- ilu0.hpp:78-87 — subtract one multiple of row `k` from row `i` -/
def iluElimF (base : Int) (ind map : List Int) (j jj : Int) (v : List R) : Option (List R) := do
  let c ← rd ind jj
  let jw ← rd map (c - base)
  if jw ≠ 0 then do
    let a ← rd v jw
    let l ← rd v j
    let u ← rd v jj
    wr v jw (F.msub l u a)
  else some v

/-- ilu0.hpp:67-93 — the body of the loop over `j` -/
def iluPivF (nz : R → Bool) (base : Int) (ptr ind diag map : List Int) (i j : Int)
    (s : List R × Option Int) : Option (Except (IluExit R) (List R × Option Int)) := do
  let c ← rd ind j
  if c - base < i then do
    let dk ← rd diag (c - base)
    let d ← rd s.1 dk
    if nz d then some (.error (.ret s.1))
    else do
      let a ← rd s.1 j
      let v ← wr s.1 j (a / d)
      let hi ← rd ptr (c - base + 1)
      let v ← forC (dk + 1) (hi - base) (iluElimF F base ind map j) v
      some (.ok (v, some (c - base)))
  else some (.error (.brk j (c - base) s.1))

/-- ilu0.hpp:55-109 — one row -/
def iluRowF (nz : R → Bool) (base : Int) (ptr ind : List Int) (i : Int) (s : IluSt R) :
    Option (Except (List R × List Int) (IluSt R)) := do
  let p ← rd ptr i
  let q ← rd ptr (i + 1)
  let map ← forC (p - base) (q - base) (iluMap base ind) s.map
  let r ← forE (p - base) (q - base) (iluPivF F nz base ptr ind s.diag map i) (s.v, s.k)
  match r with
  | .error (.ret v) => some (.error (v, s.diag))
  | .error (.brk j k v) => iluPivot nz base ind i (p - base) (q - base) j (some k) v s.diag map
  | .ok t => iluPivot nz base ind i (p - base) (q - base) (q - base) t.2 t.1 s.diag map

/-- ilu0.hpp:33-111 — aoclsparse_ilu0_factorization -/
def ilu0FactF (nz : R → Bool) (n base : Int) (diag : List Int) (v : List R) (ptr ind : List Int) :
    Option (Status × List R × List Int) := do
  let r ← forE 0 n (iluRowF F nz base ptr ind) ⟨v, diag, List.replicate n.toNat 0, none⟩
  match r with
  | .error e => some (.numericalError, e.1, e.2)
  | .ok s => some (.success, s.v, s.diag)

/-- ilu0.hpp:129-132, 143-147 — `csr_val[k] * xv[column_indices[k] - base]` subtracted from `a` -/
def iluSubF (base : Int) (v : List R) (ind : List Int) (x : List R) (k : Int) (a : R) : Option R := do
  let c ← rd ind k
  let w ← rd v k
  let xc ← rd x (c - base)
  some (F.msub w xc a)

/-- ilu0.hpp:125-135 — one row of the forward solve -/
def iluFwdF (base : Int) (diag : List Int) (v : List R) (ptr ind : List Int) (b : List R) (i : Int)
    (x : List R) : Option (List R) := do
  let s ← rd b i
  let lo ← rd ptr i
  let hi ← rd diag i
  let s ← forC (lo - base) hi (iluSubF F base v ind x) s
  wr x i s

/-- ilu0.hpp:143-148 — `xv[i] = xv[i] - csr_val[k] * xv[col]` -/
def iluBwdSubF (base : Int) (v : List R) (ind : List Int) (i k : Int) (x : List R) :
    Option (List R) := do
  let xi ← rd x i
  let r ← iluSubF F base v ind x k xi
  wr x i r

/-- ilu0.hpp:139-157 — one row of the backward solve -/
def iluBwdF (nz : R → Bool) (base : Int) (diag : List Int) (v : List R) (ptr ind : List Int) (i : Int)
    (x : List R) : Option (List R) := do
  let dk ← rd diag i
  let hi ← rd ptr (i + 1)
  let x ← forC (dk + 1) (hi - base) (iluBwdSubF F base v ind i) x
  let d ← rd v dk
  if nz d = false then do
    let xi ← rd x i
    wr x i (xi / d)
  else some x

/-- ilu0.hpp:113-160 — aoclsparse_ilu_solve -/
def iluSolveF (nz : R → Bool) (n base : Int) (diag : List Int) (v : List R) (ptr ind : List Int)
    (x b : List R) : Option (List R) := do
  let x ← forC 0 n (iluFwdF F base diag v ptr ind b) x
  forD (n - 1) 0 (iluBwdF F nz base diag v ptr ind) x

/-- ilu0.hpp:162-200 — aoclsparse_ilu0_template -/
def ilu0TemplateF (nz : R → Bool) (H : IluHandle R) (x b : List R) :
    Option (Status × Bool × List R × IluHandle R) :=
  if H.factorized then do
    let x ← iluSolveF F nz H.raw.un H.raw.base H.diag H.val H.raw.ptr H.raw.ind x b
    some (.success, true, x, H)
  else do
    let r ← ilu0FactF F nz H.raw.un H.raw.base H.diag H.val H.raw.ptr H.raw.ind
    if r.1 ≠ .success then some (r.1, false, x, { H with val := r.2.1, diag := r.2.2 })
    else do
      let x ← iluSolveF F nz H.raw.un H.raw.base r.2.2 r.2.1 H.raw.ptr H.raw.ind x b
      some (.success, true, x, { H with val := r.2.1, diag := r.2.2, factorized := true })

/-- ilu.hpp:33-140 — aoclsparse_ilu_template -/
def iluF (nz : R → Bool) (g : Nat → Int) (sameType : Bool) (op : Int) (A : Option (IluHandle R))
    (d : Option Descr) (precond : Bool) (x b : Option (List R)) :
    Option (Status × Bool × Option (List R) × Option (IluHandle R)) :=
  match A, d, x, b with
  | some H, some d, some xs, some bs =>
    if precond = false then some (.invalidPointer, false, x, A)
    else if H.raw.base ≠ d.base then some (.invalidValue, false, x, A)
    else if op ≠ 111 then some (.notImplemented, false, x, A)
    else if H.raw.fmt ≠ 0 then some (.notImplemented, false, x, A)
    else if d.type ≠ 0 then some (.notImplemented, false, x, A)
    else if H.sort ≠ .fully ∧ H.sort ≠ .partially then some (.unsortedInput, false, x, A)
    else if H.fulldiag = false then some (.numericalError, false, x, A)
    else if sameType = false then some (.wrongType, false, x, A)
    else if H.raw.um < 0 ∨ H.raw.un < 0 ∨ H.raw.um ≠ H.raw.un then some (.invalidSize, false, x, A)
    else if H.raw.um = 0 ∨ H.raw.un = 0 then some (.success, false, x, A)
    else do
      let r ← ilu0TemplateF F nz (optimizeIlu g H) xs bs
      some (r.1, r.2.1, some r.2.2.1, some r.2.2.2)
  | _, _, _, _ => some (.invalidPointer, false, x, A)

end
end Model
end Verif
