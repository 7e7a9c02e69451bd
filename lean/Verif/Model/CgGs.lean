/-
Model of the built-in symmetric Gauss-Seidel preconditioner of the direct CG solver,
  library/src/solvers/aoclsparse_itsol_functions.hpp 382-479, 1424-1428, 1465-1478
and of the direct CG solver with a handle created from CSR or CSC arrays.
-/
import Verif.Model.Symgs
import Verif.Model.Itsol

namespace Verif
namespace Model

variable {R : Type} [Zero R] [One R] [Add R] [Sub R] [Neg R] [Mul R] [Div R] [DecidableEq R]

/-- itsol_functions.hpp:452-453 — `y[i] *= aval[opt_csr_mat->idiag[i]]` -/
def sgsScaleStep (idiag : List Int) (val : List R) (i : Int) (y : List R) : Option (List R) := do
  let p ← rd idiag i
  let a ← rd val p
  let v ← rd y i
  wr y i (v * a)

/-- itsol_functions.hpp:449-454 — scale with the diagonal of the copy at position `i` -/
def sgsScale (H : MvHandle R) (i : Nat) (y : List R) : Option (List R) :=
  match H.mats[i]? with
  | some (.csr c _ _) => do
    let idiag ← c.idiag
    forC 0 H.raw.um (sgsScaleStep idiag c.val) y
  | _ => none

/-- itsol_functions.hpp:429-441 — fill and operation of the first solve -/
def sgsFirst (d : Descr) : Nat × Int := if d.type = 0 ∨ d.fill = 0 then (0, 111) else (1, 112)

/-- itsol_functions.hpp:457-469 — fill and operation of the second solve -/
def sgsSecond (d : Descr) : Nat × Int := if d.type = 0 ∨ d.fill = 1 then (1, 111) else (0, 112)

/-- itsol_functions.hpp:448-454 — the scaling is left out for unit diagonals -/
def sgsMid (d : Descr) (H : MvHandle R) (i : Nat) (y : List R) : Option (List R) :=
  if d.diag = 0 then sgsScale H i y else some y

/-- itsol_functions.hpp:442-478 — the two solves and the scaling between them, `i` the position of the clean copy -/
def sgsSolves (E : GsEnv R) (H : MvHandle R) (d : Descr) (i : Nat) (r y z : List R) :
    Option (Status × List R × List R × MvHandle R) := do
  let a ← gsTrsv E (sgsFirst d).2 H ⟨3, (sgsFirst d).1, d.diag, d.base⟩ r y
  if a.1 ≠ .success then some (a.1, a.2.1, z, a.2.2)
  else do
    let y ← sgsMid d a.2.2 i a.2.1
    let c ← gsTrsv E (sgsSecond d).2 a.2.2 ⟨3, (sgsSecond d).1, d.diag, d.base⟩ y z
    some (c.1, y, c.2.1, c.2.2)

/-- itsol_functions.hpp:390-479 — aoclsparse_itsol_symgs: the status, `y`, `z` and the matrix afterwards -/
def itsolSymgs (E : GsEnv R) (H : MvHandle R) (d : Descr) (r y z : List R) :
    Option (Status × List R × List R × MvHandle R) :=
  match optIdx H.mats with
  | none => some (.notImplemented, y, z, H)
  | some i =>
    if d.type ≠ 0 ∧ d.type ≠ 1 then some (.invalidValue, y, z, H)
    else if d.diag = 2 then some (.invalidValue, y, z, H)
    else sgsSolves E H d i r y z

/-! ### the direct CG solver on a handle -/

/-- what the direct CG solver works on besides its own data: the matrix, the work array of the preconditioner
(`y`, 1424-1428; the model starts with any array of the right length in place of zeros) and what the user's functions
see -/
structure SgsSt (R τ : Type) where
  H : MvHandle R
  y : List R
  u : τ

variable {Q τ : Type} [LinearOrder Q]

/-- itsol_functions.hpp:1445 — the product -/
def sgsMv (E : GsEnv R) (d : Descr) (t : SgsSt R τ) (u v : List R) : Option (Status × List R × SgsSt R τ) := do
  let q ← gsMv E 111 1 t.H d u v
  some (q.1, q.2.1, { t with H := q.2.2 })

/-- itsol_functions.hpp:1472 — the built-in preconditioner -/
def sgsBuiltin (E : GsEnv R) (d : Descr) (t : SgsSt R τ) (u v : List R) : Option (Status × List R × SgsSt R τ) := do
  let q ← itsolSymgs E t.H d u t.y v
  some (q.1, q.2.2.1, { t with H := q.2.2.2, y := q.2.1 })

/-- itsol_functions.hpp:1455 — the user's preconditioner -/
def sgsUser (f : τ → Int → List R → List R → Option (Int × List R × τ)) (t : SgsSt R τ) (n : Int) (u v : List R) :
    Option (Int × List R × SgsSt R τ) := do
  let q ← f t.u n u v
  some (q.1, q.2.1, { t with u := q.2.2 })

/-- itsol_functions.hpp:1487 — the user's monitor -/
def sgsMonit (f : τ → Int → Option (List R) → Option (List R) → List Q → Option (Int × List Q × τ)) (t : SgsSt R τ)
    (n : Int) (u v : Option (List R)) (rinfo : List Q) : Option (Int × List Q × SgsSt R τ) := do
  let q ← f t.u n u v rinfo
  some (q.1, q.2.1, { t with u := q.2.2 })

/-- itsol_functions.hpp:1438-1492 — what cg_solve calls for a request -/
def sgsEnv (E : GsEnv R) (d : Descr) (precond : Option (τ → Int → List R → List R → Option (Int × List R × τ)))
    (monit : Option (τ → Int → Option (List R) → Option (List R) → List Q → Option (Int × List Q × τ))) :
    Env R Q (SgsSt R τ) where
  mv := sgsMv E d
  precond := precond.map sgsUser
  monit := monit.map sgsMonit
  builtin := sgsBuiltin E d

/-- itsol_functions.hpp:591-594 — the clean copy made before the solve -/
def sgsOptimize (E : GsEnv R) (t : SgsSt R τ) : Option (Status × SgsSt R τ) := do
  match ← csrCscOptimize E.srt E.g.i E.g.v t.H with
  | .error e => some (e, t)
  | .ok q => some (.success, { t with H := q.2 })

/-- itsol_functions.hpp:562-630 — itsol_solve for a handle whose method is CG: the parameters of `itsolSolve` filled
in from the handle of the matrix and its descriptor -/
def cgDirect (num : Num R Q) (gnum : GNum R Q) (E : GsEnv R) (g : Nat → R) (gq : Q) (w : Int) (fuel : Nat) (d : Descr)
    (precond : Option (τ → Int → List R → List R → Option (Int × List R × τ)))
    (monit : Option (τ → Int → Option (List R) → Option (List R) → List Q → Option (Int × List Q × τ)))
    (gmres : DirSt R Q (SgsSt R τ) → Option (Status × DirSt R Q (SgsSt R τ))) (n : Int) (b : Option (List R))
    (D : DirSt R Q (SgsSt R τ)) : Option (Status × DirSt R Q (SgsSt R τ)) :=
  itsolSolve num gnum (sgsEnv E d precond monit) g gq w fuel D.t.H.raw.um D.t.H.raw.un d.type d.fill d.diag
    (sgsOptimize E) (fun t => t.H.fulldiag) gmres n b D

end Model
end Verif
