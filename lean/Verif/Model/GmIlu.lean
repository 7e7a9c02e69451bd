/-
Model of the direct GMRES solver on a handle created from CSR or CSC arrays, with the built-in ILU(0) preconditioner,
  library/src/solvers/aoclsparse_itsol_functions.hpp 562-630, 1511-1617
-/
import Verif.Model.Symgs
import Verif.Model.Ilu
import Verif.Model.GmTalk

namespace Verif
namespace Model

variable {R : Type} [Zero R] [One R] [Add R] [Sub R] [Neg R] [Mul R] [Div R] [DecidableEq R]

/-- What the direct GMRES solver works on besides its own data: the handle of the matrix, and what the user's functions
see (`u`).  The handle is that of the products (`H`) with the parts the smoother uses: `sort`, `fulldiag`, and
`ilu_info` (mat_structures.hpp:755-767). -/
structure GmiSt (R τ : Type) where
  H : MvHandle R
  sort : MatSort
  fulldiag : Bool
  ready : Bool
  fact : Bool
  diag : List Int
  val : List R
  u : τ

variable {Q τ : Type} [LinearOrder Q]

/-- the handle as the smoother sees it -/
def GmiSt.ilu (t : GmiSt R τ) : IluHandle R := ⟨t.H.raw, t.sort, t.fulldiag, t.ready, t.fact, t.diag, t.val⟩

/-- the smoother changes `ilu_info` only (ilu.hpp:100-140) -/
def GmiSt.setIlu (t : GmiSt R τ) (I : IluHandle R) : GmiSt R τ :=
  { t with ready := I.ready, fact := I.factorized, diag := I.diag, val := I.val }

/-- itsol_functions.hpp:1566-1567 — the product -/
def gmiMv (E : GsEnv R) (d : Descr) (t : GmiSt R τ) (u v : List R) : Option (Status × List R × GmiSt R τ) := do
  let q ← gsMv E 111 1 t.H d u v
  some (q.1, q.2.1, { t with H := q.2.2 })

/-- itsol_functions.hpp:1586-1594 — the built-in preconditioner; `gd`: what the new array lu_diag_ptr contains -/
def gmiBuiltin (nz : R → Bool) (gd : Nat → Int) (d : Descr) (t : GmiSt R τ) (u v : List R) :
    Option (Status × List R × GmiSt R τ) := do
  let r ← ilu nz gd true 111 (some t.ilu) (some d) true (some v) (some u)
  let x ← r.2.2.1
  let I ← r.2.2.2
  some (r.1, x, t.setIlu I)

/-- itsol_functions.hpp:1579 — the user's preconditioner -/
def gmiUser (f : τ → Int → List R → List R → Option (Int × List R × τ)) (t : GmiSt R τ) (n : Int) (u v : List R) :
    Option (Int × List R × GmiSt R τ) := do
  let q ← f t.u n u v
  some (q.1, q.2.1, { t with u := q.2.2 })

/-- itsol_functions.hpp:1606 — the user's monitor -/
def gmiMonit (f : τ → Int → Option (List R) → Option (List R) → List Q → Option (Int × List Q × τ)) (t : GmiSt R τ)
    (n : Int) (u v : Option (List R)) (rinfo : List Q) : Option (Int × List Q × GmiSt R τ) := do
  let q ← f t.u n u v rinfo
  some (q.1, q.2.1, { t with u := q.2.2 })

/-- itsol_functions.hpp:1561-1613 — what gmres_solve calls for a request -/
def gmiEnv (E : GsEnv R) (nz : R → Bool) (gd : Nat → Int) (d : Descr)
    (precond : Option (τ → Int → List R → List R → Option (Int × List R × τ)))
    (monit : Option (τ → Int → Option (List R) → Option (List R) → List Q → Option (Int × List Q × τ))) :
    Env R Q (GmiSt R τ) where
  mv := gmiMv E d
  precond := precond.map gmiUser
  monit := monit.map gmiMonit
  builtin := gmiBuiltin nz gd d

/-- itsol_functions.hpp:591-594 — the clean copy made before the solve.  The check of the arrays in it (csr_util.hpp:
833-847) writes `sort` and `fulldiag` again; the arrays of indices are those of the creation, so the values are the
same and the model leaves this out. -/
def gmiOptimize (E : GsEnv R) (t : GmiSt R τ) : Option (Status × GmiSt R τ) := do
  match ← csrCscOptimize E.srt E.g.i E.g.v t.H with
  | .error e => some (e, t)
  | .ok q => some (.success, { t with H := q.2 })

/-- itsol_functions.hpp:562-630 — itsol_solve with GMRES as the method: the parameters of `itsolSolve` filled in from
the handle of the matrix and its descriptor -/
def gmDirect (num : Num R Q) (gnum : GNum R Q) (E : GsEnv R) (nz : R → Bool) (gd : Nat → Int) (g : Nat → R) (gq : Q)
    (w : Int) (fuel : Nat) (d : Descr) (precond : Option (τ → Int → List R → List R → Option (Int × List R × τ)))
    (monit : Option (τ → Int → Option (List R) → Option (List R) → List Q → Option (Int × List Q × τ)))
    (n : Int) (b : Option (List R)) (D : DirSt R Q (GmiSt R τ)) : Option (Status × DirSt R Q (GmiSt R τ)) :=
  itsolSolve num gnum (gmiEnv E nz gd d precond monit) g gq w fuel D.t.H.raw.um D.t.H.raw.un d.type d.fill d.diag
    (gmiOptimize E) (fun t => t.H.fulldiag)
    (gmSolve num gnum (gmiEnv E nz gd d precond monit) g gq w fuel D.t.H.raw.um D.t.H.raw.un) n b D

end Model
end Verif
