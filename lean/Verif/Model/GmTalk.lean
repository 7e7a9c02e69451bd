/-
The user of the reverse-communication interface of the GMRES solver, and the direct interface of GMRES.

  library/src/solvers/aoclsparse_itsol_functions.hpp   1511-1617 (gmres_solve)
-/
import Verif.Model.Itsol

namespace Verif
namespace Model

section
variable {R Q : Type}

/-- `n` entries of an array from position `off`; `none`: not inside the array -/
def window (a : List R) (off : Int) (n : Int) : Option (List R) :=
  if 0 ≤ off ∧ off + n ≤ a.length then some ((a.drop off.toNat).take n.toNat) else none

/-- the array with the entries `w` written from position `off` on -/
def overwrite (a : List R) (off : Int) (w : List R) : Option (List R) :=
  if 0 ≤ off ∧ off + w.length ≤ a.length then
    some (a.take off.toNat ++ w ++ a.drop (off.toNat + w.length))
  else none

/-- the `n` entries a pointer of the GMRES solver points to -/
def GmData.vec (n : Int) (gm : GmData R Q) (x : List R) : Vp → Option (List R)
  | .gv off => window gm.v off n
  | .gz off => window gm.z off n
  | .x => window x 0 n
  | _ => none

/-- the GMRES data after a write through a pointer -/
def GmData.put (gm : GmData R Q) : Vp → List R → Option (GmData R Q)
  | .gv off, w => (overwrite gm.v off w).map fun a => { gm with v := a }
  | .gz off, w => (overwrite gm.z off w).map fun a => { gm with z := a }
  | _, _ => none

/-- the user writes the answer where `v` points to.  Not code of the library. -/
def gmWrite (w : List R) (S : RciSt R Q) : Option (RciSt R Q) := do
  let gm ← S.H.gm
  let gm' ← gm.put S.c.v w
  some { S with H := { S.H with gm := some gm' } }

/-- the user asks to stop.  Not code of the library. -/
def userStop (S : RciSt R Q) : RciSt R Q := { S with c := { S.c with job := .interrupt } }

variable [Zero R] [Neg R] [Add R] [Sub R] [Mul R] [Div R] [LinearOrder Q] (num : Num R Q) (gnum : GNum R Q)
variable {τ : Type} (E : Env R Q τ)

/-- itsol_functions.hpp:1574-1602 — the preconditioner of gmres_solve; `E.builtin`: the ILU(0) preconditioner, whose
status is not looked at -/
def gmPrecondStep (D : DirSt R Q τ) (gm : GmData R Q) (u v : List R) : Option (DirSt R Q τ) :=
  let put (z : List R) (job : Job) (t : τ) : Option (DirSt R Q τ) := do
    let gm' ← gm.put D.S.c.v z
    some ⟨{ D.S with H := { D.S.H with gm := some gm' }, c := { D.S.c with job := job } }, t⟩
  if gm.precond = 1 then
    match E.precond with
    | none => none
    | some f => do
      let r ← f D.t D.S.H.n u v
      put r.2.1 (if r.1 ≠ 0 then .interrupt else D.S.c.job) r.2.2
  else if gm.precond = 2 then do
    let r ← E.builtin D.t u v
    put r.2.1 D.S.c.job r.2.2
  else do
    let z ← forC 0 D.S.H.n (idBody u) v
    put z D.S.c.job D.t

/-- itsol_functions.hpp:1563-1614 — what gmres_solve does for a request -/
def gmServe (D : DirSt R Q τ) : Option (Except Status (DirSt R Q τ)) :=
  match D.S.H.gm with
  | none => none
  | some gm =>
    match D.S.c.job with
    | .mv => do
      let u ← gm.vec D.S.H.n D.S.x D.S.c.u
      let v ← gm.vec D.S.H.n D.S.x D.S.c.v
      let r ← E.mv D.t u v
      if r.1 ≠ .success then some (.error .internalError)
      else do
        let gm' ← gm.put D.S.c.v r.2.1
        some (.ok ⟨{ D.S with H := { D.S.H with gm := some gm' } }, r.2.2⟩)
    | .precond => do
      let u ← gm.vec D.S.H.n D.S.x D.S.c.u
      let v ← gm.vec D.S.H.n D.S.x D.S.c.v
      let D' ← gmPrecondStep E D gm u v
      some (.ok D')
    | .crit =>
      match E.monit with
      | none => some (.ok D)
      | some f => do
        let r ← f D.t D.S.H.n (gm.vec D.S.H.n D.S.x D.S.c.u) (gm.vec D.S.H.n D.S.x D.S.c.v) D.S.rinfo
        some (.ok ⟨{ D.S with rinfo := r.2.1, c := { D.S.c with job := if r.1 ≠ 0 then .interrupt else .crit } },
          r.2.2⟩)
    | _ => some (.ok D)

/-- itsol_functions.hpp:1555-1615 — the loop of gmres_solve.  `fuel` bounds the passes; `none` when it runs out. -/
def gmLoop (g : Nat → R) (gq : Q) (w : Int) : Nat → DirSt R Q τ → Option (Status × DirSt R Q τ)
  | 0, _ => none
  | fuel + 1, D => do
    let q ← rciSolve num gnum g gq w D.S
    if q.2.c.job = .stop then some (q.1, ⟨q.2, D.t⟩)
    else if q.1 ≠ .success then some (q.1, ⟨q.2, D.t⟩)
    else
      match ← gmServe E ⟨q.2, D.t⟩ with
      | .error e => some (e, ⟨q.2, D.t⟩)
      | .ok D' => gmLoop g gq w fuel D'

/-- itsol_functions.hpp:1511-1617 — gmres_solve.  `mm`, `mn`: the size of the matrix. -/
def gmSolve (g : Nat → R) (gq : Q) (w : Int) (fuel : Nat) (mm mn : Int) (D : DirSt R Q τ) :
    Option (Status × DirSt R Q τ) :=
  match D.S.H.gm with
  | none => none
  | some gm =>
    if mm ≠ D.S.H.n ∨ mn ≠ D.S.H.n then some (.invalidSize, D)
    else if gm.precond = 1 ∧ E.precond.isNone then some (.invalidPointer, D)
    else gmLoop num gnum E g gq w fuel { D with S := { D.S with c := ⟨.start, .null, .null⟩ } }

end
end Model
end Verif
