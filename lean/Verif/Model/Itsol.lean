/-
Model of the handle of the iterative solvers, the reverse-communication interface and the direct interface.

  library/src/solvers/aoclsparse_itsol_functions.hpp   203-283 (options, data_free), 285-400 (data_init, rci_input,
                                                       solver_init), 480-560 (rci_solve), 562-630 (itsol_solve),
                                                       1375-1500 (cg_solve), 1500-1618 (gmres_solve)

Allocations do not fail here (failing allocations of handles and solvers: Model/Own).
-/
import Verif.Model.Opts
import Verif.Model.Gmres

namespace Verif
namespace Model

/-- aoclsparse_itsol_data -/
structure ItH (R Q : Type) where
  n : Int
  b : Option (List R)
  opts : Registry Q
  solving : Bool
  solver : Int
  cg : Option (CgData R Q)
  gm : Option (GmData R Q)

/-- itsol_functions.hpp:285-310 — itsol_data_init -/
def itsolInit {R Q : Type} (opts : Registry Q) : ItH R Q := ⟨0, none, opts, false, 0, none, none⟩

section
variable {R Q : Type} [Zero R] [Neg R] [Add R] [Sub R] [Mul R] [Div R] [LinearOrder Q]

/-- itsol_functions.hpp:203-216 — cg_data_options -/
def cgDataOptions (cg : CgData R Q) (opts : Registry Q) : Option (Status × CgData R Q) := do
  let key ← opts.getKey "cg preconditioner".toList
  let rt := opts.getReal "cg rel tolerance".toList
  let at' := opts.getReal "cg abs tolerance".toList
  let mx := opts.getInt "cg iteration limit".toList
  let cg := { cg with precond := key.getD cg.precond, rtol := rt.getD cg.rtol, atol := at'.getD cg.atol,
                      maxit := mx.getD cg.maxit }
  if key.isNone || rt.isNone || at'.isNone || mx.isNone then some (.internalError, cg) else some (.success, cg)

/-- itsol_functions.hpp:217-231 — gmres_data_options -/
def gmDataOptions (gm : GmData R Q) (opts : Registry Q) : Option (Status × GmData R Q) := do
  let key ← opts.getKey "gmres preconditioner".toList
  let rt := opts.getReal "gmres rel tolerance".toList
  let at' := opts.getReal "gmres abs tolerance".toList
  let mx := opts.getInt "gmres iteration limit".toList
  let gm := { gm with precond := key.getD gm.precond, rtol := rt.getD gm.rtol, atol := at'.getD gm.atol,
                      maxit := mx.getD gm.maxit }
  if key.isNone || rt.isNone || at'.isNone || mx.isNone then some (.internalError, gm) else some (.success, gm)

/-- itsol_functions.hpp:242-253 — the loop of rci_input that copies b -/
def copyRhs (b : List R) (i : Int) (a : List R) : Option (List R) := do
  let bi ← rd b i
  wr a i bi

/-- itsol_functions.hpp:312-350 — rci_input.  `g`: uninitialised memory. -/
def rciInput (g : Nat → R) (H : Option (ItH R Q)) (n : Int) (b : Option (List R)) :
    Option (Status × Option (ItH R Q)) :=
  match H with
  | none => some (.internalError, none)
  | some H =>
    if n < 0 then some (.invalidValue, some H)
    else
      match b with
      | none => some (.invalidPointer, some H)
      | some b => do
        let a ← forC 0 n (copyRhs b) (alloc n.toNat g)
        some (.success, some { H with n := n, b := some a, solving := false, solver := 0, cg := none, gm := none })

variable (num : Num R Q) (gnum : GNum R Q)

/-- itsol_functions.hpp:366-371 — the CG data are allocated when there are none -/
def cgDataOf (g : Nat → R) (gq : Q) (H : ItH R Q) : CgData R Q :=
  match H.cg with
  | some cg => cg
  | none => cgDataInit g gq H.n

/-- itsol_functions.hpp:364-378 — the CG data for a new solve -/
def cgPrepare (g : Nat → R) (gq : Q) (H : ItH R Q) : Option (Status × ItH R Q) := do
  let r ← cgDataOptions { cgDataOf g gq H with task := .start } H.opts
  some (r.1, { H with cg := some r.2 })

/-- itsol_functions.hpp:379-393 — the GMRES data for a new solve -/
def gmPrepare (gq : Q) (w : Int) (H : ItH R Q) : Option (Status × ItH R Q) :=
  match H.gm with
  | some gm => do
    let r ← gmDataOptions { gm with task := .start } H.opts
    some (r.1, { H with gm := some r.2 })
  | none =>
    match H.opts.getInt "gmres restart iterations".toList with
    | none => none
    | some m =>
      match gmDataInit gnum gq w H.n m with
      | .error e => some (e, H)
      | .ok gm => do
        let r ← gmDataOptions { gm with task := .start } H.opts
        some (r.1, { H with gm := some r.2 })

/-- itsol_functions.hpp:353-400 — solver_init.  `none`: undefined behaviour, or an exception from GetKey. -/
def solverInit (g : Nat → R) (gq : Q) (w : Int) (H : ItH R Q) : Option (Status × ItH R Q) := do
  let key ← H.opts.getKey "iterative method".toList
  let H := { H with solver := key.getD H.solver }
  if H.solver = 1 then cgPrepare g gq H
  else if H.solver = 2 then gmPrepare gnum gq w H
  else some (.success, H)

/-- what a call of rci_solve changes -/
structure RciSt (R Q : Type) where
  H : ItH R Q
  c : Comm
  x : List R
  rinfo : List Q

/-- itsol_functions.hpp:526-541 — the switch on the solver -/
def rciSwitch (S : RciSt R Q) : Option (Status × RciSt R Q) :=
  if S.H.solver = 1 then
    match S.H.cg, S.H.b with
    | some cg, some b => do
      let r ← cgRci num S.H.n b ⟨cg, S.c, S.x, S.rinfo⟩
      some (r.1, ⟨{ S.H with cg := some r.2.cg }, r.2.c, r.2.x, r.2.rinfo⟩)
    | _, _ => none
  else if S.H.solver = 2 then
    match S.H.gm, S.H.b with
    | some gm, some b => do
      let r ← gmRci gnum S.H.n b ⟨gm, S.c, S.x, S.rinfo⟩
      some (r.1, ⟨{ S.H with gm := some r.2.gm }, r.2.c, r.2.x, r.2.rinfo⟩)
    | _, _ => none
  else some (.internalError, S)

/-- itsol_functions.hpp:543-552 — after the switch: any error stops, and a stop ends the solve -/
def rciFinish (r : Status × RciSt R Q) : Status × RciSt R Q :=
  let c := if r.1 ≠ .success then { r.2.c with job := .stop } else r.2.c
  if c.job = .stop then
    (r.1, { r.2 with c := c, H := { r.2.H with solving := false, opts := r.2.H.opts.unlock } })
  else (r.1, { r.2 with c := c })

/-- itsol_functions.hpp:480-560 — rci_solve, all pointers given.  (A null `b` is dereferenced only when n > 0; the
model does not accept it.) -/
def rciSolve (g : Nat → R) (gq : Q) (w : Int) (S : RciSt R Q) : Option (Status × RciSt R Q) :=
  if S.H.solving = false then do
    let r ← solverInit gnum g gq w S.H
    if r.1 ≠ .success then some (r.1, { S with H := r.2, c := { S.c with job := .stop } })
    else do
      let q ← rciSwitch num gnum { S with H := { r.2 with solving := true, opts := r.2.opts.lock } }
      some (rciFinish q)
  else do
    let q ← rciSwitch num gnum S
    some (rciFinish q)

/-- itsol_functions.hpp:498-514 — the checks of rci_solve for null pointers; what is left of the arguments:
the status and the job -/
def rciNulls (hNull jobNull uNull vNull xNull rNull : Bool) : Option (Status × Option Job) :=
  if jobNull then some (.invalidPointer, none)
  else if hNull then some (.internalError, some .stop)
  else if uNull || vNull || xNull || rNull then some (.invalidPointer, some .stop)
  else none

/-! ### the user of the reverse-communication interface -/

/-- the vector a pointer of the CG solver points to -/
def CgData.vec (cg : CgData R Q) (x : List R) : Vp → Option (List R)
  | .r => some cg.r
  | .z => some cg.z
  | .p => some cg.p
  | .q => some cg.q
  | .x => some x
  | _ => none

/-- the CG data after a write to `q` or `z` -/
def CgData.put (cg : CgData R Q) : Vp → List R → Option (CgData R Q)
  | .q, a => some { cg with q := a }
  | .z, a => some { cg with z := a }
  | _, _ => none

/-- what the user does between two calls: ask to stop, or write the answer to the array `v` points to (nothing
when there is no such array).  Not code of the library. -/
def userReply (stop : Bool) (a : List R) (S : RciSt R Q) : RciSt R Q :=
  if stop then { S with c := { S.c with job := .interrupt } }
  else
    match S.H.cg.bind fun cg => cg.put S.c.v a with
    | some cg => { S with H := { S.H with cg := some cg } }
    | none => S

/-- the calls of one solve: call until the job is stop or the user has no more answers.  Not code of the library. -/
def rciTalk (g : Nat → R) (gq : Q) (w : Int) : RciSt R Q → List (Bool × List R) → Option (List (Status × RciSt R Q))
  | S, [] => do
    let q ← rciSolve num gnum g gq w S
    some [q]
  | S, rep :: reps => do
    let q ← rciSolve num gnum g gq w S
    if q.2.c.job = .stop then some [q]
    else do
      let L ← rciTalk g gq w (userReply rep.1 rep.2 q.2) reps
      some (q :: L)

/-! ### the direct interface -/

/-- what the direct interface calls: the product with the matrix, the user's preconditioner and monitor, and the
built-in preconditioner; `τ`: the matrix handle and the user's data -/
structure Env (R Q τ : Type) where
  mv : τ → List R → List R → Option (Status × List R × τ)
  precond : Option (τ → Int → List R → List R → Option (Int × List R × τ))
  monit : Option (τ → Int → Option (List R) → Option (List R) → List Q → Option (Int × List Q × τ))
  builtin : τ → List R → List R → Option (Status × List R × τ)

/-- state of the direct interface -/
structure DirSt (R Q τ : Type) where
  S : RciSt R Q
  t : τ

/-- v[i] = u[i] (itsol_functions.hpp:1477-1480) -/
def idBody (u : List R) (i : Int) (v : List R) : Option (List R) := do
  let a ← rd u i
  wr v i a

variable {τ : Type} (E : Env R Q τ)

/-- itsol_functions.hpp:1448-1482 — the preconditioner of cg_solve; `.error`: return internal_error -/
def cgPrecondStep (D : DirSt R Q τ) (cg : CgData R Q) (u v : List R) :
    Option (Except Status (DirSt R Q τ)) :=
  let put (z : List R) (job : Job) (t : τ) : Option (Except Status (DirSt R Q τ)) := do
    let cg' ← cg.put D.S.c.v z
    some (.ok ⟨{ D.S with H := { D.S.H with cg := some cg' }, c := { D.S.c with job := job } }, t⟩)
  if cg.precond = 1 then
    match E.precond with
    | none => none
    | some f => do
      let r ← f D.t D.S.H.n u v
      put r.2.1 (if r.1 ≠ 0 then .interrupt else D.S.c.job) r.2.2
  else if cg.precond = 2 then some (.ok D)
  else if cg.precond = 3 then do
    let r ← E.builtin D.t u v
    if r.1 ≠ .success then some (.error .internalError) else put r.2.1 D.S.c.job r.2.2
  else do
    let z ← forC 0 D.S.H.n (idBody u) v
    put z D.S.c.job D.t

/-- itsol_functions.hpp:1438-1492 — what cg_solve does for a request -/
def cgServe (D : DirSt R Q τ) : Option (Except Status (DirSt R Q τ)) :=
  match D.S.H.cg with
  | none => none
  | some cg =>
    match D.S.c.job with
    | .mv => do
      let u ← cg.vec D.S.x D.S.c.u
      let v ← cg.vec D.S.x D.S.c.v
      let r ← E.mv D.t u v
      if r.1 ≠ .success then some (.error .internalError)
      else do
        let cg' ← cg.put D.S.c.v r.2.1
        some (.ok ⟨{ D.S with H := { D.S.H with cg := some cg' } }, r.2.2⟩)
    | .precond => do
      let u ← cg.vec D.S.x D.S.c.u
      let v ← cg.vec D.S.x D.S.c.v
      cgPrecondStep E D cg u v
    | .crit =>
      match E.monit with
      | none => some (.ok D)
      | some f => do
        let r ← f D.t D.S.H.n (cg.vec D.S.x D.S.c.u) (cg.vec D.S.x D.S.c.v) D.S.rinfo
        some (.ok ⟨{ D.S with rinfo := r.2.1, c := { D.S.c with job := if r.1 ≠ 0 then .interrupt else .crit } },
          r.2.2⟩)
    | _ => some (.ok D)

/-- itsol_functions.hpp:1430-1494 — the loop of cg_solve.  `fuel` bounds the passes; `none` when it runs out. -/
def cgLoop (g : Nat → R) (gq : Q) (w : Int) : Nat → Status → DirSt R Q τ → Option (Status × DirSt R Q τ)
  | 0, _, _ => none
  | fuel + 1, _, D => do
    let q ← rciSolve num gnum g gq w D.S
    if q.2.c.job = .stop then some (q.1, ⟨q.2, D.t⟩)
    else if q.1 ≠ .success then some (q.1, ⟨q.2, D.t⟩)
    else
      match ← cgServe E ⟨q.2, D.t⟩ with
      | .error e => some (e, ⟨q.2, D.t⟩)
      | .ok D' => if D'.S.c.job = .stop then some (q.1, D') else cgLoop g gq w fuel q.1 D'

/-- itsol_functions.hpp:1375-1500 — cg_solve.  `mm`, `mn`: the size of the matrix; `dtype`, `dfill`, `ddiag` its
descriptor; `fullDiag`: all entries of the diagonal are stored. -/
def cgSolve (g : Nat → R) (gq : Q) (w : Int) (fuel : Nat) (mm mn : Int) (dtype dfill ddiag : Nat) (fullDiag : Bool)
    (D : DirSt R Q τ) : Option (Status × DirSt R Q τ) :=
  match D.S.H.cg with
  | none => none
  | some cg =>
    if mm ≠ D.S.H.n ∨ mn ≠ D.S.H.n then some (.invalidSize, D)
    else if dtype ≠ 1 then some (.invalidValue, D)
    else if dfill ≠ 0 then some (.invalidValue, D)
    else if cg.precond = 1 ∧ E.precond.isNone then some (.invalidPointer, D)
    else if cg.precond = 3 ∧ ((fullDiag = false ∧ ddiag ≠ 1) ∨ ddiag = 2) then some (.invalidValue, D)
    else cgLoop num gnum E g gq w fuel .success { D with S := { D.S with c := ⟨.start, .null, .null⟩ } }

/-- itsol_functions.hpp:562-630 — itsol_solve, handle, x and rinfo given.  `optimize`: csr_csc_optimize, the status
and the matrix after it; `gmres`: the direct GMRES solver; the other parameters are those of cg_solve.  A null
descriptor is not modelled. -/
def itsolSolve (g : Nat → R) (gq : Q) (w : Int) (fuel : Nat) (mm mn : Int) (dtype dfill ddiag : Nat)
    (optimize : τ → Option (Status × τ)) (fullDiag : τ → Bool)
    (gmres : DirSt R Q τ → Option (Status × DirSt R Q τ)) (n : Int) (b : Option (List R)) (D : DirSt R Q τ) :
    Option (Status × DirSt R Q τ) := do
  let rinfo ← clearInfo num D.S.rinfo
  let D := { D with S := { D.S with rinfo := rinfo } }
  let r ← rciInput g (some D.S.H) n b
  match r.2 with
  | none => none
  | some H => do
    let D := { D with S := { D.S with H := H } }
    if r.1 ≠ .success then some (r.1, D)
    else do
      let s ← solverInit gnum g gq w H
      let D := { D with S := { D.S with H := s.2 } }
      if s.1 ≠ .success then some (s.1, D)
      else do
        let z ← optimize D.t
        let D := { D with t := z.2 }
        if z.1 ≠ .success then some (z.1, D)
        else do
          let D := { D with S := { D.S with H := { D.S.H with solving := true, opts := D.S.H.opts.lock } } }
          let q ←
            if D.S.H.solver = 1 then
              cgSolve num gnum E g gq w fuel mm mn dtype dfill ddiag (fullDiag D.t) D
            else if D.S.H.solver = 2 then gmres D
            else some (.internalError, D)
          some (q.1, { q.2 with S := { q.2.S with
            H := { q.2.S.H with solving := false, opts := q.2.S.H.opts.unlock } } })

end
end Model
end Verif
