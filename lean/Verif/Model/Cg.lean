/-
Model of the conjugate gradient solver with reverse communication.

  library/src/solvers/aoclsparse_itsol_functions.hpp        40-76 (cg_data_init), 632-866 (cg_rci_solve)
  library/src/include/aoclsparse_itsol_data.hpp             cg_rc_task, cg_data
  library/include/aoclsparse_types.h                        aoclsparse_itsol_rci_job

Scalars are in `R`, norms and tolerances in a linearly ordered `Q`; what depends on floating point is in `Num`.
A pointer handed to the user is a name (`Vp`).
-/
import Verif.Core.Mem
import Verif.Core.Types
import Verif.Core.Prefix
import Mathlib.Data.Int.Order.Basic

namespace Verif
namespace Model

/-- aoclsparse_types.h — aoclsparse_itsol_rci_job -/
inductive Job where
  | interrupt | stop | start | mv | precond | crit
deriving DecidableEq, Repr

/-- what `u` and `v` point to: nothing, a vector of the CG data, the user's x, or a place in the GMRES arrays v
and z -/
inductive Vp where
  | null | r | z | p | q | x
  | gv (off : Int)
  | gz (off : Int)
deriving DecidableEq, Repr

/-- floating-point functions.  `nrm`: cblas_nrm2, `none` is NaN; `isBad`: aoclsparse_is_negative_or_nearzero
(utils.hpp:625-638); `isZero`: == 0; `rz0`: 1, or {1, 1} in the complex case. -/
structure Num (R Q : Type) where
  nrm : List R → Option Q
  zeroQ : Q
  mulQ : Q → Q → Q
  ofInt : Int → Q
  isBad : R → Bool
  isZero : R → Bool
  rz0 : R

/-- cg_rc_task -/
inductive CgTask where
  | start | initRes | checkConv | startIter | computeBeta | takeStep
deriving DecidableEq, Repr

/-- cg_data -/
structure CgData (R Q : Type) where
  r : List R
  z : List R
  p : List R
  q : List R
  alpha : R
  rz : R
  beta : R
  rnorm2 : Q
  bnorm2 : Q
  brtol : Q
  task : CgTask
  niter : Int
  rtol : Q
  atol : Q
  maxit : Int
  precond : Int

/-- *ircomm, *u, *v -/
structure Comm where
  job : Job
  u : Vp
  v : Vp
deriving DecidableEq, Repr

/-- what a call changes: the CG data, the communication, x and rinfo -/
structure CgSt (R Q : Type) where
  cg : CgData R Q
  c : Comm
  x : List R
  rinfo : List Q

section
variable {R Q : Type} [Zero R] [Neg R] [Add R] [Sub R] [Mul R] [Div R] [LinearOrder Q] (num : Num R Q)

/-- cblas_nrm2(n, a, 1): the first `n` entries of the array -/
def nrmN (n : Int) (a : List R) : Option (Option Q) :=
  if n.toNat ≤ a.length then some (num.nrm (a.take n.toNat)) else none

/-- itsol_functions.hpp:666-667 — for(i = 0; i < 100; i++) rinfo[i] = 0.0; -/
def clearInfo (rinfo : List Q) : Option (List Q) := forC 0 100 (fun i a => wr a i num.zeroQ) rinfo

/-- itsol_functions.hpp:673-677 -/
def startBody (b x : List R) (i : Int) (s : List R × List R) : Option (List R × List R) := do
  let bi ← rd b i
  let xi ← rd x i
  let r ← wr s.1 i (-bi)
  let p ← wr s.2 i xi
  some (r, p)

/-- itsol_functions.hpp:664-694 — task_start -/
def cgStart (n : Int) (b : List R) (S : CgSt R Q) : Option (Status × CgSt R Q) := do
  let rinfo ← clearInfo num S.rinfo
  let rp ← forC 0 n (startBody b S.x) (S.cg.r, S.cg.p)
  let cg := { S.cg with niter := 0, r := rp.1, p := rp.2 }
  match ← nrmN num n b with
  | none => some (.invalidValue, { S with cg := cg, rinfo := rinfo })
  | some bn => do
    let rinfo ← wr rinfo 1 bn
    some (.success, { S with
      cg := { cg with bnorm2 := bn, brtol := num.mulQ cg.rtol bn, task := .initRes }
      c := ⟨.mv, .p, .q⟩
      rinfo := rinfo })

/-- itsol_functions.hpp:730-764 — task_check_conv -/
def cgCheckConv (S : CgSt R Q) : Status × CgSt R Q :=
  let cg := S.cg
  if num.zeroQ < cg.atol ∧ cg.rnorm2 ≤ cg.atol then (.success, { S with c := ⟨.stop, .r, .null⟩ })
  else if num.zeroQ < cg.rtol ∧ cg.rnorm2 ≤ cg.brtol then (.success, { S with c := ⟨.stop, .r, .null⟩ })
  else if cg.maxit > 0 ∧ cg.niter > cg.maxit then (.maxit, { S with c := ⟨.stop, .r, .null⟩ })
  else (.success, { S with cg := { cg with task := .startIter }, c := ⟨.crit, .r, .null⟩ })

/-- itsol_functions.hpp:700-703 -/
def resBody (q : List R) (i : Int) (r : List R) : Option (List R) := do
  let ri ← rd r i
  let qi ← rd q i
  wr r i (ri + qi)

/-- itsol_functions.hpp:696-728 — task_init_res; ends in task_check_conv.  (A NaN is not stored here: the data are
not read again before the next task_start.) -/
def cgInitRes (n : Int) (S : CgSt R Q) : Option (Status × CgSt R Q) := do
  let r ← forC 0 n (resBody S.cg.q) S.cg.r
  match ← nrmN num n r with
  | none => some (.numericalError, { S with cg := { S.cg with r := r } })
  | some rn => do
    let rinfo ← wr S.rinfo 0 rn
    let p ← forC 0 n (fun i p => wr p i 0) S.cg.p
    some (cgCheckConv num { S with
      cg := { S.cg with r := r, rnorm2 := rn, p := p, rz := num.rz0, task := .checkConv }
      rinfo := rinfo })

/-- a dot product: rz_new += r[i] * z[i] (796-797), pq += p[i] * q[i] (825-826) -/
def dotBody (a b : List R) (i : Int) (s : R) : Option R := do
  let x ← rd a i
  let y ← rd b i
  some (s + x * y)

/-- itsol_functions.hpp:805-806 -/
def dirBody (beta : R) (z : List R) (i : Int) (p : List R) : Option (List R) := do
  let pi ← rd p i
  let zi ← rd z i
  wr p i (beta * pi - zi)

/-- itsol_functions.hpp:788-814 — task_compute_beta -/
def cgComputeBeta (n : Int) (S : CgSt R Q) : Option (Status × CgSt R Q) := do
  let rzNew ← forC 0 n (dotBody S.cg.r S.cg.z) 0
  if num.isBad S.cg.rz then some (.numericalError, S)
  else do
    let beta := rzNew / S.cg.rz
    let p ← forC 0 n (dirBody beta S.cg.z) S.cg.p
    some (.success, { S with
      cg := { S.cg with beta := beta, rz := rzNew, p := p, task := .takeStep }
      c := ⟨.mv, .p, .q⟩ })

/-- z[i] = r[i] (itsol_functions.hpp:775-776) -/
def copyBody (r : List R) (i : Int) (z : List R) : Option (List R) := do
  let ri ← rd r i
  wr z i ri

/-- itsol_functions.hpp:766-786 — task_start_iter; without preconditioner continues in task_compute_beta -/
def cgStartIter (n : Int) (S : CgSt R Q) : Option (Status × CgSt R Q) := do
  let niter := S.cg.niter + 1
  let rinfo ← wr S.rinfo 30 (num.ofInt niter)
  let cg := { S.cg with niter := niter, task := .computeBeta }
  if S.cg.precond = 0 then do
    let z ← forC 0 n (copyBody S.cg.r) S.cg.z
    cgComputeBeta num n { S with cg := { cg with z := z }, rinfo := rinfo }
  else some (.success, { S with cg := cg, rinfo := rinfo, c := ⟨.precond, .r, .z⟩ })

/-- itsol_functions.hpp:835-839 -/
def stepBody (alpha : R) (p q : List R) (i : Int) (s : List R × List R) : Option (List R × List R) := do
  let xi ← rd s.1 i
  let pi ← rd p i
  let x ← wr s.1 i (xi + alpha * pi)
  let ri ← rd s.2 i
  let qi ← rd q i
  let r ← wr s.2 i (ri + alpha * qi)
  some (x, r)

/-- itsol_functions.hpp:816-856 — task_take_step; the loop continues with task_check_conv -/
def cgTakeStep (n : Int) (S : CgSt R Q) : Option (Status × CgSt R Q) := do
  let pq ← forC 0 n (dotBody S.cg.p S.cg.q) 0
  if num.isBad pq || num.isZero pq then some (.numericalError, S)
  else do
    let alpha := S.cg.rz / pq
    let xr ← forC 0 n (stepBody alpha S.cg.p S.cg.q) (S.x, S.cg.r)
    match ← nrmN num n xr.2 with
    | none => some (.numericalError, { S with cg := { S.cg with alpha := alpha, r := xr.2 }, x := xr.1 })
    | some rn => do
      let rinfo ← wr S.rinfo 0 rn
      some (cgCheckConv num { S with
        cg := { S.cg with alpha := alpha, r := xr.2, rnorm2 := rn, task := .checkConv }
        x := xr.1
        rinfo := rinfo })

/-- itsol_functions.hpp:632-866 — cg_rci_solve: the switch on the task -/
def cgRci (n : Int) (b : List R) (S : CgSt R Q) : Option (Status × CgSt R Q) :=
  if S.cg.task ≠ .start ∧ S.c.job = .interrupt then
    some (.userStop, { S with c := { S.c with job := .stop } })
  else
    match S.cg.task with
    | .start => cgStart num n b S
    | .initRes => cgInitRes num n S
    | .checkConv => some (cgCheckConv num S)
    | .startIter => cgStartIter num n S
    | .computeBeta => cgComputeBeta num n S
    | .takeStep => cgTakeStep num n S

/-- itsol_functions.hpp:40-76 — cg_data_init: four uninitialised vectors.  The options are read afterwards; what
is not set yet is garbage, too. -/
def cgDataInit (g : Nat → R) (gq : Q) (n : Int) : CgData R Q :=
  { r := alloc n.toNat g, z := alloc n.toNat g, p := alloc n.toNat g, q := alloc n.toNat g
    alpha := g 0, rz := g 0, beta := g 0, rnorm2 := gq, bnorm2 := gq, brtol := gq, task := .start, niter := 0
    rtol := gq, atol := gq, maxit := 0, precond := 0 }

end
end Model
end Verif
