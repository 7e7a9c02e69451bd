/-
Model of the restarted GMRES solver with reverse communication.

  library/src/solvers/aoclsparse_itsol_functions.hpp   82-147 (gmres_data_init), 868-908 (backward_solve),
                                                       909-1370 (gmres_rci_solve)
  library/src/include/aoclsparse_itsol_data.hpp        gmres_rc_task, gmres_data

Scalars are in `R`, norms, tolerances and cosines in `F`, with comparisons that may be false both ways (NaN).  The
BLAS and LAPACK functions are loops (dot, axpby, scal) or parameters (nrm2, lartg).
-/
import Verif.Model.Cg

namespace Verif
namespace Model

/-- floating-point functions of the GMRES solver.  `toR` a norm as a scalar, `smul` norm (or cosine) times scalar,
`conj` the conjugate in cblas_dotc (the identity for real scalars), `nearR`/`nearF` aoclsparse_is_nearzero
(utils.hpp:616-620), `lartg` the rotation: cosine, sine, r. -/
structure GNum (R F : Type) where
  nrm : List R → F
  lt : F → F → Bool
  le : F → F → Bool
  isNan : F → Bool
  zeroF : F
  mulF : F → F → F
  invF : F → F
  negF : F → F
  ofInt : Int → F
  toR : F → R
  smul : F → R → R
  conj : R → R
  abs : R → F
  nearR : R → Bool
  nearF : F → Bool
  lartg : R → R → F × R × R

/-- gmres_rc_task -/
inductive GmTask where
  | start | initRes | initPrecond | startIter | endIter | xUpdate | restartCycle | convergenceCheck
deriving DecidableEq, Repr

/-- gmres_data -/
structure GmData (R F : Type) where
  v : List R
  z : List R
  h : List R
  g : List R
  s : List R
  c : List F
  rnorm2 : F
  bnorm2 : F
  brtol : F
  task : GmTask
  niter : Int
  j : Int
  restart : Int
  rtol : F
  atol : F
  maxit : Int
  precond : Int

/-- what a call changes -/
structure GmSt (R F : Type) where
  gm : GmData R F
  c : Comm
  x : List R
  rinfo : List F

section
variable {R F : Type} [Zero R] [Neg R] [Add R] [Sub R] [Mul R] [Div R] (num : GNum R F)

/-- cblas_dot / cblas_dotc (n, a + offA, incA, b + offB, incB), increments ≥ 0 -/
def gdotBody (a : List R) (offA incA : Int) (b : List R) (offB incB : Int) (i : Int) (s : R) : Option R := do
  let x ← rd a (offA + i * incA)
  let y ← rd b (offB + i * incB)
  some (s + num.conj x * y)

def gdot (n : Int) (a : List R) (offA incA : Int) (b : List R) (offB incB : Int) : Option R :=
  forC 0 n (gdotBody num a offA incA b offB incB) 0

/-- cblas_nrm2(n, a + off, 1) -/
def gnrm (n : Int) (a : List R) (off : Int) : Option F :=
  if 0 ≤ off ∧ off + n ≤ a.length then some (num.nrm ((a.drop off.toNat).take n.toNat)) else none

/-- cblas_scal(n, f, a + off, 1) -/
def scalBody (f : F) (off : Int) (i : Int) (a : List R) : Option (List R) := do
  let x ← rd a (off + i)
  wr a (off + i) (num.smul f x)

/-- cblas_axpby(n, 1, b, 1, -1, v, 1): v = b - v -/
def axpbyBody (b : List R) (i : Int) (v : List R) : Option (List R) := do
  let bi ← rd b i
  let vi ← rd v i
  wr v i (bi - vi)

/-- itsol_functions.hpp:971-978 — task_gmres_start -/
def gmStart (S : GmSt R F) : Status × GmSt R F :=
  (.success, { S with gm := { S.gm with task := .initRes }, c := ⟨.mv, .x, .gv 0⟩ })

/-- itsol_functions.hpp:1069-1084 and 1211-1226 — task_gmres_init_precond, task_gmres_end_iter -/
def gmInitPrecond (n : Int) (S : GmSt R F) : Status × GmSt R F :=
  let j := S.gm.j
  (.success, { S with
    gm := { S.gm with task := .startIter }
    c := ⟨.mv, if S.gm.precond = 0 then .gv (j * n) else .gz (j * n), .gv ((j + 1) * n)⟩ })

/-- itsol_functions.hpp:1052-1066 — after the scaling -/
def gmAfterInit (n : Int) (S : GmSt R F) : Status × GmSt R F :=
  if S.gm.precond = 0 then gmInitPrecond n { S with gm := { S.gm with task := .initPrecond } }
  else
    (.success, { S with
      gm := { S.gm with task := .initPrecond }
      c := ⟨.precond, .gv (S.gm.j * n), .gz (S.gm.j * n)⟩ })

/-- itsol_functions.hpp:1030-1047 — the tests on the initial residual -/
def gmInitDone (gm : GmData R F) : Bool :=
  (num.lt num.zeroF gm.rnorm2 && num.le gm.rnorm2 gm.atol) ||
  (num.lt num.zeroF gm.rnorm2 && num.le gm.rnorm2 gm.brtol)

/-- itsol_functions.hpp:980-1067 — task_gmres_init_res -/
def gmInitRes (n : Int) (b : List R) (S : GmSt R F) : Option (Status × GmSt R F) := do
  let bn ← gnrm num n b 0
  let gm := { S.gm with bnorm2 := bn }
  if num.isNan bn then some (.invalidValue, { S with gm := gm })
  else do
    let rinfo ← wr S.rinfo 1 bn
    let brtol := num.mulF gm.rtol bn
    let gm := { gm with brtol := brtol }
    let rinfo ← wr rinfo 1 brtol
    if num.nearF gm.atol && num.nearF brtol then
      some (.invalidValue, { S with gm := gm, rinfo := rinfo, c := { S.c with job := .stop } })
    else do
      let v ← forC 0 n (axpbyBody b) gm.v
      let g0 ← gnrm num n v 0
      let g ← wr gm.g 0 (num.toR g0)
      let gm := { gm with v := v, g := g, rnorm2 := g0 }
      let rinfo ← wr rinfo 0 g0
      if gmInitDone num gm then do
        let rinfo ← wr rinfo 30 (num.ofInt gm.niter)
        some (.success, { S with gm := gm, rinfo := rinfo, c := { S.c with job := .stop } })
      else do
        let v ← forC 0 n (scalBody num (num.invF g0) 0) gm.v
        some (gmAfterInit n { S with gm := { gm with v := v }, rinfo := rinfo })

/-- itsol_functions.hpp:1090-1100 — step 2.2, one row of the Hessenberg matrix -/
def hessBody (n m j : Int) (v : List R) (i : Int) (h : List R) : Option (List R) := do
  let d ← gdot num n v ((j + 1) * n) 1 v (i * n) 1
  wr h (i * m + j) d

/-- itsol_functions.hpp:1102-1113 — step 2.3, one entry of the next basis vector -/
def orthBody (n m j : Int) (h : List R) (k : Int) (v : List R) : Option (List R) := do
  let hv ← gdot num (j + 1) h j m v k n
  let x ← rd v ((j + 1) * n + k)
  wr v ((j + 1) * n + k) (x - hv)

/-- itsol_functions.hpp:1140-1146 — one earlier rotation -/
def rotBody (m j : Int) (c : List F) (s : List R) (i : Int) (h : List R) : Option (List R) := do
  let r1 ← rd h (i * m + j)
  let r2 ← rd h ((i + 1) * m + j)
  let ci ← rd c i
  let si ← rd s i
  let h ← wr h (i * m + j) (num.smul ci r1 - si * r2)
  wr h ((i + 1) * m + j) (si * r1 + num.smul ci r2)

/-- itsol_functions.hpp:868-908 — the inner loop of backward_solve -/
def backInner (nn j : Int) (r : List R) (i : Int) (y : List R) : Option (List R) := do
  let a ← rd r (j * nn + i)
  let yi ← rd y i
  let yj ← rd y j
  wr y j (yj - a * yi)

/-- itsol_functions.hpp:868-908 — backward_solve; the loop runs down from m - 1, here `k` rows are left -/
def backSolve (m nn : Int) (r g : List R) : Nat → List R → Option (Status × List R)
  | 0, y => some (.success, y)
  | k + 1, y => do
    let j : Int := k
    let gj ← rd g j
    let y ← wr y j gj
    let y ← forC (j + 1) m (backInner nn j r) y
    let diag ← rd r (j * nn + j)
    if num.nearR diag then some (.numericalError, y)
    else do
      let yj ← rd y j
      let y ← wr y j (yj / diag)
      backSolve m nn r g k y

/-- itsol_functions.hpp:1249-1279 — x[i] += dot(m, v + i, n, s, 1) (or z) -/
def xUpdBody (m n : Int) (a s : List R) (i : Int) (x : List R) : Option (List R) := do
  let d ← gdot num m a i n s 0 1
  let xi ← rd x i
  wr x i (xi + d)

/-- itsol_functions.hpp:1286-1296 and 1330-1337 — the three tests -/
def belowAbs (gm : GmData R F) : Bool := num.lt num.zeroF gm.atol && num.le gm.rnorm2 gm.atol
def belowRel (gm : GmData R F) : Bool := num.lt num.zeroF gm.rnorm2 && num.le gm.rnorm2 gm.brtol
def maxReached (gm : GmData R F) : Bool := decide (gm.maxit > 0) && decide (gm.niter ≥ gm.maxit)

/-- itsol_functions.hpp:1228-1320 — task_gmres_x_update -/
def gmXUpdate (n : Int) (S : GmSt R F) : Option (Status × GmSt R F) := do
  let gm := S.gm
  let m := gm.restart
  let j := gm.j
  let bs ← backSolve num j m gm.h gm.g j.toNat gm.s
  if bs.1 ≠ .success then some (bs.1, { S with gm := { gm with s := bs.2 } })
  else do
    let x ← forC 0 n (xUpdBody num m n (if gm.precond = 0 then gm.v else gm.z) bs.2) S.x
    let gj ← rd gm.g j
    let niter := gm.niter + j
    let rinfo ← wr S.rinfo 30 (num.ofInt niter)
    let rinfo ← wr rinfo 0 (num.abs gj)
    let gm := { gm with s := bs.2, rnorm2 := num.abs gj, niter := niter, j := if j ≥ m then 0 else j }
    if belowAbs num gm || belowRel num gm || maxReached gm then
      some (.success, { S with gm := { gm with task := .convergenceCheck }, x := x, rinfo := rinfo,
                               c := { S.c with job := .crit } })
    else
      some (.success, { S with gm := { gm with task := .restartCycle }, x := x, rinfo := rinfo,
                               c := { S.c with job := .crit } })

/-- itsol_functions.hpp:1321-1328 — task_gmres_restart_cycle -/
def gmRestart (S : GmSt R F) : Status × GmSt R F :=
  (.success, { S with gm := { S.gm with task := .initRes }, c := ⟨.mv, .x, .gv 0⟩ })

/-- itsol_functions.hpp:1329-1360 — task_gmres_convergence_check -/
def gmConvCheck (S : GmSt R F) : Status × GmSt R F :=
  if belowAbs num S.gm then (.success, { S with c := { S.c with job := .stop } })
  else if belowRel num S.gm then (.success, { S with c := { S.c with job := .stop } })
  else if maxReached S.gm then (.maxit, { S with c := { S.c with job := .stop } })
  else (.success, S)

/-- itsol_functions.hpp:1138-1209 — the rotations, the new residual norm, and the end of the restart cycle -/
def gmRotate (n : Int) (hh : F) (S : GmSt R F) : Option (Status × GmSt R F) := do
  let gm := S.gm
  let m := gm.restart
  let j := gm.j
  let h ← forC 0 j (rotBody num m j gm.c gm.s) gm.h
  let rr ← rd h (j * m + j)
  let rot := num.lartg rr (num.toR (num.negF hh))
  let c ← wr gm.c j rot.1
  let s ← wr gm.s j rot.2.1
  let h ← wr h (j * m + j) rot.2.2
  let g0 ← rd gm.g j
  let g ← wr gm.g j (num.smul rot.1 g0)
  let g ← wr g (j + 1) (rot.2.1 * g0)
  let gj ← rd g j
  let rinfo ← wr S.rinfo 30 (num.ofInt gm.niter)
  let rinfo ← wr rinfo 0 (num.abs gj)
  let j := j + 1
  let gm := { gm with h := h, c := c, s := s, g := g, rnorm2 := num.abs gj, j := j }
  if j ≥ m then gmXUpdate num n { S with gm := { gm with task := .xUpdate }, rinfo := rinfo }
  else if gm.precond = 0 then
    some (gmInitPrecond n { S with gm := { gm with task := .endIter }, rinfo := rinfo })
  else
    some (.success, { S with
      gm := { gm with task := .endIter }
      c := ⟨.precond, .gv (j * n), .gz (j * n)⟩
      rinfo := rinfo })

/-- itsol_functions.hpp:1086-1210 — task_gmres_start_iter -/
def gmStartIter (n : Int) (S : GmSt R F) : Option (Status × GmSt R F) := do
  let m := S.gm.restart
  let j := S.gm.j
  let h ← forC 0 (j + 1) (hessBody num n m j S.gm.v) S.gm.h
  let v ← forC 0 n (orthBody num n m j h) S.gm.v
  let hh ← gnrm num n v ((j + 1) * n)
  let gm := { S.gm with h := h, v := v }
  if num.lt hh gm.atol || num.lt hh gm.brtol then do
    let niter := gm.niter + (j + 1)
    let rinfo ← wr S.rinfo 30 (num.ofInt niter)
    let rinfo ← wr rinfo 0 hh
    some (.success, { S with gm := { gm with niter := niter }, rinfo := rinfo, c := { S.c with job := .stop } })
  else do
    let v ← forC 0 n (scalBody num (num.invF hh) ((j + 1) * n)) v
    gmRotate num n hh { S with gm := { gm with v := v } }

/-- itsol_functions.hpp:909-1370 — gmres_rci_solve: the switch on the task -/
def gmRci (n : Int) (b : List R) (S : GmSt R F) : Option (Status × GmSt R F) :=
  if S.gm.task ≠ .start ∧ S.c.job = .interrupt then
    some (.userStop, { S with c := { S.c with job := .stop } })
  else
    match S.gm.task with
    | .start => some (gmStart S)
    | .initRes => gmInitRes num n b S
    | .initPrecond => some (gmInitPrecond n S)
    | .startIter => gmStartIter num n S
    | .endIter => some (gmInitPrecond n S)
    | .xUpdate => gmXUpdate num n S
    | .restartCycle => some (gmRestart S)
    | .convergenceCheck => some (gmConvCheck num S)

/-- itsol_functions.hpp:82-147 — gmres_data_init: arrays of zeros; what is not set yet is garbage.  The products
(m+1)·n and m·m are checked for overflow (`w`: the largest index). -/
def gmDataInit (gq : F) (w : Int) (n m : Int) : Except Status (GmData R F) :=
  if (m + 1) * n > w ∨ m * m > w then .error .invalidSize
  else .ok
    { v := List.replicate ((m + 1) * n).toNat 0, z := List.replicate ((m + 1) * n).toNat 0
      h := List.replicate (m * m).toNat 0, g := List.replicate (m + 1).toNat 0
      c := List.replicate m.toNat num.zeroF, s := List.replicate m.toNat 0
      rnorm2 := gq, bnorm2 := gq, brtol := gq, task := .start, niter := 0, j := 0, restart := m
      rtol := gq, atol := gq, maxit := 0, precond := 0 }

end
end Model
end Verif
