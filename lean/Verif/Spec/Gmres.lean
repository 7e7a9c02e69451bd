/-
What a user of the GMRES solver with reverse communication sees: the options, the requests and their order, and the
calls of one solve.
-/
import Verif.Model.GmTalk

namespace Verif
namespace Spec
open Model

/-- the options of the GMRES solver: kind of the preconditioner (0: none), tolerances, iteration limit, restart -/
structure GmOpt (Q : Type) where
  pre : Int
  rtol : Q
  atol : Q
  maxit : Int
  restart : Int

/-- the option table says: GMRES, with these options -/
structure GmOpts {Q : Type} [LinearOrder Q] (Rg : Registry Q) (o : GmOpt Q) : Prop where
  method : Rg.getKey "iterative method".toList = some (some 2)
  pre : Rg.getKey "gmres preconditioner".toList = some (some o.pre)
  rtol : Rg.getReal "gmres rel tolerance".toList = some o.rtol
  atol : Rg.getReal "gmres abs tolerance".toList = some o.atol
  maxit : Rg.getInt "gmres iteration limit".toList = some o.maxit
  restart : Rg.getInt "gmres restart iterations".toList = some o.restart

/-- requests per inner iteration: the product, and the preconditioner when there is one -/
def GmOpt.per {Q : Type} (o : GmOpt Q) : Nat := if o.pre = 0 then 1 else 2

/-- requests per cycle of `m` inner iterations: the residual, the inner iterations, the monitoring step -/
def GmOpt.cycle {Q : Type} (o : GmOpt Q) (m : Nat) : Nat := m * o.per + 2

/-- what a call asks for: the product A x, the preconditioner or the product of inner iteration `i`, the monitoring
step at the end of a cycle -/
inductive GmAsk where
  | residual | precond (i : Nat) | product (i : Nat) | monitor
deriving DecidableEq, Repr

/-- the place of a request in its cycle -/
def GmAsk.pos {Q : Type} (o : GmOpt Q) (m : Nat) : GmAsk → Nat
  | .residual => 0
  | .precond i => 1 + i * o.per
  | .product i => o.per + i * o.per
  | .monitor => 1 + m * o.per

/-- the job and the two pointers of a request; those of the monitoring step are left from the last product -/
def GmAsk.comm {Q : Type} (o : GmOpt Q) (n m : Nat) : GmAsk → Comm
  | .residual => ⟨.mv, .x, .gv 0⟩
  | .precond i => ⟨.precond, .gv ((i : Int) * n), .gz ((i : Int) * n)⟩
  | .product i => ⟨.mv, if o.pre = 0 then .gv ((i : Int) * n) else .gz ((i : Int) * n), .gv (((i : Int) + 1) * n)⟩
  | .monitor => ⟨.crit, if o.pre = 0 then .gv (((m : Int) - 1) * n) else .gz (((m : Int) - 1) * n), .gv ((m : Int) * n)⟩

/-- the requests that exist -/
def GmAsk.ok {Q : Type} (o : GmOpt Q) (m : Nat) : GmAsk → Prop
  | .residual => True
  | .precond i => o.pre ≠ 0 ∧ i < m
  | .product i => i < m
  | .monitor => True

/-- the arrays of the GMRES data have the sizes of `gmres_data_init`, and `j` basis vectors are done -/
structure GmSz {R Q : Type} (n m j : Nat) (gm : GmData R Q) : Prop where
  v : gm.v.length = (m + 1) * n
  z : gm.z.length = (m + 1) * n
  h : gm.h.length = m * m
  g : gm.g.length = m + 1
  s : gm.s.length = m
  c : gm.c.length = m
  restart : gm.restart = m
  j : gm.j = j

/-- a handle with a right-hand side of size `n` and no solve under way.  Either there are no GMRES data yet and the
arrays for `m` = restart fit the index type, or the data are left from an earlier solve.  `j`: inner iterations and
`it`: iterations in the data (0 when there are none). -/
structure GmIdle {R Q : Type} (n m : Nat) (w : Int) (b : List R) (Rg : Registry Q) (o : GmOpt Q) (j : Nat) (it : Int)
    (H : ItH R Q) : Prop where
  size : H.n = n
  rhs : H.b = some b
  blen : b.length = n
  solving : H.solving = false
  opts : H.opts = Rg ∨ H.opts = Rg.lock
  jlt : j < m
  itPos : 0 ≤ it
  data : (H.gm = none ∧ o.restart = m ∧ j = 0 ∧ it = 0 ∧ ((m : Int) + 1) * n ≤ w ∧ (m : Int) * m ≤ w) ∨
    ∃ gm, H.gm = some gm ∧ GmSz n m j gm ∧ gm.niter = it

section
variable {R Q : Type} [Zero R] [Neg R] [Add R] [Sub R] [Mul R] [Div R] [LinearOrder Q]

/-- One call after another, `q` before and `q'` after.  Between the two the user writes an answer (`ans job u a`: the
answers `a` the user may give to `job` for the vector `u`), or goes on after a monitoring step, or asks to stop. -/
inductive GmCall (num : Num R Q) (gnum : GNum R Q) (g : Nat → R) (gq : Q) (w : Int)
    (ans : Job → List R → List R → Prop) (q q' : Status × RciSt R Q) : Prop where
  | answer {gm u a S'} : q.2.c.job = .mv ∨ q.2.c.job = .precond → q.2.H.gm = some gm →
      gm.vec q.2.H.n q.2.x q.2.c.u = some u → ans q.2.c.job u a → (a.length : Int) = q.2.H.n →
      gmWrite a q.2 = some S' → rciSolve num gnum g gq w S' = some q' → GmCall num gnum g gq w ans q q'
  | goOn : q.2.c.job = .crit → rciSolve num gnum g gq w q.2 = some q' → GmCall num gnum g gq w ans q q'
  | stop : q.2.c.job ≠ .stop → rciSolve num gnum g gq w (userStop q.2) = some q' → GmCall num gnum g gq w ans q q'

/-- The calls of one solve.  `GmRun … S k q`: starting from `S`, call number `k` (from 0) gives `q`. -/
inductive GmRun (num : Num R Q) (gnum : GNum R Q) (g : Nat → R) (gq : Q) (w : Int)
    (ans : Job → List R → List R → Prop) (S : RciSt R Q) : Nat → Status × RciSt R Q → Prop where
  | first {q} : rciSolve num gnum g gq w S = some q → GmRun num gnum g gq w ans S 0 q
  | next {k q q'} : GmRun num gnum g gq w ans S k q → GmCall num gnum g gq w ans q q' →
      GmRun num gnum g gq w ans S (k + 1) q'

/-- the calls of a solve with a user who answers `rep job u` and never asks to stop, as a program -/
def gmDrive (num : Num R Q) (gnum : GNum R Q) (g : Nat → R) (gq : Q) (w : Int) (rep : Job → List R → List R)
    (S : RciSt R Q) : Nat → Option (Status × RciSt R Q)
  | 0 => rciSolve num gnum g gq w S
  | k + 1 => do
    let q ← gmDrive num gnum g gq w rep S k
    if q.2.c.job = .mv ∨ q.2.c.job = .precond then do
      let gm ← q.2.H.gm
      let u ← gm.vec q.2.H.n q.2.x q.2.c.u
      let S' ← gmWrite (rep q.2.c.job u) q.2
      rciSolve num gnum g gq w S'
    else if q.2.c.job = .crit then rciSolve num gnum g gq w q.2
    else none

end

end Spec
end Verif
