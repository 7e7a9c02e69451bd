/-
The preconditioned conjugate gradient method as a dialogue: what the solver asks for, what the user answers, and how
it ends.  Vectors are functions on `Fin n`.  Nothing here reads an array.
-/
import Verif.Model.Cg
import Mathlib.Data.List.FinRange

namespace Verif
namespace Spec
open Model (Num Job)

/-- the dot product, summed in order of the index -/
def dot {R : Type} [Zero R] [Add R] [Mul R] {n : Nat} (a b : Fin n → R) : R :=
  (List.finRange n).foldl (fun s i => s + a i * b i) 0

/-- tolerances, iteration limit, and whether there is a preconditioner -/
structure CgOpt (Q : Type) where
  rtol : Q
  atol : Q
  maxit : Int
  pre : Bool

/-- the variables: iterate, residual A x - b, preconditioned residual, direction, the product r·z of the last
direction, the number of iterations, the norms of residual and right-hand side -/
structure CgV (n : Nat) (R Q : Type) where
  x : Fin n → R
  r : Fin n → R
  z : Fin n → R
  p : Fin n → R
  rz : R
  k : Nat
  rnorm : Q
  bnorm : Q

/-- what the user is asked: A x at the start, to look at the residual, to apply the preconditioner to r, A p -/
inductive CgAsk where
  | product0 | monitor | precond | product
deriving DecidableEq

/-- a solve goes on with a question or ends with a status -/
inductive CgOut (n : Nat) (R Q : Type) where
  | ask (a : CgAsk) (V : CgV n R Q)
  | done (st : Status) (V : CgV n R Q)

section
variable {n : Nat} {R Q : Type} [Zero R] [Neg R] [Add R] [Sub R] [Mul R] [Div R] [LinearOrder Q]
variable (num : Num R Q) (o : CgOpt Q) (b : Fin n → R)

/-- converged: the norm of the residual is within the absolute tolerance or the relative one; a tolerance that is
not positive is not used -/
def converged (V : CgV n R Q) : Prop :=
  (num.zeroQ < o.atol ∧ V.rnorm ≤ o.atol) ∨ (num.zeroQ < o.rtol ∧ V.rnorm ≤ num.mulQ o.rtol V.bnorm)

instance (V : CgV n R Q) : Decidable (converged num o V) := by unfold converged; infer_instance

/-- the test between iterations -/
def cgTest (V : CgV n R Q) : CgOut n R Q :=
  if converged num o V then .done .success V
  else if 0 < o.maxit ∧ o.maxit < V.k then .done .maxit V
  else .ask .monitor V

/-- a residual that was updated: its norm, and the test -/
def cgResidual (V : CgV n R Q) : CgOut n R Q :=
  match num.nrm (List.ofFn V.r) with
  | none => .done .numericalError V
  | some rn => cgTest num o { V with rnorm := rn }

/-- the new direction -/
def cgDirection (V : CgV n R Q) : CgOut n R Q :=
  if num.isBad V.rz then .done .numericalError V
  else .ask .product { V with p := fun i => dot V.r V.z / V.rz * V.p i - V.z i, rz := dot V.r V.z }

/-- the first call -/
def cgBegin (x : Fin n → R) : CgOut n R Q :=
  match num.nrm (List.ofFn b) with
  | none => .done .invalidValue ⟨x, fun _ => 0, fun _ => 0, fun _ => 0, 0, 0, num.zeroQ, num.zeroQ⟩
  | some bn => .ask .product0 ⟨x, fun _ => 0, fun _ => 0, fun _ => 0, 0, 0, num.zeroQ, bn⟩

/-- the answer `w` to a question -/
def cgAnswer (a : CgAsk) (V : CgV n R Q) (w : Fin n → R) : CgOut n R Q :=
  match a with
  | .product0 => cgResidual num o { V with r := fun i => -b i + w i, p := fun _ => 0, rz := num.rz0 }
  | .monitor =>
    if o.pre then .ask .precond { V with k := V.k + 1 }
    else cgDirection num { V with k := V.k + 1, z := V.r }
  | .precond => cgDirection num { V with z := w }
  | .product =>
    if num.isBad (dot V.p w) || num.isZero (dot V.p w) then .done .numericalError V
    else cgResidual num o { V with
      x := fun i => V.x i + V.rz / dot V.p w * V.p i
      r := fun i => V.r i + V.rz / dot V.p w * w i }

/-- what the user does before the next call: writes a vector where the solver asked for one, or asks to stop -/
structure Reply (n : Nat) (R : Type) where
  stop : Bool
  w : Fin n → R

/-- what the user sees after a call: status, job, the vector `u`, x, and the entries 0, 1, 30 of rinfo -/
structure CgObs (n : Nat) (R Q : Type) where
  st : Status
  job : Job
  u : Option (Fin n → R)
  x : Fin n → R
  res : Q
  rhs : Q
  iter : Q

/-- the job of a question -/
def CgAsk.job : CgAsk → Job
  | .product0 => .mv
  | .monitor => .crit
  | .precond => .precond
  | .product => .mv

/-- the vector that comes with a question -/
def CgAsk.u (a : CgAsk) (V : CgV n R Q) : Fin n → R :=
  match a with
  | .product0 => V.x
  | .monitor => V.r
  | .precond => V.r
  | .product => V.p

/-- what is seen -/
def CgOut.obs : CgOut n R Q → CgObs n R Q
  | .ask a V => ⟨.success, a.job, some (a.u V), V.x, V.rnorm, V.bnorm, if V.k = 0 then num.zeroQ else num.ofInt V.k⟩
  | .done st V => ⟨st, .stop, none, V.x, V.rnorm, V.bnorm, if V.k = 0 then num.zeroQ else num.ofInt V.k⟩

/-- one more call -/
def cgNext (O : CgOut n R Q) (rep : Reply n R) : CgOut n R Q :=
  match O with
  | .done st V => .done st V
  | .ask a V => if rep.stop then .done .userStop V else cgAnswer num o b a V rep.w

/-- the calls of a solve, up to the one that ends it -/
def cgTalk : CgOut n R Q → List (Reply n R) → List (CgOut n R Q)
  | O, [] => [O]
  | .done st V, _ => [.done st V]
  | .ask a V, rep :: reps => .ask a V :: cgTalk (cgNext num o b (.ask a V) rep) reps

/-- the documented order of the requests: A x first; after a product the user looks at the residual; then the
preconditioner, if there is one, and the next product; the solve may end after any answer -/
def Follows (pre : Bool) : CgOut n R Q → CgOut n R Q → Prop
  | .ask .product0 _, .ask .monitor _ => True
  | .ask .monitor _, .ask .precond _ => pre = true
  | .ask .monitor _, .ask .product _ => pre = false
  | .ask .precond _, .ask .product _ => True
  | .ask .product _, .ask .monitor _ => True
  | .ask _ _, .done _ _ => True
  | _, _ => False

/-- an answer that is what was asked for: a product with `A`, or `P` applied to the residual -/
def RightAnswer (A P : (Fin n → R) → Fin n → R) (a : CgAsk) (V : CgV n R Q) (w : Fin n → R) : Prop :=
  match a with
  | .product0 => w = A V.x
  | .product => w = A V.p
  | .precond => w = P V.r
  | .monitor => True

/-- all answers are what was asked for, or the user stops -/
def Truthful (A P : (Fin n → R) → Fin n → R) : CgOut n R Q → List (Reply n R) → Prop
  | .ask a V, rep :: reps =>
    (rep.stop = true ∨ RightAnswer A P a V rep.w) ∧ Truthful A P (cgNext num o b (.ask a V) rep) reps
  | _, _ => True

/-- the variables of a call -/
def CgOut.vars : CgOut n R Q → CgV n R Q
  | .ask _ V => V
  | .done _ V => V

/-- the residual is known: after the first answer (a user may stop before it) -/
def CgOut.hasResidual : CgOut n R Q → Prop
  | .ask .product0 _ => False
  | .done .invalidValue _ => False
  | .done .userStop _ => False
  | _ => True

end
end Spec
end Verif
