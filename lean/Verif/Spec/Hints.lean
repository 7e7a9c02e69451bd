/-
What the user has asked for through the hint functions: which calls are to be accepted and what is to be
remembered for them.  Independent of the model.
-/
import Verif.Model.DescrObj
import Verif.Spec.DescrHist

namespace Verif
namespace Spec

/-- operations a hint can announce -/
inductive Action where
  | mv | sv | mm | spmm | ilu | trsmRow | trsmCol | dotmv | symgs | sorForward | sorBackward | sorSymmetric
deriving DecidableEq, Repr

/-- the hint functions of the API, with the arguments only they have -/
inductive HintFn where
  | mv
  | mvKid (kid : Int)
  | dotmv
  | sv
  | mm
  | spmm
  | ilu
  | trsm (order : Int)
  | symgs
  | sor (kind : Int)
deriving DecidableEq, Repr

/-- a call of a hint function; `noMem`: the allocation of the hint fails.  The SOR function takes no
operation. -/
structure HintCall where
  fn : HintFn
  op : Int
  descr : Option Model.DescObj
  calls : Int
  noMem : Bool := false
deriving DecidableEq, Repr

/-- what is to be remembered -/
structure Request where
  action : Action
  op : Int
  type : Int
  fill : Int
  calls : Int
  kid : Int
deriving DecidableEq, Repr

/-- the operation announced; none for an order or kind that does not exist -/
def HintFn.action : HintFn → Option Action
  | .mv => some .mv
  | .mvKid _ => some .mv
  | .dotmv => some .dotmv
  | .sv => some .sv
  | .mm => some .mm
  | .spmm => some .spmm
  | .ilu => some .ilu
  | .trsm o => if o = 0 then some .trsmRow else if o = 1 then some .trsmCol else none
  | .symgs => some .symgs
  | .sor k => if k = 0 then some .sorForward else if k = 1 then some .sorBackward
      else if k = 2 then some .sorSymmetric else none

/-- the kernel asked for; -1 is no wish -/
def HintFn.kid : HintFn → Int
  | .mvKid k => k
  | _ => -1

/-- the operation on the matrix announced -/
def HintCall.theOp (c : HintCall) : Int :=
  match c.fn with
  | .sor _ => 111
  | _ => c.op

/-- the arguments are acceptable for a matrix with index base `base`: the enumerations are legal, the
base agrees, and a positive number of calls (or no call but a kernel wish) is announced -/
def HintCall.good (base : Int) (c : HintCall) (d : Model.DescObj) : Prop :=
  (c.theOp = 111 ∨ c.theOp = 112 ∨ c.theOp = 113) ∧ Fld.type.legal d.type ∧ Fld.fill.legal d.fill ∧
    Fld.diag.legal d.diag ∧ Fld.base.legal d.base ∧ d.base = base ∧
    (0 < c.calls ∨ c.calls = 0 ∧ c.fn.kid ≠ -1)

instance (base : Int) (c : HintCall) (d : Model.DescObj) : Decidable (c.good base d) := by
  unfold HintCall.good; infer_instance

/-- the status the call must return and, if accepted, what is to be remembered -/
def HintCall.outcome (base : Int) (c : HintCall) : Status × Option Request :=
  match c.fn.action with
  | none => (.invalidValue, none)
  | some a =>
    match c.descr with
    | none => (.invalidPointer, none)
    | some d =>
      if c.good base d then
        if c.noMem then (.memoryError, none)
        else (.success, some ⟨a, c.theOp, d.type, d.fill, c.calls, c.fn.kid⟩)
      else (.invalidValue, none)

end Spec
end Verif
