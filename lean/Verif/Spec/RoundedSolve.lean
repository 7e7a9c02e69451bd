/-
Specification: triangular solves in floating-point arithmetic.  Nothing here models library code.
-/
import Verif.Spec.Rounding
import Verif.Spec.Solve
import Verif.Spec.Operator
import Mathlib.Data.Real.Star

namespace Verif

/-- The compound operations of the solvers: those of the products, and `c -= a * b`. -/
structure SolveFpu (R : Type) extends Fpu R where
  /-- `c -= a * b` in scalar code -/
  msub : R → R → R → R

/-- products, sums and differences evaluated one by one -/
def SolveFpu.plain {R : Type} [Add R] [Sub R] [Mul R] : SolveFpu R :=
  { Fpu.plain with msub := fun a b c => c - a * b }

/-- one fused operation, or two -/
structure SolveFpu.Rounds {ρ : Rounding} (F : SolveFpu (Fp ρ)) : Prop where
  mac : F.toFpu.Rounds
  msub : ∀ a b c, (F.msub a b c).v = ρ.fl (c.v - a.v * b.v) ∨
    (F.msub a b c).v = ρ.fl (c.v - ρ.fl (a.v * b.v))

/-- An order of evaluation of `alpha * b` minus a sum of products. -/
inductive DiffTree (R : Type)
  /-- `alpha * b` -/
  | start (alpha b : R)
  /-- `s -= a * x` in scalar code -/
  | sub (a x : R) (s : DiffTree R)
  /-- `fmadd(a, -x, s)` in one lane of a register -/
  | vsub (a x : R) (s : DiffTree R)
  /-- `s -= t`, with `t` a sum of products -/
  | minus (s : DiffTree R) (t : SumTree R)

namespace DiffTree
variable {R : Type}

/-- the value, by the operations of `F` -/
def eval [Zero R] [Add R] [Sub R] [Neg R] [Mul R] (F : SolveFpu R) : DiffTree R → R
  | start alpha b => alpha * b
  | sub a x s => F.msub a x (s.eval F)
  | vsub a x s => F.vmac a (-x) (s.eval F)
  | minus s t => s.eval F - t.eval F.toFpu

/-- what the products are subtracted from -/
def from' : DiffTree R → R × R
  | start alpha b => (alpha, b)
  | sub _ _ s => s.from'
  | vsub _ _ s => s.from'
  | minus s _ => s.from'

/-- the products that are subtracted -/
def leaves : DiffTree R → Multiset (R × R)
  | start _ _ => 0
  | sub a x s => (a, x) ::ₘ s.leaves
  | vsub a x s => (a, x) ::ₘ s.leaves
  | minus s t => t.leaves + s.leaves

/-- a bound on the roundings between an operand and the result -/
def size : DiffTree R → Nat
  | start _ _ => 1
  | sub _ _ s => s.size + 1
  | vsub _ _ s => s.size + 1
  | minus s t => s.size + t.depth + 1

end DiffTree

variable {R : Type}

/-- the stored entries of row `i` of the operator that lie strictly inside the triangle `f` of `A`:
position in the row and value.  `tr`: the operator is the transpose of the triangle. -/
def Csr.opRow (A : Csr R) (f : Fill) (tr : Bool) (i : Nat) : List (Int × R) :=
  if tr then
    (List.range A.m).flatMap fun k =>
      ((A.row k).filter fun e => e.1 = (i : Int) ∧ strictTri f k i).map fun e => ((k : Int), e.2)
  else (A.row i).filter fun e => strictTri f i e.1.toNat

/-- the stored value at `(i, i)`, the first if there are several -/
def Csr.diagAt [Zero R] (A : Csr R) (i : Nat) : R :=
  (((A.row i).find? fun e => e.1 = (i : Int)).map (·.2)).getD 0

/-- is the operator the transpose of the stored triangle? (real data) -/
def Op.isTrans : Op → Bool
  | .none => false
  | _ => true

/-- `1/(1-u)^k - 1`: relative error of `k` roundings, or of `k` divisions by roundings -/
noncomputable def Rounding.gi (ρ : Rounding) (k : Nat) : ℝ := 1 / (1 - ρ.u) ^ k - 1

end Verif
