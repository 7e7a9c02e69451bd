/-
Exact arithmetic for the GMRES solver: what the floating-point functions compute when nothing is rounded (real
scalars).
-/
import Verif.Spec.Gmres
import Mathlib.Data.Matrix.Mul
import Mathlib.Algebra.Order.Field.Basic

namespace Verif
namespace Spec
open Model

/-- the functions of the solver in exact arithmetic over an ordered field: Euclidean norm, comparisons, a plane
rotation (cosine, sine, r) with c f + s g = r and c g = s f; what is not reported as near zero is not zero -/
structure ExactG {R : Type} [Field R] [LinearOrder R] (num : GNum R R) : Prop where
  nrm_nonneg : ∀ l, 0 ≤ num.nrm l
  nrm_sq : ∀ l, num.nrm l ^ 2 = (l.map fun a => a * a).sum
  lt : ∀ a b, num.lt a b = decide (a < b)
  le : ∀ a b, num.le a b = decide (a ≤ b)
  zeroF : num.zeroF = 0
  mulF : ∀ a b, num.mulF a b = a * b
  invF : ∀ a, num.invF a = a⁻¹
  negF : ∀ a, num.negF a = -a
  toR : ∀ a, num.toR a = a
  smul : ∀ a b, num.smul a b = a * b
  conj : ∀ a, num.conj a = a
  abs : ∀ a, num.abs a = |a|
  nearR : ∀ a, num.nearR a = false → a ≠ 0
  lartg_cs : ∀ f g, (num.lartg f g).1 ^ 2 + (num.lartg f g).2.1 ^ 2 = 1
  lartg_r : ∀ f g, (num.lartg f g).1 * f + (num.lartg f g).2.1 * g = (num.lartg f g).2.2
  lartg_0 : ∀ f g, (num.lartg f g).1 * g = (num.lartg f g).2.1 * f

/-- `n` entries of a list as a vector -/
def vecOf {R : Type} [Zero R] (n : Nat) (l : List R) : Fin n → R := fun t => l.getD t 0

/-- a user who multiplies with `A` exactly, and answers the preconditioner as they like -/
def exactAnswers {R : Type} [Field R] {n : Nat} (A : Matrix (Fin n) (Fin n) R) (job : Job) (u a : List R) : Prop :=
  job = .mv → vecOf n a = A.mulVec (vecOf n u)

/-- a user who multiplies with `A` and, for the preconditioner, with `M`, exactly -/
def exactBoth {R : Type} [Field R] {n : Nat} (A M : Matrix (Fin n) (Fin n) R) (job : Job) (u a : List R) : Prop :=
  (job = .mv → vecOf n a = A.mulVec (vecOf n u)) ∧ (job = .precond → vecOf n a = M.mulVec (vecOf n u))

/-- the square of the Euclidean norm of the residual b - A x -/
def resSq {R : Type} [Field R] {n : Nat} (A : Matrix (Fin n) (Fin n) R) (b x : Fin n → R) : R :=
  (b - A.mulVec x) ⬝ᵥ (b - A.mulVec x)

end Spec
end Verif
