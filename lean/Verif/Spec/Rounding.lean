/-
Specification: floating-point arithmetic by the standard model, and sums of products evaluated in
some order.  Nothing here models library code.
-/
import Verif.Spec.Mv
import Mathlib.Data.Real.Basic
import Mathlib.Algebra.BigOperators.Group.Multiset.Basic

namespace Verif

/-- Rounding with relative error at most `u` (no overflow, no underflow). -/
structure Rounding where
  u : ℝ
  fl : ℝ → ℝ
  err : ∀ t, |fl t - t| ≤ u * |t|

/-- A number of the format `ρ`; the operations round the exact result once. -/
structure Fp (ρ : Rounding) where
  v : ℝ

namespace Fp
variable {ρ : Rounding}
instance : Zero (Fp ρ) := ⟨⟨0⟩⟩
instance : One (Fp ρ) := ⟨⟨1⟩⟩
noncomputable instance : Add (Fp ρ) := ⟨fun a b => ⟨ρ.fl (a.v + b.v)⟩⟩
noncomputable instance : Sub (Fp ρ) := ⟨fun a b => ⟨ρ.fl (a.v - b.v)⟩⟩
noncomputable instance : Mul (Fp ρ) := ⟨fun a b => ⟨ρ.fl (a.v * b.v)⟩⟩
noncomputable instance : Div (Fp ρ) := ⟨fun a b => ⟨ρ.fl (a.v / b.v)⟩⟩
instance : Neg (Fp ρ) := ⟨fun a => ⟨-a.v⟩⟩
noncomputable instance : DecidableEq (Fp ρ) := Classical.decEq _
end Fp

/-- The compound operations of the kernels.  They are parameters because the library is compiled
with `-ffp-contract=fast`: the compiler may or may not fuse a product into an addition. -/
structure Fpu (R : Type) where
  /-- `c += a * b` in scalar code -/
  smac : R → R → R → R
  /-- `fmadd(a, b, c)` in one lane of a register -/
  vmac : R → R → R → R
  /-- `alpha * r + beta * y` -/
  lin : R → R → R → R → R

/-- products and sums evaluated one by one -/
def Fpu.plain {R : Type} [Add R] [Mul R] : Fpu R :=
  ⟨fun a b c => c + a * b, fun a b c => a * b + c, fun a r b y => a * r + b * y⟩

/-- one fused operation, or two -/
def MacRounds (ρ : Rounding) (f : Fp ρ → Fp ρ → Fp ρ → Fp ρ) : Prop :=
  ∀ a b c, (f a b c).v = ρ.fl (a.v * b.v + c.v) ∨ (f a b c).v = ρ.fl (ρ.fl (a.v * b.v) + c.v)

/-- fused or not, in every operation; in `alpha * r + beta * y` either product may be fused -/
structure Fpu.Rounds {ρ : Rounding} (F : Fpu (Fp ρ)) : Prop where
  smac : MacRounds ρ F.smac
  vmac : MacRounds ρ F.vmac
  lin : ∀ a r b y, (F.lin a r b y).v = ρ.fl (ρ.fl (a.v * r.v) + ρ.fl (b.v * y.v)) ∨
    (F.lin a r b y).v = ρ.fl (a.v * r.v + ρ.fl (b.v * y.v)) ∨
    (F.lin a r b y).v = ρ.fl (ρ.fl (a.v * r.v) + b.v * y.v)

/-- An order of evaluation of a sum of products. -/
inductive SumTree (R : Type)
  | zero
  /-- `a * b` accumulated onto `s`, in a register lane (`vec`) or in scalar code -/
  | mac (vec : Bool) (a b : R) (s : SumTree R)
  | add (s t : SumTree R)

namespace SumTree
variable {R : Type}

/-- the value, by the operations of `F` -/
def eval [Zero R] [Add R] (F : Fpu R) : SumTree R → R
  | zero => 0
  | mac vec a b s => (if vec then F.vmac else F.smac) a b (s.eval F)
  | add s t => s.eval F + t.eval F

/-- the products that are added up -/
def leaves : SumTree R → Multiset (R × R)
  | zero => 0
  | mac _ a b s => (a, b) ::ₘ s.leaves
  | add s t => s.leaves + t.leaves

/-- the largest number of roundings a product passes through -/
def depth : SumTree R → Nat
  | zero => 0
  | mac _ _ _ s => max 1 s.depth + 1
  | add s t => max s.depth t.depth + 1

end SumTree

/-- the matrix of real numbers stored in `A` -/
def Csr.real {ρ : Rounding} (A : Csr (Fp ρ)) : Csr ℝ :=
  ⟨A.m, A.n, A.base, A.ptr, A.ind, A.val.map Fp.v⟩

/-- the same with the absolute values of the stored numbers -/
noncomputable def Csr.sizes {ρ : Rounding} (A : Csr (Fp ρ)) : Csr ℝ :=
  ⟨A.m, A.n, A.base, A.ptr, A.ind, A.val.map fun a => |a.v|⟩

/-- the real numbers in a vector -/
def reals {ρ : Rounding} (x : List (Fp ρ)) : List ℝ := x.map Fp.v
/-- their absolute values -/
noncomputable def sizes {ρ : Rounding} (x : List (Fp ρ)) : List ℝ := x.map fun a => |a.v|

/-- `(alpha * A * x + beta * y)_i` without rounding -/
noncomputable def exactMv {ρ : Rounding} (alpha beta : Fp ρ) (A : Csr (Fp ρ)) (x y : List (Fp ρ))
    (i : Nat) : ℝ :=
  alpha.v * matVec A.real.mat A.n (reals x) i + beta.v * (reals y).getD i 0

/-- `(|alpha| * |A| * |x| + |beta| * |y|)_i` without rounding -/
noncomputable def sizeMv {ρ : Rounding} (alpha beta : Fp ρ) (A : Csr (Fp ρ)) (x y : List (Fp ρ))
    (i : Nat) : ℝ :=
  |alpha.v| * matVec A.sizes.mat A.n (sizes x) i + |beta.v| * (sizes y).getD i 0

end Verif
