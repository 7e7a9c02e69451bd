/-
Specification vocabulary for matrix creation (C03, C04).
-/
import Verif.Spec.Sparse

namespace Verif
namespace Csr
variable {R : Type} (A : Csr R)

/-- Consistent compressed arrays in the (arbitrary) base `A.base`; this is `WF`
without the requirement that the base be 0 or 1. -/
structure Valid : Prop where
  ptr_first : A.p 0 = A.base
  ptr_mono : ∀ i, i < A.m → A.p i ≤ A.p (i + 1)
  ptr_last : A.p A.m = A.base + A.ind.length
  ind_range : ∀ c ∈ A.ind, A.base ≤ c ∧ c < A.base + A.n

/-- columns stored in row `i`, zero-based, in storage order -/
def cols (i : Nat) : List Int := (A.row i).map (·.1)

/-- no row stores its diagonal entry twice -/
def OneDiag : Prop := ∀ i, i < A.m → (A.cols i).count (i : Int) ≤ 1

/-- every row with a diagonal position stores it -/
def FullDiag : Prop := ∀ i, i < A.m → i < A.n → (i : Int) ∈ A.cols i

/-- strictly lower / diagonal / strictly upper -/
def grp (i : Nat) (j : Int) : Nat := if j < i then 0 else if j = i then 1 else 2

/-- every row lists its strictly lower entries first, then the diagonal, then the upper ones -/
def Grouped : Prop := ∀ i, i < A.m → (A.cols i).Pairwise (fun a b => grp i a ≤ grp i b)

instance : Decidable A.OneDiag := by unfold OneDiag; infer_instance
instance : Decidable A.FullDiag := by unfold FullDiag; infer_instance
instance : Decidable A.Grouped := by unfold Grouped; infer_instance

end Csr
end Verif
