/-
Specification of an incomplete factorisation without fill-in.  Nothing here models library code.
-/
import Verif.Spec.MatCheck
import Verif.Spec.Mv
import Mathlib.Algebra.BigOperators.Ring.Finset

namespace Verif
open Finset

/-- Every entry on or left of the diagonal comes after smaller columns only: the lower parts of the rows
ascend, and are followed by the diagonal, then by the rest in any order. -/
def Csr.LowerSorted {R : Type} (A : Csr R) : Prop :=
  ∀ i, i < A.m → (A.cols i).Pairwise (fun a b => b ≤ (i : Int) → a < b)

instance {R : Type} (A : Csr R) : Decidable A.LowerSorted := by unfold Csr.LowerSorted; infer_instance

/-- the unit lower triangular factor stored below the diagonal of `M` -/
def unitLower {R : Type} [Semiring R] (M : Mat R) : Mat R :=
  fun i j => if j < i then M i j else if j = i then 1 else 0

/-- the upper triangular factor stored on and above the diagonal of `M` -/
def upperPart {R : Type} [Semiring R] (M : Mat R) : Mat R := fun i j => if i ≤ j then M i j else 0

/-- Row `i` of the product of the factors stored in `F` agrees with `A` at the entries `A` stores. -/
def IluRowOk {R : Type} [Semiring R] (A F : Csr R) (i : Nat) : Prop :=
  ∀ j : Nat, (j : Int) ∈ A.cols i →
    ∑ k ∈ range A.n, unitLower F.mat i k * upperPart F.mat k j = A.mat i j

/-- `x'` solves `L * (U * x') = b` for the factors stored in `F`; nothing after the first `n` elements
changed. -/
structure IluSolves {R : Type} [Semiring R] (F : Csr R) (n : Nat) (b x x' : List R) : Prop where
  length : x'.length = x.length
  solves : ∀ i, i < n → ∑ k ∈ range n, unitLower F.mat i k *
    (∑ j ∈ range n, upperPart F.mat k j * x'.getD j 0) = b.getD i 0
  rest : ∀ k, n ≤ k → x'[k]? = x[k]?

end Verif
