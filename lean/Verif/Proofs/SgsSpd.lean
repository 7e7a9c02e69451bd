/-
The symmetric Gauss-Seidel preconditioner of a positive definite matrix is positive definite.
-/
import Verif.Proofs.CgExact
import Verif.Spec.Sgs
import Mathlib.LinearAlgebra.Matrix.NonsingularInverse
import Mathlib.LinearAlgebra.Matrix.Block

namespace Verif
namespace Proofs
open Matrix

section
variable {R : Type} [Field R] {n : Nat}

/-- lower triangle with the diagonal -/
def lowM (M : Matrix (Fin n) (Fin n) R) : Matrix (Fin n) (Fin n) R := of fun i j => if j ≤ i then M i j else 0

/-- upper triangle with the diagonal -/
def uppM (M : Matrix (Fin n) (Fin n) R) : Matrix (Fin n) (Fin n) R := of fun i j => if i ≤ j then M i j else 0

/-- (L + D) D⁻¹ (D + U) -/
def sgsM (M : Matrix (Fin n) (Fin n) R) : Matrix (Fin n) (Fin n) R :=
  lowM M * diagonal (fun i => (M i i)⁻¹) * uppM M

theorem sgsM_mulVec {M : Mat R} {r z z' : List R} (h : IsSgs M n r z z') :
    sgsM (of fun i j : Fin n => M i j) *ᵥ (fun i : Fin n => z'.getD i 0) = fun i : Fin n => r.getD i 0 := by
  funext i
  rw [← h.solves i i.2]
  unfold sgsM
  rw [← mulVec_mulVec, ← mulVec_mulVec]
  simp only [mulVec, dotProduct, lowM, uppM, of_apply]
  rw [Finset.sum_range]
  refine Finset.sum_congr rfl fun j _ => ?_
  rw [Finset.sum_range]
  have hd : ∀ v : Fin n → R, ∑ x, diagonal (fun i : Fin n => (M i i)⁻¹) j x * v x = (M j j)⁻¹ * v j := by
    intro v
    have := mulVec_diagonal (fun i : Fin n => (M i i)⁻¹) v j
    exact this
  simp only [hd, Fin.le_def]
  by_cases hji : (j : Nat) ≤ i
  · rw [if_pos hji, if_pos hji, div_eq_mul_inv, mul_comm (∑ k : Fin n, _)]
    congr 2
    refine Finset.sum_congr rfl fun k _ => ?_
    split
    · rfl
    · rw [zero_mul]
  · rw [if_neg hji, if_neg hji, zero_mul]

theorem uppM_transpose {M : Matrix (Fin n) (Fin n) R} (h : Mᵀ = M) : uppM M = (lowM M)ᵀ := by
  ext i j
  simp only [uppM, lowM, of_apply, transpose_apply]
  have : M i j = M j i := (congrFun (congrFun h i) j).symm
  rw [this]

theorem lowM_unit {M : Matrix (Fin n) (Fin n) R} (h : ∀ i, M i i ≠ 0) : IsUnit (lowM M).det := by
  rw [det_of_lowerTriangular (lowM M) (by
    intro i j hij
    have hij : i < j := hij
    show (if j ≤ i then M i j else 0) = 0
    rw [if_neg (not_le.2 hij)])]
  rw [isUnit_iff_ne_zero]
  refine Finset.prod_ne_zero_iff.2 fun i _ => ?_
  show (if i ≤ i then M i i else 0) ≠ 0
  rw [if_pos (le_refl i)]
  exact h i

end

variable {R : Type} [Field R] [LinearOrder R] [IsStrictOrderedRing R] {n : Nat}

theorem spd_transpose {M : Matrix (Fin n) (Fin n) R} (h : Spd M.mulVecLin) : Mᵀ = M := by
  ext i j
  have := h.symm (Pi.single j 1) (Pi.single i 1)
  simp only [mulVecLin_apply, mulVec_single_one] at this
  simpa using this

theorem spd_diag {M : Matrix (Fin n) (Fin n) R} (h : Spd M.mulVecLin) (i : Fin n) : 0 < M i i := by
  have := h.pos (Pi.single i 1) (by simp)
  simp only [mulVecLin_apply, mulVec_single_one] at this
  simpa using this

/-- the preconditioner is a positive definite linear map -/
theorem sgs_spd {M : Matrix (Fin n) (Fin n) R} (h : Spd M.mulVecLin) :
    ∃ P : (Fin n → R) →ₗ[R] (Fin n → R), Spd P ∧ ∀ r z, sgsM M *ᵥ z = r → z = P r := by
  have hT := spd_transpose h
  have hpos := spd_diag h
  have hL := lowM_unit (M := M) fun i => ne_of_gt (hpos i)
  have hU := uppM_transpose hT
  have hN : sgsM M = lowM M * diagonal (fun i => (M i i)⁻¹) * (lowM M)ᵀ := by unfold sgsM; rw [hU]
  have hunit : IsUnit (sgsM M).det := by
    rw [hN, det_mul, det_mul, det_transpose, det_diagonal]
    refine (hL.mul ?_).mul hL
    rw [isUnit_iff_ne_zero]
    exact Finset.prod_ne_zero_iff.2 fun i _ => inv_ne_zero (ne_of_gt (hpos i))
  have hform : ∀ u v : Fin n → R, (sgsM M *ᵥ u) ⬝ᵥ v =
      ∑ j, (M j j)⁻¹ * ((lowM M)ᵀ *ᵥ u) j * ((lowM M)ᵀ *ᵥ v) j := by
    intro u v
    rw [hN, ← mulVec_mulVec, ← mulVec_mulVec, dotProduct_comm, dotProduct_mulVec, ← mulVec_transpose, dotProduct]
    refine Finset.sum_congr rfl fun j _ => ?_
    rw [mulVec_diagonal]
    ring
  have hinv : ∀ r, sgsM M *ᵥ ((sgsM M)⁻¹ *ᵥ r) = r := by
    intro r
    rw [mulVec_mulVec, mul_nonsing_inv _ hunit, one_mulVec]
  have hinv' : ∀ z, (sgsM M)⁻¹ *ᵥ (sgsM M *ᵥ z) = z := by
    intro r
    rw [mulVec_mulVec, nonsing_inv_mul _ hunit, one_mulVec]
  refine ⟨(sgsM M)⁻¹.mulVecLin, ⟨?_, ?_⟩, ?_⟩
  · intro u v
    rw [mulVecLin_apply, mulVecLin_apply]
    have e1 := hform ((sgsM M)⁻¹ *ᵥ u) ((sgsM M)⁻¹ *ᵥ v)
    have e2 := hform ((sgsM M)⁻¹ *ᵥ v) ((sgsM M)⁻¹ *ᵥ u)
    rw [hinv] at e1 e2
    rw [e1, dotProduct_comm, e2]
    refine Finset.sum_congr rfl fun j _ => ?_
    ring
  · intro u hu
    rw [mulVecLin_apply]
    have e1 := hform ((sgsM M)⁻¹ *ᵥ u) ((sgsM M)⁻¹ *ᵥ u)
    rw [hinv] at e1
    rw [e1]
    have hterm : ∀ j, 0 ≤ (M j j)⁻¹ * ((lowM M)ᵀ *ᵥ ((sgsM M)⁻¹ *ᵥ u)) j * ((lowM M)ᵀ *ᵥ ((sgsM M)⁻¹ *ᵥ u)) j := by
      intro j
      rw [mul_assoc]
      exact mul_nonneg (inv_nonneg.2 (le_of_lt (hpos j))) (mul_self_nonneg _)
    refine Finset.sum_pos' (fun j _ => hterm j) ?_
    by_contra hc
    push_neg at hc
    apply hu
    have hzero : (lowM M)ᵀ *ᵥ ((sgsM M)⁻¹ *ᵥ u) = 0 := by
      funext j
      have h1 := le_antisymm (hc j (Finset.mem_univ j)) (hterm j)
      rw [mul_assoc] at h1
      have h2 := (mul_eq_zero.1 h1).resolve_left (inv_ne_zero (ne_of_gt (hpos j)))
      simpa using h2
    rw [← hinv u, hN, ← mulVec_mulVec, ← hN, hzero, mulVec_zero]
  · intro r z e
    rw [mulVecLin_apply, ← e, hinv']

end Proofs
end Verif
