/-
The dialogue of Spec/Cg in exact arithmetic.
-/
import Verif.Spec.Cg
import Mathlib.LinearAlgebra.SesquilinearForm.Basic
import Mathlib.LinearAlgebra.Matrix.DotProduct
import Mathlib.LinearAlgebra.Dimension.Constructions
import Mathlib.LinearAlgebra.Dimension.Finite
import Mathlib.Algebra.Order.Field.Basic
import Mathlib.Tactic.Ring
import Mathlib.Tactic.Linarith
import Mathlib.Tactic.FieldSimp
import Mathlib.Tactic.LinearCombination

namespace Verif
namespace Proofs
open Model Spec
open Matrix

theorem dot_eq {R : Type} [CommSemiring R] {n : Nat} (a b : Fin n → R) : dot a b = a ⬝ᵥ b := by
  have h : ∀ (l : List (Fin n)) (s : R), l.foldl (fun s i => s + a i * b i) s = s + (l.map fun i => a i * b i).sum := by
    intro l
    induction l with
    | nil => intro s; simp
    | cons i l ih => intro s; simp [ih, add_assoc]
  unfold dot
  rw [h, zero_add, dotProduct, ← List.ofFn_eq_map, List.sum_ofFn]

section
variable {R : Type} [Field R] [LinearOrder R] [IsStrictOrderedRing R] {n : Nat}

/-- symmetric and positive definite -/
structure Spd (A : (Fin n → R) →ₗ[R] (Fin n → R)) : Prop where
  symm : ∀ u v, u ⬝ᵥ A v = A u ⬝ᵥ v
  pos : ∀ u, u ≠ 0 → 0 < u ⬝ᵥ A u

/-- the past of an iteration: earlier residuals and directions, latest first -/
structure Past (A P : (Fin n → R) →ₗ[R] (Fin n → R)) (r p : Fin n → R) (rz : R) (rs ps : List (Fin n → R)) :
    Prop where
  orth : ∀ q ∈ ps, r ⬝ᵥ q = 0
  span : ∀ s ∈ rs, P s ∈ Submodule.span R {q | q ∈ ps}
  pair : rs.Pairwise fun s s' => s ⬝ᵥ P s' = 0
  ne : ∀ s ∈ rs, s ≠ 0
  last : (rs = [] ∧ ps = [] ∧ p = 0) ∨ ∃ r0 rs' ps' α, rs = r0 :: rs' ∧ ps = p :: ps' ∧
    (∀ q ∈ ps', A q ∈ Submodule.span R {s | s ∈ rs} ∧ q ⬝ᵥ A p = 0) ∧
    α ≠ 0 ∧ α • A p = r - r0 ∧ α * (p ⬝ᵥ A p) = rz ∧ rz = r0 ⬝ᵥ P r0

theorem orth_span {r : Fin n → R} {T : Set (Fin n → R)} (h : ∀ q ∈ T, r ⬝ᵥ q = 0) {v : Fin n → R}
    (hv : v ∈ Submodule.span R T) : r ⬝ᵥ v = 0 := by
  induction hv using Submodule.span_induction with
  | mem x hx => exact h x hx
  | zero => simp
  | add x y _ _ hx hy => rw [dotProduct_add, hx, hy, add_zero]
  | smul a x _ hx => rw [dotProduct_smul, hx, smul_zero]

/-- the number of residuals that are not zero and orthogonal is at most the dimension -/
theorem count_le {P : (Fin n → R) →ₗ[R] (Fin n → R)} (hP : Spd P) {l : List (Fin n → R)}
    (hp : l.Pairwise fun s s' => s ⬝ᵥ P s' = 0) (hne : ∀ s ∈ l, s ≠ 0) : l.length ≤ n := by
  let B : (Fin n → R) →ₗ[R] (Fin n → R) →ₗ[R] R :=
    LinearMap.mk₂ R (fun u v => u ⬝ᵥ P v) (fun u u' v => add_dotProduct u u' _)
      (fun c u v => smul_dotProduct c u _) (fun u v v' => by rw [map_add, dotProduct_add])
      (fun c u v => by rw [map_smul, dotProduct_smul])
  have hB : ∀ u v, B u v = u ⬝ᵥ P v := fun u v => rfl
  have h1 : B.IsOrthoᵢ (fun i : Fin l.length => l.get i) := by
    rw [LinearMap.isOrthoᵢ_def]
    intro i j hij
    rw [hB]
    rcases lt_or_gt_of_ne hij with h | h
    · exact List.pairwise_iff_get.1 hp i j h
    · rw [hP.symm, dotProduct_comm]
      exact List.pairwise_iff_get.1 hp j i h
  have h2 := LinearMap.linearIndependent_of_isOrthoᵢ h1 (fun i => by
    rw [hB]
    exact ne_of_gt (hP.pos _ (hne _ (List.get_mem _ _))))
  have := LinearIndependent.fintype_card_le_finrank h2
  simpa using this

/-- one iteration -/
theorem Past.step {A P : (Fin n → R) →ₗ[R] (Fin n → R)} (hA : Spd A) (hP : Spd P) {r p : Fin n → R} {rz rz0 : R}
    {rs ps : List (Fin n → R)} (h : Past A P r p rz rs ps) (hr : r ≠ 0) {d : Fin n → R} {α : R}
    (hd : d = (r ⬝ᵥ P r / rz0) • p - P r) (hrz0 : rs ≠ [] → rz0 = rz)
    (hα : α = r ⬝ᵥ P r / (d ⬝ᵥ A d)) :
    0 < d ⬝ᵥ A d ∧ Past A P (r + α • A d) d (r ⬝ᵥ P r) (r :: rs) (d :: ps) := by
  have hrz : 0 < r ⬝ᵥ P r := hP.pos r hr
  have hrs : ∀ s ∈ rs, r ⬝ᵥ P s = 0 := fun s hs => orth_span (fun q hq => h.orth q hq) (h.span s hs)
  have hpspan : p ∈ Submodule.span R {q | q ∈ ps} := by
    rcases h.last with ⟨-, -, rfl⟩ | ⟨r0, rs', ps', β, -, rfl, -⟩
    · exact zero_mem _
    · exact Submodule.subset_span (by simp)
  have hrp : r ⬝ᵥ p = 0 := orth_span (fun q hq => h.orth q hq) hpspan
  have hrd : r ⬝ᵥ d = -(r ⬝ᵥ P r) := by
    rw [hd, dotProduct_sub, dotProduct_smul, hrp]; simp
  have hd0 : d ≠ 0 := by
    rintro rfl
    rw [dotProduct_zero] at hrd
    linarith
  have hpq := hA.pos d hd0
  -- the new direction is A-orthogonal to the earlier ones
  have hconj : ∀ q ∈ ps, q ⬝ᵥ A d = 0 := by
    intro q hq
    rcases h.last with ⟨-, rfl, -⟩ | ⟨r0, rs', ps', β, rfl, rfl, hold, hβ, hAp, hβpq, hrz'⟩
    · simp at hq
    · have hz : rz0 = rz := hrz0 (by simp)
      have hr0 : r0 ≠ 0 := h.ne r0 (by simp)
      have hrzpos : 0 < rz := by rw [hrz']; exact hP.pos r0 hr0
      rcases List.mem_cons.1 hq with rfl | hq'
      · -- q = p
        have h1 : q ⬝ᵥ A (P r) = β⁻¹ * (r ⬝ᵥ P r) := by
          have e : A q = β⁻¹ • (r - r0) := by rw [← hAp, smul_smul, inv_mul_cancel₀ hβ, one_smul]
          rw [hA.symm, e, smul_dotProduct, sub_dotProduct, hP.symm r0, dotProduct_comm (P r0), hrs r0 (by simp)]
          simp
        have h2 : q ⬝ᵥ A q = β⁻¹ * rz := by
          rw [← hβpq, ← mul_assoc, inv_mul_cancel₀ hβ, one_mul]
        rw [hd, map_sub, map_smul, dotProduct_sub, dotProduct_smul, h1, h2, hz, smul_eq_mul]
        field_simp
        ring
      · obtain ⟨h1, h2⟩ := hold q hq'
        have h3 : q ⬝ᵥ A (P r) = 0 := by
          rw [hA.symm, hP.symm, dotProduct_comm]
          have : ∀ v ∈ Submodule.span R {s | s ∈ r0 :: rs'}, r ⬝ᵥ P v = 0 := by
            intro v hv
            induction hv using Submodule.span_induction with
            | mem x hx => exact hrs x hx
            | zero => simp
            | add x y _ _ hx hy => rw [map_add, dotProduct_add, hx, hy, add_zero]
            | smul a x _ hx => rw [map_smul, dotProduct_smul, hx, smul_zero]
          exact this _ h1
        rw [hd, map_sub, map_smul, dotProduct_sub, dotProduct_smul, h2, h3]
        simp
  have hαpos : α ≠ 0 := by
    rw [hα]; exact ne_of_gt (div_pos hrz hpq)
  have hαpq : α * (d ⬝ᵥ A d) = r ⬝ᵥ P r := by
    rw [hα]; exact div_mul_cancel₀ _ (ne_of_gt hpq)
  refine ⟨hpq, ?_, ?_, ?_, ?_, Or.inr ⟨r, rs, ps, α, rfl, rfl, ?_, hαpos, by simp, hαpq, rfl⟩⟩
  · intro q hq
    rw [add_dotProduct, smul_dotProduct, dotProduct_comm (A d) q, smul_eq_mul]
    rcases List.mem_cons.1 hq with rfl | hq
    · rw [hrd, hαpq]; ring
    · rw [h.orth q hq, hconj q hq]; simp
  · have hmono : Submodule.span R {q | q ∈ ps} ≤ Submodule.span R {q | q ∈ d :: ps} :=
      Submodule.span_mono fun q hq => List.mem_cons_of_mem _ hq
    intro s hs
    rcases List.mem_cons.1 hs with rfl | hs
    · have e : P s = (s ⬝ᵥ P s / rz0) • p - d := by rw [hd]; abel
      rw [e]
      exact Submodule.sub_mem _ (Submodule.smul_mem _ _ (hmono hpspan)) (Submodule.subset_span (by simp))
    · exact hmono (h.span s hs)
  · exact List.pairwise_cons.2 ⟨hrs, h.pair⟩
  · intro s hs
    rcases List.mem_cons.1 hs with rfl | hs
    · exact hr
    · exact h.ne s hs
  · intro q hq
    refine ⟨?_, hconj q hq⟩
    have hmono : Submodule.span R {q | q ∈ rs} ≤ Submodule.span R {q | q ∈ r :: rs} :=
      Submodule.span_mono fun q hq => List.mem_cons_of_mem _ hq
    rcases h.last with ⟨-, rfl, -⟩ | ⟨r0, rs', ps', β, rfl, rfl, hold, hβ, hAp, -, -⟩
    · simp at hq
    · rcases List.mem_cons.1 hq with rfl | hq
      · have e : A q = β⁻¹ • (r - r0) := by rw [← hAp, smul_smul, inv_mul_cancel₀ hβ, one_smul]
        rw [e]
        exact Submodule.smul_mem _ _ (Submodule.sub_mem _ (Submodule.subset_span (by simp))
          (Submodule.subset_span (by simp)))
      · exact hmono (hold q hq).1

end
end Proofs
end Verif
