/-
The vectors of a GMRES cycle: orthonormal basis, rotated basis, least squares.
-/
import Mathlib.Data.Matrix.Mul
import Mathlib.Algebra.Order.Field.Basic
import Mathlib.Algebra.BigOperators.Intervals
import Mathlib.Tactic.LinearCombination
import Mathlib.Tactic.Linarith
import Mathlib.Tactic.Module

namespace Verif
namespace Proofs
open Finset

section
variable {R : Type} [Field R] {n : Nat}

/-- the last rotated basis vector -/
def wt (V : Nat → Fin n → R) (c s : Nat → R) : Nat → Fin n → R
  | 0 => V 0
  | l + 1 => s l • wt V c s l + c l • V (l + 1)

/-- the finished rotated basis vectors -/
def wW (V : Nat → Fin n → R) (c s : Nat → R) (l : Nat) : Fin n → R := c l • wt V c s l - s l • V (l + 1)

theorem wt_congr {V V' : Nat → Fin n → R} {c c' s s' : Nat → R} {j : Nat} (hV : ∀ l, l ≤ j → V l = V' l)
    (hc : ∀ l, l < j → c l = c' l) (hs : ∀ l, l < j → s l = s' l) : ∀ l, l ≤ j → wt V c s l = wt V' c' s' l := by
  intro l
  induction l with
  | zero => intro h; exact hV 0 h
  | succ l ih =>
    intro h
    rw [wt, wt, ih (by omega), hV (l + 1) h, hc l (by omega), hs l (by omega)]

theorem wW_congr {V V' : Nat → Fin n → R} {c c' s s' : Nat → R} {j : Nat} (hV : ∀ l, l ≤ j → V l = V' l)
    (hc : ∀ l, l < j → c l = c' l) (hs : ∀ l, l < j → s l = s' l) (l : Nat) (h : l < j) :
    wW V c s l = wW V' c' s' l := by
  unfold wW
  rw [wt_congr hV hc hs l (by omega), hV (l + 1) (by omega), hc l h, hs l h]

theorem wt_eq {V : Nat → Fin n → R} {c s : Nat → R} {l : Nat} (h : c l ^ 2 + s l ^ 2 = 1) :
    wt V c s l = c l • wW V c s l + s l • wt V c s (l + 1) := by
  funext t
  simp only [wW, wt, Pi.add_apply, Pi.sub_apply, Pi.smul_apply, smul_eq_mul]
  linear_combination (-wt V c s l t) * h

theorem v_eq {V : Nat → Fin n → R} {c s : Nat → R} {l : Nat} (h : c l ^ 2 + s l ^ 2 = 1) :
    V (l + 1) = -s l • wW V c s l + c l • wt V c s (l + 1) := by
  funext t
  simp only [wW, wt, Pi.add_apply, Pi.sub_apply, Pi.smul_apply, smul_eq_mul]
  linear_combination (-V (l + 1) t) * h

/-- orthonormal vectors 0..J -/
def Ortho (V : Nat → Fin n → R) (J : Nat) : Prop :=
  ∀ k l, k ≤ J → l ≤ J → V k ⬝ᵥ V l = if k = l then 1 else 0

theorem rotated {V : Nat → Fin n → R} {c s : Nat → R} {J : Nat} (hV : Ortho V J)
    (hcs : ∀ l, l < J → c l ^ 2 + s l ^ 2 = 1) (j : Nat) (hj : j ≤ J) :
    wt V c s j ⬝ᵥ wt V c s j = 1 ∧ (∀ l, l < j → wW V c s l ⬝ᵥ wt V c s j = 0) ∧
    (∀ k l, k < j → l < j → wW V c s k ⬝ᵥ wW V c s l = if k = l then 1 else 0) ∧
    (∀ p, j < p → p ≤ J → wt V c s j ⬝ᵥ V p = 0 ∧ ∀ l, l < j → wW V c s l ⬝ᵥ V p = 0) := by
  induction j with
  | zero =>
    refine ⟨?_, by omega, by omega, fun p hp hJ => ⟨?_, by omega⟩⟩
    · show V 0 ⬝ᵥ V 0 = 1
      rw [hV 0 0 (by omega) (by omega), if_pos rfl]
    · show V 0 ⬝ᵥ V p = 0
      rw [hV 0 p (by omega) hJ, if_neg (by omega)]
  | succ j ih =>
    obtain ⟨h1, h2, h3, h4⟩ := ih (by omega)
    have hvv : V (j + 1) ⬝ᵥ V (j + 1) = 1 := by rw [hV _ _ hj hj, if_pos rfl]
    obtain ⟨hwv, hWv⟩ := h4 (j + 1) (by omega) hj
    have hvw : V (j + 1) ⬝ᵥ wt V c s j = 0 := by rw [dotProduct_comm]; exact hwv
    have hc := hcs j (by omega)
    have new0 : wt V c s (j + 1) = s j • wt V c s j + c j • V (j + 1) := rfl
    have newW : wW V c s j = c j • wt V c s j - s j • V (j + 1) := rfl
    have hlt : ∀ l, l < j → wW V c s l ⬝ᵥ wW V c s j = 0 := by
      intro l hl
      rw [newW, dotProduct_sub, dotProduct_smul, dotProduct_smul, h2 l hl, hWv l hl]
      simp
    refine ⟨?_, ?_, ?_, ?_⟩
    · rw [new0]
      simp only [add_dotProduct, dotProduct_add, smul_dotProduct, dotProduct_smul, h1, hvv, hwv, hvw, smul_eq_mul]
      linear_combination hc
    · intro l hl
      rcases Nat.lt_succ_iff_lt_or_eq.1 hl with hl | rfl
      · rw [new0, dotProduct_add, dotProduct_smul, dotProduct_smul, h2 l hl, hWv l hl]
        simp
      · rw [new0, newW]
        simp only [add_dotProduct, sub_dotProduct, dotProduct_add, smul_dotProduct, dotProduct_smul, h1, hvv, hwv, hvw,
          smul_eq_mul]
        ring
    · intro k l hk hl
      rcases Nat.lt_succ_iff_lt_or_eq.1 hk with hk | rfl
      · rcases Nat.lt_succ_iff_lt_or_eq.1 hl with hl | rfl
        · exact h3 k l hk hl
        · rw [hlt k hk, if_neg (by omega)]
      · rcases Nat.lt_succ_iff_lt_or_eq.1 hl with hl | rfl
        · rw [dotProduct_comm, hlt l hl, if_neg (by omega)]
        · rw [if_pos rfl, newW]
          simp only [sub_dotProduct, dotProduct_sub, smul_dotProduct, dotProduct_smul, h1, hvv, hwv, hvw, smul_eq_mul]
          linear_combination hc
    · intro p hp hJ
      obtain ⟨g1, g2⟩ := h4 p (by omega) hJ
      have g3 : V (j + 1) ⬝ᵥ V p = 0 := by rw [hV _ _ hj hJ, if_neg (by omega)]
      refine ⟨?_, ?_⟩
      · rw [new0, add_dotProduct, smul_dotProduct, smul_dotProduct, g1, g3]
        simp
      · intro l hl
        rcases Nat.lt_succ_iff_lt_or_eq.1 hl with hl | rfl
        · exact g2 l hl
        · rw [newW, sub_dotProduct, smul_dotProduct, smul_dotProduct, g1, g3]
          simp

/-- the running entry while a column is rotated -/
def rotT (c s : Nat → R) (a : Nat → R) : Nat → R
  | 0 => a 0
  | i + 1 => s i * rotT c s a i + c i * a (i + 1)

/-- the rotated column -/
def rotH (c s : Nat → R) (a : Nat → R) (i : Nat) : R := c i * rotT c s a i - s i * a (i + 1)

theorem column {V : Nat → Fin n → R} {c s a : Nat → R} (i : Nat) (hcs : ∀ l, l < i → c l ^ 2 + s l ^ 2 = 1) :
    ∑ l ∈ range (i + 1), a l • V l = ∑ l ∈ range i, rotH c s a l • wW V c s l + rotT c s a i • wt V c s i := by
  induction i with
  | zero => simp [rotT, wt]
  | succ i ih =>
    rw [sum_range_succ, ih fun l hl => hcs l (by omega), sum_range_succ]
    have h := hcs i (by omega)
    have e1 := wt_eq (V := V) h
    have e2 := v_eq (V := V) h
    rw [add_assoc, add_assoc]
    congr 1
    calc rotT c s a i • wt V c s i + a (i + 1) • V (i + 1)
        = rotT c s a i • (c i • wW V c s i + s i • wt V c s (i + 1)) +
          a (i + 1) • (-s i • wW V c s i + c i • wt V c s (i + 1)) := by rw [← e1, ← e2]
      _ = _ := by
        unfold rotH
        rw [rotT]
        module

/-- the product with the new direction, in the rotated basis -/
theorem column_end {V : Nat → Fin n → R} {c s a : Nat → R} {j : Nat} {hh r : R}
    (hcs : ∀ l, l < j + 1 → c l ^ 2 + s l ^ 2 = 1) (hr : c j * rotT c s a j - s j * hh = r)
    (h0 : s j * rotT c s a j + c j * hh = 0) :
    ∑ l ∈ range (j + 1), a l • V l + hh • V (j + 1) =
      ∑ l ∈ range j, rotH c s a l • wW V c s l + r • wW V c s j := by
  rw [column j fun l hl => hcs l (by omega), add_assoc]
  congr 1
  have h := hcs j (by omega)
  have e1 := wt_eq (V := V) h
  have e2 := v_eq (V := V) h
  calc rotT c s a j • wt V c s j + hh • V (j + 1)
      = rotT c s a j • (c j • wW V c s j + s j • wt V c s (j + 1)) +
        hh • (-s j • wW V c s j + c j • wt V c s (j + 1)) := by rw [← e1, ← e2]
    _ = (c j * rotT c s a j - s j * hh) • wW V c s j + (s j * rotT c s a j + c j * hh) • wt V c s (j + 1) := by
        module
    _ = _ := by rw [hr, h0, zero_smul, add_zero]

/-- exchanging the sums over an upper triangle -/
theorem tri_sum {M : Type} [AddCommGroup M] [Module R M] (m : Nat) (h : Nat → Nat → R) (y : Nat → R) (W : Nat → M) :
    ∑ i ∈ range m, y i • ∑ l ∈ range (i + 1), h l i • W l =
      ∑ l ∈ range m, (∑ i ∈ Ico l m, h l i * y i) • W l := by
  induction m with
  | zero => simp
  | succ m ih =>
    rw [sum_range_succ, ih, sum_range_succ (fun l => (∑ i ∈ Ico l (m + 1), h l i * y i) • W l)]
    have e : ∀ l ∈ range m, (∑ i ∈ Ico l (m + 1), h l i * y i) • W l =
        (∑ i ∈ Ico l m, h l i * y i) • W l + (h l m * y m) • W l := by
      intro l hl
      rw [mem_range] at hl
      rw [sum_Ico_succ_top (by omega), add_smul]
    rw [sum_congr rfl e, sum_add_distrib, add_assoc, Nat.Ico_succ_singleton, sum_singleton]
    congr 1
    rw [smul_sum, sum_range_succ]
    congr 1
    · refine sum_congr rfl fun l _ => ?_
      rw [smul_smul, mul_comm]
    · rw [smul_smul, mul_comm]

end

section
variable {R : Type} [Field R] [LinearOrder R] [IsStrictOrderedRing R] {n : Nat}

theorem sum_dot (m : Nat) (d : Nat → R) (W : Nat → Fin n → R) (w : Fin n → R) :
    (∑ l ∈ range m, d l • W l) ⬝ᵥ w = ∑ l ∈ range m, d l * (W l ⬝ᵥ w) := by
  induction m with
  | zero => simp
  | succ m ih => rw [sum_range_succ, sum_range_succ, add_dotProduct, ih, smul_dotProduct, smul_eq_mul]

/-- Pythagoras -/
theorem ortho_norm {m : Nat} {W : Nat → Fin n → R} {w : Fin n → R} (d : Nat → R) (e : R)
    (hW : ∀ k l, k < m → l < m → W k ⬝ᵥ W l = if k = l then 1 else 0) (hw : ∀ l, l < m → W l ⬝ᵥ w = 0)
    (h1 : w ⬝ᵥ w = 1) :
    (∑ l ∈ range m, d l • W l + e • w) ⬝ᵥ (∑ l ∈ range m, d l • W l + e • w) =
      ∑ l ∈ range m, d l ^ 2 + e ^ 2 := by
  have a1 : (∑ l ∈ range m, d l • W l) ⬝ᵥ w = 0 := by
    rw [sum_dot]
    refine sum_eq_zero fun l hl => ?_
    rw [hw l (by simpa using hl), mul_zero]
  have a2 : (∑ l ∈ range m, d l • W l) ⬝ᵥ (∑ l ∈ range m, d l • W l) = ∑ l ∈ range m, d l ^ 2 := by
    rw [sum_dot]
    refine sum_congr rfl fun l hl => ?_
    rw [mem_range] at hl
    rw [dotProduct_comm, sum_dot, sum_eq_single l]
    · rw [hW l l hl hl, if_pos rfl]; ring
    · intro k hk hne
      rw [mem_range] at hk
      rw [hW k l hk hl, if_neg hne, mul_zero]
    · intro h
      exact absurd (by simpa using hl) h
  rw [add_dotProduct, dotProduct_add, dotProduct_add, a2, smul_dotProduct, dotProduct_smul, a1, smul_dotProduct,
    dotProduct_comm w, a1, dotProduct_smul, h1]
  simp only [smul_eq_mul]
  ring

end
end Proofs
end Verif
