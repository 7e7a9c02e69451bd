/-
C37 — the overflow guards.
-/
import Verif.Model.Overflow
import Mathlib.Tactic.Ring
import Mathlib.Tactic.Linarith
import Mathlib.Algebra.Order.Ring.Int
import Mathlib.Algebra.Order.Group.Abs
import Mathlib.Algebra.Order.Ring.Abs

namespace Verif
open Model

/-- `x` is representable as a signed `w`-bit integer -/
def Representable (w : Nat) (x : Int) : Prop := -2 ^ (w - 1) ≤ x ∧ x ≤ 2 ^ (w - 1) - 1

theorem pow_pos' (w : Nat) : (1 : Int) ≤ 2 ^ (w - 1) := by
  have : (0 : Int) < 2 ^ (w - 1) := by positivity
  omega

theorem tdiv_lt_iff {M x y : Int} (hM : 0 ≤ M) (hy : 0 < y) : x > M.tdiv y ↔ x * y > M := by
  rw [Int.tdiv_eq_ediv_of_nonneg hM]
  constructor
  · intro h; exact Int.lt_mul_of_ediv_lt hy h
  · intro h; exact Int.ediv_lt_of_lt_mul hy h

theorem chk_ok {w : Nat} {x : Int} (h0 : 0 ≤ x) (h : x ≤ intMax w) : chk w x = some x := by
  unfold chk; rw [if_pos]
  have := pow_pos' w
  simp only [intMin]; omega

/-- Exact value of the product guard, for every word width and every pair of representable
integers; in particular the guard itself never overflows. -/
theorem productOverflow_spec (w : Nat) (hw : 2 ≤ w) (a b : Int)
    (ha : Representable w a) (hb : Representable w b) :
    ∃ r, productOverflow w a b = some r ∧
      (r = true ↔ ¬ (|a * b| ≤ intMax w ∨ (a = 1 ∨ b = 1))) := by
  have hp := pow_pos' w
  have hp2 : (2 : Int) ≤ 2 ^ (w - 1) := by
    obtain ⟨k, rfl⟩ : ∃ k, w = k + 2 := ⟨w - 2, by omega⟩
    have : (1 : Int) ≤ 2 ^ k := by have : (0:Int) < 2 ^ k := by positivity
                                   omega
    rw [show k + 2 - 1 = k + 1 by omega, pow_succ]; omega
  unfold Representable at ha hb
  by_cases h0 : b = 0 ∨ a = 0
  · refine ⟨false, by simp [productOverflow, h0], ?_⟩
    have : a * b = 0 := by rcases h0 with h | h <;> simp [h]
    simp only [this, abs_zero, intMax]
    simp
    intro h; omega
  have hb0 : b ≠ 0 := fun h => h0 (.inl h)
  have ha0 : a ≠ 0 := fun h => h0 (.inr h)
  have hmul : ∀ x y : Int, x = intMin w → y ≠ 0 → ¬ |x * y| ≤ intMax w := by
    intro x y hx hy
    have h1 : 1 ≤ |y| := Int.one_le_abs hy
    have h2 : |x| = 2 ^ (w - 1) := by rw [hx, intMin, abs_neg, abs_of_pos (by omega)]
    rw [abs_mul, h2, intMax]
    nlinarith
  by_cases h1 : a = intMin w
  · refine ⟨decide (b ≠ 1), by simp only [productOverflow]; rw [if_neg h0, if_pos h1]; rfl, ?_⟩
    have := hmul a b h1 hb0
    have h3 : a ≠ 1 := by rw [h1, intMin]; omega
    rw [decide_eq_true_iff]
    exact ⟨fun h hc => by rcases hc with hc | hc | hc; exacts [this hc, h3 hc, h hc],
      fun h hb => h (.inr (.inr hb))⟩
  by_cases h2 : b = intMin w
  · refine ⟨decide (a ≠ 1), by
      simp only [productOverflow]; rw [if_neg h0, if_neg h1, if_pos h2]; rfl, ?_⟩
    have := hmul b a h2 ha0
    rw [mul_comm] at this
    have h3 : b ≠ 1 := by rw [h2, intMin]; omega
    rw [decide_eq_true_iff]
    exact ⟨fun h hc => by rcases hc with hc | hc | hc; exacts [this hc, h hc, h3 hc],
      fun h hb => h (.inr (.inl hb))⟩
  · have hA : absChk w a = some |a| := by
      unfold absChk
      split
      · rw [abs_of_neg (by omega)]
        apply chk_ok (by omega); simp only [intMin, intMax] at *; omega
      · rw [abs_of_nonneg (by omega)]
    have hB : absChk w b = some |b| := by
      unfold absChk
      split
      · rw [abs_of_neg (by omega)]
        apply chk_ok (by omega); simp only [intMin, intMax] at *; omega
      · rw [abs_of_nonneg (by omega)]
    have hbp : 0 < |b| := abs_pos.2 hb0
    have hMax : 0 ≤ intMax w := by simp only [intMax]; omega
    have hq : chk w ((intMax w).tdiv |b|) = some ((intMax w).tdiv |b|) := by
      apply chk_ok
      · exact Int.tdiv_nonneg hMax (abs_nonneg b)
      · rw [Int.tdiv_eq_ediv_of_nonneg hMax]; exact Int.ediv_le_self _ hMax
    refine ⟨decide (|a| > (intMax w).tdiv |b|), ?_, ?_⟩
    · simp only [productOverflow]
      rw [if_neg h0, if_neg h1, if_neg h2, hA, hB]
      simp [hq]
    · rw [decide_eq_true_iff, tdiv_lt_iff hMax hbp, abs_mul]
      constructor
      · intro h hc
        rcases hc with hc | hc | hc
        · omega
        · subst hc
          have : |b| ≤ intMax w := by
            rw [abs_le]; simp only [intMax, intMin] at *; omega
          simp at h; omega
        · subst hc
          have : |a| ≤ intMax w := by
            rw [abs_le]; simp only [intMax, intMin] at *; omega
          simp at h; omega
      · intro h
        by_contra hc
        exact h (.inl (by omega))

/-- C37 (soundness): whenever the guard lets a product through, the product is representable;
the guard itself has no undefined behaviour. -/
theorem C37_product_sound (w : Nat) (hw : 2 ≤ w) (a b : Int)
    (ha : Representable w a) (hb : Representable w b) :
    ∃ r, productOverflow w a b = some r ∧ (r = false → Representable w (a * b)) := by
  obtain ⟨r, h, hr⟩ := productOverflow_spec w hw a b ha hb
  refine ⟨r, h, fun hf => ?_⟩
  subst hf
  have : |a * b| ≤ intMax w ∨ a = 1 ∨ b = 1 := by
    by_contra hc; exact absurd (hr.2 hc) (by simp)
  rcases this with h | h | h
  · rw [abs_le] at h; simp only [intMax] at h; unfold Representable; omega
  · subst h; simpa using hb
  · subst h; simpa using ha

/-- C37 (exactness): when neither operand is negative — every use in the library, where the
operands are dimensions and leading dimensions — the guard answers true iff the product is not
representable. -/
theorem C37_product_exact (w : Nat) (hw : 2 ≤ w) (a b : Int)
    (ha : Representable w a) (hb : Representable w b) (h0a : 0 ≤ a) (h0b : 0 ≤ b) :
    ∃ r, productOverflow w a b = some r ∧ (r = true ↔ ¬ Representable w (a * b)) := by
  obtain ⟨r, h, hr⟩ := productOverflow_spec w hw a b ha hb
  refine ⟨r, h, hr.trans (not_congr ?_)⟩
  have hp := pow_pos' w
  have hab : 0 ≤ a * b := mul_nonneg h0a h0b
  rw [abs_of_nonneg hab]
  unfold Representable at *
  simp only [intMax]
  constructor
  · rintro (h | h | h)
    · omega
    · subst h; simpa using hb
    · subst h; simpa using ha
  · intro h; left; omega

/-- Finding: the guard is conservative when the product is exactly `int_min`:
`-2 · 2^30` fits in 32 bits, yet the guard reports overflow. -/
theorem C37_product_not_exact_at_min :
    productOverflow 32 (-2) (2 ^ 30) = some true ∧ Representable 32 (-2 * 2 ^ 30) := by
  refine ⟨by decide +kernel, by unfold Representable; norm_num⟩

/-- the only inexact answers: the product is `int_min` and no operand is 1 -/
theorem C37_product_inexact_iff (w : Nat) (hw : 2 ≤ w) (a b : Int)
    (ha : Representable w a) (hb : Representable w b) :
    ∃ r, productOverflow w a b = some r ∧
      ((r = true ∧ Representable w (a * b)) ↔ (a * b = intMin w ∧ a ≠ 1 ∧ b ≠ 1)) := by
  obtain ⟨r, h, hr⟩ := productOverflow_spec w hw a b ha hb
  refine ⟨r, h, ?_⟩
  rw [hr]
  have hp := pow_pos' w
  have : |a * b| ≤ intMax w ↔ -(2 ^ (w - 1) - 1) ≤ a * b ∧ a * b ≤ 2 ^ (w - 1) - 1 := by
    rw [abs_le]; rfl
  rw [this]
  unfold Representable
  simp only [intMin]
  generalize a * b = p
  constructor
  · rintro ⟨h1, h2⟩
    refine ⟨?_, fun h => h1 (by simp [h]), fun h => h1 (by simp [h])⟩
    by_contra hc
    apply h1; left; omega
  · rintro ⟨h1, h2, h3⟩
    refine ⟨?_, by omega⟩
    rintro (h | h | h) <;> first | omega | exact h2 h | exact h3 h

/-- C37 (sums): with a 64-bit accumulator over 32-bit integers, a non-negative running sum is
reported iff it is not representable. -/
theorem C37_sum_exact (v : Int) (h0 : 0 ≤ v) :
    sumOverflow 64 32 v = true ↔ ¬ Representable 32 v := by
  unfold sumOverflow Representable
  simp only [intMax]
  simp
  omega

/-- Finding: in 64-bit integer builds the sum guard is vacuous. -/
theorem C37_sum_vacuous_ilp64 (v : Int) : sumOverflow 64 64 v = false := by
  simp [sumOverflow]

example : Representable 32 46341 ∧ productOverflow 32 46341 46341 = some true ∧
    productOverflow 32 46340 46340 = some false := by
  refine ⟨by unfold Representable; norm_num, by decide +kernel, by decide +kernel⟩
example : productOverflow 32 (-2 ^ 31) 1 = some false ∧ productOverflow 32 (-2 ^ 31) (-1) = some true := by
  decide +kernel

end Verif
