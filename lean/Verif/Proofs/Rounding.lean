/-
Rounding errors of sums of products.
-/
import Verif.Spec.Rounding
import Mathlib.Algebra.Order.BigOperators.Group.Multiset
import Mathlib.Algebra.Order.Ring.Pow
import Mathlib.Tactic.Linarith
import Mathlib.Tactic.Ring
import Mathlib.Tactic.Positivity
import Mathlib.Tactic.FieldSimp

namespace Verif

namespace Rounding
variable (ρ : Rounding)

theorem u_nonneg : 0 ≤ ρ.u := by
  have := ρ.err 1
  rw [abs_one, mul_one] at this
  exact le_trans (abs_nonneg _) this

/-- accumulated relative error of `k` roundings -/
noncomputable def g (k : Nat) : ℝ := (1 + ρ.u) ^ k - 1

theorem one_le_pow (k : Nat) : 1 ≤ (1 + ρ.u) ^ k :=
  one_le_pow₀ (by have := ρ.u_nonneg; linarith)

theorem g_nonneg (k : Nat) : 0 ≤ ρ.g k := by
  have := ρ.one_le_pow k
  unfold g; linarith

theorem g_mono {k l : Nat} (h : k ≤ l) : ρ.g k ≤ ρ.g l := by
  unfold g
  have := pow_le_pow_right₀ (a := 1 + ρ.u) (by have := ρ.u_nonneg; linarith) h
  linarith

/-- `v̂` is `v` after at most `k` roundings of terms of total size `w` -/
def Near (k : Nat) (v w vh : ℝ) : Prop := |v| ≤ w ∧ |vh - v| ≤ ρ.g k * w

variable {ρ}

theorem Near.nonneg {k v w vh} (h : ρ.Near k v w vh) : 0 ≤ w := le_trans (abs_nonneg _) h.1

theorem Near.exact (v : ℝ) : ρ.Near 0 v |v| v := by
  refine ⟨le_rfl, ?_⟩
  simp [g]

theorem Near.zero : ρ.Near 0 0 0 0 := by simp [Near]

theorem Near.mono {k l v w vh} (h : ρ.Near k v w vh) (hl : k ≤ l) : ρ.Near l v w vh :=
  ⟨h.1, le_trans h.2 (mul_le_mul_of_nonneg_right (ρ.g_mono hl) h.nonneg)⟩

theorem Near.size {k v w vh} (h : ρ.Near k v w vh) : |vh| ≤ (1 + ρ.u) ^ k * w := by
  have h1 : |vh| ≤ |vh - v| + |v| := by
    have := abs_add_le (vh - v) v
    simpa using this
  have := h.1; have := h.2
  unfold g at this
  nlinarith

/-- one more rounding -/
theorem Near.round {k v w vh} (h : ρ.Near k v w vh) : ρ.Near (k + 1) v w (ρ.fl vh) := by
  refine ⟨h.1, ?_⟩
  have h1 := ρ.err vh
  have h2 := h.size
  have h3 := h.2
  have hu := ρ.u_nonneg
  have h4 : |ρ.fl vh - v| ≤ |ρ.fl vh - vh| + |vh - v| := by
    have := abs_add_le (ρ.fl vh - vh) (vh - v)
    simpa using this
  have h5 : ρ.u * |vh| ≤ ρ.u * ((1 + ρ.u) ^ k * w) := mul_le_mul_of_nonneg_left h2 hu
  have e : ρ.g (k + 1) * w = ρ.u * ((1 + ρ.u) ^ k * w) + ρ.g k * w := by
    unfold g; ring
  rw [e]
  linarith

theorem Near.add {k a b A B ah bh} (h1 : ρ.Near k a A ah) (h2 : ρ.Near k b B bh) :
    ρ.Near k (a + b) (A + B) (ah + bh) := by
  refine ⟨(abs_add_le _ _).trans (add_le_add h1.1 h2.1), ?_⟩
  have : |ah + bh - (a + b)| ≤ |ah - a| + |bh - b| := by
    have := abs_add_le (ah - a) (bh - b)
    rw [show ah + bh - (a + b) = (ah - a) + (bh - b) by ring]
    exact this
  have := h1.2; have := h2.2
  rw [mul_add]
  linarith

theorem Near.smul {k v w vh} (c : ℝ) (h : ρ.Near k v w vh) :
    ρ.Near k (c * v) (|c| * w) (c * vh) := by
  refine ⟨?_, ?_⟩
  · rw [abs_mul]; exact mul_le_mul_of_nonneg_left h.1 (abs_nonneg _)
  · rw [← mul_sub, abs_mul]
    have := mul_le_mul_of_nonneg_left h.2 (abs_nonneg c)
    linarith [this, mul_left_comm (ρ.g k) |c| w]

theorem Near.prod (a b : ℝ) : ρ.Near 0 (a * b) (|a| * |b|) (a * b) := by
  have := Near.exact (ρ := ρ) (a * b)
  rwa [abs_mul] at this

/-- a multiply-accumulate, fused or not -/
theorem Near.mac {f : Fp ρ → Fp ρ → Fp ρ → Fp ρ} (hf : MacRounds ρ f) (a b c : Fp ρ) {k : Nat}
    {v w : ℝ} (h : ρ.Near k v w c.v) :
    ρ.Near (max 1 k + 1) (a.v * b.v + v) (|a.v| * |b.v| + w) (f a b c).v := by
  have hc := h.mono (l := max 1 k) (le_max_right _ _)
  rcases hf a b c with e | e <;> rw [e]
  · exact (((Near.prod a.v b.v).mono (Nat.zero_le _)).add hc).round
  · exact (((Near.prod a.v b.v).round.mono (le_max_left _ _)).add hc).round

/-- `alpha * r + beta * y` -/
theorem Near.lin {F : Fpu (Fp ρ)} (hF : F.Rounds) (a r b y : Fp ρ) {k : Nat} {v w : ℝ}
    (h : ρ.Near k v w r.v) :
    ρ.Near (k + 2) (a.v * v + b.v * y.v) (|a.v| * w + |b.v| * |y.v|) (F.lin a r b y).v := by
  have h1 := h.smul a.v
  have h2 : ρ.Near 0 (b.v * y.v) (|b.v| * |y.v|) (b.v * y.v) := Near.prod _ _
  rcases hF.lin a r b y with e | e | e <;> rw [e]
  · exact (h1.round.add (h2.round.mono (by omega))).round
  · exact ((h1.mono (Nat.le_succ k)).add (h2.round.mono (by omega))).round
  · exact (h1.round.add (h2.mono (by omega))).round

end Rounding

open Rounding

/-- the exact sum of products -/
def exactSum {ρ : Rounding} (M : Multiset (Fp ρ × Fp ρ)) : ℝ := (M.map fun p => p.1.v * p.2.v).sum

/-- the sum of the sizes of the products -/
def sizeSum {ρ : Rounding} (M : Multiset (Fp ρ × Fp ρ)) : ℝ :=
  (M.map fun p => |p.1.v| * |p.2.v|).sum

theorem exactSum_add {ρ : Rounding} (M N : Multiset (Fp ρ × Fp ρ)) :
    exactSum (M + N) = exactSum M + exactSum N := by simp [exactSum]
theorem sizeSum_add {ρ : Rounding} (M N : Multiset (Fp ρ × Fp ρ)) :
    sizeSum (M + N) = sizeSum M + sizeSum N := by simp [sizeSum]

/-- a sum of products evaluated in any order -/
theorem SumTree.near {ρ : Rounding} {F : Fpu (Fp ρ)} (hF : F.Rounds) (t : SumTree (Fp ρ)) :
    ρ.Near t.depth (exactSum t.leaves) (sizeSum t.leaves) (t.eval F).v := by
  induction t with
  | zero => exact Near.zero
  | mac vec a b s ih =>
    have e1 : exactSum (SumTree.mac vec a b s).leaves = a.v * b.v + exactSum s.leaves := by
      simp [SumTree.leaves, exactSum]
    have e2 : sizeSum (SumTree.mac vec a b s).leaves = |a.v| * |b.v| + sizeSum s.leaves := by
      simp [SumTree.leaves, sizeSum]
    rw [e1, e2]
    cases vec
    · exact ih.mac hF.smac a b
    · exact ih.mac hF.vmac a b
  | add s t ih1 ih2 =>
    simp only [SumTree.leaves, exactSum_add, sizeSum_add]
    exact ((ih1.mono (le_max_left _ _)).add (ih2.mono (le_max_right _ _))).round

/-- the usual constant: `(1+u)^k - 1 ≤ k u / (1 - k u)` -/
theorem Rounding.g_le (ρ : Rounding) (k : Nat) (h : k * ρ.u < 1) :
    ρ.g k ≤ k * ρ.u / (1 - k * ρ.u) := by
  have hu := ρ.u_nonneg
  have hpos : (0 : ℝ) < 1 - k * ρ.u := by linarith
  rw [le_div_iff₀ hpos]
  rcases Nat.eq_zero_or_pos k with rfl | hk
  · simp [Rounding.g]
  have hu1 : ρ.u < 1 := by
    have : (1 : ℝ) ≤ k := by exact_mod_cast hk
    nlinarith
  have b1 : 1 - k * ρ.u ≤ (1 - ρ.u) ^ k := by
    have := one_add_mul_le_pow (a := -ρ.u) (by linarith) k
    rw [mul_neg, ← sub_eq_add_neg, ← sub_eq_add_neg] at this
    exact this
  have b2 : (1 + ρ.u) ^ k * (1 - ρ.u) ^ k ≤ 1 := by
    rw [← mul_pow]
    exact pow_le_one₀ (by nlinarith) (by nlinarith)
  have b3 := mul_le_mul_of_nonneg_left b1 (le_trans zero_le_one (ρ.one_le_pow k))
  unfold Rounding.g
  nlinarith

end Verif
