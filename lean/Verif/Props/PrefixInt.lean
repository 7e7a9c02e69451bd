/-
C37  The row pointers of results (sums, products, conversions to BSR) in machine integers.
-/
import Verif.Model.PrefixInt
import Mathlib.Algebra.BigOperators.Intervals
import Mathlib.Algebra.Order.BigOperators.Group.Finset
import Mathlib.Tactic.IntervalCases
import Mathlib.Tactic.Linarith

namespace Verif
open Model

theorem narrow_of_range {x : Int} (h0 : 0 ≤ x) (h : x ≤ intMax 32) : narrow 32 x = x := by
  have : intMax 32 = 2147483647 := by decide
  unfold narrow
  rw [Int.bmod_def]
  omega

/-- the sum of the counts of rows `0 … i-1`, stored at `1 … i` -/
def countSum (c : Nat → Int) (i : Nat) : Int := ∑ j ∈ Finset.range i, c (j + 1)

theorem countSum_succ (c : Nat → Int) (i : Nat) : countSum c (i + 1) = countSum c i + c (i + 1) :=
  Finset.sum_range_succ _ _

theorem countSum_mono {c : Nat → Int} {m : Nat} (hc : ∀ i, 1 ≤ i → i ≤ m → 0 ≤ c i) {i : Nat} (hi : i ≤ m) :
    0 ≤ countSum c i ∧ countSum c i ≤ countSum c m := by
  constructor
  · refine Finset.sum_nonneg fun j hj => hc _ (by omega) ?_
    have := Finset.mem_range.mp hj
    omega
  · refine Finset.sum_le_sum_of_subset_of_nonneg (fun j hj => ?_) (fun j hj _ => hc _ (by omega) ?_)
    · have := Finset.mem_range.mp hj
      exact Finset.mem_range.mpr (by omega)
    · have := Finset.mem_range.mp hj
      omega

theorem countSum_le {c : Nat → Int} {m : Nat} (hc : ∀ i, 1 ≤ i → i ≤ m → c i ≤ intMax 32) {i : Nat} (hi : i ≤ m) :
    countSum c i ≤ i * intMax 32 := by
  induction i with
  | zero => simp [countSum]
  | succ i ih =>
    rw [countSum_succ]
    have h1 := ih (by omega)
    have h2 := hc (i + 1) (by omega) hi
    push_cast
    linarith

/-- **C37, row pointers.**  With 32-bit integers, for every number of rows and every count per row that the type can hold:
the row pointers of a result are computed without overflow; if the last one is representable they are the running sums of
the counts and nothing else of the array changes; otherwise the call is refused. -/
theorem C37_row_pointers (m : Nat) (hm : (m : Int) ≤ intMax 32) (start : Int) (hs : start = 0 ∨ start = 1)
    (ptr : List Int) (hl : m < ptr.length) (c : Nat → Int) (hp : ∀ i, 1 ≤ i → i ≤ m → ptr[i]? = some (c i))
    (hc : ∀ i, 1 ≤ i → i ≤ m → 0 ≤ c i ∧ c i ≤ intMax 32) :
    (start + countSum c m ≤ intMax 32 → ∃ out, rowPointers 64 32 m start ptr = some (some out) ∧
      out.length = ptr.length ∧
      ∀ i, out[i]? = if 1 ≤ i ∧ i ≤ m then some (start + countSum c i) else ptr[i]?) ∧
    (intMax 32 < start + countSum c m → rowPointers 64 32 m start ptr = some none) := by
  have i32 : intMax 32 = 2147483647 := by decide
  have i64 : intMax 64 = 9223372036854775807 := by decide
  have m64 : intMin 64 ≤ 0 := by decide
  obtain ⟨s, e, h1, h2, h3⟩ := forC_inv (lo := 1) (hi := (m : Int) + 1) (s := (start, ptr))
    (f := fun i s => do
      let c ← rd s.2 i
      let t ← chk 64 (s.1 + c)
      let ptr ← wr s.2 i (narrow 32 t)
      some (t, ptr))
    (P := fun (j : Int) (s : Int × List Int) => s.1 = start + countSum c (j.toNat - 1) ∧ s.2.length = ptr.length ∧
      ∀ i : Nat, s.2[i]? = if 1 ≤ i ∧ (i : Int) < j then some (narrow 32 (start + countSum c i)) else ptr[i]?)
    (by omega)
    (by
      refine ⟨by simp [countSum], rfl, ?_⟩
      intro i
      rw [if_neg (by omega)])
    (by
      rintro j ⟨t, q⟩ hj1 hj2 ⟨h1, h2, h3⟩
      obtain ⟨k, rfl⟩ : ∃ k : Nat, j = ((k + 1 : Nat) : Int) := ⟨j.toNat - 1, by omega⟩
      have hk : k + 1 ≤ m := by omega
      simp only at h1 h2 h3
      rw [show ((k + 1 : Nat) : Int).toNat - 1 = k by omega] at h1
      have hq : q[k + 1]? = some (c (k + 1)) := by
        rw [h3, if_neg (by omega)]
        exact hp _ (by omega) hk
      have hr : rd q ((k + 1 : Nat) : Int) = some (c (k + 1)) := by
        rw [rd_ofNat]
        exact hq
      have hb := countSum_le (c := c) (m := m) (fun i a b => (hc i a b).2) hk
      have hn := (countSum_mono (c := c) (m := m) (fun i a b => (hc i a b).1) hk).1
      have hs' := countSum_succ c k
      have hch : chk 64 (t + c (k + 1)) = some (start + countSum c (k + 1)) := by
        unfold chk
        rw [if_pos, h1, hs', add_assoc]
        rw [i32] at hb hm
        have : ((k + 1 : Nat) : Int) * 2147483647 ≤ 2147483647 * 2147483647 := by
          have : ((k + 1 : Nat) : Int) ≤ 2147483647 := by omega
          linarith
        constructor <;> omega
      simp only [hr, Option.bind_eq_bind, Option.bind_some, hch]
      rw [wr_ofNat (by omega), Option.bind_some]
      refine ⟨_, rfl, ?_, by simpa using h2, ?_⟩
      · simp only
        rw [show (((k + 1 : Nat) : Int) + 1).toNat - 1 = k + 1 by omega]
      · intro i
        simp only
        rw [List.getElem?_set]
        by_cases hi : k + 1 = i
        · subst hi
          rw [if_pos rfl, if_pos (by omega), if_pos (by omega)]
        · rw [if_neg hi, h3]
          by_cases hc2 : 1 ≤ i ∧ (i : Int) < ((k + 1 : Nat) : Int)
          · rw [if_pos hc2, if_pos (by omega)]
          · rw [if_neg hc2, if_neg (by omega)])
  rw [show ((m : Int) + 1).toNat - 1 = m by omega] at h1
  have e' : prefixSumInt 64 32 m start ptr = some s := e
  have ho : sumOverflow 64 32 s.1 = decide (start + countSum c m > intMax 32) := by
    unfold sumOverflow
    rw [if_pos (by decide), h1]
  unfold rowPointers
  rw [e']
  simp only [Option.bind_eq_bind, Option.bind_some, ho]
  constructor
  · intro h
    rw [if_neg (by simpa using h)]
    refine ⟨_, rfl, h2, ?_⟩
    intro i
    rw [h3]
    by_cases hi : 1 ≤ i ∧ i ≤ m
    · have hb := countSum_mono (c := c) (m := m) (fun i a b => (hc i a b).1) hi.2
      rw [if_pos (by omega), if_pos hi, narrow_of_range (by omega) (by omega)]
    · rw [if_neg (by omega), if_neg hi]
  · intro h
    rw [if_pos (by simpa using h)]

/-! ### cases that meet the hypotheses -/

/-- three rows with 2, 0 and 3 entries -/
example := (C37_row_pointers 3 (by decide) 1 (Or.inr rfl) [1, 2, 0, 3] (by decide)
  (fun i => if i = 1 then 2 else if i = 2 then 0 else 3)
  (by intro i h1 h2; interval_cases i <;> rfl) (by intro i h1 h2; interval_cases i <;> decide)).1 (by decide)

example : rowPointers 64 32 3 1 [1, 2, 0, 3] = some (some [1, 3, 3, 6]) := by decide

/-- two rows with 2^30 entries each: refused -/
example : rowPointers 64 32 2 0 [0, 2 ^ 30, 2 ^ 30] = some none := by decide

end Verif
