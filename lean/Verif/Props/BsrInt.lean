/-
C13, C42  The conversions to BSR in the integer type of the library.
-/
import Verif.Model.BsrInt
import Verif.Props.MvStats

namespace Verif
open Model

theorem blockCount_ok {w : Nat} {k bd : Int} (hk : 0 ≤ k) (hb : 0 < bd) (h : k + bd ≤ intMax w) :
    blockCount w k bd = some ((k + bd - 1).tdiv bd) := by
  unfold blockCount
  rw [chk_in (by omega) h]
  simp only [Option.bind_eq_bind, Option.bind_some]
  rw [chk_in (by omega) (by omega), Option.bind_some]

theorem blockCount_none {w : Nat} {k bd : Int} (h : intMax w < k + bd) : blockCount w k bd = none := by
  unfold blockCount
  have : chk w (k + bd) = none := by
    unfold chk
    rw [if_neg (by omega)]
  rw [this]
  rfl

/-- **C13, range of the block counts.**  If the number of rows plus the block size and the number of columns plus the block
size are representable, counting the blocks in the integers of the library is counting them in unbounded integers,
whatever the other arguments are. -/
theorem C13_count_range (w : Nat) (m n base : Int) (ptr ind : Option (List Int)) (bd : Int)
    (rp : Option (List Int)) (z : Option Int) (hm : m + bd ≤ intMax w) (hn : n + bd ≤ intMax w) :
    csr2bsrNnzInt w m n base ptr ind bd rp z = csr2bsrNnz m n base ptr ind bd rp z := by
  unfold csr2bsrNnzInt csr2bsrNnz
  by_cases h : m < 0 ∨ n < 0 ∨ bd ≤ 0
  · rw [if_pos h, if_pos h]
  rw [if_neg h, if_neg h]
  rcases ptr with _ | ptr <;> rcases ind with _ | ind <;> rcases rp with _ | rp <;> rcases z with _ | z <;> try rfl
  simp only
  by_cases h0 : m = 0 ∨ n = 0
  · rw [if_pos h0, if_pos h0]
  rw [if_neg h0, if_neg h0]
  by_cases h1 : base ≠ 0 ∧ base ≠ 1
  · rw [if_pos h1, if_pos h1]
  rw [if_neg h1, if_neg h1, blockCount_ok (by omega) (by omega) hm, blockCount_ok (by omega) (by omega) hn]
  unfold csr2bsrNnzCore
  simp only [Option.bind_eq_bind, Option.bind_some, Option.bind_assoc]

/-- **C13, overflow (F110).**  If one of the two sums is not representable, the call that counts the blocks is undefined
for every matrix that is not empty, although the number of blocks is small: no check refuses the block size. -/
theorem C13_count_overflow (w : Nat) (m n base : Int) (ptr ind : List Int) (bd : Int) (rp : List Int) (z : Int)
    (hm : 0 < m) (hn : 0 < n) (hb : 0 < bd) (hbase : base = 0 ∨ base = 1)
    (h : intMax w < m + bd ∨ intMax w < n + bd) :
    csr2bsrNnzInt w m n base (some ptr) (some ind) bd (some rp) (some z) = none := by
  unfold csr2bsrNnzInt
  rw [if_neg (by omega)]
  simp only
  rw [if_neg (by omega), if_neg (by omega)]
  rcases h with h | h
  · rw [blockCount_none h]
    rfl
  · rw [blockCount_none h]
    cases blockCount w m bd <;> rfl

/-- **C42, range of the values.**  If the number of cells is representable, aoclsparse_convert_bsr sets every cell of the
new array to zero; otherwise (F110) it is undefined, although the array is allocated by a 64-bit size. -/
theorem C42_zero_range {R : Type} (w : Nat) (nz bd : Nat) (hb : 0 < bd) (zero : R) (val : List R)
    (hl : val.length = nz * bd * bd) :
    ((nz * bd * bd : Nat) ≤ intMax w → bsrZero w nz bd zero val = some (List.replicate (nz * bd * bd) zero)) ∧
      (intMax w < (nz * bd * bd : Nat) → bsrZero w nz bd zero val = none) := by
  have e1 : (nz : Int) * bd = ((nz * bd : Nat) : Int) := by push_cast; ring
  have e2 : ((nz * bd : Nat) : Int) * bd = ((nz * bd * bd : Nat) : Int) := by push_cast; ring
  have hle : nz * bd ≤ nz * bd * bd := Nat.le_mul_of_pos_right _ hb
  constructor
  · intro h
    unfold bsrZero
    rw [e1, chk_in (by omega) (by omega)]
    simp only [Option.bind_eq_bind, Option.bind_some]
    rw [e2, chk_in (by omega) h, Option.bind_some]
    obtain ⟨v, e, h1, h2⟩ := forC_inv_nat (n := nz * bd * bd) (s := val) (f := fun i v => wr v i zero)
      (P := fun i v => v.length = nz * bd * bd ∧ ∀ k, k < i → v[k]? = some zero)
      ⟨hl, fun k hk => absurd hk (Nat.not_lt_zero _)⟩
      (by
        rintro i v hi ⟨h1, h2⟩
        refine ⟨v.set i zero, wr_ofNat (by omega), by simpa using h1, ?_⟩
        intro k hk
        rw [List.getElem?_set]
        by_cases hki : i = k
        · subst hki
          rw [if_pos rfl, if_pos (by omega)]
        · rw [if_neg hki]
          exact h2 k (by omega))
    rw [e]
    congr 1
    refine List.ext_getElem? fun k => ?_
    rw [List.getElem?_replicate]
    split
    · exact h2 k (by assumption)
    · rw [List.getElem?_eq_none (by omega)]
  · intro h
    unfold bsrZero
    rw [e1]
    cases hc : chk w ((nz * bd : Nat) : Int) with
    | none => rfl
    | some a =>
      rw [chk_eq hc]
      simp only [Option.bind_eq_bind, Option.bind_some]
      rw [e2]
      have : chk w ((nz * bd * bd : Nat) : Int) = none := by
        unfold chk
        rw [if_neg (by omega)]
      rw [this]
      rfl

/-! ### cases that meet the hypotheses -/

example := C13_count_range 32 3 5 1 (some [1, 3, 5, 6]) (some [4, 1, 2, 3, 5]) 2 (some [0, 0, 0]) (some 0)
  (by decide) (by decide)

/-- two rows and the largest block size -/
example := C13_count_overflow 32 2 2 0 [0, 1, 2] [0, 1] (2 ^ 31 - 1) [0, 0] 0
  (by decide) (by decide) (by decide) (by decide) (by decide)

/-- one block of size 46341 with 32-bit integers -/
example (val : List Int) (h : val.length = 1 * 46341 * 46341) :=
  (C42_zero_range 32 1 46341 (by decide) 0 val h).2 (by decide)

example := (C42_zero_range 32 2 2 (by decide) (0 : Int) [1, 2, 3, 4, 5, 6, 7, 8] rfl).1 (by decide)

end Verif
