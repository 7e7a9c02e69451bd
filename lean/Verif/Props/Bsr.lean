/-
C13: the BSR format — counting the blocks, the conversion, the matrix it denotes.
-/
import Verif.Proofs.Bsr3

namespace Verif
open Model Finset

variable {R : Type}

/-- Block row `I`, block column `b` of the partition into `bd` x `bd` blocks holds a stored entry. -/
def Csr.BlockUsed (A : Csr R) (bd I : Nat) (b : Int) : Prop :=
  ∃ e ∈ A.entries, e.1 / bd = I ∧ e.2.1 / (bd : Int) = b

/-- number of blocks of size `bd` needed to cover `m` -/
def blocksFor (m bd : Nat) : Nat := (m + bd - 1) / bd

theorem mem_blkCols_iff {A : Csr R} {bd I : Nat} (hbd : 0 < bd) (hI : I < nblk A.m bd)
    {b : Int} : b ∈ A.blkCols bd I ↔ A.BlockUsed bd I b := by
  unfold Csr.blkCols Csr.BlockUsed
  rw [mem_firsts, List.mem_map]
  constructor
  · rintro ⟨e, he, rfl⟩
    obtain ⟨h1, h2⟩ := Csr.mem_winEntries.1 he
    unfold blkRows at h1
    refine ⟨(I * bd + e.1, e.2.1, e.2.2), Csr.mem_entries.2 ⟨by simp only; omega, h2⟩, ?_, rfl⟩
    simp only
    rw [Nat.mul_comm, Nat.mul_add_div hbd, Nat.div_eq_of_lt (by omega)]
    rfl
  · rintro ⟨e, he, rfl, rfl⟩
    obtain ⟨h1, h2⟩ := Csr.mem_entries.1 he
    refine ⟨(e.1 % bd, e.2.1, e.2.2), Csr.mem_winEntries.2 ⟨?_, ?_⟩, rfl⟩
    · have := Nat.mod_lt e.1 hbd
      have := Nat.div_add_mod' e.1 bd
      simp only [blkRows]
      omega
    · simp only
      rw [Nat.div_add_mod' e.1 bd]
      exact h2

/-- The whole conversion.  For every valid CSR matrix with at least one row and column and every
block size, the counting call succeeds and returns a count `nnzb` and row pointers `rp` such that
the converting call, in either block order and with any column buffer of at least `nnzb` and any
value buffer of at least `nnzb * bd * bd` elements, stays within all arrays and produces a
well-formed BSR structure of exactly `nnzb` blocks with strictly increasing block columns per block
row, which stores precisely the blocks holding an entry and — when the buffer was zeroed by the
caller and the matrix has no repeated entries — denotes the same matrix, padded with zeros up to the
multiple of the block size. -/
theorem C13_csr2bsr (A : Csr R) (hA : A.WF) (bd : Nat) (hbd : 0 < bd) (hm : A.m ≠ 0) (hn : A.n ≠ 0)
    (rp0 : List Int) (z0 : Int) (hrp : rp0.length = blocksFor A.m bd + 1) :
    ∃ (rp : List Int) (nnzb : Nat),
      csr2bsrNnz A.m A.n A.base (some A.ptr) (some A.ind) bd (some rp0) (some z0)
        = some (.success, some rp, some (nnzb : Int)) ∧
      ∀ (ro : Bool) (bind : List Int) (bval : List R), nnzb ≤ bind.length →
        nnzb * (bd * bd) ≤ bval.length →
        ∃ bi bv, csr2bsr ro A.m A.n A.base (some A.ptr) (some A.ind) (some A.val) bd (some bval)
            (some rp) (some bind) = some (.success, some bi, some bv) ∧
          bi.length = bind.length ∧ bv.length = bval.length ∧
          let B : Bsr R := { mb := blocksFor A.m bd, nb := blocksFor A.n bd, bd := bd
                             rowMajor := ro, base := A.base, ptr := rp, ind := bi, val := bv }
          B.WF ∧ B.p B.mb = A.base + nnzb ∧ B.SortedBlocks ∧
          (∀ I, I < B.mb → ∀ b, (∃ k, B.lo I ≤ k ∧ k < B.hi I ∧ B.col k = b) ↔ A.BlockUsed bd I b) ∧
          (∀ [Semiring R], A.NoDup → (∀ k, k < nnzb * (bd * bd) → bval[k]? = some 0) →
            ∀ i j, i < B.mb * bd → B.mat i j = A.mat i j) := by
  obtain ⟨rp, e1, h1, h2, h3⟩ := csr2bsrNnz_core hA hbd
    (g := List.replicate (((A.n : Int) + bd - 1).tdiv bd).toNat 0) (rp := rp0)
    (by simp [nblk_cast hbd]) (by rw [hrp]; exact le_refl _)
  refine ⟨rp, offs (A.blkCols bd) (nblk A.m bd), ?_, ?_⟩
  · unfold csr2bsrNnz
    rw [if_neg (by omega)]
    simp only
    rw [if_neg (by omega), if_neg (by have := hA.base01; omega), e1]
    rfl
  · intro ro bind bval hb1 hb2
    obtain ⟨bi, bv, e2, l1, l2, q1, q2, q3, q4⟩ := csr2bsr_spec hA (ro := ro) hbd
      (by rw [h1, hrp]; rfl) h2 hb1 hb2
    refine ⟨bi, bv, ?_, l1, l2, q1, ?_, q2, ?_, ?_⟩
    · unfold csr2bsr
      rw [if_neg (by omega), if_neg (by omega), if_neg (by omega),
        if_neg (by have := hA.base01; omega)]
      simp only [e2]
      rfl
    · show rp.getD (nblk A.m bd) 0 = _
      rw [List.getD_eq_getElem?_getD, h2 _ (le_refl _)]
      rfl
    · intro I hI b
      rw [← mem_blkCols_iff hbd hI]
      exact q3 I hI b
    · intro _ hnd hz i j hi
      refine q4 hnd hz i j ?_
      rw [Nat.div_lt_iff_lt_mul hbd]
      exact hi

/-- a 3 x 5 matrix with unsorted rows whose blocks are met out of order -/
def bsrEx : Csr Int :=
  { m := 3, n := 5, base := 1, ptr := [1, 3, 5, 6], ind := [4, 1, 2, 3, 5], val := [7, 8, 9, 6, 5] }

/-- the hypotheses of `C13_csr2bsr` hold of a concrete matrix -/
example : bsrEx.WF ∧ bsrEx.NoDup ∧ bsrEx.m ≠ 0 ∧ bsrEx.n ≠ 0 := by
  decide +kernel

/-- what the conversion produces on it: blocks sorted, columns padded -/
example : csr2bsrNnz bsrEx.m bsrEx.n bsrEx.base (some bsrEx.ptr) (some bsrEx.ind) 2
    (some [0, 0, 0]) (some 0) = some (.success, some [1, 3, 4], some 3) := by decide +kernel

example : csr2bsr true bsrEx.m bsrEx.n bsrEx.base (some bsrEx.ptr) (some bsrEx.ind) (some bsrEx.val)
    2 (some (List.replicate 12 0)) (some [1, 3, 4]) (some [0, 0, 0])
      = some (.success, some [1, 2, 3], some [8, 0, 0, 9, 0, 7, 6, 0, 5, 0, 0, 0]) := by
  decide +kernel

/-- The zeroed value buffer is needed: the conversion does not clear the padding, so a buffer that
holds other values yields a BSR structure denoting another matrix, with status success. -/
theorem C13_dirty_buffer :
    ∃ (A : Csr Int) (bd : Nat) (rp bi : List Int) (bval bv : List Int), A.WF ∧ A.NoDup ∧ 0 < bd ∧
      csr2bsrNnz A.m A.n A.base (some A.ptr) (some A.ind) bd (some rp) (some 0)
        = some (.success, some rp, some 1) ∧
      csr2bsr true A.m A.n A.base (some A.ptr) (some A.ind) (some A.val) bd (some bval) (some rp)
        (some [0]) = some (.success, some bi, some bv) ∧
      ({ mb := 1, nb := 1, bd := bd, rowMajor := true, base := A.base, ptr := rp, ind := bi,
         val := bv } : Bsr Int).mat 0 1 ≠ A.mat 0 1 := by
  refine ⟨{ m := 2, n := 2, base := 0, ptr := [0, 1, 2], ind := [0, 1], val := [3, 4] }, 2, [0, 1],
    [0], [1, 1, 1, 1], [3, 1, 1, 4], by decide +kernel, by decide +kernel, by decide,
    by decide +kernel, by decide +kernel, by decide +kernel⟩

/-- Argument checks of the counting call: the status is determined by the first failing check and the
outputs are left alone. -/
theorem C13_nnz_checks (m n base : Int) (ptr ind : Option (List Int)) (bd : Int)
    (rp : Option (List Int)) (z : Option Int) :
    ((m < 0 ∨ n < 0 ∨ bd ≤ 0) →
      csr2bsrNnz m n base ptr ind bd rp z = some (.invalidSize, rp, z)) ∧
    (¬(m < 0 ∨ n < 0 ∨ bd ≤ 0) → (ptr = none ∨ ind = none ∨ rp = none ∨ z = none) →
      csr2bsrNnz m n base ptr ind bd rp z = some (.invalidPointer, rp, z)) := by
  refine ⟨fun h => by unfold csr2bsrNnz; rw [if_pos h], fun h h' => ?_⟩
  unfold csr2bsrNnz
  rw [if_neg h]
  rcases ptr with _ | ptr <;> rcases ind with _ | ind <;> rcases rp with _ | rp <;>
    rcases z with _ | z <;> simp_all

/-- With no rows or no columns the counting call reports zero blocks and leaves the row pointer
array as it was: the caller must not use it. -/
theorem C13_nnz_empty (m n base : Int) (ptr ind rp : List Int) (bd z : Int) (hbd : 0 < bd)
    (hm : 0 ≤ m) (hn : 0 ≤ n) (h0 : m = 0 ∨ n = 0) :
    csr2bsrNnz m n base (some ptr) (some ind) bd (some rp) (some z)
      = some (.success, some rp, some 0) := by
  unfold csr2bsrNnz
  rw [if_neg (by omega)]
  simp only
  rw [if_pos h0]

end Verif
