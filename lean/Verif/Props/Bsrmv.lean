/-
C47: the BSR matrix-vector product.
-/
import Verif.Props.Bsr
import Verif.Proofs.Bsrmv

namespace Verif
open Model Finset

variable {R : Type}

/-- For every well-formed BSR structure with column-major blocks, every block size, data type and
instruction set — that is, whichever specialised kernel is selected — the call succeeds, reads and
writes within the arrays and leaves `alpha * B * x + beta * y` in the first `mb * bd` elements of y,
the others unchanged. -/
theorem C47_bsrmv [CommSemiring R] [DecidableEq R] (B : Bsr R) (hB : B.WF)
    (hcol : B.rowMajor = false) (hmb : B.mb ≠ 0) (hnb : B.nb ≠ 0) (ty : ScalarTy) (avx512 : Bool)
    (alpha beta : R) (d : Descr) (hd : d.base = B.base) (ht : d.type = 0) (x y : List R)
    (hx : B.nb * B.bd ≤ x.length) (hy : B.mb * B.bd ≤ y.length) :
    ∃ y', bsrmv ty avx512 111 (some alpha) B.mb B.nb B.bd (some B.val) (some B.ind) (some B.ptr)
        (some d) (some x) (some beta) (some y) = some (.success, some y') ∧
      IsMv alpha beta B.mat (B.mb * B.bd) (B.nb * B.bd) x y y' := by
  obtain ⟨y', e, h⟩ := bsrRows_mv hB (alpha := alpha) (beta := beta) (x := x) (y := y) hy
    (bsrKernel_ok hB hcol hx hy ty avx512)
  refine ⟨y', ?_, h⟩
  unfold bsrmv
  have := hB.base01
  have := hB.bd_pos
  simp only
  rw [if_neg (by omega), if_neg (by omega), if_neg (by decide), if_neg (by omega),
    if_neg (by omega), hd, e]
  rfl

/-- Converting a CSR matrix to BSR and multiplying gives the same as the CSR matrix: the rows of the
matrix hold `alpha * A * x + beta * y`; the padding rows, if any, are only scaled by beta. -/
theorem C47_csr_bsr_mv [CommSemiring R] [DecidableEq R] (A : Csr R) (hA : A.WF) (hnd : A.NoDup)
    (hm : A.m ≠ 0) (hn : A.n ≠ 0) (bd : Nat) (hbd : 0 < bd)
    (rp0 : List Int) (hrp : rp0.length = blocksFor A.m bd + 1)
    (ty : ScalarTy) (avx512 : Bool) (alpha beta : R) (d : Descr) (hd : d.base = A.base)
    (ht : d.type = 0) (x y : List R) (hx : blocksFor A.n bd * bd ≤ x.length)
    (hy : blocksFor A.m bd * bd ≤ y.length) :
    ∃ (rp : List Int) (nnzb : Nat),
      csr2bsrNnz A.m A.n A.base (some A.ptr) (some A.ind) bd (some rp0) (some 0)
        = some (.success, some rp, some (nnzb : Int)) ∧
      ∃ bi bv, csr2bsr false A.m A.n A.base (some A.ptr) (some A.ind) (some A.val) bd
          (some (List.replicate (nnzb * (bd * bd)) 0)) (some rp) (some (List.replicate nnzb 0))
          = some (.success, some bi, some bv) ∧
      ∃ y', bsrmv ty avx512 111 (some alpha) (blocksFor A.m bd) (blocksFor A.n bd) bd (some bv)
          (some bi) (some rp) (some d) (some x) (some beta) (some y) = some (.success, some y') ∧
        IsMv alpha beta A.mat (blocksFor A.m bd * bd) A.n x y y' := by
  obtain ⟨rp, nnzb, e1, hc⟩ := C13_csr2bsr A hA bd hbd hm hn rp0 0 hrp
  obtain ⟨bi, bv, e2, -, -, hwf, -, -, -, hmat⟩ := hc false (List.replicate nnzb 0)
    (List.replicate (nnzb * (bd * bd)) 0) (by simp) (by simp)
  have hmat := hmat hnd (fun k hk => by rw [List.getElem?_replicate, if_pos hk])
  have hpos : ∀ k, k ≠ 0 → blocksFor k bd ≠ 0 := by
    intro k hk
    unfold blocksFor
    rw [Nat.ne_zero_iff_zero_lt]
    exact Nat.div_pos (by omega) hbd
  obtain ⟨y', e3, hmv⟩ := C47_bsrmv _ hwf rfl (hpos _ hm) (hpos _ hn) ty avx512 alpha beta d hd ht x y
    hx hy
  refine ⟨rp, nnzb, e1, bi, bv, e2, y', e3, hmv.length, ?_, hmv.rest⟩
  intro i hi
  rw [hmv.rows i hi]
  congr 3
  unfold matVec
  have hle : A.n ≤ blocksFor A.n bd * bd := by
    unfold blocksFor
    have := Nat.div_add_mod' (A.n + bd - 1) bd
    have := Nat.mod_lt (A.n + bd - 1) hbd
    omega
  rw [← Nat.add_sub_cancel' hle, sum_range_add]
  have h0 : ∀ j, A.n ≤ j → A.mat i j = 0 := by
    intro j hj
    by_cases him : i < A.m
    · rw [Csr.mat, Csr.entry_eq_get (hnd i him), Csr.get_of_not_mem]
      intro v hv
      have := (Csr.row_range hA hv).2
      simp only at this
      omega
    · simp [Csr.mat, Csr.entry, Csr.row_of_ge hA (show A.m ≤ i by omega)]
  rw [sum_eq_zero (s := range (blocksFor A.n bd * bd - A.n)), add_zero]
  · apply sum_congr rfl
    intro j _
    rw [hmat i j hi]
  · intro j _
    rw [hmat i _ hi, h0 _ (by omega), zero_mul]

/-- a concrete structure meeting the hypotheses: 2 x 2 blocks of size 4 (a vector kernel for double) -/
def bsrmvEx : Bsr Int :=
  { mb := 2, nb := 2, bd := 4, rowMajor := false, base := 0, ptr := [0, 1, 3], ind := [1, 0, 1]
    val := (List.range 48).map fun (k : Nat) => (k : Int) }

example : bsrmvEx.WF :=
  ⟨by decide, by decide, by decide, by decide, by decide, by decide, by decide, by
    intro k hk
    have : k < 3 := by
      have h : bsrmvEx.p bsrmvEx.mb - bsrmvEx.base = 3 := by decide
      omega
    have hk3 : k = 0 ∨ k = 1 ∨ k = 2 := by omega
    rcases hk3 with rfl | rfl | rfl <;> decide⟩

example : bsrmv .double false 111 (some 2) 2 2 4 (some bsrmvEx.val) (some bsrmvEx.ind)
    (some bsrmvEx.ptr) (some ⟨0, 0, 0, 0⟩) (some [1, 2, 3, 4, 5, 6, 7, 8]) (some 3)
    (some [1, 1, 1, 1, 1, 1, 1, 1])
    = some (.success, some [355, 407, 459, 511, 2499, 2571, 2643, 2715]) := by decide +kernel

/-- With no block columns (or no block rows) the direct call succeeds without applying beta: y keeps
its old value although the product asks for `beta * y`. -/
theorem C47_empty_no_beta :
    ∃ (y : List Int), bsrmv .double false 111 (some 1) 1 0 2 (some []) (some []) (some [0, 0])
      (some ⟨0, 0, 0, 0⟩) (some []) (some (3 : Int)) (some y) = some (.success, some y) ∧
      (3 : Int) * y.getD 0 0 ≠ y.getD 0 0 := by
  exact ⟨[1, 1], by decide +kernel, by decide⟩

/-- Requests the product does not support are refused and leave y alone: transposes and
non-general descriptors. -/
theorem C47_refused [CommSemiring R] [DecidableEq R] (ty : ScalarTy) (avx512 : Bool) (op : Nat)
    (alpha beta : R) (mb nb bd : Int) (val : Option (List R)) (ind ptr : Option (List Int)) (d : Descr)
    (x y : Option (List R)) (hb : d.base = 0 ∨ d.base = 1) (h : d.type ≠ 0 ∨ op ≠ 111) :
    bsrmv ty avx512 op (some alpha) mb nb bd val ind ptr (some d) x (some beta) y
      = some (.notImplemented, y) := by
  unfold bsrmv
  simp only
  rw [if_neg (by omega)]
  by_cases ht : d.type ≠ 0
  · rw [if_pos ht]
  · rw [if_neg ht, if_pos (by omega)]

end Verif
