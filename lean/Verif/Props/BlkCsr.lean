/-
C14: the masked block CSR format (nR x 8 blocks).
-/
import Verif.Proofs.BlkCsrMv

namespace Verif
open Model Finset

variable {R : Type}

theorem push_vals_length (nR : Nat) (bl : List (Int × (Nat → List (Int × R)))) :
    (BlkOut.push emptyOut nR bl).vals.length = offs (fun s => bl.flatMap fun b => b.2 s) nR := by
  induction bl with
  | nil => simp [BlkOut.push, emptyOut, offs]
  | cons b bl ih =>
    have h1 : (BlkOut.push emptyOut nR (b :: bl)).vals.length
        = offs b.2 nR + (BlkOut.push emptyOut nR bl).vals.length := by
      simp [BlkOut.push, emptyOut, offs, List.length_flatMap]
    rw [h1, ih]
    clear h1 ih
    induction nR with
    | zero => simp
    | succ k ih => rw [offs_succ, offs_succ, offs_succ, ← ih]; simp; omega

theorem blocks_vals_length {A : Csr R} (h : A.WF) (hs : A.Sorted) (hnd : A.NoDup) {nR : Nat}
    (hnR : 0 < nR) (hn8 : 8 ≤ A.n) (hn : (A.n : Int) ≤ blkNoCol) : ∀ g, g ≤ ngrp A.m nR →
    ((BlkOut.push emptyOut nR (blocksUpto A nR g)).vals.length : Int)
      = A.p (min A.m (nR * g)) - A.base := by
  intro g
  induction g with
  | zero =>
    intro _
    have := h.ptr_first
    simp [BlkOut.push, emptyOut, blocksUpto, this]
  | succ g ih =>
    intro hg
    have hgm := (lt_ngrp hnR).1 (show g < ngrp A.m nR by omega)
    have h1 := ih (by omega)
    have hR := grp_rows h hs hnd nR g
    have h2 := (cutBlocks_spec (by omega) hn (A.ind.length + 1) (grpRows A nR g) hR
      (grp_left_lt h hgm)).2.2.1
    have h3 := grp_left h (nR := nR) (g := g) (grpSize A nR g) (by unfold grpSize; omega)
    rw [Nat.min_eq_right (by omega)] at h1
    rw [show min A.m (nR * (g + 1)) = nR * g + grpSize A nR g by
      unfold grpSize; rw [Nat.mul_succ]; omega]
    have h4 : (BlkOut.push emptyOut nR (blocksUpto A nR (g + 1))).vals.length
        = (BlkOut.push emptyOut nR (blocksUpto A nR g)).vals.length
          + (BlkOut.push emptyOut nR (grpBlocks A nR g)).vals.length := by
      simp [BlkOut.push, emptyOut, blocksUpto, List.range_succ, List.flatMap_append]
    have h5 : (BlkOut.push emptyOut nR (grpBlocks A nR g)).vals.length
        = left (grpSize A nR g) (grpRows A nR g) := by
      rw [push_vals_length, grpBlocks, offs_congr (rows' := grpRows A nR g) (fun s hs => h2 s hs), offs_eq,
        flatMap_range_ext hR.le _ hR.empty, ← offs_eq]
      rfl
    rw [h4, h5]
    push_cast
    omega

/-- **Conversion.**  For every CSR matrix with sorted rows, no duplicate entries and at least 8
columns (fewer than the largest `int`), and blocks of 1, 2 or 4 rows: the number of blocks `nb`
computed beforehand by the block-size search is at most the number of entries, and the conversion
into any buffers of at least m+1 pointers, `nb` columns, `nnz` values and `nb * nR` masks succeeds
without touching memory outside them.  The structure obtained has `nb` blocks, each of them inside
the matrix, and its rows, read through the masks, are exactly the rows of the matrix. -/
theorem C14_csr2blkcsr (A : Csr R) (hA : A.WF) (hs : A.Sorted) (hnd : A.NoDup) (hn8 : 8 ≤ A.n)
    (hn : A.n ≤ 2147483647) (nR : Nat) (hnR : nR = 1 ∨ nR = 2 ∨ nR = 4) :
    ∃ nb : Nat, nb ≤ A.nnz ∧
      cntBlocks nR A.m A.base A.ptr A.ind (A.ind.length + 1) = some (nb : Int) ∧
      ∀ (bptr bind : List Int) (bval : List R) (bm : List Nat), A.m + 1 ≤ bptr.length →
        nb ≤ bind.length → A.nnz ≤ bval.length → nb * nR ≤ bm.length →
        ∃ ptr ind val masks,
          csr2blkcsr A.m A.n A.nnz (some A.ptr) (some A.ind) (some A.val)
            ⟨some bptr, some bind, some bval, some bm⟩ nR A.base
            = some (.success, ⟨some ptr, some ind, some val, some masks⟩) ∧
          let B : BlkCsr R := ⟨A.m, A.n, A.base, nR, ptr, ind, masks, val⟩
          B.WF ∧ B.nblocks = nb ∧ ∀ i, i < A.m → B.row i = A.row i := by
  have hpos : 0 < nR := by omega
  have hn' : (A.n : Int) ≤ blkNoCol := by unfold blkNoCol; omega
  have hcnt := cntBlocks_spec hA hs hnd hpos hn'
  have hle := offs_blocks_le hA hs hnd hpos hn8 hn' (ngrp A.m nR) (le_refl _)
  have hG : A.m ≤ nR * ngrp A.m nR := by
    by_contra hc
    have := (lt_ngrp (m := A.m) (g := ngrp A.m nR) hpos).2 (by omega)
    omega
  rw [Nat.min_eq_left hG] at hle
  have hlast : A.p A.m = A.base + A.ind.length := hA.ptr_last
  refine ⟨_, ?_, hcnt, ?_⟩
  · unfold Csr.nnz; omega
  · intro bptr bind bval bm h1 h2 h3 h4
    have hvl := blocks_vals_length hA hs hnd hpos hn8 hn' (ngrp A.m nR) (le_refl _)
    rw [Nat.min_eq_left hG] at hvl
    obtain ⟨rp, hrp, e⟩ := csr2blkcsrCore_spec hA hs hnd hpos hn' (bptr := bptr) (bind := bind)
      (bval := bval) (masks := bm) h1 (by rw [blocksUpto_length]; exact h2)
      (by unfold Csr.nnz at h3; omega)
      (by rw [push_masks, List.length_map, cellsOf_length, blocksUpto_length]; exact h4)
    obtain ⟨hwf, hnb, hrow⟩ := blkOf_spec hA hs hnd hpos hn8 hn' hrp (bptr.drop (A.m + 1))
      (bind.drop (blocksUpto A nR (ngrp A.m nR)).length)
      (bval.drop (BlkOut.push emptyOut nR (blocksUpto A nR (ngrp A.m nR))).vals.length)
      (bm.drop (BlkOut.push emptyOut nR (blocksUpto A nR (ngrp A.m nR))).masks.length)
    refine ⟨_, _, _, _, ?_, hwf, ?_, hrow⟩
    · unfold csr2blkcsr
      simp only
      have := hA.ptr_len
      rw [if_neg (by omega), if_neg (by omega), if_neg (by omega), e]
      rfl
    · rw [← blocksUpto_length]; exact hnb

/-- **Block-size search.**  Whatever its percentages decide, the search runs without undefined
behaviour and returns 0, 2 or 4; a non-zero answer comes with the number of blocks that the
conversion for that block height produces. -/
theorem C14_opt_blksize (A : Csr R) (hA : A.WF) (hs : A.Sorted) (hnd : A.NoDup)
    (hn : A.n ≤ 2147483647) (t0 : Int) (early : Nat → Bool) (pick4 pick2 : Bool) :
    ∃ (b : Nat) (tot : Int),
      optBlksize A.m A.nnz A.base (some A.ptr) (some A.ind) (some t0) early pick4 pick2
        = some ((b : Int), some tot) ∧
      (b = 0 ∨ ((b = 2 ∨ b = 4) ∧
        cntBlocks b A.m A.base A.ptr A.ind (A.ind.length + 1) = some tot)) := by
  have hn' : (A.n : Int) ≤ blkNoCol := by unfold blkNoCol; omega
  have c1 := cntBlocks_spec hA hs hnd (nR := 1) (by omega) hn'
  have c2 := cntBlocks_spec hA hs hnd (nR := 2) (by omega) hn'
  have c4 := cntBlocks_spec hA hs hnd (nR := 4) (by omega) hn'
  simp only [Nat.cast_one, Nat.cast_ofNat] at c1 c2 c4
  unfold optBlksize
  simp only [c1, c2, c4, Option.bind_eq_bind, Option.bind_some]
  split
  · exact ⟨0, t0, rfl, .inl rfl⟩
  · split
    · exact ⟨0, t0, rfl, .inl rfl⟩
    · split
      · exact ⟨0, t0, rfl, .inl rfl⟩
      · split
        · exact ⟨0, t0, rfl, .inl rfl⟩
        · split
          · exact ⟨4, _, rfl, .inr ⟨.inr rfl, c4⟩⟩
          · split
            · exact ⟨2, _, rfl, .inr ⟨.inl rfl, c2⟩⟩
            · exact ⟨0, t0, rfl, .inl rfl⟩

/-- **Product.**  For every well-formed block structure of at least 8 columns with something in it,
the AVX-512 product stays inside the arrays and leaves `alpha * B * x + beta * y`. -/
theorem C14_blkcsrmv [Semiring R] [DecidableEq R] (B : BlkCsr R) (hB : B.WF)
    (hnR : B.nR = 1 ∨ B.nR = 2 ∨ B.nR = 4) (hm : B.m ≠ 0) (hn8 : 8 ≤ B.n) (nnz : Nat) (hz : nnz ≠ 0)
    (alpha beta : R) (d : Descr) (hd : d.base = B.base) (ht : d.type = 0 ∨ d.type = 1) (x y : List R)
    (hx : B.n ≤ x.length) (hy : B.m ≤ y.length) :
    ∃ y', blkcsrmv true 111 (some alpha) B.m B.n nnz (some B.masks) (some B.val) (some B.ind)
        (some B.ptr) (some d) (some x) (some beta) (some y) B.nR = some (.success, some y') ∧
      IsMv alpha beta B.mat B.m B.n x y y' := by
  obtain ⟨y', e, h⟩ := blkmvKernel_spec hB hx (alpha := alpha) (beta := beta) hy
  refine ⟨y', ?_, h⟩
  have := hB.base01
  unfold blkcsrmv
  simp only
  rw [if_neg (by decide), if_neg (by omega), if_neg (by omega), if_neg (by omega), if_neg (by omega),
    if_neg (by omega), if_neg (by omega), if_neg (by omega), if_pos (by omega), hd]
  simp only [Option.bind_eq_bind, Option.bind_some, e]

/-- **Conversion and product.**  Converting and multiplying gives the product with the CSR matrix. -/
theorem C14_csr_blk_mv [Semiring R] [DecidableEq R] (A : Csr R) (hA : A.WF) (hs : A.Sorted)
    (hnd : A.NoDup) (hm : A.m ≠ 0) (hn8 : 8 ≤ A.n) (hn : A.n ≤ 2147483647) (hz : A.nnz ≠ 0)
    (nR : Nat) (hnR : nR = 1 ∨ nR = 2 ∨ nR = 4) (g1 g2 : List Int) (g3 : List R) (g4 : List Nat)
    (h1 : g1.length = A.m + 1) (h2 : g2.length = A.nnz) (h3 : g3.length = A.nnz + nR * 8)
    (h4 : cntBlocks nR A.m A.base A.ptr A.ind (A.ind.length + 1) = some ((g4.length / nR : Nat) : Int))
    (alpha beta : R) (d : Descr) (hd : d.base = A.base) (ht : d.type = 0 ∨ d.type = 1) (x y : List R)
    (hx : A.n ≤ x.length) (hy : A.m ≤ y.length) :
    ∃ ptr ind val masks,
      csr2blkcsr A.m A.n A.nnz (some A.ptr) (some A.ind) (some A.val)
        ⟨some g1, some g2, some g3, some g4⟩ nR A.base
        = some (.success, ⟨some ptr, some ind, some val, some masks⟩) ∧
      ∃ y', blkcsrmv true 111 (some alpha) A.m A.n A.nnz (some masks) (some val) (some ind)
          (some ptr) (some d) (some x) (some beta) (some y) nR = some (.success, some y') ∧
        IsMv alpha beta A.mat A.m A.n x y y' := by
  obtain ⟨nb, hnb, hcnt, hconv⟩ := C14_csr2blkcsr A hA hs hnd hn8 hn nR hnR
  have hnb' : nb = g4.length / nR := by
    rw [hcnt] at h4
    have := Option.some.inj h4
    omega
  obtain ⟨ptr, ind, val, masks, e, hwf, -, hrow⟩ := hconv g1 g2 g3 g4 (by omega) (by omega) (by omega)
    (by rw [hnb']; exact Nat.div_mul_le_self _ _)
  refine ⟨ptr, ind, val, masks, e, ?_⟩
  obtain ⟨y', e', hmv⟩ := C14_blkcsrmv _ hwf hnR hm hn8 A.nnz hz alpha beta d hd ht x y hx hy
  refine ⟨y', e', hmv.length, ?_, hmv.rest⟩
  intro i hi
  rw [hmv.rows i hi]
  congr 3
  unfold matVec
  apply sum_congr rfl
  intro j _
  congr 1
  unfold BlkCsr.mat Csr.mat Csr.entry
  rw [hrow i hi]

/-! ### Concrete cases -/

/-- 3 x 9, one-based, the last block has to be moved left; with 2-row blocks the second group is
incomplete -/
def blkEx : Csr Int :=
  { m := 3, n := 9, base := 1, ptr := [1, 4, 6, 8], ind := [1, 3, 9, 2, 9, 1, 8]
    val := [10, 20, 30, 40, 50, 60, 70] }

example : blkEx.WF ∧ blkEx.Sorted ∧ blkEx.NoDup ∧ 8 ≤ blkEx.n := by decide

example : csr2blkcsr 3 9 7 (some blkEx.ptr) (some blkEx.ind) (some blkEx.val)
    ⟨some (List.replicate 4 0), some (List.replicate 3 0), some (List.replicate 7 0),
      some (List.replicate 6 0)⟩ 2 1
    = some (.success, ⟨some [1, 3, 3, 4], some [1, 2, 1], some [10, 20, 40, 30, 50, 60, 70],
        some [5, 2, 128, 128, 129, 0]⟩) := by decide +kernel

example : blkcsrmv true 111 (some (2 : Int)) 3 9 7 (some [5, 2, 128, 128, 129, 0])
    (some [10, 20, 40, 30, 50, 60, 70]) (some [1, 2, 1]) (some [1, 3, 3, 4]) (some ⟨0, 0, 0, 1⟩)
    (some [1, 2, 3, 4, 5, 6, 7, 8, 9]) (some 1) (some [1, 1, 1]) 2
    = some (.success, some [681, 1061, 1241]) := by decide +kernel

/-! ### Where the format does not represent the matrix -/

/-- A matrix with a repeated entry is accepted as sorted, but both values share one mask bit: after
conversion the product is wrong even for the rows that follow. -/
theorem C14_duplicates_break :
    ∃ (A : Csr Int), A.WF ∧ A.Sorted ∧ ∃ ptr ind val masks,
      csr2blkcsr A.m A.n A.nnz (some A.ptr) (some A.ind) (some A.val)
        ⟨some (List.replicate 3 0), some (List.replicate 3 0), some (List.replicate 3 0),
          some (List.replicate 2 0)⟩ 1 A.base
        = some (.success, ⟨some ptr, some ind, some val, some masks⟩) ∧
      blkcsrmv true 111 (some 1) A.m A.n A.nnz (some masks) (some val) (some ind) (some ptr)
          (some ⟨0, 0, 0, 0⟩) (some (List.replicate 8 1)) (some 0) (some [0, 0]) 1
        = some (.success, some [1, 2]) ∧
      ¬ IsMv 1 0 A.mat A.m A.n (List.replicate 8 1) [0, 0] [1, 2] := by
  refine ⟨{ m := 2, n := 8, base := 0, ptr := [0, 2, 3], ind := [0, 0, 0], val := [1, 2, 3] },
    by decide, by decide, [0, 1, 2], [0, 0, 0], [1, 2, 3], [1, 1], by decide +kernel, by decide +kernel, ?_⟩
  intro h
  have := h.rows 1 (by decide)
  revert this
  decide +kernel

/-- On an unsorted row the conversion shifts by a negative amount, which is undefined. -/
theorem C14_unsorted_undefined :
    csr2blkcsr (R := Int) 1 9 2 (some [0, 2]) (some [8, 0]) (some [1, 2])
      ⟨some [0, 0], some [0, 0], some [0, 0], some [0, 0]⟩ 1 0 = none := by decide +kernel

/-- With no entries the direct call succeeds without applying beta. -/
theorem C14_empty_no_beta :
    ∃ (y : List Int), blkcsrmv true 111 (some 1) 1 8 0 (some []) (some []) (some []) (some [0, 0])
      (some ⟨0, 0, 0, 0⟩) (some (List.replicate 8 1)) (some (3 : Int)) (some y) 1
      = some (.success, some y) ∧ (3 : Int) * y.getD 0 0 ≠ y.getD 0 0 :=
  ⟨[1], by decide +kernel, by decide⟩

end Verif
