/-
C77: bits and rounding errors of masked block CSR products.
-/
import Verif.Spec.MvErr
import Verif.Proofs.BlkCsrExact
import Verif.Props.BlkCsr
import Verif.Props.Ell
import Verif.Props.Csrmv
import Verif.Props.Level1Exact

namespace Verif
open Model Rounding Finset

variable {R : Type} [Zero R] [One R] [Add R] [Mul R] [DecidableEq R]

/-- Whatever the arithmetic, every element of the result is `blkElt`: eight sums of products, one per lane,
each from the first block of the row group to the last, then the sum of the lanes, scaled and added. -/
theorem C77_value (B : BlkCsr R) (hB : B.WF)
    (hnR : B.nR = 1 ∨ B.nR = 2 ∨ B.nR = 4) (hm : B.m ≠ 0) (hn8 : 8 ≤ B.n) (nnz : Nat) (hz : nnz ≠ 0)
    (alpha beta : R) (d : Descr) (hd : d.base = B.base) (ht : d.type = 0 ∨ d.type = 1) (x y : List R)
    (hx : B.n ≤ x.length) (hy : B.m ≤ y.length) :
    ∃ y', blkcsrmv true 111 (some alpha) B.m B.n nnz (some B.masks) (some B.val) (some B.ind)
        (some B.ptr) (some d) (some x) (some beta) (some y) B.nR = some (.success, some y') ∧
      y'.length = y.length ∧ (∀ i, i < B.m → ∃ w, y[i]? = some w ∧ y'[i]? = some (blkElt alpha beta B x i w)) ∧
      ∀ i, B.m ≤ i → y'[i]? = y[i]? := by
  obtain ⟨y', e, h1, h2, h3⟩ := blkmvKernel_val hB hx (alpha := alpha) (beta := beta) hy
  refine ⟨y', ?_, h1, fun i hi => ?_, h3⟩
  · have := hB.base01
    unfold blkcsrmv
    simp only
    rw [if_neg (by decide), if_neg (by omega), if_neg (by omega), if_neg (by omega), if_neg (by omega),
      if_neg (by omega), if_neg (by omega), if_neg (by omega), if_pos (by omega), hd]
    simp only [Option.bind_eq_bind, Option.bind_some, e]
  · have hw : y[i]? = some (y.getD i 0) := by
      rw [List.getD_eq_getElem?_getD, List.getElem?_eq_getElem (by omega)]; rfl
    exact ⟨_, hw, h2 i hi⟩

/-! ### rounding errors -/

omit [Zero R] [One R] [Add R] [Mul R] [DecidableEq R] in
theorem BlkCsr.mapTo_wf {S : Type} {f : R → S} {B : BlkCsr R} (h : B.WF) : (B.mapTo f).WF := by
  obtain ⟨a1, a2, a3, a4, a5, a6, a7, a8, a9, a10, a11, a12⟩ := h
  exact ⟨a1, a2, a3, a4, a5, a6, a7, a8, a9, a10, by
    show B.valPos (B.nblocks * B.nR) ≤ (B.val.map f).length
    rw [List.length_map]; exact a11, a12⟩

omit [One R] [Add R] [Mul R] [DecidableEq R] in
theorem BlkCsr.mapTo_lane {S : Type} [Zero S] {f : R → S} (h0 : f 0 = 0) (B : BlkCsr R) (k r b : Nat) :
    (B.mapTo f).lane k r b = f (B.lane k r b) := by
  unfold BlkCsr.lane
  show (if (B.mask (k * B.nR + r)).testBit b = true then
    (B.val.map f).getD (B.valPos (k * B.nR + r) + ((List.range b).filter (B.mask (k * B.nR + r)).testBit).length) 0
    else 0) = _
  split
  · exact getD_map0 h0 _ _
  · exact h0.symm

omit R [Zero R] [One R] [Add R] [Mul R] [DecidableEq R] in
/-- a cell as the sum over its lanes -/
theorem dotCell_lanes {B : BlkCsr ℝ} (h : B.WF) (x : List ℝ) {k r : Nat} (hk : k < B.nblocks) (hr : r < B.nR) :
    dotCell B x k r = ∑ b ∈ range 8, B.lane k r b * x.getD ((B.col k).toNat + b) 0 := by
  have hq : k * B.nR + r < B.nblocks * B.nR := by
    have : (k + 1) * B.nR ≤ B.nblocks * B.nR := Nat.mul_le_mul_right _ hk
    rw [Nat.succ_mul] at this
    omega
  have hvl := h.val_len
  have hsucc := BlkCsr.valPos_succ B (k * B.nR + r)
  have hle := BlkCsr.valPos_mono B (show k * B.nR + r + 1 ≤ B.nblocks * B.nR by omega)
  have := expand_dot (B.mask (k * B.nR + r)).testBit B.val (B.valPos (k * B.nR + r)) (B.col k) (h.col_range k hk).1 x 8
    (by have : (bitPos (B.mask (k * B.nR + r))).length
          = ((List.range 8).filter (B.mask (k * B.nR + r)).testBit).length := rfl
        omega)
  unfold BlkCsr.lane
  rw [this, dotCell, BlkCsr.cell]
  rfl

omit [One R] [Add R] [Mul R] [DecidableEq R] in
theorem blkPairs_sum (f : R → ℝ) (h0 : f 0 = 0) {B : BlkCsr R} (hB : B.WF) (x : List R) {i : Nat} (hi : i < B.m) :
    ∑ b ∈ range 8, ((blkPairs B x (i / B.nR) (i % B.nR) b).map fun ab => f ab.1 * f ab.2).sum
      = blkDot (B.mapTo f) (x.map f) i := by
  have hg : i / B.nR < B.groups := by
    refine (lt_ngrp (m := B.m) (g := i / B.nR) hB.nR_pos).2 ?_
    have := Nat.div_add_mod i B.nR; omega
  have hnb := hB.hi_le (B.groups - (i / B.nR) - 1) (i / B.nR) (by omega)
  rw [blkDot_cells]
  have hn : (B.mapTo f).nR = B.nR := rfl
  have hlo : (B.mapTo f).lo = B.lo := rfl
  have hhi : (B.mapTo f).hi = B.hi := rfl
  have hcl : (B.mapTo f).col = B.col := rfl
  rw [hn, hlo, hhi]
  unfold blkPairs
  simp only [List.map_map, Function.comp_def, sum_map_range]
  rw [sum_comm]
  refine sum_congr rfl fun t ht => ?_
  have ht := mem_range.1 ht
  rw [dotCell_lanes (B := B.mapTo f) (BlkCsr.mapTo_wf hB) _ (r := i % B.nR) (k := B.lo (i / B.nR) + t) (by show _ < B.nblocks; omega)
    (Nat.mod_lt _ hB.nR_pos)]
  refine sum_congr rfl fun b _ => ?_
  rw [BlkCsr.mapTo_lane h0, hcl, getD_map0 h0]

section
variable {ρ : Rounding} {v : R → ℝ} {fac : R → Option (ℝ × ℝ)}

omit [One R] [DecidableEq R] in
theorem blkAdd8_near (hR : Contracts ρ v fac) {k : Nat} {l : Nat → R} {e s : Nat → ℝ}
    (h : ∀ b, b < 8 → NearC ρ v fac k (e b) (s b) (l b)) :
    NearC ρ v fac (k + 3) (∑ b ∈ range 8, e b) (∑ b ∈ range 8, s b) (blkAdd8 l) := by
  have p := fun a b (ha : a < 8) (hb : b < 8) => (h a ha).add hR (h b hb)
  have := (((p 0 4 (by omega) (by omega)).add hR (p 1 5 (by omega) (by omega))).add hR
    ((p 2 6 (by omega) (by omega)).add hR (p 3 7 (by omega) (by omega))))
  have eq : ∀ f : Nat → ℝ, ∑ b ∈ range 8, f b = f 0 + f 4 + (f 1 + f 5) + (f 2 + f 6 + (f 3 + f 7)) := by
    intro f
    simp only [sum_range_succ, sum_range_zero]
    ring
  rw [eq, eq]
  exact this

theorem blkElt_near (hR : Contracts ρ v fac) (h1 : v 1 = 1) (alpha beta : R) {B : BlkCsr R}
    (hB : B.WF) {x : List R} (pB : ∀ a ∈ B.val, fac a = none) (pX : ∀ a ∈ x, fac a = none) {w : R}
    (pw : fac w = none) {i : Nat} (hi : i < B.m) :
    NearC ρ v fac (B.hi (i / B.nR) - B.lo (i / B.nR) + 6)
      (v alpha * blkDot (B.mapTo v) (x.map v) i + v beta * v w)
      (|v alpha| * blkDot (B.mapTo fun a => |v a|) (x.map fun a => |v a|) i + |v beta| * |v w|)
      (blkElt alpha beta B x i w) := by
  have hs : NearC ρ v fac (B.hi (i / B.nR) - B.lo (i / B.nR) + 1 + 3) (blkDot (B.mapTo v) (x.map v) i)
      (blkDot (B.mapTo fun a => |v a|) (x.map fun a => |v a|) i) (blkSum B x i) := by
    rw [← blkPairs_sum v hR.zero hB x hi, ← blkPairs_sum (fun a => |v a|) (by simp [hR.zero]) hB x hi]
    refine blkAdd8_near hR fun b _ => ?_
    have := dotLeft0_near hR (L := blkPairs B x (i / B.nR) (i % B.nR) b) (by
      intro ab hab
      obtain ⟨t, -, rfl⟩ := List.mem_map.1 hab
      refine ⟨?_, plain_getD hR.zero_fac pX _⟩
      unfold BlkCsr.lane
      dsimp only
      split
      · exact plain_getD hR.zero_fac pB _
      · exact hR.zero_fac)
    have hl : (blkPairs B x (i / B.nR) (i % B.nR) b).length = B.hi (i / B.nR) - B.lo (i / B.nR) := by
      unfold blkPairs; simp
    rw [hl] at this
    exact this
  unfold blkElt
  generalize blkSum B x i = s at hs ⊢
  have ha : NearC ρ v fac (B.hi (i / B.nR) - B.lo (i / B.nR) + 1 + 3 + 1) (v alpha * blkDot (B.mapTo v) (x.map v) i)
      (|v alpha| * blkDot (B.mapTo fun a => |v a|) (x.map fun a => |v a|) i)
      (if alpha ≠ 1 then alpha * s else s) := by
    by_cases h : alpha = 1
    · rw [if_neg (by simpa using h), h, h1, abs_one, one_mul, one_mul]
      exact hs.mono (Nat.le_succ _)
    · rw [if_pos h]
      exact NearC.mul_left hR alpha hs
  dsimp only
  by_cases hb : beta = 0
  · rw [if_neg (by simpa using hb), hb, hR.zero, abs_zero, zero_mul, zero_mul, add_zero, add_zero]
    exact ha.mono (Nat.le_succ _)
  · rw [if_pos hb]
    exact lin_near hR alpha beta pw ha (.inl rfl) (.inl rfl)

/-- In floating point, whichever products the compiler fuses, every element of the result differs from
`alpha * B * x + beta * y` by at most `(1+u)^(b+6) - 1` times the sum of the sizes of the terms, where `b` is the
number of blocks of its row group: not the number of entries of the row. -/
theorem C77_error (hR : Contracts ρ v fac) (h1 : v 1 = 1) (B : BlkCsr R) (hB : B.WF)
    (hnR : B.nR = 1 ∨ B.nR = 2 ∨ B.nR = 4) (hm : B.m ≠ 0) (hn8 : 8 ≤ B.n) (nnz : Nat) (hz : nnz ≠ 0)
    (alpha beta : R) (d : Descr) (hd : d.base = B.base) (ht : d.type = 0 ∨ d.type = 1) (x y : List R)
    (hx : B.n ≤ x.length) (hy : B.m ≤ y.length)
    (pB : ∀ a ∈ B.val, fac a = none) (pX : ∀ a ∈ x, fac a = none) (pY : ∀ a ∈ y, fac a = none) :
    ∃ y', blkcsrmv true 111 (some alpha) B.m B.n nnz (some B.masks) (some B.val) (some B.ind)
        (some B.ptr) (some d) (some x) (some beta) (some y) B.nR = some (.success, some y') ∧
      MvErr ρ v (fun i => B.hi (i / B.nR) - B.lo (i / B.nR) + 6) alpha beta (B.mapTo v).mat
        (B.mapTo fun a => |v a|).mat B.m B.n x y y' := by
  obtain ⟨y', e, hl, h, hr⟩ := C77_value B hB hnR hm hn8 nnz hz alpha beta d hd ht x y hx hy
  refine ⟨y', e, hl, ?_, hr⟩
  intro i hi
  obtain ⟨w, hw, hz⟩ := h i hi
  refine ⟨w, _, hw, hz, ?_⟩
  have := (blkElt_near hR h1 alpha beta hB pB pX (pY w (List.mem_of_getElem? hw)) hi).1.2
  have m1 : blkDot (B.mapTo v) (x.map v) i = matVec (B.mapTo v).mat B.n (x.map v) i :=
    matVec_blk (BlkCsr.mapTo_wf hB) _ hi
  have m2 : blkDot (B.mapTo fun a => |v a|) (x.map fun a => |v a|) i
      = matVec (B.mapTo fun a => |v a|).mat B.n (x.map fun a => |v a|) i :=
    matVec_blk (BlkCsr.mapTo_wf hB) _ hi
  rw [m1, m2] at this
  exact this
end

/-! ### examples -/

/-- the block structure of `blkEx` -/
def blkxB : BlkCsr (Fp (binary 53)) :=
  ⟨3, 9, 1, 2, [1, 3, 3, 4], [1, 2, 1], [5, 2, 128, 128, 129, 0], List.replicate 7 ⟨3⟩⟩
theorem blkxB_wf : blkxB.WF := by
  have hgr : blkxB.groups = 2 := by decide
  have hnb : blkxB.nblocks = 3 := by decide
  refine ⟨by decide, by decide, by decide, ?_, by decide, ?_, ?_, ?_, by decide, by decide, by
    rw [show blkxB.val.length = 7 by simp [blkxB]]; decide, ?_⟩
  · intro i hi
    have hi : i ≤ 3 := hi
    interval_cases i <;> decide
  · intro g hg
    rw [hgr] at hg
    interval_cases g <;> decide
  · intro g hg
    rw [hgr] at hg
    have : g = 0 := by omega
    subst this
    decide
  · intro g hg
    rw [hgr] at hg
    have : g = 1 := by omega
    subst this
    decide
  · intro k hk
    rw [hnb] at hk
    interval_cases k <;> decide

example := C77_value blkxB blkxB_wf (by decide) (by decide) (by decide) 7 (by decide) ⟨2⟩ ⟨5⟩ ⟨0, 0, 0, 1⟩ rfl
  (by decide) (List.replicate 9 ⟨2⟩) (List.replicate 4 ⟨1⟩) (by simp [blkxB]) (by simp [blkxB])
/-- two blocks in the first group: at most 8 roundings -/
example := C77_error (fp_contracts (binary 53)) rfl blkxB blkxB_wf (by decide) (by decide) (by decide) 7 (by decide)
  ⟨2⟩ ⟨5⟩ ⟨0, 0, 0, 1⟩ rfl (by decide) (List.replicate 9 ⟨2⟩) (List.replicate 4 ⟨1⟩) (by simp [blkxB])
  (by simp [blkxB]) (fun _ _ => rfl) (fun _ _ => rfl) (fun _ _ => rfl)
example : blkxB.hi 0 - blkxB.lo 0 + 6 = 8 := by decide

/-! ### elements of x that no entry refers to -/

/-- integers and a NaN -/
inductive Nan
  | num (z : Int)
  | nan
deriving DecidableEq

namespace Nan
instance : Zero Nan := ⟨num 0⟩
instance : One Nan := ⟨num 1⟩
instance : Add Nan := ⟨fun a b => match a, b with
  | num x, num y => num (x + y)
  | _, _ => nan⟩
instance : Mul Nan := ⟨fun a b => match a, b with
  | num x, num y => num (x * y)
  | _, _ => nan⟩
end Nan

/-- A NaN in an element of x that the matrix has no entry for: the CSR product of the 1 x 9 matrix with the entries
2 and 3 in the columns 0 and 2 is 2 * x[0] + 3 * x[2]; the block CSR product of the converted matrix is NaN, because
the lanes without an entry multiply the element of x by zero. -/
theorem C77_nan_counterexample :
    csrmvGn .ref 0 (1 : Nan) 1 [.num 2, .num 3] [0, 2] [0, 2] (.num 1 :: .nan :: List.replicate 7 (.num 1)) 0 [.num 7]
      = some [.num 5] ∧
    csr2blkcsr 1 9 2 (some [0, 2]) (some [0, 2]) (some [Nan.num 2, .num 3])
      ⟨some [0, 0], some [0], some [.num 0, .num 0], some [0]⟩ 1 0
      = some (.success, ⟨some [0, 1], some [0], some [.num 2, .num 3], some [5]⟩) ∧
    blkcsrmv true 111 (some (1 : Nan)) 1 9 2 (some [5]) (some [.num 2, .num 3]) (some [0]) (some [0, 1])
      (some ⟨0, 0, 0, 0⟩) (some (.num 1 :: .nan :: List.replicate 7 (.num 1))) (some 0) (some [.num 7]) 1
      = some (.success, some [.nan]) := by
  refine ⟨by decide +kernel, by decide +kernel, by decide +kernel⟩

/-- The same for ELLT: the second row of the matrix has no entries, its padding multiplies the element of x in the
column of the last entry before it. -/
theorem C77_ellt_nan_counterexample :
    csrmvGn .ref 0 (1 : Nan) 2 [.num 2] [0] [0, 1, 1] [.nan] 0 [.num 7, .num 7] = some [.nan, .num 0] ∧
    csr2ellt 2 0 (some [0, 1, 1]) (some [0]) (some [Nan.num 2]) (some [9, 9]) (some [.num 9, .num 9]) 1
      = some (.success, some [0, 0], some [.num 2, .num 0]) ∧
    elltmvRef (1 : Nan) 2 [.num 2, .num 0] [0, 0] 1 0 [.nan] 0 [.num 7, .num 7] = some [.nan, .nan] := by
  refine ⟨by decide +kernel, by decide +kernel, by decide +kernel⟩

end Verif
