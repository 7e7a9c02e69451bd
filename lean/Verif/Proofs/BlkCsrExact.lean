/-
Masked block CSR products in an arithmetic without laws.
-/
import Verif.Proofs.BlkCsrMv
import Verif.Spec.BlkCsrExact

namespace Verif
open Model

variable {R : Type} [Zero R] [Add R] [Mul R]

/-- accumulators after the blocks `lo .. lo + t`, the current block only up to row `r` -/
structure AccIs (B : BlkCsr R) (x : List R) (S : Nat → Nat → R) (acc : List (List R)) : Prop where
  len : acc.length = B.nR
  row : ∀ r, r < B.nR → acc[r]? = some ((List.range 8).map (S r))

theorem AccIs.congr {B : BlkCsr R} {x : List R} {S S' : Nat → Nat → R} {acc : List (List R)}
    (h : AccIs B x S acc) (hs : ∀ r, r < B.nR → ∀ b, b < 8 → S r b = S' r b) : AccIs B x S' acc :=
  ⟨h.len, fun r hr => by
    rw [h.row r hr]
    congr 1
    exact List.map_congr_left fun b hb => hs r hr b (List.mem_range.1 hb)⟩

theorem blkmvRow_val {B : BlkCsr R} (h : B.WF) {x xv : List R} {k : Nat} (hk : k < B.nblocks)
    (hxv : xv = (List.range 8).map fun b => x.getD ((B.col k).toNat + b) 0) {r : Nat} (hr : r < B.nR)
    {S : Nat → Nat → R} {acc : List (List R)} (ha : AccIs B x S acc) :
    ∃ acc', blkmvRow (B.nR : Int) B.masks B.val xv k r ((B.valPos (k * B.nR + r) : Nat), acc)
        = some (((B.valPos (k * B.nR + (r + 1)) : Nat) : Int), acc') ∧
      AccIs B x (fun s b => if s = r then B.lane k r b * x.getD ((B.col k).toNat + b) 0 + S s b else S s b) acc' := by
  have hq : k * B.nR + r < B.nblocks * B.nR := by
    have : (k + 1) * B.nR ≤ B.nblocks * B.nR := Nat.mul_le_mul_right _ hk
    rw [Nat.succ_mul] at this
    omega
  have hml := h.masks_len
  have hvl := h.val_len
  generalize hqq : k * B.nR + r = q at *
  have hmask : rd B.masks (((k : Int)) * (B.nR : Int) + (r : Int)) = some (B.mask q) := by
    rw [show ((k : Int)) * (B.nR : Int) + (r : Int) = ((q : Nat) : Int) by rw [← hqq]; push_cast; rfl,
      rd_ofNat, BlkCsr.mask, List.getD_eq_getElem?_getD, List.getElem?_eq_getElem (by omega)]
    rfl
  have hsucc := BlkCsr.valPos_succ B q
  have hle := BlkCsr.valPos_mono B (show q + 1 ≤ B.nblocks * B.nR by omega)
  have hload : expandload (B.mask q) B.val ((B.valPos q : Nat) : Int)
      = some ((List.range 8).map fun b => if (B.mask q).testBit b then
          B.val.getD (B.valPos q + ((List.range b).filter (B.mask q).testBit).length) 0 else 0) := by
    unfold expandload
    apply mapM_range_some
    intro b hb
    by_cases ht : (B.mask q).testBit b = true
    · rw [if_pos ht, if_pos ht]
      have := maskRank_lt (B.mask q).testBit hb ht
      have h2 : (bitPos (B.mask q)).length = ((List.range 8).filter (B.mask q).testBit).length := rfl
      rw [← Nat.cast_add, rd_ofNat, List.getD_eq_getElem?_getD, List.getElem?_eq_getElem (by omega)]
      rfl
    · rw [if_neg ht, if_neg ht]
  have hrd : rd acc (r : Int) = some ((List.range 8).map (S r)) := by rw [rd_ofNat, ha.row r hr]
  have hw : ∀ v, wr acc (r : Int) v = some (acc.set r v) := fun v => wr_ofNat (by rw [ha.len]; exact hr)
  refine ⟨acc.set r (List.zipWith (· + ·) (List.zipWith (· * ·) ((List.range 8).map fun b =>
      if (B.mask q).testBit b then
        B.val.getD (B.valPos q + ((List.range b).filter (B.mask q).testBit).length) 0 else 0) xv)
      ((List.range 8).map (S r))), ?_, ?_⟩
  · unfold blkmvRow
    simp only [hmask, hload, hrd, hw, Option.bind_eq_bind, Option.bind_some]
    congr 2
    rw [show k * B.nR + (r + 1) = q + 1 by omega, hsucc, bitsSet_eq]
    push_cast; rfl
  · refine ⟨by simp [ha.len], ?_⟩
    intro s hs
    by_cases hsr : s = r
    · subst hsr
      rw [List.getElem?_set_self (by rw [ha.len]; exact hr), hxv, List.zipWith_map, List.zipWith_self,
        List.zipWith_map, List.zipWith_self]
      congr 1
      refine List.map_congr_left fun b _ => ?_
      rw [if_pos rfl, BlkCsr.lane, hqq]
    · rw [List.getElem?_set_ne (by omega), ha.row s hs]
      congr 1
      refine List.map_congr_left fun b _ => ?_
      rw [if_neg hsr]

theorem blkmvBlk_val {B : BlkCsr R} (h : B.WF) {x : List R} (hx : B.n ≤ x.length) {k : Nat}
    (hk : k < B.nblocks) {S : Nat → Nat → R} {acc : List (List R)} (ha : AccIs B x S acc) :
    ∃ acc', blkmvBlk (B.nR : Int) B.base B.masks B.val B.ind x k (((B.valPos (k * B.nR) : Nat) : Int), acc)
        = some (((B.valPos ((k + 1) * B.nR) : Nat) : Int), acc') ∧
      AccIs B x (fun s b => B.lane k s b * x.getD ((B.col k).toNat + b) 0 + S s b) acc' := by
  have hc := h.col_range k hk
  have hil := h.ind_len
  have hi : rd B.ind (k : Int) = some (B.col k + B.base) := by
    rw [rd_ofNat, BlkCsr.col, List.getD_eq_getElem?_getD, List.getElem?_eq_getElem (by omega)]
    simp
  have hxv := vload_rep (Rep.of_list x 0) (p := B.col k) (K := 8) hc.1 (by omega)
  obtain ⟨⟨iv, acc'⟩, e, hiv, hacc⟩ := forC_inv_nat (n := B.nR)
    (f := blkmvRow (B.nR : Int) B.masks B.val ((List.range 8).map fun l => x.getD ((B.col k).toNat + l) 0) k)
    (s := (((B.valPos (k * B.nR) : Nat) : Int), acc))
    (fun (t : Nat) (st : Int × List (List R)) => st.1 = ((B.valPos (k * B.nR + t) : Nat) : Int) ∧
      AccIs B x (fun s b => if s < t then B.lane k s b * x.getD ((B.col k).toNat + b) 0 + S s b else S s b) st.2)
    ⟨by simp, ha.congr (by intro r _ b _; simp)⟩ (by
      rintro t ⟨iv, acc⟩ ht ⟨h1, h2⟩
      simp only at h1 h2
      subst h1
      obtain ⟨acc', e, h3⟩ := blkmvRow_val h hk rfl ht h2
      refine ⟨_, e, rfl, h3.congr ?_⟩
      intro s _ b _
      by_cases hst : s = t
      · subst hst
        rw [if_pos rfl, if_neg (by omega), if_pos (by omega)]
      · rw [if_neg hst]
        by_cases hlt : s < t
        · rw [if_pos hlt, if_pos (by omega)]
        · rw [if_neg hlt, if_neg (by omega)])
  refine ⟨acc', ?_, hacc.congr (by intro s hs b _; rw [if_pos hs])⟩
  unfold blkmvBlk
  simp only [hi, Option.bind_eq_bind, Option.bind_some, add_sub_cancel_right, hxv]
  rw [e]
  simp only at hiv
  rw [hiv, Nat.succ_mul]

variable [One R] [DecidableEq R]

/-- scale and add -/
def blkSc (alpha beta s w : R) : R :=
  let s := if alpha ≠ 1 then alpha * s else s
  if beta ≠ 0 then s + beta * w else s

theorem blkmvStore_val {B : BlkCsr R} {x : List R} {S : Nat → Nat → R} {acc : List (List R)}
    (ha : AccIs B x S acc) {alpha beta : R} {iRow r : Nat} (hr : r < B.nR) {y : List R} {len : Nat}
    {f : Nat → R} (hy : Rep y len f) (hl : iRow + r < len) :
    ∃ y', blkmvStore alpha beta acc iRow r y = some y' ∧
      Rep y' len (fun i => if i = iRow + r then blkSc alpha beta (blkAdd8 (S r)) (f i) else f i) := by
  obtain ⟨y', w, hy'⟩ := hy.wr_nat (blkSc alpha beta (blkAdd8 (S r)) (f (iRow + r))) (i := iRow + r) hl
  refine ⟨y', ?_, hy'.congr ?_⟩
  · unfold blkmvStore
    rw [rd_ofNat, ha.row r hr]
    have hs8 : hsum8 ((List.range 8).map (S r)) = blkAdd8 (S r) := rfl
    simp only [Option.bind_eq_bind, Option.bind_some, hs8]
    have hrd := hy.rd_nat hl
    push_cast at hrd w
    unfold blkSc at w
    dsimp only at w
    by_cases hb : beta = 0
    · subst hb
      simp only [ne_eq, not_true_eq_false, if_false] at w ⊢
      exact w
    · rw [if_pos hb] at w
      rw [if_pos hb, hrd, Option.bind_some]
      exact w
  · intro i _
    by_cases hi : i = iRow + r
    · subst hi
      rw [Function.update_self, if_pos rfl]
    · rw [Function.update_of_ne hi, if_neg hi]

theorem blkmvGroup_val {B : BlkCsr R} (h : B.WF) {x : List R} (hx : B.n ≤ x.length) {g : Nat}
    (hg : g < B.groups) {alpha beta : R} {y : List R} {len : Nat} (hm : B.m ≤ len) {f : Nat → R}
    (hy : Rep y len f) :
    ∃ y', blkmvGroup (B.nR : Int) B.base B.m alpha beta B.masks B.val B.ind B.ptr x
        ((B.nR * g : Nat) : Int) (((B.valPos (B.lo g * B.nR) : Nat) : Int), y)
        = some (((B.valPos (B.hi g * B.nR) : Nat) : Int), y') ∧
      Rep y' len (fun i => if B.nR * g ≤ i ∧ i < B.nR * (g + 1) ∧ i < B.m then
        blkElt alpha beta B x i (f i) else f i) := by
  have hgm := (lt_ngrp (m := B.m) h.nR_pos).1 hg
  have hpl := h.ptr_len
  have hp : ∀ i, i ≤ B.m → rd B.ptr (i : Int) = some (B.ptr.getD i 0) := by
    intro i hi
    rw [rd_ofNat, List.getD_eq_getElem?_getD, List.getElem?_eq_getElem (by omega)]
    rfl
  have hlo : B.ptr.getD (B.nR * g) 0 - B.base = (B.lo g : Int) := by
    have := h.ptr_base (B.nR * g) (by omega)
    rw [BlkCsr.lo, Nat.mul_comm g]; omega
  have hhi : B.ptr.getD (B.nR * g + 1) 0 - B.base = (B.hi g : Int) := by
    have := h.ptr_base (B.nR * g + 1) (by omega)
    rw [BlkCsr.hi, Nat.mul_comm g]; omega
  have hle := h.lo_hi g hg
  have hnb := h.hi_le (B.groups - g - 1) g (by omega)
  obtain ⟨⟨iv, acc⟩, e1, hiv, hacc⟩ := forC_inv_off (a := (B.lo g : Int)) (b := (B.hi g : Int))
    (n := B.hi g - B.lo g)
    (f := blkmvBlk (B.nR : Int) B.base B.masks B.val B.ind x)
    (s := (((B.valPos (B.lo g * B.nR) : Nat) : Int), List.replicate (B.nR : Int).toNat (List.replicate 8 0)))
    (fun (t : Nat) (st : Int × List (List R)) => st.1 = ((B.valPos ((B.lo g + t) * B.nR) : Nat) : Int) ∧
      AccIs B x (fun s b => dotLeft 0 ((List.range t).map fun u =>
        (B.lane (B.lo g + u) s b, x.getD ((B.col (B.lo g + u)).toNat + b) 0))) st.2)
    (by omega)
    ⟨by simp, by simp, by
      intro r hr
      rw [List.getElem?_replicate, if_pos (by simpa using hr)]
      rfl⟩ (by
      rintro t ⟨iv, acc⟩ ht ⟨h1, h2⟩
      simp only at h1 h2
      subst h1
      obtain ⟨acc', e, h3⟩ := blkmvBlk_val h hx (k := B.lo g + t) (by omega) h2
      refine ⟨(((B.valPos ((B.lo g + t + 1) * B.nR) : Nat) : Int), acc'), ?_, ?_, ?_⟩
      · rw [← e]; push_cast; rfl
      · rfl
      · exact h3.congr (fun s _ b _ => by
          rw [List.range_succ, List.map_append, dotLeft, dotLeft, List.foldl_append]
          rfl))
  simp only at hiv hacc
  rw [show B.lo g + (B.hi g - B.lo g) = B.hi g by omega] at hiv
  have hsub : subRows (B.nR : Int) B.m ((B.nR * g : Nat) : Int)
      = ((min B.nR (B.m - B.nR * g) : Nat) : Int) := by unfold subRows; omega
  obtain ⟨y', e2, hy'⟩ := forC_inv_nat (n := min B.nR (B.m - B.nR * g))
    (f := blkmvStore alpha beta acc ((B.nR * g : Nat) : Int)) (s := y)
    (fun (t : Nat) y' => Rep y' len (fun i => if B.nR * g ≤ i ∧ i < B.nR * g + t then
        blkElt alpha beta B x i (f i) else f i))
    (hy.congr (by intro i _; rw [if_neg (by omega)])) (by
      intro t y1 ht h1
      obtain ⟨y2, e, h2⟩ := blkmvStore_val hacc (alpha := alpha) (beta := beta) (iRow := B.nR * g)
        (r := t) (by omega) h1 (by omega)
      refine ⟨y2, e, h2.congr ?_⟩
      intro i _
      by_cases hi : i = B.nR * g + t
      · subst hi
        rw [if_pos rfl, if_neg (by omega), if_pos (by omega)]
        unfold blkElt blkSum blkPairs blkSc
        rw [Nat.mul_add_div h.nR_pos, Nat.div_eq_of_lt (by omega), Nat.mul_add_mod,
          Nat.mod_eq_of_lt (by omega), Nat.add_zero]
      · rw [if_neg hi]
        by_cases hlt : B.nR * g ≤ i ∧ i < B.nR * g + t
        · rw [if_pos hlt, if_pos (by omega)]
        · rw [if_neg hlt, if_neg (by omega)])
  refine ⟨y', ?_, hy'.congr ?_⟩
  · unfold blkmvGroup
    have r1 := hp (B.nR * g) (by omega)
    have r2 := hp (B.nR * g + 1) (by omega)
    rw [show (((B.nR * g + 1 : Nat)) : Int) = ((B.nR * g : Nat) : Int) + 1 by push_cast; rfl] at r2
    simp only [r1, r2, Option.bind_eq_bind, Option.bind_some, hlo, hhi, e1, hsub, e2, hiv]
  · intro i _
    rw [Nat.mul_succ]
    by_cases hlt : B.nR * g ≤ i ∧ i < B.nR * g + min B.nR (B.m - B.nR * g)
    · rw [if_pos hlt, if_pos (by omega)]
    · rw [if_neg hlt, if_neg (by omega)]

theorem blkmvKernel_val {B : BlkCsr R} (h : B.WF) {x : List R} (hx : B.n ≤ x.length)
    {alpha beta : R} {y : List R} (hy : B.m ≤ y.length) :
    ∃ y', blkmvKernel (B.nR : Int) B.base B.m alpha beta B.masks B.val B.ind B.ptr x y = some y' ∧
      y'.length = y.length ∧ (∀ i, i < B.m → y'[i]? = some (blkElt alpha beta B x i (y.getD i 0))) ∧
      ∀ i, B.m ≤ i → y'[i]? = y[i]? := by
  obtain ⟨⟨iv, y'⟩, e, -, hr⟩ := forS_groups h.nR_pos (m := B.m)
    (f := blkmvGroup (B.nR : Int) B.base B.m alpha beta B.masks B.val B.ind B.ptr x)
    (s := ((0 : Int), y))
    (fun g (st : Int × List R) =>
      (g < B.groups → st.1 = ((B.valPos (B.lo g * B.nR) : Nat) : Int)) ∧
      Rep st.2 y.length (fun i => if i < B.nR * g ∧ i < B.m then
        blkElt alpha beta B x i (y.getD i 0) else y.getD i 0))
    ⟨fun _ => by rw [h.lo_zero]; simp [BlkCsr.valPos],
      (Rep.of_list y 0).congr (by intro i _; simp)⟩ (by
      rintro g ⟨iv, y1⟩ hg ⟨h1, h2⟩
      have hg : g < B.groups := hg
      simp only at h1 h2
      have h1 := h1 hg
      subst h1
      obtain ⟨y2, e, h3⟩ := blkmvGroup_val h hx hg (alpha := alpha) (beta := beta) hy h2
      refine ⟨_, e, ?_, h3.congr ?_⟩
      · intro hg1
        simp only
        rw [h.hi_lo g hg1]
      · intro i _
        rw [Nat.mul_succ]
        by_cases c1 : B.nR * g ≤ i ∧ i < B.nR * g + B.nR ∧ i < B.m
        · rw [if_pos c1, if_neg (by omega), if_pos (by omega)]
        · rw [if_neg c1]
          by_cases c2 : i < B.nR * g ∧ i < B.m
          · rw [if_pos c2, if_pos (by omega)]
          · rw [if_neg c2, if_neg (by omega)])
  have hle : B.m ≤ B.nR * ngrp B.m B.nR := by
    by_contra hc
    have := (lt_ngrp (m := B.m) (g := ngrp B.m B.nR) h.nR_pos).2 (by omega)
    omega
  simp only at hr
  refine ⟨y', by unfold blkmvKernel; rw [e]; rfl, hr.1, ?_, ?_⟩
  · intro i hi
    rw [hr.2 i (by omega)]
    simp only
    rw [if_pos (by omega)]
  · intro i hi
    by_cases hl : i < y.length
    · rw [hr.2 i hl]
      simp only
      rw [if_neg (by omega)]
      simp [hl]
    · rw [List.getElem?_eq_none (by rw [hr.1]; omega), List.getElem?_eq_none (by omega)]


end Verif
