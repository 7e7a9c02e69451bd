/-
The product kernels of the masked block CSR format.
-/
import Verif.Proofs.BlkCsr4
import Verif.Proofs.MvLemmas
import Verif.Proofs.Loop

namespace Verif
open Model Finset

variable {R : Type}

theorem zip_snoc {α β : Type} (l : List α) (c : α) (v : List β) (h : l.length < v.length) :
    List.zip (l ++ [c]) v = List.zip l v ++ [(c, v[l.length])] := by
  conv_lhs => rw [← List.take_append_drop l.length v]
  rw [List.zip_append (by simp; omega), List.drop_eq_getElem_cons h]
  simp only [List.zip_cons_cons, List.zip_nil_left]
  congr 1
  rw [List.zip_eq_zip_take_min]
  rw [List.zip_eq_zip_take_min (l₂ := v)]
  simp [Nat.min_eq_left (Nat.le_of_lt h), List.take_take]

section
variable [Semiring R]

/-- entries of a cell times x -/
def dotCell (B : BlkCsr R) (x : List R) (k r : Nat) : R :=
  ((B.cell k r).map fun e => e.2 * x.getD e.1.toNat 0).sum

theorem expand_dot (t : Nat → Bool) (val : List R) (p : Nat) (col : Int) (hc : 0 ≤ col) (x : List R) :
    ∀ N, p + ((List.range N).filter t).length ≤ val.length →
      ∑ b ∈ range N, (if t b then val.getD (p + ((List.range b).filter t).length) 0 else 0)
          * x.getD (col.toNat + b) 0
        = ((List.zip (((List.range N).filter t).map fun (b : Nat) => col + (b : Int)) (val.drop p)).map
            fun e => e.2 * x.getD e.1.toNat 0).sum := by
  intro N
  induction N with
  | zero => intro _; simp
  | succ N ih =>
    intro hN
    rw [sum_range_succ, List.range_succ, List.filter_append]
    rw [List.range_succ, List.filter_append, List.length_append] at hN
    rw [ih (by omega)]
    by_cases ht : t N = true
    · have hf : [N].filter t = [N] := by simp [ht]
      rw [hf] at hN ⊢
      simp only [List.length_singleton] at hN
      rw [List.map_append, List.map_singleton, zip_snoc _ _ _ (by simp; omega), List.map_append,
        List.sum_append]
      congr 1
      simp only [ht, if_true, List.map_singleton, List.sum_singleton, List.length_map,
        List.getElem_drop]
      rw [List.getD_eq_getElem?_getD, List.getElem?_eq_getElem (by omega)]
      rw [show (col + (N : Int)).toNat = col.toNat + N by omega]
      rfl
    · have hf : [N].filter t = [] := by simp [ht]
      rw [hf, if_neg ht]
      simp

theorem sum_zipWith_add : ∀ (a b : List R), a.length = b.length →
    (List.zipWith (· + ·) a b).sum = a.sum + b.sum := by
  intro a
  induction a with
  | nil => intro b h; cases b <;> simp_all
  | cons u a ih =>
    intro b h
    cases b with
    | nil => simp at h
    | cons v b =>
      simp only [List.zipWith_cons_cons, List.sum_cons]
      rw [ih b (by simpa using h)]
      exact add_add_add_comm _ _ _ _

theorem hsum8_eq (v : List R) (h : v.length = 8) : hsum8 v = v.sum := by
  match v, h with
  | [a, b, c, d, e, f, g, i], _ =>
    simp only [hsum8, List.getD_cons_zero, List.getD_cons_succ, List.sum_cons, List.sum_nil, add_zero]
    abel

theorem sum_map_range8 (f : Nat → R) : ((List.range 8).map f).sum = ∑ b ∈ range 8, f b := by
  exact (list_sum_range (List.range 8) f f (by intro t ht; simp)).trans (by simp)

theorem bitsSet_eq (x : Nat) : bitsSet x = (bitPos x).length := rfl

omit [Semiring R] in
theorem BlkCsr.valPos_succ (B : BlkCsr R) (q : Nat) :
    B.valPos (q + 1) = B.valPos q + (bitPos (B.mask q)).length := by
  simp [BlkCsr.valPos, List.range_succ]

omit [Semiring R] in
theorem BlkCsr.valPos_mono (B : BlkCsr R) {q q' : Nat} (h : q ≤ q') : B.valPos q ≤ B.valPos q' := by
  induction h with
  | refl => exact le_refl _
  | step _ ih => rw [BlkCsr.valPos_succ]; omega

theorem maskRank_lt (t : Nat → Bool) {b N : Nat} (hb : b < N) (ht : t b = true) :
    ((List.range b).filter t).length < ((List.range N).filter t).length := by
  have h1 : ((List.range (b + 1)).filter t).length = ((List.range b).filter t).length + 1 := by
    rw [List.range_succ, List.filter_append]
    simp [ht]
  obtain ⟨d, rfl⟩ := Nat.exists_eq_add_of_le (show b + 1 ≤ N by omega)
  rw [List.range_add, List.filter_append, List.length_append]
  omega

/-- accumulators after the blocks `lo .. lo + t`, the current block only up to row `r` -/
structure AccOk (B : BlkCsr R) (x : List R) (S : Nat → R) (acc : List (List R)) : Prop where
  len : acc.length = B.nR
  row : ∀ r, r < B.nR → ∃ a, acc[r]? = some a ∧ a.length = 8 ∧ a.sum = S r

theorem AccOk.congr {B : BlkCsr R} {x : List R} {S S' : Nat → R} {acc : List (List R)}
    (h : AccOk B x S acc) (hs : ∀ r, r < B.nR → S r = S' r) : AccOk B x S' acc :=
  ⟨h.len, fun r hr => by
    obtain ⟨a, h1, h2, h3⟩ := h.row r hr
    exact ⟨a, h1, h2, h3.trans (hs r hr)⟩⟩

theorem blkmvRow_spec {B : BlkCsr R} (h : B.WF) {x xv : List R} {k : Nat} (hk : k < B.nblocks)
    (hxv : xv = (List.range 8).map fun b => x.getD ((B.col k).toNat + b) 0) {r : Nat} (hr : r < B.nR)
    {S : Nat → R} {acc : List (List R)} (ha : AccOk B x S acc) :
    ∃ acc', blkmvRow (B.nR : Int) B.masks B.val xv k r ((B.valPos (k * B.nR + r) : Nat), acc)
        = some (((B.valPos (k * B.nR + (r + 1)) : Nat) : Int), acc') ∧
      AccOk B x (fun s => if s = r then S s + dotCell B x k r else S s) acc' := by
  have hq : k * B.nR + r < B.nblocks * B.nR := by
    have : (k + 1) * B.nR ≤ B.nblocks * B.nR := Nat.mul_le_mul_right _ hk
    rw [Nat.succ_mul] at this
    omega
  have hml := h.masks_len
  have hvl := h.val_len
  generalize hqq : k * B.nR + r = q at *
  have hmask : rd B.masks (((k : Int)) * (B.nR : Int) + (r : Int)) = some (B.mask q) := by
    rw [show ((k : Int)) * (B.nR : Int) + (r : Int) = ((q : Nat) : Int) by rw [← hqq]; push_cast; rfl,
      rd_ofNat, BlkCsr.mask, List.getD_eq_getElem?_getD, List.getElem?_eq_getElem (by omega)]
    rfl
  have hsucc := BlkCsr.valPos_succ B q
  have hle := BlkCsr.valPos_mono B (show q + 1 ≤ B.nblocks * B.nR by omega)
  have hload : expandload (B.mask q) B.val ((B.valPos q : Nat) : Int)
      = some ((List.range 8).map fun b => if (B.mask q).testBit b then
          B.val.getD (B.valPos q + ((List.range b).filter (B.mask q).testBit).length) 0 else 0) := by
    unfold expandload
    apply mapM_range_some
    intro b hb
    by_cases ht : (B.mask q).testBit b = true
    · rw [if_pos ht, if_pos ht]
      have := maskRank_lt (B.mask q).testBit hb ht
      have h2 : (bitPos (B.mask q)).length = ((List.range 8).filter (B.mask q).testBit).length := rfl
      rw [← Nat.cast_add, rd_ofNat, List.getD_eq_getElem?_getD, List.getElem?_eq_getElem (by omega)]
      rfl
    · rw [if_neg ht, if_neg ht]
  obtain ⟨a, ha1, ha2, ha3⟩ := ha.row r hr
  have hrd : rd acc (r : Int) = some a := by rw [rd_ofNat, ha1]
  have hw : ∀ v, wr acc (r : Int) v = some (acc.set r v) := fun v => wr_ofNat (by rw [ha.len]; exact hr)
  refine ⟨acc.set r (List.zipWith (· + ·) (List.zipWith (· * ·) ((List.range 8).map fun b =>
      if (B.mask q).testBit b then
        B.val.getD (B.valPos q + ((List.range b).filter (B.mask q).testBit).length) 0 else 0) xv) a), ?_, ?_⟩
  · unfold blkmvRow
    simp only [hmask, hload, hrd, hw, Option.bind_eq_bind, Option.bind_some]
    congr 2
    rw [show k * B.nR + (r + 1) = q + 1 by omega, hsucc, bitsSet_eq]
    push_cast; rfl
  · refine ⟨by simp [ha.len], ?_⟩
    intro s hs
    by_cases hsr : s = r
    · subst hsr
      refine ⟨_, by rw [List.getElem?_set_self (by rw [ha.len]; exact hr)], ?_, ?_⟩
      · subst hxv; simp [ha2]
      · rw [if_pos rfl, sum_zipWith_add _ _ (by subst hxv; simp [ha2]), ha3, add_comm]
        congr 1
        rw [hxv, List.zipWith_map, List.zipWith_self, sum_map_range8]
        have hcol := (h.col_range k hk).1
        rw [expand_dot (B.mask q).testBit B.val (B.valPos q) (B.col k) hcol x 8
          (by have : (bitPos (B.mask q)).length = ((List.range 8).filter (B.mask q).testBit).length := rfl
              omega)]
        rw [dotCell, BlkCsr.cell, hqq]
        rfl
    · obtain ⟨a', h1, h2, h3⟩ := ha.row s hs
      refine ⟨a', by rw [List.getElem?_set_ne (by omega)]; exact h1, h2, ?_⟩
      rw [if_neg hsr, h3]

theorem blkmvBlk_spec {B : BlkCsr R} (h : B.WF) {x : List R} (hx : B.n ≤ x.length) {k : Nat}
    (hk : k < B.nblocks) {S : Nat → R} {acc : List (List R)} (ha : AccOk B x S acc) :
    ∃ acc', blkmvBlk (B.nR : Int) B.base B.masks B.val B.ind x k (((B.valPos (k * B.nR) : Nat) : Int), acc)
        = some (((B.valPos ((k + 1) * B.nR) : Nat) : Int), acc') ∧
      AccOk B x (fun s => S s + dotCell B x k s) acc' := by
  have hc := h.col_range k hk
  have hil := h.ind_len
  have hi : rd B.ind (k : Int) = some (B.col k + B.base) := by
    rw [rd_ofNat, BlkCsr.col, List.getD_eq_getElem?_getD, List.getElem?_eq_getElem (by omega)]
    simp
  have hxv := vload_rep (Rep.of_list x 0) (p := B.col k) (K := 8) hc.1 (by omega)
  obtain ⟨⟨iv, acc'⟩, e, hiv, hacc⟩ := forC_inv_nat (n := B.nR)
    (f := blkmvRow (B.nR : Int) B.masks B.val ((List.range 8).map fun l => x.getD ((B.col k).toNat + l) 0) k)
    (s := (((B.valPos (k * B.nR) : Nat) : Int), acc))
    (fun (t : Nat) (st : Int × List (List R)) => st.1 = ((B.valPos (k * B.nR + t) : Nat) : Int) ∧
      AccOk B x (fun s => if s < t then S s + dotCell B x k s else S s) st.2)
    ⟨by simp, ha.congr (by intro r _; simp)⟩ (by
      rintro t ⟨iv, acc⟩ ht ⟨h1, h2⟩
      simp only at h1 h2
      subst h1
      obtain ⟨acc', e, h3⟩ := blkmvRow_spec h hk rfl ht h2
      refine ⟨_, e, rfl, h3.congr ?_⟩
      intro s _
      by_cases hst : s = t
      · subst hst
        rw [if_pos rfl, if_neg (by omega), if_pos (by omega)]
      · rw [if_neg hst]
        by_cases hlt : s < t
        · rw [if_pos hlt, if_pos (by omega)]
        · rw [if_neg hlt, if_neg (by omega)])
  refine ⟨acc', ?_, hacc.congr (by intro s hs; rw [if_pos hs])⟩
  unfold blkmvBlk
  simp only [hi, Option.bind_eq_bind, Option.bind_some, add_sub_cancel_right, hxv]
  rw [e]
  simp only at hiv
  rw [hiv, Nat.succ_mul]

/-- row `i` of the structure times x -/
def blkDot (B : BlkCsr R) (x : List R) (i : Nat) : R :=
  ((B.row i).map fun e => e.2 * x.getD e.1.toNat 0).sum

theorem blkDot_cells (B : BlkCsr R) (x : List R) (i : Nat) :
    blkDot B x i = ∑ t ∈ range (B.hi (i / B.nR) - B.lo (i / B.nR)),
      dotCell B x (B.lo (i / B.nR) + t) (i % B.nR) := by
  unfold blkDot BlkCsr.row
  generalize B.hi (i / B.nR) - B.lo (i / B.nR) = N
  induction N with
  | zero => simp
  | succ N ih =>
    rw [List.range_succ, List.flatMap_append, List.map_append, List.sum_append, ih, sum_range_succ]
    simp [dotCell]

omit [Semiring R] in
theorem BlkCsr.WF.hi_le {B : BlkCsr R} (h : B.WF) : ∀ d g, g + d + 1 = B.groups → B.hi g ≤ B.nblocks := by
  intro d
  induction d with
  | zero => intro g hg; rw [h.hi_last g (by omega)]
  | succ d ih =>
    intro g hg
    have h1 := ih (g + 1) (by omega)
    rw [h.hi_lo g (by omega)]
    exact (h.lo_hi (g + 1) (by omega)).trans h1

omit [Semiring R] in
theorem BlkCsr.cell_range {B : BlkCsr R} (h : B.WF) {k r : Nat} (hk : k < B.nblocks) :
    ∀ e ∈ B.cell k r, 0 ≤ e.1 ∧ e.1 < B.n := by
  intro e he
  have hc := h.col_range k hk
  have := (List.of_mem_zip he).1
  simp only [List.mem_map, bitPos, List.mem_filter, List.mem_range] at this
  obtain ⟨b, ⟨hb, -⟩, hbe⟩ := this
  omega

theorem matVec_blk {B : BlkCsr R} (h : B.WF) (x : List R) {i : Nat} (hi : i < B.m) :
    blkDot B x i = matVec B.mat B.n x i := by
  unfold blkDot matVec BlkCsr.mat
  refine filter_sum_mul (B.row i) B.n (fun j => x.getD j 0) ?_
  intro e he
  simp only [BlkCsr.row, List.mem_flatMap, List.mem_range] at he
  obtain ⟨t, ht, he⟩ := he
  have hg : i / B.nR < B.groups := by
    have := (lt_ngrp (m := B.m) (g := i / B.nR) h.nR_pos).2 (by
      have := Nat.div_add_mod i B.nR; omega)
    exact this
  have := h.hi_le (B.groups - (i / B.nR) - 1) (i / B.nR) (by omega)
  exact BlkCsr.cell_range h (by omega) e he

variable [DecidableEq R]

theorem blkmvStore_spec {B : BlkCsr R} {x : List R} {S : Nat → R} {acc : List (List R)}
    (ha : AccOk B x S acc) {alpha beta : R} {iRow r : Nat} (hr : r < B.nR) {y : List R} {len : Nat}
    {f : Nat → R} (hy : Rep y len f) (hl : iRow + r < len) :
    ∃ y', blkmvStore alpha beta acc iRow r y = some y' ∧
      Rep y' len (fun i => if i = iRow + r then alpha * S r + beta * f i else f i) := by
  obtain ⟨a, h1, h2, h3⟩ := ha.row r hr
  have hs : (if alpha ≠ 1 then alpha * hsum8 a else hsum8 a) = alpha * S r := by
    rw [hsum8_eq a h2, h3]
    by_cases h : alpha = 1
    · simp [h]
    · simp [h]
  obtain ⟨y', w, hy'⟩ := hy.wr_nat (alpha * S r + beta * f (iRow + r)) (i := iRow + r) hl
  refine ⟨y', ?_, hy'.congr ?_⟩
  · unfold blkmvStore
    rw [rd_ofNat, h1]
    simp only [Option.bind_eq_bind, Option.bind_some, hs]
    have hrd := hy.rd_nat hl
    push_cast at hrd w
    by_cases hb : beta = 0
    · subst hb
      simp only [ne_eq, not_true_eq_false, if_false]
      simpa using w
    · rw [if_pos hb, hrd, Option.bind_some]
      exact w
  · intro i _
    by_cases hi : i = iRow + r
    · subst hi
      rw [Function.update_self, if_pos rfl]
    · rw [Function.update_of_ne hi, if_neg hi]

theorem blkmvGroup_spec {B : BlkCsr R} (h : B.WF) {x : List R} (hx : B.n ≤ x.length) {g : Nat}
    (hg : g < B.groups) {alpha beta : R} {y : List R} {len : Nat} (hm : B.m ≤ len) {f : Nat → R}
    (hy : Rep y len f) :
    ∃ y', blkmvGroup (B.nR : Int) B.base B.m alpha beta B.masks B.val B.ind B.ptr x
        ((B.nR * g : Nat) : Int) (((B.valPos (B.lo g * B.nR) : Nat) : Int), y)
        = some (((B.valPos (B.hi g * B.nR) : Nat) : Int), y') ∧
      Rep y' len (fun i => if B.nR * g ≤ i ∧ i < B.nR * (g + 1) ∧ i < B.m then
        alpha * blkDot B x i + beta * f i else f i) := by
  have hgm := (lt_ngrp (m := B.m) h.nR_pos).1 hg
  have hpl := h.ptr_len
  have hp : ∀ i, i ≤ B.m → rd B.ptr (i : Int) = some (B.ptr.getD i 0) := by
    intro i hi
    rw [rd_ofNat, List.getD_eq_getElem?_getD, List.getElem?_eq_getElem (by omega)]
    rfl
  have hlo : B.ptr.getD (B.nR * g) 0 - B.base = (B.lo g : Int) := by
    have := h.ptr_base (B.nR * g) (by omega)
    rw [BlkCsr.lo, Nat.mul_comm g]; omega
  have hhi : B.ptr.getD (B.nR * g + 1) 0 - B.base = (B.hi g : Int) := by
    have := h.ptr_base (B.nR * g + 1) (by omega)
    rw [BlkCsr.hi, Nat.mul_comm g]; omega
  have hle := h.lo_hi g hg
  have hnb := h.hi_le (B.groups - g - 1) g (by omega)
  obtain ⟨⟨iv, acc⟩, e1, hiv, hacc⟩ := forC_inv_off (a := (B.lo g : Int)) (b := (B.hi g : Int))
    (n := B.hi g - B.lo g)
    (f := blkmvBlk (B.nR : Int) B.base B.masks B.val B.ind x)
    (s := (((B.valPos (B.lo g * B.nR) : Nat) : Int), List.replicate (B.nR : Int).toNat (List.replicate 8 0)))
    (fun (t : Nat) (st : Int × List (List R)) => st.1 = ((B.valPos ((B.lo g + t) * B.nR) : Nat) : Int) ∧
      AccOk B x (fun s => ∑ u ∈ range t, dotCell B x (B.lo g + u) s) st.2)
    (by omega)
    ⟨by simp, by simp, by
      intro r hr
      refine ⟨List.replicate 8 0, by simp [hr], by simp, by simp⟩⟩ (by
      rintro t ⟨iv, acc⟩ ht ⟨h1, h2⟩
      simp only at h1 h2
      subst h1
      obtain ⟨acc', e, h3⟩ := blkmvBlk_spec h hx (k := B.lo g + t) (by omega) h2
      refine ⟨(((B.valPos ((B.lo g + t + 1) * B.nR) : Nat) : Int), acc'), ?_, ?_, ?_⟩
      · rw [← e]; push_cast; rfl
      · rfl
      · exact h3.congr (fun s _ => by rw [sum_range_succ]))
  simp only at hiv hacc
  rw [show B.lo g + (B.hi g - B.lo g) = B.hi g by omega] at hiv
  have hsub : subRows (B.nR : Int) B.m ((B.nR * g : Nat) : Int)
      = ((min B.nR (B.m - B.nR * g) : Nat) : Int) := by unfold subRows; omega
  obtain ⟨y', e2, hy'⟩ := forC_inv_nat (n := min B.nR (B.m - B.nR * g))
    (f := blkmvStore alpha beta acc ((B.nR * g : Nat) : Int)) (s := y)
    (fun (t : Nat) y' => Rep y' len (fun i => if B.nR * g ≤ i ∧ i < B.nR * g + t then
        alpha * blkDot B x i + beta * f i else f i))
    (hy.congr (by intro i _; rw [if_neg (by omega)])) (by
      intro t y1 ht h1
      obtain ⟨y2, e, h2⟩ := blkmvStore_spec hacc (alpha := alpha) (beta := beta) (iRow := B.nR * g)
        (r := t) (by omega) h1 (by omega)
      refine ⟨y2, e, h2.congr ?_⟩
      intro i _
      by_cases hi : i = B.nR * g + t
      · subst hi
        rw [if_pos rfl, if_neg (by omega), if_pos (by omega), blkDot_cells]
        rw [Nat.mul_add_div h.nR_pos, Nat.div_eq_of_lt (by omega), Nat.mul_add_mod,
          Nat.mod_eq_of_lt (by omega), Nat.add_zero]
      · rw [if_neg hi]
        by_cases hlt : B.nR * g ≤ i ∧ i < B.nR * g + t
        · rw [if_pos hlt, if_pos (by omega)]
        · rw [if_neg hlt, if_neg (by omega)])
  refine ⟨y', ?_, hy'.congr ?_⟩
  · unfold blkmvGroup
    have r1 := hp (B.nR * g) (by omega)
    have r2 := hp (B.nR * g + 1) (by omega)
    rw [show (((B.nR * g + 1 : Nat)) : Int) = ((B.nR * g : Nat) : Int) + 1 by push_cast; rfl] at r2
    simp only [r1, r2, Option.bind_eq_bind, Option.bind_some, hlo, hhi, e1, hsub, e2, hiv]
  · intro i _
    rw [Nat.mul_succ]
    by_cases hlt : B.nR * g ≤ i ∧ i < B.nR * g + min B.nR (B.m - B.nR * g)
    · rw [if_pos hlt, if_pos (by omega)]
    · rw [if_neg hlt, if_neg (by omega)]

theorem blkmvKernel_spec {B : BlkCsr R} (h : B.WF) {x : List R} (hx : B.n ≤ x.length)
    {alpha beta : R} {y : List R} (hy : B.m ≤ y.length) :
    ∃ y', blkmvKernel (B.nR : Int) B.base B.m alpha beta B.masks B.val B.ind B.ptr x y = some y' ∧
      IsMv alpha beta B.mat B.m B.n x y y' := by
  obtain ⟨⟨iv, y'⟩, e, -, hr⟩ := forS_groups h.nR_pos (m := B.m)
    (f := blkmvGroup (B.nR : Int) B.base B.m alpha beta B.masks B.val B.ind B.ptr x)
    (s := ((0 : Int), y))
    (fun g (st : Int × List R) =>
      (g < B.groups → st.1 = ((B.valPos (B.lo g * B.nR) : Nat) : Int)) ∧
      Rep st.2 y.length (fun i => if i < B.nR * g ∧ i < B.m then
        alpha * blkDot B x i + beta * y.getD i 0 else y.getD i 0))
    ⟨fun _ => by rw [h.lo_zero]; simp [BlkCsr.valPos],
      (Rep.of_list y 0).congr (by intro i _; simp)⟩ (by
      rintro g ⟨iv, y1⟩ hg ⟨h1, h2⟩
      have hg : g < B.groups := hg
      simp only at h1 h2
      have h1 := h1 hg
      subst h1
      obtain ⟨y2, e, h3⟩ := blkmvGroup_spec h hx hg (alpha := alpha) (beta := beta) hy h2
      refine ⟨_, e, ?_, h3.congr ?_⟩
      · intro hg1
        simp only
        rw [h.hi_lo g hg1]
      · intro i _
        rw [Nat.mul_succ]
        by_cases c1 : B.nR * g ≤ i ∧ i < B.nR * g + B.nR ∧ i < B.m
        · rw [if_pos c1, if_neg (by omega), if_pos (by omega)]
        · rw [if_neg c1]
          by_cases c2 : i < B.nR * g ∧ i < B.m
          · rw [if_pos c2, if_pos (by omega)]
          · rw [if_neg c2, if_neg (by omega)])
  have hle : B.m ≤ B.nR * ngrp B.m B.nR := by
    by_contra hc
    have := (lt_ngrp (m := B.m) (g := ngrp B.m B.nR) h.nR_pos).2 (by omega)
    omega
  simp only at hr
  refine ⟨y', by unfold blkmvKernel; rw [e]; rfl, hr.1, ?_, ?_⟩
  · intro i hi
    rw [hr.2 i (by omega)]
    simp only
    rw [if_pos (by omega), matVec_blk h x hi]
  · intro i hi
    by_cases hl : i < y.length
    · rw [hr.2 i hl]
      simp only
      rw [if_neg (by omega)]
      simp [hl]
    · rw [List.getElem?_eq_none (by rw [hr.1]; omega), List.getElem?_eq_none (by omega)]

end
end Verif
