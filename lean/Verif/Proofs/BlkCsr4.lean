/-
Reading a masked block CSR structure back.
-/
import Verif.Proofs.BlkCsr3

namespace Verif
open Model

variable {R : Type}

/-- the block rows in storage order -/
def cellsOf (nR : Nat) (bl : List (Int × (Nat → List (Int × R)))) : List (Int × List (Int × R)) :=
  bl.flatMap fun b => (List.range nR).map fun s => (b.1, b.2 s)

theorem cellsOf_length (nR : Nat) (bl : List (Int × (Nat → List (Int × R)))) :
    (cellsOf nR bl).length = bl.length * nR := by
  induction bl with
  | nil => simp [cellsOf]
  | cons b bl ih =>
    unfold cellsOf at ih ⊢
    rw [List.flatMap_cons, List.length_append, ih, List.length_cons, Nat.succ_mul]
    simp; omega

theorem cellsOf_get (nR : Nat) {r : Nat} (hr : r < nR) :
    ∀ (bl : List (Int × (Nat → List (Int × R)))) (k : Nat) (hk : k < bl.length),
      (cellsOf nR bl)[k * nR + r]? = some (bl[k].1, bl[k].2 r) := by
  intro bl
  induction bl with
  | nil => intro k hk; simp at hk
  | cons b bl ih =>
    intro k hk
    rw [cellsOf, List.flatMap_cons]
    cases k with
    | zero =>
      rw [List.getElem?_append_left (by simpa using hr)]
      simp [hr]
    | succ k =>
      rw [List.getElem?_append_right (by simp [Nat.succ_mul]; omega)]
      simp only [List.length_map, List.length_range, List.getElem_cons_succ]
      rw [show (k + 1) * nR + r - nR = k * nR + r by rw [Nat.succ_mul]; omega]
      exact ih k (by simpa using hk)

theorem push_masks (nR : Nat) (bl : List (Int × (Nat → List (Int × R)))) :
    (BlkOut.push emptyOut nR bl).masks = (cellsOf nR bl).map fun c => mkMask c.1 c.2 := by
  simp [BlkOut.push, emptyOut, cellsOf, List.map_flatMap, Function.comp_def]

theorem push_vals (nR : Nat) (bl : List (Int × (Nat → List (Int × R)))) :
    (BlkOut.push emptyOut nR bl).vals = (cellsOf nR bl).flatMap fun c => c.2.map Prod.snd := by
  simp [BlkOut.push, emptyOut, cellsOf, List.flatMap_assoc, List.flatMap_map]

/-- a cell a mask can describe -/
def CellOk (c : Int × List (Int × R)) : Prop :=
  (∀ e ∈ c.2, c.1 ≤ e.1 ∧ e.1 < c.1 + 8) ∧ c.2.Pairwise fun x y => x.1 < y.1

theorem valPos_of_cells {B : BlkCsr R} {cells : List (Int × List (Int × R))} {tm : List Nat}
    (hm : B.masks = cells.map (fun c => mkMask c.1 c.2) ++ tm) (hok : ∀ c ∈ cells, CellOk c) :
    ∀ q, q ≤ cells.length →
      B.valPos q = ((cells.take q).flatMap fun c => c.2.map Prod.snd).length := by
  intro q
  induction q with
  | zero => intro _; simp [BlkCsr.valPos]
  | succ q ih =>
    intro hq
    have h1 := ih (by omega)
    rw [BlkCsr.valPos, List.range_succ, List.map_append, List.sum_append]
    rw [BlkCsr.valPos] at h1
    rw [h1, List.take_succ, List.getElem?_eq_getElem (by omega)]
    simp only [Option.toList_some, List.flatMap_append, List.flatMap_singleton, List.length_append,
      List.map_singleton, List.sum_singleton]
    congr 1
    have : B.mask q = mkMask cells[q].1 cells[q].2 := by
      simp only [BlkCsr.mask, List.getD_eq_getElem?_getD, hm]
      rw [List.getElem?_append_left (by simpa using hq), List.getElem?_map,
        List.getElem?_eq_getElem (by omega)]
      rfl
    have ok := hok _ (List.getElem_mem (show q < cells.length by omega))
    rw [this, bitPos_mkMask _ _ ok.1 ok.2]
    simp

theorem cell_of_cells {B : BlkCsr R} {cells : List (Int × List (Int × R))} {tm : List Nat} {tv : List R}
    (hm : B.masks = cells.map (fun c => mkMask c.1 c.2) ++ tm)
    (hv : B.val = (cells.flatMap fun c => c.2.map Prod.snd) ++ tv)
    (hok : ∀ c ∈ cells, CellOk c) {k r : Nat} {c : Int × List (Int × R)}
    (hc : cells[k * B.nR + r]? = some c) (hcol : B.col k = c.1) : B.cell k r = c.2 := by
  obtain ⟨hq, hcq⟩ := List.getElem?_eq_some_iff.1 hc
  have ok := hok _ (List.getElem_mem hq)
  rw [hcq] at ok
  have hmask : B.mask (k * B.nR + r) = mkMask c.1 c.2 := by
    simp only [BlkCsr.mask, List.getD_eq_getElem?_getD, hm]
    rw [List.getElem?_append_left (by simpa using hq), List.getElem?_map, hc]
    rfl
  have hdrop : B.val.drop (B.valPos (k * B.nR + r)) = c.2.map Prod.snd ++
      (((cells.drop (k * B.nR + r + 1)).flatMap fun c => c.2.map Prod.snd) ++ tv) := by
    rw [valPos_of_cells hm hok _ (by omega), hv]
    conv_lhs => rw [← List.take_append_drop (k * B.nR + r) cells]
    rw [List.flatMap_append, List.append_assoc]
    rw [List.take_append_drop, List.drop_left, List.drop_eq_getElem_cons hq, List.flatMap_cons, hcq,
      List.append_assoc]
  rw [BlkCsr.cell, hdrop, hmask, bitPos_mkMask _ _ ok.1 ok.2, hcol, List.map_map]
  have hz : (c.2.map ((fun (b : Nat) => c.1 + (b : Int)) ∘ fun e => (e.1 - c.1).toNat))
      = c.2.map Prod.fst := by
    apply List.map_congr_left
    intro e he
    have := ok.1 e he
    simp only [Function.comp_apply]
    omega
  rw [hz]
  rw [← List.append_nil (c.2.map Prod.fst), List.zip_append (by simp)]
  simp only [List.zip_nil_left, List.append_nil]
  have hz2 := List.zip_unzip c.2
  rwa [List.unzip_eq_map] at hz2

/-- the structure left in the buffers -/
def blkOf (A : Csr R) (nR : Nat) (rp : List Int) (tp ti : List Int) (tv : List R) (tm : List Nat) :
    BlkCsr R where
  m := A.m
  n := A.n
  base := A.base
  nR := nR
  ptr := rp.map (· + A.base) ++ tp
  ind := (BlkOut.push (emptyOut : BlkOut R) nR (blocksUpto A nR (ngrp A.m nR))).cols.map (· + A.base) ++ ti
  masks := (BlkOut.push emptyOut nR (blocksUpto A nR (ngrp A.m nR))).masks ++ tm
  val := (BlkOut.push emptyOut nR (blocksUpto A nR (ngrp A.m nR))).vals ++ tv

theorem blkOf_spec {A : Csr R} (h : A.WF) (hs : A.Sorted) (hnd : A.NoDup) {nR : Nat}
    (hnR : 0 < nR) (hn8 : 8 ≤ A.n) (hn : (A.n : Int) ≤ blkNoCol) {rp : List Int}
    (hrp : Rep rp (A.m + 1) (fun i => if i = A.m then
          (offs (grpBlocks A nR) (ngrp A.m nR) : Int) else blkPtr A nR (ngrp A.m nR) i))
    (tp ti : List Int) (tv : List R) (tm : List Nat) :
    (blkOf A nR rp tp ti tv tm).WF ∧
    (blkOf A nR rp tp ti tv tm).nblocks = (blocksUpto A nR (ngrp A.m nR)).length ∧
    ∀ i, i < A.m → (blkOf A nR rp tp ti tv tm).row i = A.row i := by
  generalize hB : blkOf A nR rp tp ti tv tm = B
  have em : B.m = A.m := by rw [← hB]; rfl
  have en : B.n = A.n := by rw [← hB]; rfl
  have eb : B.base = A.base := by rw [← hB]; rfl
  have eR : B.nR = nR := by rw [← hB]; rfl
  have egr : B.groups = ngrp A.m nR := by rw [BlkCsr.groups, em, eR]; rfl
  generalize hG : ngrp A.m nR = G at *
  have emk : B.masks = (cellsOf nR (blocksUpto A nR G)).map (fun c => mkMask c.1 c.2) ++ tm := by
    rw [← hB, ← push_masks, ← hG]; rfl
  have evl : B.val = ((cellsOf nR (blocksUpto A nR G)).flatMap fun c => c.2.map Prod.snd) ++ tv := by
    rw [← hB, ← push_vals, ← hG]; rfl
  have ein : B.ind = (blocksUpto A nR G).map (fun b => b.1 + A.base) ++ ti := by
    rw [← hB, ← hG]; simp [blkOf, BlkOut.push, emptyOut]
  -- blocks of a group
  have hcut : ∀ g, g < G → _ := fun g hg =>
    cutBlocks_spec (k := grpSize A nR g) (nR := nR) (n := A.n) (by omega) hn (A.ind.length + 1)
      (grpRows A nR g) (grp_rows h hs hnd nR g) (grp_left_lt h ((lt_ngrp hnR).1 (by omega)))
  have hmemG : ∀ b ∈ blocksUpto A nR G, ∃ g, g < G ∧ b ∈ grpBlocks A nR g := by
    intro b hb
    simp only [blocksUpto, List.mem_flatMap, List.mem_range] at hb
    exact hb
  have hok : ∀ c ∈ cellsOf nR (blocksUpto A nR G), CellOk c := by
    intro c hc
    simp only [cellsOf, List.mem_flatMap, List.mem_map, List.mem_range] at hc
    obtain ⟨b, hb, s, hs', rfl⟩ := hc
    obtain ⟨g, hg, hbg⟩ := hmemG b hb
    exact (hcut g hg).2.1 b hbg s hs'
  -- pointers
  have hptr : ∀ i, i ≤ A.m → B.ptr.getD i 0 = (if i = A.m then (offs (grpBlocks A nR) G : Int)
      else blkPtr A nR G i) + A.base := by
    intro i hi
    rw [← hB, blkOf, List.getD_eq_getElem?_getD]
    simp only
    rw [List.getElem?_append_left (by simp [hrp.len_eq]; omega), List.getElem?_map,
      hrp.getElem? (by omega)]
    rfl
  have hle : A.m ≤ nR * G := by
    by_contra hc
    have := (lt_ngrp (m := A.m) (g := G) hnR).2 (by omega)
    omega
  have hlo : ∀ g, g < G → B.lo g = offs (grpBlocks A nR) g := by
    intro g hg
    have hgm := (lt_ngrp (m := A.m) hnR).1 (show g < ngrp A.m nR by omega)
    rw [BlkCsr.lo, eR, eb, Nat.mul_comm, hptr _ (by omega), if_neg (by omega), blkPtr,
      if_pos (by omega), Nat.mul_mod_right, if_pos rfl, Nat.mul_div_cancel_left _ hnR]
    omega
  have hhi : ∀ g, g < G → B.hi g = offs (grpBlocks A nR) (g + 1) := by
    intro g hg
    have hgm := (lt_ngrp (m := A.m) hnR).1 (show g < ngrp A.m nR by omega)
    rw [BlkCsr.hi, eR, eb, Nat.mul_comm, hptr _ (by omega)]
    by_cases hc : nR * g + 1 = A.m
    · rw [if_pos hc]
      have : g + 1 = G := by
        rcases Nat.lt_or_ge (g + 1) G with h1 | h1
        · have := (lt_ngrp (m := A.m) hnR).1 (show g + 1 < ngrp A.m nR by omega)
          rw [Nat.mul_succ] at this
          omega
        · omega
      rw [this]
      omega
    · rw [if_neg hc, blkPtr, if_pos (by omega)]
      by_cases h1 : nR = 1
      · subst h1
        simp only [Nat.mod_one, Nat.one_mul, Nat.div_one, if_true]
        omega
      · rw [Nat.mul_add_mod, Nat.mod_eq_of_lt (by omega), if_neg (by omega), Nat.mul_add_div hnR,
          Nat.div_eq_of_lt (by omega)]
        simp only [Nat.add_zero]
        omega
  have hnb : B.nblocks = (blocksUpto A nR G).length := by
    rw [BlkCsr.nblocks, em, eb, hptr _ (le_refl _), if_pos rfl, blocksUpto_length]
    omega
  have hcol : ∀ k (hk : k < (blocksUpto A nR G).length), B.col k = (blocksUpto A nR G)[k].1 := by
    intro k hk
    rw [BlkCsr.col, ein, eb, List.getD_eq_getElem?_getD, List.getElem?_append_left (by simpa using hk),
      List.getElem?_map, List.getElem?_eq_getElem hk]
    simp
  refine ⟨?_, hnb, ?_⟩
  · constructor
    · rw [eb]; exact h.base01
    · rw [eR]; exact hnR
    · rw [em, ← hB]; simp [blkOf, hrp.len_eq]
    · intro i hi
      rw [em] at hi
      rw [eb, hptr i hi]
      split
      · omega
      · rw [blkPtr, if_pos (by omega)]
        omega
    · rcases Nat.eq_zero_or_pos G with h0 | h0
      · have hm0 : A.m = 0 := by subst h0; omega
        rw [BlkCsr.lo, eb, Nat.zero_mul, hptr _ (by omega), if_pos hm0.symm, h0]
        simp
      · rw [hlo 0 h0]; rfl
    · intro g hg
      rw [egr] at hg
      rw [hlo g hg, hhi g hg]
      exact offs_mono _ (by omega)
    · intro g hg
      rw [egr] at hg
      rw [hlo (g + 1) hg, hhi g (by omega)]
    · intro g hg
      rw [egr] at hg
      rw [hhi g (by omega), hnb, blocksUpto_length, hg]
    · rw [hnb, ein]; simp
    · rw [hnb, eR, emk, List.length_append, List.length_map, cellsOf_length]; omega
    · rw [hnb, eR, ← cellsOf_length, valPos_of_cells emk hok _ (le_refl _), List.take_length, evl,
        List.length_append]
      omega
    · intro k hk
      rw [hnb] at hk
      rw [hcol k hk, en]
      obtain ⟨g, hg, hb⟩ := hmemG _ (List.getElem_mem hk)
      exact (hcut g hg).1 _ hb
  · intro i hi
    have hg : i / nR < G := by
      rw [← hG, lt_ngrp hnR]
      have := Nat.div_add_mod i nR
      omega
    have hr := Nat.mod_lt i hnR
    have hlen := offs_succ (grpBlocks A nR) (i / nR)
    rw [BlkCsr.row, eR, hlo _ hg, hhi _ hg, hlen, Nat.add_sub_cancel_left]
    have hrow := (hcut _ hg).2.2.1 _ hr
    have : grpRows A nR (i / nR) (i % nR) = A.row i := by
      rw [grpRows, Nat.div_add_mod]
    rw [this] at hrow
    rw [← hrow]
    change _ = (grpBlocks A nR (i / nR)).flatMap _
    have hcells : ∀ t (ht : t < (grpBlocks A nR (i / nR)).length),
        B.cell (offs (grpBlocks A nR) (i / nR) + t) (i % nR)
          = ((grpBlocks A nR (i / nR))[t]).2 (i % nR) := by
      intro t ht
      have hk : offs (grpBlocks A nR) (i / nR) + t < (blocksUpto A nR G).length := by
        rw [blocksUpto_length]
        have := offs_mono (grpBlocks A nR) (show i / nR + 1 ≤ G by omega)
        omega
      have hget := flat_getElem? (rows := grpBlocks A nR) hg ht
      rw [List.getElem?_eq_getElem ht] at hget
      have hget2 : (blocksUpto A nR G)[offs (grpBlocks A nR) (i / nR) + t]
          = (grpBlocks A nR (i / nR))[t] := by
        have : (blocksUpto A nR G)[offs (grpBlocks A nR) (i / nR) + t]?
          = some (grpBlocks A nR (i / nR))[t] := hget
        rw [List.getElem?_eq_getElem hk] at this
        exact Option.some.inj this
      rw [← hget2]
      refine cell_of_cells (c := ((blocksUpto A nR G)[offs (grpBlocks A nR) (i / nR) + t].1,
        (blocksUpto A nR G)[offs (grpBlocks A nR) (i / nR) + t].2 (i % nR))) emk evl hok ?_ ?_
      · rw [eR]
        exact cellsOf_get nR hr _ _ hk
      · exact hcol _ hk
    generalize grpBlocks A nR (i / nR) = L at hcells
    have : ∀ (f : Nat → List (Int × R)) (L : List (Int × (Nat → List (Int × R)))),
        (∀ t (ht : t < L.length), f t = (L[t]).2 (i % nR)) →
        (List.range L.length).flatMap f = L.flatMap fun b => b.2 (i % nR) := by
      intro f L
      induction L generalizing f with
      | nil => intro _; rfl
      | cons b L ih =>
        intro hf
        rw [List.length_cons, List.range_succ_eq_map, List.flatMap_cons, List.flatMap_cons,
          List.flatMap_map, hf 0 (by simp)]
        congr 1
        exact ih (fun t => f (t + 1)) (fun t ht => by
          have := hf (t + 1) (by simpa using ht)
          simpa using this)
    exact this _ L hcells

end Verif
