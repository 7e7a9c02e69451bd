/-
The whole masked block CSR conversion, and the matrix it denotes.
-/
import Verif.Proofs.BlkCsr2
import Verif.Proofs.Triples
import Verif.Core.Prefix

namespace Verif
open Model

variable {R : Type}

/-- number of groups of `nR` rows -/
def ngrp (m nR : Nat) : Nat := (m + nR - 1) / nR

theorem ngrp_cast (m nR : Nat) (h : 0 < nR) :
    ((m : Int) - 0 + (nR : Int) - 1) / (nR : Int) = (ngrp m nR : Int) := by
  unfold ngrp
  rw [Int.natCast_ediv]
  congr 1
  omega

theorem lt_ngrp {m nR g : Nat} (h : 0 < nR) : g < ngrp m nR ↔ nR * g < m := by
  unfold ngrp
  rw [← Nat.succ_le_iff, Nat.le_div_iff_mul_le h, Nat.succ_mul, Nat.mul_comm g nR]
  omega

theorem forS_groups {σ : Type} {m nR : Nat} (h : 0 < nR) {f : Int → σ → Option σ} {s : σ}
    (P : Nat → σ → Prop) (h0 : P 0 s)
    (hs : ∀ (g : Nat) s, g < ngrp m nR → P g s →
      ∃ s', f ((nR * g : Nat) : Int) s = some s' ∧ P (g + 1) s') :
    ∃ s', forS 0 (m : Int) (nR : Int) f s = some s' ∧ P (ngrp m nR) s' := by
  unfold forS
  rw [ngrp_cast m nR h]
  refine forC_inv_nat P h0 ?_
  intro g s hg hp
  obtain ⟨s', e, h'⟩ := hs g s hg hp
  refine ⟨s', ?_, h'⟩
  rw [← e]
  congr 1
  push_cast; ring

/-- rows of group `g` -/
def grpRows (A : Csr R) (nR g : Nat) : Nat → List (Int × R) := fun s => A.row (nR * g + s)
def grpSize (A : Csr R) (nR g : Nat) : Nat := min nR (A.m - nR * g)

/-- blocks of group `g` -/
def grpBlocks (A : Csr R) (nR g : Nat) : List (Int × (Nat → List (Int × R))) :=
  cutBlocks (grpSize A nR g) A.n (A.ind.length + 1) (grpRows A nR g)

theorem subRows_grp {A : Csr R} {nR g : Nat} (h : nR * g < A.m) :
    subRows nR A.m ((nR * g : Nat) : Int) = (grpSize A nR g : Int) := by
  unfold subRows grpSize
  omega

theorem strict_of_sorted {A : Csr R} (hs : A.Sorted) (hnd : A.NoDup) {i : Nat} (hi : i < A.m) :
    (A.row i).Pairwise fun a b => a.1 < b.1 := by
  have h1 := hs i hi
  have h2 := hnd i hi
  rw [List.Nodup, List.pairwise_map] at h2
  rw [List.pairwise_map] at h1
  refine (h1.and h2).imp ?_
  intro a b h
  omega

theorem grp_rows {A : Csr R} (h : A.WF) (hs : A.Sorted) (hnd : A.NoDup) (nR g : Nat) :
    Rows (grpSize A nR g) nR A.n (grpRows A nR g) where
  le := Nat.min_le_left _ _
  range := fun s e he => Csr.row_range h he
  sorted := by
    intro s
    unfold grpRows
    rcases Nat.lt_or_ge (nR * g + s) A.m with hi | hi
    · exact strict_of_sorted hs hnd hi
    · rw [Csr.row_of_ge h hi]; exact List.Pairwise.nil
  empty := by
    intro s h1 h2
    unfold grpSize at h1
    exact Csr.row_of_ge h (by omega)

theorem grp_left {A : Csr R} (h : A.WF) {nR g : Nat} : ∀ k, nR * g + k ≤ A.m →
    (left k (grpRows A nR g) : Int) = A.p (nR * g + k) - A.p (nR * g) := by
  intro k
  induction k with
  | zero => intro _; simp [left]
  | succ k ih =>
    intro hk
    have := ih (by omega)
    unfold left at this ⊢
    rw [offs_succ]
    push_cast
    rw [this, grpRows, Csr.row_length h (by omega)]
    rw [show nR * g + (k + 1) = nR * g + k + 1 by omega]
    ring

theorem grp_left_lt {A : Csr R} (h : A.WF) {nR g : Nat} (hg : nR * g < A.m) :
    left (grpSize A nR g) (grpRows A nR g) < A.ind.length + 1 := by
  have h1 := grp_left h (nR := nR) (g := g) (grpSize A nR g) (by unfold grpSize; omega)
  have h2 := h.lo (i := nR * g) (by omega)
  have h3 := h.hi (i := nR * g + grpSize A nR g) (by unfold grpSize; omega)
  omega

/-- row ends of a group, counted from zero -/
def grpEnd (A : Csr R) (nR g s : Nat) : Int :=
  if s < grpSize A nR g then A.p (nR * g + s + 1) - A.base else 0

theorem blkInit_spec {A : Csr R} (h : A.WF) (hs : A.Sorted) (hnd : A.NoDup) {nR g : Nat}
    (hg : nR * g < A.m) :
    ∃ iVal, blkInit nR A.m A.base A.ptr ((nR * g : Nat) : Int) = some iVal ∧
      Loc A.ind A.val A.base (grpSize A nR g) nR (grpEnd A nR g) (grpRows A nR g) iVal := by
  have hR := grp_rows h hs hnd nR g
  have hk := hR.le
  have hkm : nR * g + grpSize A nR g ≤ A.m := by unfold grpSize; omega
  unfold blkInit
  rw [subRows_grp hg]
  obtain ⟨iVal, e, hv⟩ := forC_inv_nat (n := grpSize A nR g)
    (f := fun s iVal => (rd A.ptr (((nR * g : Nat) : Int) + s)).bind fun p => wr iVal s (p - A.base))
    (s := List.replicate (nR : Int).toNat 0)
    (fun (t : Nat) st => Rep st nR (fun s => if s < t then A.p (nR * g + s) - A.base else 0))
    ⟨by simp, by intro s hs; simp [hs]⟩ (by
      intro t st ht hv
      have := h.rd_ptr (i := nR * g + t) (by omega)
      push_cast at this ⊢
      rw [this, Option.bind_some]
      obtain ⟨v', w, hv'⟩ := hv.wr_nat (A.p (nR * g + t) - A.base) (i := t) (by omega)
      refine ⟨v', w, hv'.congr ?_⟩
      intro s hs
      by_cases hst : s = t
      · subst hst
        rw [Function.update_self, if_pos (by omega)]
      · rw [Function.update_of_ne hst]
        by_cases hlt : s < t
        · rw [if_pos hlt, if_pos (by omega)]
        · rw [if_neg hlt, if_neg (by omega)])
  refine ⟨iVal, e, ?_, hv.congr ?_⟩
  · intro s hs
    have := Csr.seg_row h (i := nR * g + s) (by omega)
    have hl := this.1
    unfold grpEnd grpRows
    rw [if_pos hs]
    rwa [show A.p (nR * g + s + 1) - A.base - ((A.row (nR * g + s)).length : Int) + A.base
      = A.p (nR * g + s) by omega, show A.p (nR * g + s + 1) - A.base + A.base
      = A.p (nR * g + s + 1) by omega]
  · intro s hs
    unfold grpEnd
    by_cases hlt : s < grpSize A nR g
    · rw [if_pos hlt, if_pos hlt, grpRows, Csr.row_length h (by omega)]
      ring
    · rw [if_neg hlt, if_neg hlt, hR.empty s (by omega) hs]
      simp

theorem offs_blocks_le {A : Csr R} (h : A.WF) (hs : A.Sorted) (hnd : A.NoDup) {nR : Nat}
    (hnR : 0 < nR) (hn8 : 8 ≤ A.n) (hn : (A.n : Int) ≤ blkNoCol) :
    ∀ g, g ≤ ngrp A.m nR →
      (offs (grpBlocks A nR) g : Int) ≤ A.p (min A.m (nR * g)) - A.base := by
  intro g
  induction g with
  | zero =>
    intro _
    have := h.ptr_first
    simp [this]
  | succ g ih =>
    intro hg
    have hgm := (lt_ngrp hnR).1 (show g < ngrp A.m nR by omega)
    have h1 := ih (by omega)
    rw [offs_succ]
    have h2 := (cutBlocks_spec (by omega) hn (A.ind.length + 1) (grpRows A nR g)
      (grp_rows h hs hnd nR g) (grp_left_lt h hgm)).2.2.2
    have h3 := grp_left h (nR := nR) (g := g) (grpSize A nR g) (by unfold grpSize; omega)
    rw [Nat.min_eq_right (by omega)] at h1
    rw [show min A.m (nR * (g + 1)) = nR * g + grpSize A nR g by
      unfold grpSize; rw [Nat.mul_succ]; omega]
    unfold grpBlocks at h1 ⊢
    push_cast
    omega

/-- all blocks of the first `g` groups -/
def blocksUpto (A : Csr R) (nR g : Nat) : List (Int × (Nat → List (Int × R))) :=
  (List.range g).flatMap (grpBlocks A nR)

theorem blocksUpto_length (A : Csr R) (nR g : Nat) :
    (blocksUpto A nR g).length = offs (grpBlocks A nR) g := (offs_eq _ _).symm

/-- pointer table after `g` groups -/
def blkPtr (A : Csr R) (nR g i : Nat) : Int :=
  if i < nR * g ∧ i < A.m then
    (if i % nR = 0 then offs (grpBlocks A nR) (i / nR) else offs (grpBlocks A nR) (i / nR + 1) : Nat)
  else A.p i

def emptyOut : BlkOut R := { cols := [], masks := [], vals := [], num := 0 }

theorem blkGroup_spec {A : Csr R} (h : A.WF) (hs : A.Sorted) (hnd : A.NoDup) {nR g : Nat}
    (hnR : 0 < nR) (hn : (A.n : Int) ≤ blkNoCol) (hg : nR * g < A.m) {rp : List Int}
    {o : BlkOut R} (hrp : Rep rp (A.m + 1) (blkPtr A nR g))
    (ho : ∃ q, o = { BlkOut.push emptyOut nR (blocksUpto A nR g) with num := q }) :
    ∃ rp' o', blkGroup nR A.m A.n A.base A.ptr A.ind A.val (A.ind.length + 1) ((nR * g : Nat) : Int)
        (rp, (offs (grpBlocks A nR) g : Int), o)
        = some (rp', (offs (grpBlocks A nR) (g + 1) : Int), o') ∧
      Rep rp' (A.m + 1) (blkPtr A nR (g + 1)) ∧
      ∃ q, o' = { BlkOut.push emptyOut nR (blocksUpto A nR (g + 1)) with num := q } := by
  have hR := grp_rows h hs hnd nR g
  have hk := hR.le
  have hkm : nR * g + grpSize A nR g ≤ A.m := by unfold grpSize; omega
  have hk0 : 0 < grpSize A nR g := by unfold grpSize; omega
  obtain ⟨iVal, e1, hL⟩ := blkInit_spec h hs hnd hg
  have hends : ∀ s : Nat, s < grpSize A nR g →
      rd rp (((nR * g : Nat) : Int) + s + 1) = some (grpEnd A nR g s + A.base) := by
    intro s hs
    have := hrp.rd_nat (i := nR * g + s + 1) (by omega)
    rw [show ((nR * g : Nat) : Int) + s + 1 = ((nR * g + s + 1 : Nat) : Int) by push_cast; rfl, this,
      blkPtr, if_neg (by omega), grpEnd, if_pos hs]
    congr 1; ring
  have e2 := blkLoop_spec hn (subRows_grp hg) hends (A.ind.length + 1) (grpRows A nR g) iVal
    { o with num := 0 } hR hL (grp_left_lt h hg)
  obtain ⟨rp1, w1, hr1⟩ := hrp.wr_nat (offs (grpBlocks A nR) g : Int) (i := nR * g) (by omega)
  have htot : (offs (grpBlocks A nR) g : Int)
      + (BlkOut.push { o with num := 0 } nR (cutBlocks (grpSize A nR g) A.n (A.ind.length + 1)
          (grpRows A nR g))).num = (offs (grpBlocks A nR) (g + 1) : Int) := by
    rw [offs_succ]
    simp only [BlkOut.push, grpBlocks]
    push_cast; ring
  obtain ⟨rp2, w2, hr2⟩ := forC_inv_off (a := 1) (b := (grpSize A nR g : Int)) (n := grpSize A nR g - 1)
    (f := fun s rp => wr rp (((nR * g : Nat) : Int) + s) (offs (grpBlocks A nR) (g + 1) : Int))
    (s := rp1)
    (fun (t : Nat) st => Rep st (A.m + 1) (fun i =>
      if nR * g < i ∧ i < nR * g + 1 + t then (offs (grpBlocks A nR) (g + 1) : Int)
      else Function.update (blkPtr A nR g) (nR * g) (offs (grpBlocks A nR) g : Int) i))
    (by omega) (hr1.congr (by intro i hi; rw [if_neg (by omega)])) (by
      intro t st ht hv
      obtain ⟨v', w, hv'⟩ := hv.wr_nat (offs (grpBlocks A nR) (g + 1) : Int) (i := nR * g + 1 + t) (by omega)
      refine ⟨v', ?_, hv'.congr ?_⟩
      · rw [← w]; congr 1; push_cast; ring
      · intro i hi
        by_cases hst : i = nR * g + 1 + t
        · subst hst
          rw [Function.update_self, if_pos (by omega)]
        · rw [Function.update_of_ne hst]
          by_cases hlt : nR * g < i ∧ i < nR * g + 1 + t
          · rw [if_pos hlt, if_pos (by omega)]
          · rw [if_neg hlt, if_neg (by omega)])
  refine ⟨rp2, BlkOut.push { o with num := 0 } nR (grpBlocks A nR g), ?_, ?_, ?_⟩
  · unfold blkGroup
    simp only [e1, e2, w1, subRows_grp hg, htot, Option.bind_eq_bind, Option.bind_some, w2]
    rfl
  · refine hr2.congr ?_
    intro i hi
    unfold blkPtr
    rw [Nat.mul_succ]
    by_cases c1 : nR * g < i ∧ i < nR * g + 1 + (grpSize A nR g - 1)
    · rw [if_pos c1]
      have hi1 : i < nR * g + nR := by omega
      have hd : i / nR = g := by
        rw [Nat.div_eq_iff hnR]; constructor <;> [(rw [Nat.mul_comm]; omega); (rw [Nat.mul_comm]; omega)]
      have hm : i % nR ≠ 0 := by
        have := Nat.div_add_mod i nR
        rw [hd] at this; omega
      rw [if_pos (by omega), if_neg hm, hd]
    · rw [if_neg c1]
      by_cases c2 : i = nR * g
      · subst c2
        rw [Function.update_self, if_pos (by omega), Nat.mul_mod_right, if_pos rfl,
          Nat.mul_div_cancel_left _ hnR]
      · rw [Function.update_of_ne c2]
        have hg2 : grpSize A nR g = nR ∨ nR * g + grpSize A nR g = A.m := by unfold grpSize; omega
        by_cases c3 : i < nR * g ∧ i < A.m
        · rw [if_pos c3, if_pos (show i < nR * g + nR ∧ i < A.m by omega)]
        · rw [if_neg c3, if_neg (show ¬ (i < nR * g + nR ∧ i < A.m) by omega)]
  · obtain ⟨q, rfl⟩ := ho
    refine ⟨0 + (grpBlocks A nR g).length, ?_⟩
    · simp only [BlkOut.push, blocksUpto, List.range_succ, List.flatMap_append, List.map_append,
        List.flatMap_singleton, List.append_assoc]

/-- The outputs of the conversion, as written into buffers of the right sizes. -/
theorem csr2blkcsrCore_spec {A : Csr R} (h : A.WF) (hs : A.Sorted) (hnd : A.NoDup) {nR : Nat}
    (hnR : 0 < nR) (hn : (A.n : Int) ≤ blkNoCol) {bptr bind : List Int} {bval : List R}
    {masks : List Nat} (h1 : A.m + 1 ≤ bptr.length)
    (h2 : (blocksUpto A nR (ngrp A.m nR)).length ≤ bind.length)
    (h3 : (BlkOut.push emptyOut nR (blocksUpto A nR (ngrp A.m nR))).vals.length ≤ bval.length)
    (h4 : (BlkOut.push emptyOut nR (blocksUpto A nR (ngrp A.m nR))).masks.length ≤ masks.length) :
    ∃ rp : List Int, Rep rp (A.m + 1) (fun i => if i = A.m then
          (offs (grpBlocks A nR) (ngrp A.m nR) : Int) else blkPtr A nR (ngrp A.m nR) i) ∧
      csr2blkcsrCore nR A.m A.n A.base A.ptr A.ind A.val (A.ind.length + 1) bptr bind bval masks
        = some (rp.map (· + A.base) ++ bptr.drop (A.m + 1),
          (BlkOut.push emptyOut nR (blocksUpto A nR (ngrp A.m nR))).cols.map (· + A.base)
            ++ bind.drop (blocksUpto A nR (ngrp A.m nR)).length,
          (BlkOut.push emptyOut nR (blocksUpto A nR (ngrp A.m nR))).vals
            ++ bval.drop (BlkOut.push emptyOut nR (blocksUpto A nR (ngrp A.m nR))).vals.length,
          (BlkOut.push emptyOut nR (blocksUpto A nR (ngrp A.m nR))).masks
            ++ masks.drop (BlkOut.push emptyOut nR (blocksUpto A nR (ngrp A.m nR))).masks.length) := by
  have htake : A.ptr.take ((A.m : Int) + 1).toNat = A.ptr := by
    rw [show ((A.m : Int) + 1).toNat = A.m + 1 by omega, ← h.ptr_len, List.take_length]
  obtain ⟨⟨rp, tot, o⟩, e1, hr, ht, q, ho⟩ := forS_groups hnR
    (f := blkGroup nR A.m A.n A.base A.ptr A.ind A.val (A.ind.length + 1))
    (s := (A.ptr.take ((A.m : Int) + 1).toNat, (0 : Int), emptyOut)) (m := A.m)
    (fun g (st : List Int × Int × BlkOut R) => Rep st.1 (A.m + 1) (blkPtr A nR g) ∧
      st.2.1 = (offs (grpBlocks A nR) g : Int) ∧
      ∃ q, st.2.2 = { BlkOut.push emptyOut nR (blocksUpto A nR g) with num := q })
    ⟨by rw [htake]; exact h.rep_ptr.congr (by intro i hi; simp [blkPtr]), by simp,
      0, by simp [BlkOut.push, blocksUpto, emptyOut]⟩ (by
      rintro g ⟨rp, tot, o⟩ hg ⟨hr, ht, ho⟩
      simp only at hr ht ho
      subst ht
      obtain ⟨rp', o', e, hr', ho'⟩ := blkGroup_spec h hs hnd hnR hn ((lt_ngrp hnR).1 hg) hr ho
      exact ⟨_, e, hr', rfl, ho'⟩)
  simp only at hr ht ho
  obtain ⟨rp', w, hr'⟩ := hr.wr_nat tot (i := A.m) (by omega)
  refine ⟨rp', hr'.congr ?_, ?_⟩
  · intro i hi
    by_cases hc : i = A.m
    · rw [if_pos hc, hc, Function.update_self, ht]
    · rw [if_neg hc, Function.update_of_ne hc]
  · unfold csr2blkcsrCore
    simp only [emptyOut] at e1
    rw [e1]
    simp only [Option.bind_eq_bind, Option.bind_some, w]
    have hl : rp'.length = A.m + 1 := hr'.len_eq
    have hlc : ((BlkOut.push (emptyOut : BlkOut R) nR (blocksUpto A nR (ngrp A.m nR))).cols.map
        (· + A.base)).length = (blocksUpto A nR (ngrp A.m nR)).length := by
      simp [BlkOut.push, emptyOut]
    unfold copyTo
    rw [ho]
    simp only
    rw [if_pos (by simpa [hl] using h1), if_pos (by rw [hlc]; exact h2), if_pos h3, if_pos h4]
    simp only [Option.bind_some, List.length_map, hl]
    rw [← List.length_map (f := (· + A.base)), hlc]

theorem cntBlocks_spec {A : Csr R} (h : A.WF) (hs : A.Sorted) (hnd : A.NoDup) {nR : Nat}
    (hnR : 0 < nR) (hn : (A.n : Int) ≤ blkNoCol) :
    cntBlocks nR A.m A.base A.ptr A.ind (A.ind.length + 1)
      = some (offs (grpBlocks A nR) (ngrp A.m nR) : Int) := by
  unfold cntBlocks
  obtain ⟨t, e, ht⟩ := forS_groups hnR (f := cntGroup nR A.m A.base A.ptr A.ind (A.ind.length + 1))
    (s := (0 : Int)) (m := A.m) (fun g st => st = (offs (grpBlocks A nR) g : Int)) (by simp) (by
      rintro g st hg rfl
      have hgm := (lt_ngrp hnR).1 hg
      obtain ⟨iVal, e1, hL⟩ := blkInit_spec h hs hnd hgm
      have hkm : nR * g + grpSize A nR g ≤ A.m := by unfold grpSize; omega
      have hends : ∀ s : Nat, s < grpSize A nR g →
          rd A.ptr (((nR * g : Nat) : Int) + s + 1) = some (grpEnd A nR g s + A.base) := by
        intro s hs
        have := h.rd_ptr (i := nR * g + s + 1) (by omega)
        rw [show ((nR * g : Nat) : Int) + s + 1 = ((nR * g + s + 1 : Nat) : Int) by push_cast; rfl, this,
          grpEnd, if_pos hs]
        congr 1; ring
      have e2 := cntLoop_spec hn (subRows_grp hgm) hends (A.ind.length + 1) (grpRows A nR g) iVal 0
        (grp_rows h hs hnd nR g) hL (grp_left_lt h hgm)
      refine ⟨_, ?_, rfl⟩
      unfold cntGroup
      simp only [e1, e2, Option.bind_eq_bind, Option.bind_some]
      rw [offs_succ]
      simp only [grpBlocks]
      congr 1; push_cast; ring)
  rw [e, ht]

end Verif
