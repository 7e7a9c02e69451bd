/-
The conversion loops of the masked block CSR format against the abstract cutting into blocks.
-/
import Verif.Proofs.BlkCsr

namespace Verif
open Model

variable {R : Type}

/-- `iVal` points at the entries `rem s` left of each row; row `s` ends at `E s` -/
structure Loc (ind : List Int) (val : List R) (base : Int) (k nR : Nat) (E : Nat → Int)
    (rem : Nat → List (Int × R)) (iVal : List Int) : Prop where
  seg : ∀ s, s < k → Seg ind val base (E s - (rem s).length + base) (E s + base) (rem s)
  rep : Rep iVal nR (fun s => E s - (rem s).length)

theorem blkScan_spec {m base : Int} {rp ind : List Int} {val : List R} {iRow : Int} {k nR : Nat}
    {n : Int} {E : Nat → Int} {rem : Nat → List (Int × R)} {iVal : List Int}
    (hk : subRows nR m iRow = k) (hrp : ∀ s : Nat, s < k → rd rp (iRow + s + 1) = some (E s + base))
    (hR : Rows k nR n rem) (hL : Loc ind val base k nR E rem iVal) :
    blkScan nR m base rp ind iVal iRow = some (leftmost k rem) := by
  unfold blkScan
  rw [hk]
  obtain ⟨s', e, hs'⟩ := forC_inv_nat (f := blkScanBody base rp ind iVal iRow) (n := k)
    (fun (t : Nat) st => st = leftmost t rem) (s := (true, blkNoCol)) rfl (by
      intro t st ht hst
      subst hst
      have h1 := hL.rep.rd_nat (i := t) (by have := hR.le; omega)
      unfold blkScanBody
      simp only [h1, hrp t ht, Option.bind_eq_bind, Option.bind_some, add_sub_cancel_right]
      rw [leftmost_succ]
      cases hr : rem t with
      | nil =>
        rw [if_neg (by simp)]
        exact ⟨_, rfl, rfl⟩
      | cons a l =>
        rw [if_pos (by simp)]
        have := (hL.seg t ht).2 0 (by rw [hr]; simp)
        rw [show E t - ((rem t).length : Int) + base - base + (0 : Nat) = E t - ((rem t).length : Int)
          by simp] at this
        have h2 := this.1
        simp only [hr, List.getElem_cons_zero] at h2
        rw [h2]
        simp)
  rw [e, hs']

theorem Loc.off {ind : List Int} {val : List R} {base : Int} {k nR : Nat} {E : Nat → Int}
    {rem : Nat → List (Int × R)} {iVal : List Int} (h : Loc ind val base k nR E rem iVal) (c : Int)
    {iVal' : List Int}
    (hv : Rep iVal' nR (fun s => E s - (offBlk c (rem s)).length)) :
    Loc ind val base k nR E (fun s => offBlk c (rem s)) iVal' := by
  refine ⟨?_, hv⟩
  intro s hs
  have := h.seg s hs
  rw [← inBlk_append c (rem s)] at this
  have h2 := this.append_right
  rw [show E s - ((inBlk c (rem s) ++ offBlk c (rem s)).length : Int) + base + (inBlk c (rem s)).length
    = E s - ((offBlk c (rem s)).length : Int) + base by rw [List.length_append]; push_cast; ring] at h2
  exact h2

theorem inBlk_length (c : Int) (S : List (Int × R)) :
    (inBlk c S).length + (offBlk c S).length = S.length := by
  rw [← List.length_append, inBlk_append]

/-- vectors after appending the blocks `bl` -/
def BlkOut.push (o : BlkOut R) (nR : Nat) (bl : List (Int × (Nat → List (Int × R)))) : BlkOut R where
  cols := o.cols ++ bl.map Prod.fst
  masks := o.masks ++ bl.flatMap fun b => (List.range nR).map fun s => mkMask b.1 (b.2 s)
  vals := o.vals ++ bl.flatMap fun b => (List.range nR).flatMap fun s => (b.2 s).map Prod.snd
  num := o.num + bl.length

theorem flatMap_range_ext {α : Type} {k nR : Nat} (h : k ≤ nR) (f : Nat → List α)
    (he : ∀ s, k ≤ s → s < nR → f s = []) :
    (List.range nR).flatMap f = (List.range k).flatMap f := by
  obtain ⟨d, rfl⟩ := Nat.exists_eq_add_of_le h
  rw [List.range_add, List.flatMap_append]
  have : ((List.range d).map (k + ·)).flatMap f = [] := by
    rw [List.flatMap_eq_nil_iff]
    intro x hx
    obtain ⟨y, hy, rfl⟩ := List.mem_map.1 hx
    rw [List.mem_range] at hy
    exact he _ (by omega) (by omega)
  rw [this, List.append_nil]

theorem blkOne_spec {m n base : Int} {rp ind : List Int} {val : List R} {iRow : Int} {k nR : Nat}
    {E : Nat → Int} {rem : Nat → List (Int × R)} {iVal : List Int} {o : BlkOut R}
    (hk : subRows nR m iRow = k) (hrp : ∀ s : Nat, s < k → rd rp (iRow + s + 1) = some (E s + base))
    (hR : Rows k nR n rem) (hL : Loc ind val base k nR E rem iVal) :
    ∃ iVal', blkOne nR m n base rp ind val iRow (leftmost k rem).2 iVal o
      = some (iVal', BlkOut.push o nR [(min (leftmost k rem).2 (n - 8),
          fun s => inBlk (leftmost k rem).2 (rem s))]) ∧
      Loc ind val base k nR E (fun s => offBlk (leftmost k rem).2 (rem s)) iVal' := by
  have hkn := hR.le
  generalize hc : (leftmost k rem).2 = c
  have hge : ∀ s, s < k → ∀ e ∈ rem s, c ≤ e.1 ∧ e.1 < n := by
    intro s hs e he
    rw [← hc]
    exact ⟨hR.ge (by omega) e he, (hR.range s e he).2⟩
  obtain ⟨st, e1, hv, hvals, hmk, hnm⟩ := forC_inv_nat (f := blkSub n base rp ind val c iRow) (n := k)
    (fun (t : Nat) (st : List Int × List R × List Nat × List Nat) =>
      Rep st.1 nR (fun s => if s < t then E s - (offBlk c (rem s)).length else E s - (rem s).length) ∧
      st.2.1 = o.vals ++ (List.range t).flatMap (fun s => (inBlk c (rem s)).map Prod.snd) ∧
      Rep st.2.2.1 nR (fun s => if s < t then mkMask c (inBlk c (rem s)) else 0) ∧
      ∃ g, Rep st.2.2.2 nR g ∧ (c + 8 > n → ∀ s, g s = if s < t then mkMask (n - 8) (inBlk c (rem s)) else 0))
    (s := (iVal, o.vals, List.replicate (nR : Int).toNat 0, List.replicate (nR : Int).toNat 0))
    ⟨hL.rep.congr (by intro s hs; rw [if_neg (by omega)]), by simp,
      ⟨by simp, by intro s hs; simp [hs]⟩,
      fun _ => 0, ⟨by simp, by intro s hs; simp [hs]⟩, by intro _ s; simp⟩ (by
      intro t st ht ⟨hv, hvals, hmk, g, hg, hg'⟩
      have r1 := hv.rd_nat (i := t) (by omega)
      have r2 := hmk.rd_nat (i := t) (by omega)
      have r3 := hg.rd_nat (i := t) (by omega)
      rw [if_neg (by omega)] at r1 r2
      obtain ⟨nm', e2, h2⟩ := blkTake_spec (n := n) (iCol := c) (rem t) [] 
        ((E t + base - base - (E t - ((rem t).length : Int))).toNat + 1) (E t - (rem t).length)
        st.2.1 (g t) (hL.seg t ht) (by omega) (hge t ht) (by simp)
      simp only [mkMask_nil, List.nil_append, add_sub_cancel_right] at e2 h2
      obtain ⟨v', w1, hv'⟩ := hv.wr_nat (E t - ((rem t).length : Int) + ((inBlk c (rem t)).length : Int))
        (i := t) (by omega)
      obtain ⟨mk', w2, hmk'⟩ := hmk.wr_nat (mkMask c (inBlk c (rem t))) (i := t) (by omega)
      obtain ⟨nms', w3, hnm'⟩ := hg.wr_nat nm' (i := t) (by omega)
      refine ⟨(v', st.2.1 ++ (inBlk c (rem t)).map Prod.snd, mk', nms'), ?_, ?_, ?_, ?_, _, hnm', ?_⟩
      · unfold blkSub
        simp only [r1, r2, r3, hrp t ht, Option.bind_eq_bind, Option.bind_some, add_sub_cancel_right, e2,
          w1, w2, w3]
      · refine hv'.congr ?_
        intro s hs
        have := inBlk_length c (rem t)
        by_cases hst : s = t
        · subst hst
          rw [Function.update_self, if_pos (by omega)]
          omega
        · rw [Function.update_of_ne hst]
          by_cases hlt : s < t
          · rw [if_pos hlt, if_pos (by omega)]
          · rw [if_neg hlt, if_neg (by omega)]
      · simp only [hvals, List.range_succ, List.flatMap_append, List.append_assoc]
        simp
      · refine hmk'.congr ?_
        intro s hs
        by_cases hst : s = t
        · subst hst
          rw [Function.update_self, if_pos (by omega)]
        · rw [Function.update_of_ne hst]
          by_cases hlt : s < t
          · rw [if_pos hlt, if_pos (by omega)]
          · rw [if_neg hlt, if_neg (by omega)]
      · intro hn s
        by_cases hst : s = t
        · subst hst
          rw [Function.update_self, if_pos (by omega)]
          apply h2 hn
          rw [hg' hn, if_neg (by omega)]
        · rw [Function.update_of_ne hst, hg' hn]
          by_cases hlt : s < t
          · rw [if_pos hlt, if_pos (by omega)]
          · rw [if_neg hlt, if_neg (by omega)])
  obtain ⟨g, hg, hg'⟩ := hnm
  have hempty : ∀ s, k ≤ s → s < nR → inBlk c (rem s) = [] := by
    intro s h1 h2; simp [hR.empty s h1 h2, inBlk]
  have hloc : Loc ind val base k nR E (fun s => offBlk c (rem s)) st.1 := by
    refine hL.off c (hv.congr ?_)
    intro s hs
    by_cases hlt : s < k
    · rw [if_pos hlt]
    · rw [if_neg hlt, hR.empty s (by omega) hs]
      simp [offBlk]
  have hvals' : st.2.1 = o.vals ++ [(min c (n - 8), fun s => inBlk c (rem s))].flatMap (fun b =>
      (List.range nR).flatMap fun s => (b.2 s).map Prod.snd) := by
    rw [hvals]
    simp only [List.flatMap_cons, List.flatMap_nil, List.append_nil]
    rw [flatMap_range_ext hkn (fun s => (inBlk c (rem s)).map Prod.snd)
      (fun s h1 h2 => by rw [hempty s h1 h2]; rfl)]
  refine ⟨st.1, ?_, hloc⟩
  unfold blkOne
  rw [hk, e1]
  simp only [Option.bind_eq_bind, Option.bind_some]
  by_cases hn : c + 8 > n
  · rw [if_pos hn, hvals', hg.eq_map, BlkOut.push]
    simp only [List.map_cons, List.map_nil, List.flatMap_cons, List.flatMap_nil, List.append_nil,
      List.length_singleton, Nat.cast_one]
    rw [show min c (n - 8) = n - 8 by omega]
    congr 4
    apply List.map_congr_left
    intro s hs
    rw [List.mem_range] at hs
    rw [hg' hn]
    by_cases hlt : s < k
    · rw [if_pos hlt]
    · rw [if_neg hlt, hempty s (by omega) hs]; rfl
  · rw [if_neg hn, hvals', hmk.eq_map, BlkOut.push]
    simp only [List.map_cons, List.map_nil, List.flatMap_cons, List.flatMap_nil, List.append_nil,
      List.length_singleton, Nat.cast_one]
    rw [show min c (n - 8) = c by omega]
    congr 4
    apply List.map_congr_left
    intro s hs
    rw [List.mem_range] at hs
    by_cases hlt : s < k
    · rw [if_pos hlt]
    · rw [if_neg hlt, hempty s (by omega) hs]; rfl

theorem BlkOut.push_push (o : BlkOut R) (nR : Nat) (b1 b2 : List (Int × (Nat → List (Int × R)))) :
    BlkOut.push (BlkOut.push o nR b1) nR b2 = BlkOut.push o nR (b1 ++ b2) := by
  simp only [BlkOut.push, List.append_assoc, List.map_append, List.flatMap_append, List.length_append]
  congr 1
  push_cast; ring

theorem blkLoop_spec {m n base : Int} {rp ind : List Int} {val : List R} {iRow : Int} {k nR : Nat}
    {E : Nat → Int} (hn : n ≤ blkNoCol)
    (hk : subRows nR m iRow = k) (hrp : ∀ s : Nat, s < k → rd rp (iRow + s + 1) = some (E s + base)) :
    ∀ (f : Nat) (rem : Nat → List (Int × R)) (iVal : List Int) (o : BlkOut R),
      Rows k nR n rem → Loc ind val base k nR E rem iVal → left k rem < f →
      blkLoop nR m n base rp ind val iRow f iVal o = some (BlkOut.push o nR (cutBlocks k n f rem)) := by
  intro f
  induction f with
  | zero => intro rem _ _ _ _ h; omega
  | succ f ih =>
    intro rem iVal o hR hL hf
    rw [blkLoop, blkScan_spec hk hrp hR hL, cutBlocks]
    simp only [Option.bind_eq_bind, Option.bind_some]
    by_cases hl : (leftmost k rem).1 = true
    · rw [if_pos hl, if_pos hl]
      simp [BlkOut.push]
    · rw [if_neg hl, if_neg hl]
      obtain ⟨iVal', e1, hL'⟩ := blkOne_spec (o := o) hk hrp hR hL
      rw [e1]
      simp only [Option.bind_some]
      have := hR.left_lt hn (by simpa using hl)
      rw [ih _ iVal' _ (hR.off _) hL' (by omega), BlkOut.push_push]
      rfl

/-! ### The counting loop -/

theorem cntTake_spec {base iCol e : Int} {ind : List Int} {val : List R} :
    ∀ (S : List (Int × R)) (fuel : Nat) (i : Int),
      Seg ind val base (i + base) (e + base) S → S.length < fuel →
      cntTake base ind iCol e fuel i = some (i + (inBlk iCol S).length) := by
  intro S
  induction S with
  | nil =>
    intro fuel i hS hf
    obtain ⟨f, rfl⟩ : ∃ f, fuel = f + 1 := ⟨fuel - 1, by omega⟩
    have := hS.1
    simp only [List.length_nil, Nat.cast_zero] at this
    rw [cntTake, if_neg (by omega)]
    simp [inBlk]
  | cons a S ih =>
    intro fuel i hS hf
    obtain ⟨f, rfl⟩ : ∃ f, fuel = f + 1 := ⟨fuel - 1, by omega⟩
    have hl := hS.1
    simp only [List.length_cons] at hl hf
    obtain ⟨h1, h2⟩ := hS.2 0 (by simp)
    simp only [Nat.cast_zero, add_zero, List.getElem_cons_zero, add_sub_cancel_right] at h1 h2
    rw [cntTake, if_pos (by omega), h1]
    simp only [Option.bind_eq_bind, Option.bind_some, add_sub_cancel_right]
    by_cases hc : a.1 < iCol + 8
    · rw [if_pos hc]
      have hr' : Seg ind val base (i + 1 + base) (e + base) S := by
        have := Seg.append_right (S1 := [a]) (S2 := S) hS
        simp only [List.length_singleton, Nat.cast_one] at this
        rwa [show i + base + 1 = i + 1 + base by ring] at this
      rw [ih f (i + 1) hr' (by omega),
        show inBlk iCol (a :: S) = a :: inBlk iCol S by simp [inBlk, List.takeWhile_cons, hc]]
      simp only [List.length_cons, Nat.cast_add, Nat.cast_one]
      congr 1; ring
    · rw [if_neg hc, show inBlk iCol (a :: S) = [] by simp [inBlk, hc]]
      simp

theorem cntSubs_spec {m base : Int} {rp ind : List Int} {val : List R} {iRow c : Int} {k nR : Nat}
    {n : Int} {E : Nat → Int} {rem : Nat → List (Int × R)} {iVal : List Int}
    (hk : subRows nR m iRow = k) (hrp : ∀ s : Nat, s < k → rd rp (iRow + s + 1) = some (E s + base))
    (hR : Rows k nR n rem) (hL : Loc ind val base k nR E rem iVal) :
    ∃ iVal', forC 0 (subRows nR m iRow) (cntSub base rp ind c iRow) iVal = some iVal' ∧
      Loc ind val base k nR E (fun s => offBlk c (rem s)) iVal' := by
  have hkn := hR.le
  rw [hk]
  obtain ⟨st, e1, hv⟩ := forC_inv_nat (f := cntSub base rp ind c iRow) (n := k)
    (fun (t : Nat) (st : List Int) =>
      Rep st nR (fun s => if s < t then E s - (offBlk c (rem s)).length else E s - (rem s).length))
    (s := iVal) (hL.rep.congr (by intro s hs; rw [if_neg (by omega)])) (by
      intro t st ht hv
      have r1 := hv.rd_nat (i := t) (by omega)
      rw [if_neg (by omega)] at r1
      have e2 := cntTake_spec (iCol := c) (rem t)
        ((E t - (E t - ((rem t).length : Int))).toNat + 1) (E t - (rem t).length)
        (hL.seg t ht) (by omega)
      obtain ⟨v', w1, hv'⟩ := hv.wr_nat (E t - ((rem t).length : Int) + ((inBlk c (rem t)).length : Int))
        (i := t) (by omega)
      refine ⟨v', ?_, ?_⟩
      · unfold cntSub
        simp only [r1, hrp t ht, Option.bind_eq_bind, Option.bind_some, add_sub_cancel_right, e2, w1]
      · refine hv'.congr ?_
        intro s hs
        have := inBlk_length c (rem t)
        by_cases hst : s = t
        · subst hst
          rw [Function.update_self, if_pos (by omega)]
          omega
        · rw [Function.update_of_ne hst]
          by_cases hlt : s < t
          · rw [if_pos hlt, if_pos (by omega)]
          · rw [if_neg hlt, if_neg (by omega)])
  refine ⟨st, e1, hL.off c (hv.congr ?_)⟩
  intro s hs
  by_cases hlt : s < k
  · rw [if_pos hlt]
  · rw [if_neg hlt, hR.empty s (by omega) hs]
    simp [offBlk]

theorem cntLoop_spec {m n base : Int} {rp ind : List Int} {val : List R} {iRow : Int} {k nR : Nat}
    {E : Nat → Int} (hn : n ≤ blkNoCol)
    (hk : subRows nR m iRow = k) (hrp : ∀ s : Nat, s < k → rd rp (iRow + s + 1) = some (E s + base)) :
    ∀ (f : Nat) (rem : Nat → List (Int × R)) (iVal : List Int) (num : Int),
      Rows k nR n rem → Loc ind val base k nR E rem iVal → left k rem < f →
      cntLoop nR m base rp ind iRow f iVal num = some (num + (cutBlocks k n f rem).length) := by
  intro f
  induction f with
  | zero => intro rem _ _ _ _ h; omega
  | succ f ih =>
    intro rem iVal num hR hL hf
    rw [cntLoop, blkScan_spec hk hrp hR hL, cutBlocks]
    simp only [Option.bind_eq_bind, Option.bind_some]
    by_cases hl : (leftmost k rem).1 = true
    · rw [if_pos hl, if_pos hl]
      simp
    · rw [if_neg hl, if_neg hl]
      obtain ⟨iVal', e1, hL'⟩ := cntSubs_spec (c := (leftmost k rem).2) hk hrp hR hL
      rw [e1]
      simp only [Option.bind_some]
      have := hR.left_lt hn (by simpa using hl)
      rw [ih _ iVal' _ (hR.off _) hL' (by omega)]
      simp only [List.length_cons]
      congr 1; push_cast; ring

end Verif
