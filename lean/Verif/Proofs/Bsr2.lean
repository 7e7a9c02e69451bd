/-
Proofs about the CSR to BSR conversion: filling.
-/
import Verif.Proofs.Bsr

namespace Verif
open Model

variable {R : Type}

/-- position inside a block -/
def blkPos (rowOrder : Bool) (bd : Nat) (r c : Nat) : Nat :=
  if rowOrder then r * bd + c else c * bd + r

theorem blkPos_lt {ro : Bool} {bd r c : Nat} (hr : r < bd) (hc : c < bd) :
    blkPos ro bd r c < bd * bd := by
  unfold blkPos
  have h1 : (r + 1) * bd ≤ bd * bd := Nat.mul_le_mul_right _ hr
  have h2 : (c + 1) * bd ≤ bd * bd := Nat.mul_le_mul_right _ hc
  rw [Nat.succ_mul] at h1 h2
  split <;> omega

theorem blkPos_inj {ro : Bool} {bd r c r' c' : Nat} (hr : r < bd) (hc : c < bd) (hr' : r' < bd)
    (hc' : c' < bd) (h : blkPos ro bd r c = blkPos ro bd r' c') : r = r' ∧ c = c' := by
  unfold blkPos at h
  cases ro
  · simp only [Bool.false_eq_true, if_false] at h
    obtain ⟨h1, h2⟩ := off_inj (w := (bd : Int)) (i := c) (j := r) (i' := c') (j' := r') (by omega)
      (by omega) (by omega) (by omega) (by exact_mod_cast h)
    omega
  · simp only [if_true] at h
    obtain ⟨h1, h2⟩ := off_inj (w := (bd : Int)) (i := r) (j := c) (i' := r') (j' := c') (by omega)
      (by omega) (by omega) (by omega) (by exact_mod_cast h)
    omega

/-- number, in its block row, of the block that holds column `c` -/
def blkIdx (A : Csr R) (bd I : Nat) (c : Int) : Nat := (A.blkCols bd I).idxOf (c / (bd : Int))

/-- cell of the value array for an entry -/
def blkCell (A : Csr R) (ro : Bool) (bd I : Nat) (e : Nat × Int × R) : Int :=
  (((offs (A.blkCols bd) I + blkIdx A bd I e.2.1) * (bd * bd)
    + blkPos ro bd e.1 (e.2.1 % (bd : Int)).toNat : Nat) : Int)

/-- the value writes of block row `I` -/
def blkWrites (A : Csr R) (ro : Bool) (bd I : Nat) : List (Int × R) :=
  (A.blkEntries bd I).map fun e => (blkCell A ro bd I e, e.2.2)

theorem blkIdx_lt {A : Csr R} {bd I : Nat} {e : Nat × Int × R}
    (he : e ∈ A.blkEntries bd I) : blkIdx A bd I e.2.1 < (A.blkCols bd I).length :=
  List.idxOf_lt_length_of_mem (mem_firsts.2 (List.mem_map.2 ⟨e, he, rfl⟩))

theorem blkCell_lt {A : Csr R} (h : A.WF) {ro : Bool} {bd I : Nat} (hbd : 0 < bd)
    (hI : I < nblk A.m bd) {e : Nat × Int × R} (he : e ∈ A.blkEntries bd I) :
    0 ≤ blkCell A ro bd I e ∧
      blkCell A ro bd I e < (offs (A.blkCols bd) (nblk A.m bd) * (bd * bd) : Nat) := by
  have hr := blk_range h hbd he
  have hi := blkIdx_lt he
  have hm := offs_mono (A.blkCols bd) (show I + 1 ≤ nblk A.m bd from hI)
  rw [offs_succ] at hm
  have hmod := Int.emod_lt_of_pos e.2.1 (show (0 : Int) < bd by omega)
  have hmod0 := Int.emod_nonneg e.2.1 (show (bd : Int) ≠ 0 by omega)
  have hp := blkPos_lt (ro := ro) (r := e.1) (c := (e.2.1 % (bd : Int)).toNat) hr.1 (by omega)
  have h2 : (offs (A.blkCols bd) I + blkIdx A bd I e.2.1 + 1) * (bd * bd)
      ≤ offs (A.blkCols bd) (nblk A.m bd) * (bd * bd) := Nat.mul_le_mul_right _ (by omega)
  rw [Nat.succ_mul] at h2
  unfold blkCell
  constructor
  · omega
  · exact_mod_cast (by omega : _ < offs (A.blkCols bd) (nblk A.m bd) * (bd * bd))

/-- content of the work array after the entries `pre` of block row `I` -/
def bcVal (A : Csr R) (bd I : Nat) (cols : List Int) (k : Nat) : Int :=
  if (k : Int) ∈ cols then ((offs (A.blkCols bd) I + cols.idxOf (k : Int)) * (bd * bd) : Nat) else -1

theorem idxOf_prefix {L M : List Int} (h : L <+: M) {x : Int} (hx : x ∈ L) :
    M.idxOf x = L.idxOf x := by
  obtain ⟨t, rfl⟩ := h
  exact List.idxOf_append_of_mem hx

theorem bsrRows_spec {A : Csr R} (h : A.WF) {ro : Bool} {bd I : Nat} (hbd : 0 < bd)
    (hI : I < nblk A.m bd) {bc : List Int} {N : Nat} {ind : List Int} {val val0 : List R}
    {W : List (Int × R)} {C : List Int} (hC : C.length = offs (A.blkCols bd) I)
    (hbc : Rep bc (nblk A.n bd) (fun _ => -1)) (hN : offs (A.blkCols bd) (nblk A.m bd) ≤ N)
    (hind : Pre ind N C) (hW : W.foldlM wr1 val0 = some val)
    (hval : offs (A.blkCols bd) (nblk A.m bd) * (bd * bd) ≤ val.length) :
    ∃ s, bsrRows ro A.m A.base bd A.ptr A.ind A.val I
        ⟨bc, (offs (A.blkCols bd) I : Int), ind, val⟩ = some s ∧
      Rep s.bc (nblk A.n bd) (bcVal A bd I (A.blkCols bd I)) ∧
      Pre s.ind N (C ++ (A.blkCols bd I).map (· + A.base)) ∧
      (W ++ blkWrites A ro bd I).foldlM wr1 val0 = some s.val ∧ s.val.length = val.length := by
  have hIm := (nblk_lt hbd).1 hI
  unfold bsrRows
  rw [Csr.forC_window h (a := I * bd) (k := blkRows A.m bd I) (by unfold blkRows; omega)
    (by push_cast; rfl) (by unfold blkRows; push_cast; omega)
    (F := bsrStep ro A.base bd A.ind A.val)
    (G := fun e s => do
      let s ← bsrNew A.base bd (e.2.1 / (bd : Int)) s
      let q ← rd s.bc (e.2.1 / (bd : Int))
      let bv ← wr s.val (if ro then q + e.2.1 % (bd : Int) + e.1 * bd
        else q + e.1 + e.2.1 % (bd : Int) * bd) e.2.2
      some { s with val := bv }) (by
      intro i j c v s hi h1 h2 h3
      have hr := Csr.row_range h h3
      simp only at hr
      unfold bsrStep
      simp only [h1, h2, Option.bind_eq_bind, Option.bind_some, add_sub_cancel_right]
      rw [Int.tdiv_eq_ediv_of_nonneg hr.1, Int.tmod_eq_emod_of_nonneg hr.1])]
  obtain ⟨s, e1, hs1, hs2, hs3, hs4, _⟩ := foldlM_inv (l := A.blkEntries bd I)
    (s := (⟨bc, (offs (A.blkCols bd) I : Int), ind, val⟩ : BsrSt R))
    (f := fun s e => do
      let s ← bsrNew A.base bd (e.2.1 / (bd : Int)) s
      let q ← rd s.bc (e.2.1 / (bd : Int))
      let bv ← wr s.val (if ro then q + e.2.1 % (bd : Int) + e.1 * bd
        else q + e.1 + e.2.1 % (bd : Int) * bd) e.2.2
      some { s with val := bv })
    (P := fun pre (s : BsrSt R) =>
      Rep s.bc (nblk A.n bd) (bcVal A bd I (firsts (pre.map fun e => e.2.1 / (bd : Int)))) ∧
      Pre s.ind N (C ++ (firsts (pre.map fun e => e.2.1 / (bd : Int))).map (· + A.base)) ∧
      (W ++ pre.map fun e => (blkCell A ro bd I e, e.2.2)).foldlM wr1 val0 = some s.val ∧
      s.val.length = val.length ∧
      s.idx = ((offs (A.blkCols bd) I + (firsts (pre.map fun e => e.2.1 / (bd : Int))).length : Nat) : Int))
    ⟨hbc.congr (by simp [bcVal]), by simpa using hind, by simpa using hW, rfl, by simp⟩ (by
      rintro pre x suf s hl ⟨hd, ho, hv, hvl, hq⟩
      have hx : x ∈ A.blkEntries bd I := by rw [hl]; simp
      have hr := blk_range h hbd hx
      obtain ⟨k0, hk0⟩ : ∃ k0 : Nat, x.2.1 / (bd : Int) = (k0 : Int) :=
        ⟨(x.2.1 / (bd : Int)).toNat, by omega⟩
      have hlt : k0 < nblk A.n bd := by omega
      -- block columns seen so far
      have hpre : firsts (pre.map fun e => e.2.1 / (bd : Int)) <+: A.blkCols bd I := by
        unfold Csr.blkCols
        rw [hl, List.map_append]
        exact firsts_prefix _ _
      have hpre' : firsts ((pre ++ [x]).map fun e => e.2.1 / (bd : Int)) <+: A.blkCols bd I := by
        unfold Csr.blkCols
        rw [hl, show pre ++ x :: suf = (pre ++ [x]) ++ suf by simp, List.map_append (l₁ := pre ++ [x])]
        exact firsts_prefix _ _
      -- state after `bsrNew`
      have hnew : ∃ s1, bsrNew A.base bd (x.2.1 / (bd : Int)) s = some s1 ∧ s1.val = s.val ∧
          Rep s1.bc (nblk A.n bd)
            (bcVal A bd I (firsts ((pre ++ [x]).map fun e => e.2.1 / (bd : Int)))) ∧
          Pre s1.ind N (C ++ (firsts ((pre ++ [x]).map fun e => e.2.1 / (bd : Int))).map
            (· + A.base)) ∧
          s1.idx = ((offs (A.blkCols bd) I
            + (firsts ((pre ++ [x]).map fun e => e.2.1 / (bd : Int))).length : Nat) : Int) := by
        unfold bsrNew
        simp only [hk0, hd.rd_nat hlt, Option.bind_eq_bind, Option.bind_some, List.map_append,
          List.map_cons, List.map_nil, firsts_append]
        by_cases hp : (k0 : Int) ∈ firsts (pre.map fun e => e.2.1 / (bd : Int))
        · rw [if_neg (by simp only [bcVal, hp, if_true]; omega)]
          simp only [hp, if_true]
          exact ⟨s, rfl, rfl, hd, ho, hq⟩
        · rw [if_pos (by simp [bcVal, hp])]
          simp only [hp, if_false]
          obtain ⟨b, hb, hbr⟩ := hd.wr_nat (i := k0) (s.idx * bd * bd) hlt
          have hmem : (k0 : Int) ∈ A.blkCols bd I := by
            rw [← hk0]; exact mem_firsts.2 (List.mem_map.2 ⟨x, hx, rfl⟩)
          have hlen : (firsts (pre.map fun e => e.2.1 / (bd : Int))).length
              < (A.blkCols bd I).length := by
            have h1 := hpre'.length_le
            rw [List.map_append, List.map_cons, List.map_nil, firsts_append, hk0, if_neg hp,
              List.length_append, List.length_singleton] at h1
            omega
          have hm := offs_mono (A.blkCols bd) (show I + 1 ≤ nblk A.m bd from hI)
          rw [offs_succ] at hm
          obtain ⟨o', ho', ho''⟩ := ho.wr ((k0 : Int) + A.base) (k := s.idx) (by
            rw [hq, List.length_append, List.length_map, hC]) (by
            rw [List.length_append, List.length_map, hC]; omega)
          simp only [hb, ho', Option.bind_some]
          refine ⟨_, rfl, rfl, hbr.congr ?_, ?_, ?_⟩
          · intro k _
            by_cases hkk : k = k0
            · subst hkk
              rw [Function.update_self, hq]
              unfold bcVal
              rw [if_pos (by simp), List.idxOf_append_of_notMem hp]
              simp
              ring
            · rw [Function.update_of_ne hkk]
              unfold bcVal
              by_cases hc : (k : Int) ∈ firsts (pre.map fun e => e.2.1 / (bd : Int))
              · rw [if_pos hc, if_pos (by simp [hc]), List.idxOf_append_of_mem hc]
              · rw [if_neg hc, if_neg (by simp [hc, hkk])]
          · simpa using ho''
          · rw [List.length_append, List.length_singleton]
            simp only [hq]
            push_cast
            ring
      obtain ⟨s1, n1, n2, n3, n4, n5⟩ := hnew
      simp only [n1, Option.bind_eq_bind, Option.bind_some]
      rw [hk0, n3.rd_nat hlt]
      simp only [Option.bind_some]
      have hin : (k0 : Int) ∈ firsts ((pre ++ [x]).map fun e => e.2.1 / (bd : Int)) :=
        mem_firsts.2 (List.mem_map.2 ⟨x, by simp, hk0⟩)
      have hmod := Int.emod_lt_of_pos x.2.1 (show (0 : Int) < bd by omega)
      have hmod0 := Int.emod_nonneg x.2.1 (show (bd : Int) ≠ 0 by omega)
      have hcell : (if ro then bcVal A bd I (firsts ((pre ++ [x]).map fun e => e.2.1 / (bd : Int))) k0
            + x.2.1 % (bd : Int) + x.1 * bd
          else bcVal A bd I (firsts ((pre ++ [x]).map fun e => e.2.1 / (bd : Int))) k0 + x.1
            + x.2.1 % (bd : Int) * bd) = blkCell A ro bd I x := by
        unfold blkCell bcVal blkPos blkIdx
        rw [if_pos hin, hk0, idxOf_prefix hpre' hin]
        push_cast
        cases ro
        · simp only [Bool.false_eq_true, if_false]
          push_cast
          rw [Int.toNat_of_nonneg hmod0]; ring
        · simp only [if_true]
          push_cast
          rw [Int.toNat_of_nonneg hmod0]; ring
      rw [hcell]
      obtain ⟨c0, c1⟩ := blkCell_lt h (ro := ro) hbd hI hx
      have hwr : wr s1.val (blkCell A ro bd I x) x.2.2
          = some (s1.val.set (blkCell A ro bd I x).toNat x.2.2) :=
        wr_eq c0 (by rw [n2, hvl]; omega)
      rw [hwr]
      simp only [Option.bind_some]
      refine ⟨_, rfl, n3, n4, ?_, ?_, n5⟩
      · simp only [List.map_append, List.map_cons, List.map_nil]
        rw [← List.append_assoc, List.foldlM_append, hv]
        simp only [Option.bind_eq_bind, Option.bind_some, List.foldlM_cons, List.foldlM_nil]
        rw [← n2, wr1, hwr]
        rfl
      · simp [n2, hvl])
  exact ⟨s, e1, hs1, hs2, hs3, hs4⟩

/-- the block columns of the block rows before `I`, as stored -/
def blkInd (A : Csr R) (bd I : Nat) : List Int :=
  ((List.range I).flatMap (A.blkCols bd)).map (· + A.base)

theorem blkInd_length (A : Csr R) (bd I : Nat) : (blkInd A bd I).length = offs (A.blkCols bd) I := by
  simp [blkInd, offs_eq]

theorem blkInd_succ (A : Csr R) (bd I : Nat) :
    blkInd A bd (I + 1) = blkInd A bd I ++ (A.blkCols bd I).map (· + A.base) := by
  simp [blkInd, List.range_succ, List.flatMap_append]

theorem blkInd_get (A : Csr R) {bd I n : Nat} (hI : I < n) {t : Nat}
    (ht : t < (A.blkCols bd I).length) :
    (blkInd A bd n)[offs (A.blkCols bd) I + t]? = some ((A.blkCols bd I)[t] + A.base) := by
  unfold blkInd
  rw [List.getElem?_map, flat_getElem? hI ht, List.getElem?_eq_getElem ht]
  rfl

theorem csr2bsr_fill {A : Csr R} (h : A.WF) {ro : Bool} {bd : Nat} (hbd : 0 < bd)
    {rp bind : List Int} {bval : List R}
    (hrp : ∀ I, I ≤ nblk A.m bd → rp[I]? = some (A.base + offs (A.blkCols bd) I))
    (hbind : offs (A.blkCols bd) (nblk A.m bd) ≤ bind.length)
    (hbval : offs (A.blkCols bd) (nblk A.m bd) * (bd * bd) ≤ bval.length) :
    ∃ s, forC 0 (nblk A.m bd : Int) (bsrRow ro A.m A.base bd A.ptr A.ind A.val rp)
        (List.replicate (nblk A.n bd) (-1), bind, bval) = some s ∧
      Pre s.2.1 bind.length (blkInd A bd (nblk A.m bd)) ∧
      ((List.range (nblk A.m bd)).flatMap (blkWrites A ro bd)).foldlM wr1 bval = some s.2.2 ∧
      s.2.2.length = bval.length := by
  obtain ⟨s, e, h1, h2, h3, h4⟩ := forC_inv_nat (n := nblk A.m bd)
    (f := bsrRow ro A.m A.base bd A.ptr A.ind A.val rp)
    (s := (List.replicate (nblk A.n bd) (-1 : Int), bind, bval))
    (P := fun I s => Rep s.1 (nblk A.n bd) (fun _ => -1) ∧ Pre s.2.1 bind.length (blkInd A bd I) ∧
      ((List.range I).flatMap (blkWrites A ro bd)).foldlM wr1 bval = some s.2.2 ∧
      s.2.2.length = bval.length)
    ⟨⟨by simp, fun k hk => by simp [hk]⟩, Pre.nil rfl, rfl, rfl⟩ (by
      rintro I ⟨bc, ind, val⟩ hI ⟨h1, h2, h3, h4⟩
      simp only at h1 h2 h3 h4
      unfold bsrRow
      have e1 : rd rp (I : Int) = some (A.base + offs (A.blkCols bd) I) := by
        rw [rd_ofNat, hrp I (by omega)]
      have e2 : rd rp ((I : Int) + 1) = some (A.base + offs (A.blkCols bd) (I + 1)) := by
        rw [show (I : Int) + 1 = ((I + 1 : Nat) : Int) by push_cast; rfl, rd_ofNat, hrp _ (by omega)]
      simp only [e1, e2, Option.bind_eq_bind, Option.bind_some, add_sub_cancel_left]
      obtain ⟨r, e3, r1, r2, r3, r4⟩ := bsrRows_spec h (ro := ro) hbd hI (blkInd_length A bd I) h1
        hbind h2 h3 (by omega)
      simp only [e3, Option.bind_some]
      -- the clearing loop
      have hclr : forC (offs (A.blkCols bd) I : Int) (offs (A.blkCols bd) (I + 1) : Int)
          (fun k bc => (rd r.ind k).bind fun c => wr bc (c - A.base) (-1)) r.bc
          = (A.blkCols bd I).foldlM (fun bc e => wr bc e (-1)) r.bc := by
        have hfl := forC_list (ind := r.ind) (fun c bc => wr bc (c - A.base) (-1))
          (lo := (offs (A.blkCols bd) I : Int)) (hi := (offs (A.blkCols bd) (I + 1) : Int)) (s := r.bc)
          (by omega) (by
            have := r2.le
            rw [List.length_append, List.length_map, blkInd_length] at this
            rw [r2.1, offs_succ]; push_cast; omega)
        simp only [Option.bind_eq_bind] at hfl
        rw [hfl]
        obtain ⟨t, ht⟩ := r2.2
        rw [← ht, offs_succ, show (((offs (A.blkCols bd) I + (A.blkCols bd I).length : Nat) : Int)
          - (offs (A.blkCols bd) I : Int)).toNat = (A.blkCols bd I).length by omega,
          Int.toNat_natCast, ← blkInd_length, List.append_assoc, List.drop_left,
          List.take_left' (by simp), foldlM_map']
        simp
      rw [hclr]
      obtain ⟨bc', e4, hr4⟩ := clear_spec (L := A.blkCols bd I) (fun x hx => blkCols_range h hbd hx) r1
        (z := -1) (w := 0) (fun k _ hk => by simp [bcVal, hk])
      rw [e4]
      refine ⟨_, rfl, hr4, ?_, ?_, by simp only; omega⟩
      · rw [blkInd_succ]; exact r2
      · rw [List.range_succ, List.flatMap_append]; simpa using r3)
  exact ⟨s, e, h2, h3, h4⟩

end Verif
