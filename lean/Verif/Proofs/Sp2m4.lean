import Verif.Proofs.Sp2m3

namespace Verif
open Model Finset

variable {R : Type}

/-- arrays ready to receive the product -/
structure MmArr (A B : Csr R) (c : Arrs R) : Prop where
  ptr : Rep c.ptr (A.m + 1) (fun k => (mmOff A B k : Int))
  base : c.base = 0
  ind : c.ind.length = mmOff A B A.m
  val : c.val.length = mmOff A B A.m

/-- a handle whose structure is that of the product A·B (or, for opflag 3, of its transpose) -/
def Counted (A B : Csr R) (flag : Int) (H : Sp2mH R) : Prop :=
  H.nnz = (mmOff A B A.m : Int) ∧
  if flag = 3 then H.m = B.n ∧ H.n = A.m ∧ (∃ c, H.csc = some c ∧ MmArr A B c) ∧
    H.csr.base = 0 ∧ H.csr.ptr.length = B.n + 1 ∧ H.csr.ind.length = mmOff A B A.m ∧
    H.csr.val.length = mmOff A B A.m
  else H.m = A.m ∧ H.n = B.n ∧ H.csc = none ∧ MmArr A B H.csr

/-- the sizes of the rows of a product depend on the patterns only -/
theorem mmLen_pat {A B A' B' : Csr R} (h1 : SamePat A A') (h2 : SamePat B B') (i : Nat) :
    mmLen A' B' i = mmLen A B i := by
  have e1 : ∀ (X Y : Csr R) (c : Int), c ∈ mmCols X Y i ↔ ∃ x ∈ X.cols i, c ∈ Y.cols x.toNat := by
    intro X Y c
    simp only [mmCols, Csr.cols, List.mem_flatMap, List.mem_map]
    constructor
    · rintro ⟨e, he, h⟩
      exact ⟨e.1, ⟨e, he, rfl⟩, h⟩
    · rintro ⟨x, ⟨e, he, rfl⟩, h⟩
      exact ⟨e, he, h⟩
  unfold mmLen
  apply List.Perm.length_eq
  rw [List.perm_ext_iff_of_nodup (firsts_nodup _) (firsts_nodup _)]
  intro c
  rw [mem_firsts, mem_firsts, e1, e1]
  constructor
  · rintro ⟨x, hx, hc⟩
    exact ⟨x, (h1.2.2 i x).mp hx, (h2.2.2 _ c).mp hc⟩
  · rintro ⟨x, hx, hc⟩
    exact ⟨x, (h1.2.2 i x).mpr hx, (h2.2.2 _ c).mpr hc⟩

theorem mmOff_pat {A B A' B' : Csr R} (h1 : SamePat A A') (h2 : SamePat B B') (i : Nat) :
    mmOff A' B' i = mmOff A B i := by
  unfold mmOff
  congr 1
  apply List.map_congr_left
  intro k _
  exact mmLen_pat h1 h2 k

theorem MmArr.congr {A B A' B' : Csr R} (h1 : SamePat A A') (h2 : SamePat B B') {c : Arrs R}
    (h : MmArr A B c) : MmArr A' B' c := by
  refine ⟨?_, h.base, ?_, ?_⟩
  · have : (fun k => (mmOff A' B' k : Int)) = fun k => (mmOff A B k : Int) := by
      funext k; rw [mmOff_pat h1 h2]
    rw [this, h1.1]
    exact h.ptr
  · rw [h1.1, mmOff_pat h1 h2]; exact h.ind
  · rw [h1.1, mmOff_pat h1 h2]; exact h.val

theorem Counted.congr {A B A' B' : Csr R} (h1 : SamePat A A') (h2 : SamePat B B') {f : Int}
    {H : Sp2mH R} (h : Counted A B f H) : Counted A' B' f H := by
  unfold Counted at h ⊢
  rw [h1.1, h2.2.1, mmOff_pat h1 h2]
  refine ⟨h.1, ?_⟩
  split
  · rename_i hf
    rw [if_pos hf] at h
    obtain ⟨a, b, ⟨c, hc, hm⟩, d⟩ := h.2
    exact ⟨a, b, ⟨c, hc, hm.congr h1 h2⟩, d⟩
  · rename_i hf
    rw [if_neg hf] at h
    obtain ⟨a, b, c, d⟩ := h.2
    exact ⟨a, b, c, d.congr h1 h2⟩

/-- the counting stage -/
theorem mmCount_ok [Zero R] [Add R] [Mul R] {w : Nat} {tm : Teams} (g : Nat → Garb R) {A B : Csr R} (hA : A.WF)
    (hB : B.WF) (hk : A.n = B.m) (ht : TeamOk w A.m tm.t1 tm.ord1) (flag : Int) :
    ∃ H, Counted A B flag H ∧ mmCount w tm g A.m B.n A.arrs B.arrs flag
      = if sumOverflow 64 w (mmOff A B A.m : Int) then some (.error .invalidSize)
        else some (.ok H) := by
  obtain ⟨p0, p1, ptr, e0, e1, e2, hp⟩ := mmPtr_ok ht hA hB hk (g 2).p
  have t1 : (((A.m : Int) + 1).toNat) = A.m + 1 := by omega
  have t2 : (((B.n : Int) + 1).toNat) = B.n + 1 := by omega
  have hr := hp.rd_nat (i := A.m) (by omega)
  unfold mmCount
  rw [t1, Int.toNat_natCast, e0]
  simp only [Option.bind_eq_bind, Option.bind_some]
  rw [e1, Option.bind_some, e2, Option.bind_some]
  have hm : MmArr A B ⟨0, ptr, alloc (mmOff A B A.m) (g 2).i, alloc (mmOff A B A.m) (g 2).v⟩ :=
    ⟨hp, rfl, by simp, by simp⟩
  simp only [hr, Option.bind_some, Int.toNat_natCast, t2]
  by_cases hf : flag = 3
  · simp only [hf, if_true]
    refine ⟨_, ?_, rfl⟩
    refine ⟨rfl, ?_⟩
    rw [if_pos rfl]
    refine ⟨rfl, rfl, ⟨_, rfl, hm⟩, rfl, ?_, by simp, by simp⟩
    simp only
    split <;> simp
  · simp only [hf, if_false]
    refine ⟨_, ?_, rfl⟩
    refine ⟨rfl, ?_⟩
    rw [if_neg hf]
    exact ⟨rfl, rfl, rfl, hm⟩

theorem mmArr_result [Zero R] [Add R] [Mul R] (cA cB : R → R) {A B : Csr R} : MmArr A B (mmCsr cA cB A B).arrs := by
  have h1 := mmCsr_nnz cA cB A B
  refine ⟨?_, rfl, h1, ?_⟩
  · have : (mmCsr cA cB A B).ptr = (List.range (A.m + 1)).map fun i => ((mmOff A B i : Nat) : Int) := by
      simp only [mmCsr, mkCsr, mmOff_offs, zero_add]
    show Rep (mmCsr cA cB A B).ptr _ _
    rw [this]
    exact Rep.of_map
  · have : (mmCsr cA cB A B).val.length = (mmCsr cA cB A B).ind.length := by
      simp [mmCsr, mkCsr]
    show (mmCsr cA cB A B).val.length = _
    rw [this]; exact h1

/-- `A` as it is, or its transpose with the entries of every column in the order of the rows -/
def flipC (tr : Bool) (A : Csr R) : Csr R :=
  if tr then mkCsr A.n A.m A.base fun j =>
    (A.entries.filter (fun e => e.2.1 = (j : Int))).map (fun e => ((e.1 : Int), e.2.2))
  else A

/-- the conversion to CSC yields the transpose in this form -/
theorem csr2csc_flip {A : Csr R} (h : A.WF) {cp ri : List Int} {cv : List R}
    (hcp : cp.length = A.n + 1) (hri : ri.length = A.nnz) (hcv : cv.length = A.nnz) :
    csr2csc A.m A.n A.nnz A.base A.base (some A.ptr) (some A.ind) (some A.val)
        (some cp) (some ri) (some cv)
      = some (.success, some (flipC true A).ptr, some (flipC true A).ind, some (flipC true A).val) ∧
    (flipC true A).WF ∧ (flipC true A).nnz = A.nnz ∧
    ((flipC true A).triples.map swapRC).Perm A.triples := by
  obtain ⟨D, he, d1, d2, d3, dwf, drow, dp⟩ := C05_csr2csc A h A.base h.base01 cp ri cv hcp hri hcv
  have e : flipC true A = D := by
    rw [dwf.eq_mkCsr, d1, d2, d3]
    unfold flipC
    rw [if_pos rfl]
    exact mkCsr_congr fun j hj => (drow j hj).symm
  rw [e]
  refine ⟨he, dwf, ?_, dp⟩
  have h1 := dp.length_eq
  rw [List.length_map, Csr.triples, Csr.triples, List.length_map, List.length_map,
    Csr.entries_length h, Csr.entries_length dwf] at h1
  exact h1

theorem flipC_wf {A : Csr R} (h : A.WF) (tr : Bool) : (flipC tr A).WF ∧ (flipC tr A).nnz = A.nnz ∧
    (flipC tr A).m = (if tr then A.n else A.m) ∧ (flipC tr A).n = (if tr then A.m else A.n) ∧
    (flipC tr A).base = A.base := by
  cases tr
  · exact ⟨h, rfl, rfl, rfl, rfl⟩
  · obtain ⟨-, h1, h2, -⟩ := csr2csc_flip h (cp := List.replicate (A.n + 1) 0)
      (ri := List.replicate A.nnz 0) (cv := A.val) (by simp) (by simp) h.val_len
    exact ⟨h1, h2, rfl, rfl, rfl⟩

theorem flipC_oriented [AddCommMonoid R] {A : Csr R} (h : A.WF) (tr : Bool) :
    Oriented tr A (flipC tr A) := by
  cases tr
  · exact oriented_refl h
  · obtain ⟨-, h1, -, h3⟩ := csr2csc_flip h (cp := List.replicate (A.n + 1) 0)
      (ri := List.replicate A.nnz 0) (cv := A.val) (by simp) (by simp) h.val_len
    exact oriented_trans h rfl rfl rfl h1 (fun j hj => mkCsr_row hj) h3

/-- the handle of the product -/
def mmH [Zero R] [Add R] [Mul R] (cA cB : R → R) (A B : Csr R) (flag : Int) : Sp2mH R :=
  ⟨(flipC (decide (flag = 3)) (mmCsr cA cB A B)).m, (flipC (decide (flag = 3)) (mmCsr cA cB A B)).n,
    (mmCsr cA cB A B).nnz, if flag = 3 then some (mmCsr cA cB A B).arrs else none,
    (flipC (decide (flag = 3)) (mmCsr cA cB A B)).arrs⟩

/-- the value stage, without any law of the arithmetic: the resulting handle is a function of the
factors alone -/
theorem mmFinalize_law [Zero R] [Add R] [Mul R] {w : Nat} {tm : Teams} (cA cB : R → R) {A B : Csr R}
    (hA : A.WF) (hB : B.WF) (hk : A.n = B.m) (ht : TeamOk w A.m tm.t2 tm.ord2) {flag : Int}
    {H : Sp2mH R} (hH : Counted A B flag H) :
    mmFinalize w tm cA cB A.m B.n A.arrs B.arrs (some H) flag
        = some (.success, some (mmH cA cB A B flag)) ∧ Counted A B flag (mmH cA cB A B flag) := by
  have hwf := mmCsr_wf cA cB (A := A) hB
  have hmb : (mmCsr cA cB A B).m = A.m := rfl
  have hnb : (mmCsr cA cB A B).n = B.n := rfl
  have hnz := mmCsr_nnz cA cB A B
  unfold mmFinalize
  obtain ⟨hn, hc⟩ := hH
  by_cases hf : flag = 3
  · subst hf
    rw [if_pos rfl] at hc
    obtain ⟨h1, h2, ⟨c, hcc, hm⟩, h3, h4, h5, h6⟩ := hc
    simp only [hcc, h1, h2, if_true, ne_eq, not_true_eq_false, or_self, if_false]
    rw [mmFill_ok cA cB hA hB hk ht hm.ptr hm.base hm.ind hm.val, Option.bind_some]
    obtain ⟨he, dwf, dn, -⟩ := csr2csc_flip hwf (cp := H.csr.ptr) (ri := H.csr.ind)
      (cv := H.csr.val) h4 (by rw [hnz]; exact h5) (by rw [hnz]; exact h6)
    refine ⟨?_, ?_⟩
    · simp only [Bool.false_eq_true, if_false]
      unfold mmBack
      rw [hn, ← hnz]
      simp only [Csr.arrs]
      rw [hmb, hnb, show (mmCsr cA cB A B).base = 0 from rfl] at he
      rw [show (mmCsr cA cB A B).base = 0 from rfl, he]
      simp only [Option.bind_eq_bind, Option.bind_some, h3]
      rfl
    · refine ⟨by rw [mmH, hnz], ?_⟩
      rw [if_pos rfl]
      refine ⟨rfl, rfl, ⟨_, rfl, mmArr_result cA cB⟩, rfl, ?_, ?_, ?_⟩
      · exact dwf.ptr_len
      · exact dn.trans hnz
      · exact dwf.val_len.trans (dn.trans hnz)
  · rw [if_neg hf] at hc
    obtain ⟨h1, h2, h3, hm⟩ := hc
    simp only [hf, h1, h2, if_false, ne_eq, not_true_eq_false, or_self]
    rw [mmFill_ok cA cB hA hB hk ht hm.ptr hm.base hm.ind hm.val, Option.bind_some]
    have e : mmH cA cB A B flag = ⟨A.m, B.n, H.nnz, none, (mmCsr cA cB A B).arrs⟩ := by
      unfold mmH
      simp only [hf, decide_false, if_false, hn, hnz]
      rfl
    rw [e]
    refine ⟨by rw [← h1, ← h2, ← h3]; rfl, ⟨hn, ?_⟩⟩
    rw [if_neg hf]
    exact ⟨rfl, rfl, rfl, mmArr_result cA cB⟩

/-- the value stage -/
theorem mmFinalize_ok [Semiring R] {w : Nat} {tm : Teams} (cA cB : R → R) {A B : Csr R} (hA : A.WF)
    (hB : B.WF) (hk : A.n = B.m) (ht : TeamOk w A.m tm.t2 tm.ord2) {flag : Int} {H : Sp2mH R}
    (hH : Counted A B flag H) :
    ∃ H' C, mmFinalize w tm cA cB A.m B.n A.arrs B.arrs (some H) flag = some (.success, some H') ∧
      Counted A B flag H' ∧ Oriented (decide (flag = 3)) (mmCsr cA cB A B) C ∧
      H'.m = C.m ∧ H'.n = C.n ∧ H'.csr = C.arrs ∧
      H'.csc = if flag = 3 then some (mmCsr cA cB A B).arrs else none := by
  obtain ⟨e, hc⟩ := mmFinalize_law (w := w) (tm := tm) cA cB hA hB hk ht hH
  exact ⟨_, flipC (decide (flag = 3)) (mmCsr cA cB A B), e, hc,
    flipC_oriented (mmCsr_wf cA cB hB) _, rfl, rfl, rfl, rfl⟩

end Verif
