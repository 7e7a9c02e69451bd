/-
Proofs about the CSR to BSR conversion: the complete result.
-/
import Verif.Proofs.Bsr2
import Verif.Proofs.BsrSort
import Verif.Proofs.Get
import Verif.Proofs.Triples
import Mathlib.Algebra.BigOperators.Intervals

namespace Verif
open Model Finset

variable {R : Type}

theorem csr2bsr_sort {A : Csr R} {bd : Nat} {rp : List Int} {N : Nat}
    (hrp : ∀ I, I ≤ N → rp[I]? = some (A.base + offs (A.blkCols bd) I))
    {s : List Int × List R} (h1 : offs (A.blkCols bd) N ≤ s.1.length)
    (h2 : offs (A.blkCols bd) N * (bd * bd) ≤ s.2.length) (fi : Nat → Int) (fv : Nat → R)
    (hA : Arr s.1.length s.2.length (bd * bd) fi fv (Equiv.refl _) s) :
    ∃ s' σ, forC 0 (N : Int) (bsrSortRow A.base bd rp) s = some s' ∧
      Arr s.1.length s.2.length (bd * bd) fi fv σ s' ∧
      (∀ J, J < N → ∀ k, offs (A.blkCols bd) J ≤ k ∧ k < offs (A.blkCols bd) (J + 1) →
        offs (A.blkCols bd) J ≤ σ k ∧ σ k < offs (A.blkCols bd) (J + 1)) ∧
      (∀ J, J < N → ∀ t, offs (A.blkCols bd) J ≤ t → t < offs (A.blkCols bd) (J + 1) →
        GoodAt (offs (A.blkCols bd) J) (fun k => fi (σ k)) t) := by
  obtain ⟨s', e, σ, q1, q2, q3, q4⟩ := forC_inv_nat (n := N) (f := bsrSortRow A.base bd rp) (s := s)
    (P := fun I s' => ∃ σ, Arr s.1.length s.2.length (bd * bd) fi fv σ s' ∧
      (∀ J, J < N → ∀ k, offs (A.blkCols bd) J ≤ k ∧ k < offs (A.blkCols bd) (J + 1) →
        offs (A.blkCols bd) J ≤ σ k ∧ σ k < offs (A.blkCols bd) (J + 1)) ∧
      (∀ k, offs (A.blkCols bd) I ≤ k → σ k = k) ∧
      (∀ J, J < I → ∀ t, offs (A.blkCols bd) J ≤ t → t < offs (A.blkCols bd) (J + 1) →
        GoodAt (offs (A.blkCols bd) J) (fun k => fi (σ k)) t))
    ⟨Equiv.refl _, hA, fun _ _ k hk => hk, fun _ _ => rfl, fun _ h => by omega⟩ (by
      rintro I s1 hI ⟨σ, g1, g2, g3, g4⟩
      obtain ⟨g, hg, hgv⟩ := g1.val
      have hmono := offs_mono (A.blkCols bd) (show I ≤ I + 1 by omega)
      have hmono2 := offs_mono (A.blkCols bd) (show I + 1 ≤ N by omega)
      obtain ⟨s2, τ, e, t1, t2, t3⟩ := bsrSortRow_spec (n1 := s.1.length) (n2 := s.2.length) (bd := bd)
        (lo := offs (A.blkCols bd) I) (hi := offs (A.blkCols bd) (I + 1)) (fi := fun k => fi (σ k))
        (fv := g) (s := s1) ⟨g1.ind, g, hg, fun _ _ _ => rfl⟩ hmono (by omega)
        (le_trans (Nat.mul_le_mul_right _ hmono2) h2) (rp := rp) (i := (I : Int)) (base := A.base)
        (by rw [rd_ofNat, hrp I (by omega)])
        (by rw [show (I : Int) + 1 = ((I + 1 : Nat) : Int) by push_cast; rfl, rd_ofNat,
          hrp _ (by omega)])
      refine ⟨s2, e, τ.trans σ, ⟨t2.ind, ?_⟩, ?_, ?_, ?_⟩
      · obtain ⟨g', hg', hgv'⟩ := t2.val
        exact ⟨g', hg', fun k b hb => by rw [hgv' k b hb, hgv _ b hb]; rfl⟩
      · intro J hJ k hk
        rw [Equiv.trans_apply]
        by_cases hJI : J = I
        · subst hJI
          exact g2 J hJ _ (t1.maps hk)
        · rw [t1 k (by
            intro hc
            rcases Nat.lt_or_gt_of_ne hJI with hlt | hlt
            · have := offs_mono (A.blkCols bd) (show J + 1 ≤ I by omega)
              omega
            · have := offs_mono (A.blkCols bd) (show I + 1 ≤ J by omega)
              omega)]
          exact g2 J hJ k hk
      · intro k hk
        rw [Equiv.trans_apply, t1 k (by omega), g3 k (by omega)]
      · intro J hJ t ht ht'
        by_cases hJI : J = I
        · subst hJI
          exact t3 t ht ht'
        · have hm := offs_mono (A.blkCols bd) (show J + 1 ≤ I by omega)
          intro x hx hxt
          simp only [Equiv.trans_apply]
          rw [t1 t (by omega), t1 x (by omega)]
          exact g4 J (by omega) t ht ht' x hx hxt)
  exact ⟨s', σ, e, q1, q2, q4⟩

/-- every block number belongs to a block row -/
theorem offs_locate {rows : Nat → List Int} {N k : Nat} (hk : k < offs rows N) :
    ∃ I, I < N ∧ offs rows I ≤ k ∧ k < offs rows (I + 1) := by
  induction N with
  | zero => simp at hk
  | succ N ih =>
    by_cases h : k < offs rows N
    · obtain ⟨I, h1, h2⟩ := ih h
      exact ⟨I, by omega, h2⟩
    · exact ⟨N, by omega, by omega, hk⟩

/-- the BSR structure built from the arrays -/
def bsrOf (A : Csr R) (bd : Nat) (ro : Bool) (rp bi : List Int) (bv : List R) : Bsr R :=
  { mb := nblk A.m bd, nb := nblk A.n bd, bd := bd, rowMajor := ro, base := A.base, ptr := rp
    ind := bi, val := bv }

theorem csr2bsr_spec {A : Csr R} (h : A.WF) {ro : Bool} {bd : Nat} (hbd : 0 < bd)
    {rp bind : List Int} {bval : List R} (hrpl : rp.length = nblk A.m bd + 1)
    (hrp : ∀ I, I ≤ nblk A.m bd → rp[I]? = some (A.base + offs (A.blkCols bd) I))
    (hbind : offs (A.blkCols bd) (nblk A.m bd) ≤ bind.length)
    (hbval : offs (A.blkCols bd) (nblk A.m bd) * (bd * bd) ≤ bval.length) :
    ∃ bi bv, csr2bsrCore ro A.m A.n A.base A.ptr A.ind A.val bd bval rp bind = some (bi, bv) ∧
      bi.length = bind.length ∧ bv.length = bval.length ∧
      (bsrOf A bd ro rp bi bv).WF ∧ (bsrOf A bd ro rp bi bv).SortedBlocks ∧
      (∀ I, I < nblk A.m bd → ∀ b : Int,
        (∃ k, (bsrOf A bd ro rp bi bv).lo I ≤ k ∧ k < (bsrOf A bd ro rp bi bv).hi I ∧
          (bsrOf A bd ro rp bi bv).col k = b) ↔ b ∈ A.blkCols bd I) ∧
      (∀ [Semiring R], A.NoDup →
        (∀ k, k < offs (A.blkCols bd) (nblk A.m bd) * (bd * bd) → bval[k]? = some 0) →
        ∀ i j, i / bd < nblk A.m bd → (bsrOf A bd ro rp bi bv).mat i j = A.mat i j) := by
  unfold csr2bsrCore
  simp only [nblk_cast hbd, Int.toNat_natCast]
  obtain ⟨⟨bc, i1, v1⟩, e1, f1, f2, f3⟩ := csr2bsr_fill h (ro := ro) hbd hrp hbind hbval
  simp only at f1 f2 f3
  simp only [e1, Option.bind_eq_bind, Option.bind_some]
  rcases hv0 : bval with _ | ⟨d0, bval'⟩
  case nil =>
    -- no cells at all: there are no blocks
    have hz : offs (A.blkCols bd) (nblk A.m bd) = 0 := by
      rw [hv0] at hbval
      simp only [List.length_nil, Nat.le_zero_eq, Nat.mul_eq_zero] at hbval
      omega
    have hnil : ∀ I, I < nblk A.m bd → A.blkCols bd I = [] := by
      intro I hI
      have := offs_mono (A.blkCols bd) (show I + 1 ≤ nblk A.m bd from hI)
      rw [offs_succ] at this
      exact List.length_eq_zero_iff.1 (by omega)
    have hoff : ∀ I, I ≤ nblk A.m bd → offs (A.blkCols bd) I = 0 := by
      intro I hI
      have := offs_mono (A.blkCols bd) hI
      omega
    have hrow : ∀ I, I ≤ nblk A.m bd → (bsrOf A bd ro rp i1 v1).p I = A.base := by
      intro I hI
      show rp.getD I 0 = A.base
      rw [List.getD_eq_getElem?_getD, hrp I hI, hoff I hI]
      simp
    have hempty : ∀ I, I < nblk A.m bd → A.blkEntries bd I = [] := by
      intro I hI
      have := hnil I hI
      apply List.eq_nil_iff_forall_not_mem.2
      intro e he
      have hm : e.2.1 / (bd : Int) ∈ A.blkCols bd I := mem_firsts.2 (List.mem_map.2 ⟨e, he, rfl⟩)
      rw [this] at hm
      simp at hm
    refine ⟨i1, v1, ?_, f1.1, by rw [f3, hv0], ?_, ?_, ?_, ?_⟩
    · obtain ⟨s', e, hs'⟩ := forC_inv_nat (n := nblk A.m bd) (f := bsrSortRow A.base bd rp)
        (s := (i1, v1)) (P := fun _ s => s = (i1, v1)) rfl (by
          rintro I s hI rfl
          refine ⟨_, ?_, rfl⟩
          unfold bsrSortRow
          rw [rd_ofNat, hrp I (by omega), show (I : Int) + 1 = ((I + 1 : Nat) : Int) by push_cast; rfl,
            rd_ofNat, hrp (I + 1) (by omega), hoff I (by omega), hoff (I + 1) (by omega)]
          simp only [Option.bind_eq_bind, Option.bind_some]
          rw [forC_ge (by omega)])
      rw [e, hs']
    · refine ⟨h.base01, hbd, hrpl, hrow 0 (by omega), ?_, ?_, ?_, ?_⟩
      · intro i hi
        rw [hrow i (Nat.le_of_lt hi), hrow (i + 1) hi]
      · have := hrow (nblk A.m bd) (le_refl _)
        show (bsrOf A bd ro rp i1 v1).p (nblk A.m bd) - A.base ≤ _
        rw [this]
        omega
      · have := hrow (nblk A.m bd) (le_refl _)
        show ((bsrOf A bd ro rp i1 v1).p (nblk A.m bd) - A.base) * _ ≤ _
        rw [this]
        simp
      · intro k hk
        have := hrow (nblk A.m bd) (le_refl _)
        have hk' : (k : Int) < (bsrOf A bd ro rp i1 v1).p (nblk A.m bd) - A.base := hk
        rw [this] at hk'
        omega
    · intro I hI k l hk hkl hl
      exfalso
      have h1 := hrow (I + 1) hI
      unfold Bsr.hi at hl
      rw [h1] at hl
      have : (bsrOf A bd ro rp i1 v1).base = A.base := rfl
      omega
    · intro I hI b
      rw [hnil I hI]
      constructor
      · rintro ⟨k, _, hk, _⟩
        exfalso
        have h1 := hrow (I + 1) hI
        unfold Bsr.hi at hk
        rw [h1] at hk
        have : (bsrOf A bd ro rp i1 v1).base = A.base := rfl
        omega
      · intro hb; simp at hb
    · intro _ hnd _ i j hi
      unfold Bsr.mat
      have hlohi : (bsrOf A bd ro rp i1 v1).hi (i / bd) = 0 := by
        unfold Bsr.hi
        rw [hrow _ hi]
        simp [bsrOf]
      rw [show (bsrOf A bd ro rp i1 v1).bd = bd from rfl, hlohi]
      simp only [Finset.Ico_eq_empty_of_le (Nat.zero_le _), sum_empty]
      have hr0 : A.row i = [] := by
        by_cases him : i < A.m
        · apply List.eq_nil_iff_forall_not_mem.2
          intro e he
          have hI := hempty (i / bd) hi
          have hmem : ((i % bd, e.1, e.2) : Nat × Int × R) ∈ A.blkEntries bd (i / bd) := by
            refine Csr.mem_winEntries.2 ⟨?_, ?_⟩
            · simp only [blkRows]
              have := Nat.mod_lt i hbd
              have := Nat.div_add_mod' i bd
              omega
            · rw [Nat.div_add_mod' i bd]; exact he
          rw [hI] at hmem
          simp at hmem
        · exact Csr.row_of_ge h (by omega)
      simp [Csr.mat, Csr.entry, hr0]
  case cons =>
    rw [← hv0]
    have hAr : Arr i1.length v1.length (bd * bd) (fun k => i1.getD k 0) (fun k => v1.getD k d0)
        (Equiv.refl _) (i1, v1) := ⟨Rep.of_list i1 0, _, Rep.of_list v1 d0, fun _ _ _ => rfl⟩
    obtain ⟨⟨bi, bv⟩, σ, e2, hA2, hσ, hgood⟩ := csr2bsr_sort (A := A) (bd := bd) hrp (s := (i1, v1))
      (by show _ ≤ i1.length; rw [f1.1]; exact hbind) (by show _ ≤ v1.length; rw [f3]; exact hbval)
      (fun k => i1.getD k 0) (fun k => v1.getD k d0) hAr
    obtain ⟨g, hg, hgv⟩ := hA2.val
    have hind := hA2.ind
    simp only at hg hind hgood
    -- pointers
    have hp : ∀ I, I ≤ nblk A.m bd → (bsrOf A bd ro rp bi bv).p I = A.base + offs (A.blkCols bd) I := by
      intro I hI
      show rp.getD I 0 = _
      rw [List.getD_eq_getElem?_getD, hrp I hI]
      rfl
    have hlo : ∀ I, I ≤ nblk A.m bd → (bsrOf A bd ro rp bi bv).lo I = offs (A.blkCols bd) I := by
      intro I hI
      unfold Bsr.lo
      rw [hp I hI]
      simp [bsrOf]
    have hhi : ∀ I, I < nblk A.m bd → (bsrOf A bd ro rp bi bv).hi I = offs (A.blkCols bd) (I + 1) := by
      intro I hI
      unfold Bsr.hi
      rw [hp (I + 1) hI]
      simp [bsrOf]
    -- original block columns
    have hc0 : ∀ I, I < nblk A.m bd → ∀ t (ht : t < (A.blkCols bd I).length),
        i1.getD (offs (A.blkCols bd) I + t) 0 = (A.blkCols bd I)[t] + A.base := by
      intro I hI t ht
      have hle := offs_mono (A.blkCols bd) (show I + 1 ≤ nblk A.m bd from hI)
      rw [offs_succ] at hle
      obtain ⟨tl, htl⟩ := f1.2
      rw [List.getD_eq_getElem?_getD, ← htl, List.getElem?_append_left (by rw [blkInd_length]; omega),
        blkInd_get A hI ht]
      rfl
    have hcol : ∀ k, k < offs (A.blkCols bd) (nblk A.m bd) →
        (bsrOf A bd ro rp bi bv).col k = i1.getD (σ k) 0 - A.base := by
      intro k hk
      show bi.getD k 0 - A.base = _
      rw [hind.getD 0 (by rw [f1.1]; omega)]
    have hcolI : ∀ I, I < nblk A.m bd → ∀ k, offs (A.blkCols bd) I ≤ k →
        k < offs (A.blkCols bd) (I + 1) →
        ∃ t, ∃ ht : t < (A.blkCols bd I).length, σ k = offs (A.blkCols bd) I + t ∧
          (bsrOf A bd ro rp bi bv).col k = (A.blkCols bd I)[t] := by
      intro I hI k h1 h2
      have hle := offs_mono (A.blkCols bd) (show I + 1 ≤ nblk A.m bd from hI)
      have := hσ I hI k ⟨h1, h2⟩
      rw [offs_succ] at this
      refine ⟨σ k - offs (A.blkCols bd) I, by omega, by omega, ?_⟩
      rw [hcol k (by omega)]
      have := hc0 I hI (σ k - offs (A.blkCols bd) I) (by omega)
      rw [show offs (A.blkCols bd) I + (σ k - offs (A.blkCols bd) I) = σ k by omega] at this
      rw [this]
      omega
    have hlen1 : bi.length = i1.length := hind.1
    have hlen2 : bv.length = v1.length := hg.1
    refine ⟨bi, bv, e2, by rw [hlen1, f1.1], by rw [hlen2, f3], ?_, ?_, ?_, ?_⟩
    · refine ⟨h.base01, hbd, hrpl, by rw [hp 0 (by omega)]; simp [bsrOf], ?_, ?_, ?_, ?_⟩
      · intro i hi
        have hi : i < nblk A.m bd := hi
        rw [hp i (by omega), hp (i + 1) hi]
        have := offs_mono (A.blkCols bd) (show i ≤ i + 1 by omega)
        omega
      · show (bsrOf A bd ro rp bi bv).p (nblk A.m bd) - A.base ≤ (bi.length : Int)
        rw [hp _ (le_refl _), hlen1, f1.1]
        omega
      · show ((bsrOf A bd ro rp bi bv).p (nblk A.m bd) - A.base) * ((bd * bd : Nat) : Int) ≤ (bv.length : Int)
        rw [hp _ (le_refl _), hlen2, f3, add_sub_cancel_left]
        exact_mod_cast hbval
      · intro k hk
        have hk' : (k : Int) < (bsrOf A bd ro rp bi bv).p (nblk A.m bd) - A.base := hk
        rw [hp _ (le_refl _)] at hk'
        obtain ⟨I, hI, h1, h2⟩ := offs_locate (rows := A.blkCols bd) (N := nblk A.m bd) (k := k)
          (by omega)
        obtain ⟨t, ht, _, h4⟩ := hcolI I hI k h1 h2
        rw [h4]
        exact blkCols_range h hbd (List.getElem_mem ht)
    · intro I hI k l hk hkl hl
      have hI : I < nblk A.m bd := hI
      rw [hlo I (by omega)] at hk
      rw [hhi I hI] at hl
      obtain ⟨t, ht, t1, t2⟩ := hcolI I hI k hk (by omega)
      obtain ⟨u, hu, u1, u2⟩ := hcolI I hI l (by omega) hl
      have hle := offs_mono (A.blkCols bd) (show I + 1 ≤ nblk A.m bd from hI)
      have hg1 := hgood I hI l (by omega) hl k hk (by omega)
      simp only at hg1
      have hkl2 : (bsrOf A bd ro rp bi bv).col k ≤ (bsrOf A bd ro rp bi bv).col l := by
        rw [hcol k (by omega), hcol l (by omega)]; omega
      rcases Int.lt_or_eq_of_le hkl2 with hlt | heq
      · exact hlt
      · exfalso
        rw [t2, u2] at heq
        have := (List.Nodup.getElem_inj_iff (firsts_nodup _)).1 heq
        subst this
        have := σ.injective (t1.trans u1.symm)
        omega
    · intro I hI b
      rw [hlo I (by omega), hhi I hI]
      constructor
      · rintro ⟨k, h1, h2, rfl⟩
        obtain ⟨t, ht, _, h4⟩ := hcolI I hI k h1 h2
        rw [h4]
        exact List.getElem_mem ht
      · intro hb
        obtain ⟨t, ht, rfl⟩ := List.mem_iff_getElem.1 hb
        have hle := offs_mono (A.blkCols bd) (show I + 1 ≤ nblk A.m bd from hI)
        have hin : offs (A.blkCols bd) I ≤ σ.symm (offs (A.blkCols bd) I + t) ∧
            σ.symm (offs (A.blkCols bd) I + t) < offs (A.blkCols bd) (I + 1) := by
          -- `σ` permutes the finite window
          have hmap : ∀ x ∈ Ico (offs (A.blkCols bd) I) (offs (A.blkCols bd) (I + 1)),
              σ x ∈ Ico (offs (A.blkCols bd) I) (offs (A.blkCols bd) (I + 1)) := by
            intro x hx
            rw [mem_Ico] at hx ⊢
            exact hσ I hI x hx
          have hsurj := Finset.surj_on_of_inj_on_of_card_le (fun x _ => σ x) hmap
            (fun a b _ _ hab => σ.injective hab) (le_refl _) (offs (A.blkCols bd) I + t)
            (by rw [mem_Ico, offs_succ]; omega)
          obtain ⟨x, hx, hxe⟩ := hsurj
          rw [hxe, Equiv.symm_apply_apply]
          exact mem_Ico.1 hx
        refine ⟨σ.symm (offs (A.blkCols bd) I + t), hin.1, hin.2, ?_⟩
        rw [hcol _ (by omega), Equiv.apply_symm_apply, hc0 I hI t ht]
        omega
    · intro _ hnd hz i j hi
      generalize hI : i / bd = I at *
      have hi' : I < nblk A.m bd := hi
      have hle := offs_mono (A.blkCols bd) (show I + 1 ≤ nblk A.m bd from hi')
      have hr : i % bd < bd := Nat.mod_lt _ hbd
      have hc : j % bd < bd := Nat.mod_lt _ hbd
      have hiI : I * bd + i % bd = i := by rw [← hI]; exact Nat.div_add_mod' i bd
      have hjJ : (j / bd) * bd + j % bd = j := Nat.div_add_mod' j bd
      have hpl := blkPos_lt (ro := ro) hr hc
      -- writes of the filling pass
      have hwr : ∀ x ∈ (List.range (nblk A.m bd)).flatMap (blkWrites A ro bd),
          0 ≤ x.1 ∧ x.1 < bval.length := by
        intro x hx
        obtain ⟨J, hJ, hx⟩ := List.mem_flatMap.1 hx
        obtain ⟨e, he, rfl⟩ := List.mem_map.1 hx
        have := blkCell_lt h (ro := ro) hbd (List.mem_range.1 hJ) he
        refine ⟨this.1, lt_of_lt_of_le this.2 ?_⟩
        exact_mod_cast hbval
      obtain ⟨v1', s1, s2, s3, s4⟩ := scatter1 _ bval hwr
      rw [f2] at s1
      have hvv := Option.some.inj s1
      subst hvv
      -- an element of block `offs I + t`
      have helem : ∀ t (ht : t < (A.blkCols bd I).length), (A.blkCols bd I)[t] = ((j / bd : Nat) : Int) →
          v1[(offs (A.blkCols bd) I + t) * (bd * bd) + blkPos ro bd (i % bd) (j % bd)]?
            = some (A.mat i j) := by
        intro t ht htJ
        -- which entries are written there
        have hwho : ∀ J, J < nblk A.m bd → ∀ e ∈ A.blkEntries bd J,
            blkCell A ro bd J e = (((offs (A.blkCols bd) I + t) * (bd * bd)
              + blkPos ro bd (i % bd) (j % bd) : Nat) : Int) →
            J = I ∧ e.1 = i % bd ∧ e.2.1 = (j : Int) := by
          intro J hJ e he hcell
          have hrg := blk_range h hbd he
          have hm1 := Int.emod_lt_of_pos e.2.1 (show (0 : Int) < bd by omega)
          have hm0 := Int.emod_nonneg e.2.1 (show (bd : Int) ≠ 0 by omega)
          have hpe := blkPos_lt (ro := ro) (r := e.1) (c := (e.2.1 % (bd : Int)).toNat) hrg.1 (by omega)
          unfold blkCell at hcell
          have hcell' : (offs (A.blkCols bd) J + blkIdx A bd J e.2.1) * (bd * bd)
              + blkPos ro bd e.1 (e.2.1 % (bd : Int)).toNat
              = (offs (A.blkCols bd) I + t) * (bd * bd) + blkPos ro bd (i % bd) (j % bd) := by
            exact_mod_cast hcell
          obtain ⟨q1, q2⟩ := off_inj (w := ((bd * bd : Nat) : Int))
            (i := ((offs (A.blkCols bd) J + blkIdx A bd J e.2.1 : Nat) : Int))
            (j := (blkPos ro bd e.1 (e.2.1 % (bd : Int)).toNat : Nat))
            (i' := ((offs (A.blkCols bd) I + t : Nat) : Int))
            (j' := (blkPos ro bd (i % bd) (j % bd) : Nat))
            (by omega) (by exact_mod_cast hpe) (by omega) (by exact_mod_cast hpl)
            (by exact_mod_cast hcell')
          have q1' : offs (A.blkCols bd) J + blkIdx A bd J e.2.1 = offs (A.blkCols bd) I + t := by
            exact_mod_cast q1
          have q2' : blkPos ro bd e.1 (e.2.1 % (bd : Int)).toNat = blkPos ro bd (i % bd) (j % bd) := by
            exact_mod_cast q2
          have hidx := blkIdx_lt he
          have hJI : J = I := by
            rcases Nat.lt_trichotomy J I with hlt | heq | hgt
            · have := offs_mono (A.blkCols bd) (show J + 1 ≤ I by omega)
              rw [offs_succ] at this
              omega
            · exact heq
            · have := offs_mono (A.blkCols bd) (show I + 1 ≤ J by omega)
              rw [offs_succ] at this
              omega
          subst hJI
          obtain ⟨r1, r2⟩ := blkPos_inj hrg.1 (by omega) hr hc q2'
          refine ⟨rfl, r1, ?_⟩
          have hbi : blkIdx A bd J e.2.1 = t := by omega
          have hget : (A.blkCols bd J)[blkIdx A bd J e.2.1]'hidx = e.2.1 / (bd : Int) :=
            List.getElem_idxOf hidx
          simp only [hbi] at hget
          rw [hget] at htJ
          have hdm := Int.ediv_mul_add_emod e.2.1 (bd : Int)
          rw [htJ] at hdm
          have hmodj : e.2.1 % (bd : Int) = ((j % bd : Nat) : Int) := by omega
          rw [hmodj] at hdm
          rw [← hdm]
          exact_mod_cast hjJ
        rcases Nat.lt_or_ge i A.m with him | him
        · rw [Csr.mat, Csr.entry_eq_get (hnd i him)]
          rcases Csr.get_cases (A := A) i j with ⟨v, hv, hgv⟩ | ⟨hv, hgv⟩
          · rw [hgv]
            have hmem : ((i % bd, (j : Int), v) : Nat × Int × R) ∈ A.blkEntries bd I := by
              refine Csr.mem_winEntries.2 ⟨?_, by rw [hiI]; exact hv⟩
              simp only [blkRows]; omega
            apply s3
            · refine ⟨_, List.mem_flatMap.2 ⟨I, List.mem_range.2 hi', List.mem_map.2 ⟨_, hmem, rfl⟩⟩, ?_⟩
              unfold blkCell
              have hj1 : (j : Int) / (bd : Int) = ((j / bd : Nat) : Int) := by push_cast; rfl
              have hidx : blkIdx A bd I (j : Int) = t := by
                unfold blkIdx
                rw [hj1, ← htJ]
                exact List.Nodup.idxOf_getElem (firsts_nodup _) t ht
              simp only
              rw [hidx, show ((j : Int) % (bd : Int)).toNat = j % bd by
                rw [← Int.natCast_mod]; exact Int.toNat_natCast _]
            · intro x hx hxk
              obtain ⟨J, hJ, hx⟩ := List.mem_flatMap.1 hx
              obtain ⟨e, he, rfl⟩ := List.mem_map.1 hx
              obtain ⟨rfl, r1, r2⟩ := hwho J (List.mem_range.1 hJ) e he hxk
              have hm := (Csr.mem_winEntries.1 he).2
              rw [r1, hiI, r2] at hm
              have := Csr.nodup_unique (hnd i him) hm hv rfl
              exact (Prod.mk.inj this).2
          · rw [hgv, s4, hz]
            · have h3 : (offs (A.blkCols bd) I + t + 1) * (bd * bd)
                  ≤ offs (A.blkCols bd) (nblk A.m bd) * (bd * bd) :=
                Nat.mul_le_mul_right _ (by rw [offs_succ] at hle; omega)
              rw [Nat.succ_mul] at h3
              omega
            · intro x hx hxk
              obtain ⟨J, hJ, hx⟩ := List.mem_flatMap.1 hx
              obtain ⟨e, he, rfl⟩ := List.mem_map.1 hx
              obtain ⟨rfl, r1, r2⟩ := hwho J (List.mem_range.1 hJ) e he hxk
              have hm := (Csr.mem_winEntries.1 he).2
              rw [r1, hiI, r2] at hm
              exact hv _ hm
        · have h0 : A.mat i j = 0 := by
            simp [Csr.mat, Csr.entry, Csr.row_of_ge h him]
          rw [h0, s4, hz]
          · have h3 : (offs (A.blkCols bd) I + t + 1) * (bd * bd)
                ≤ offs (A.blkCols bd) (nblk A.m bd) * (bd * bd) :=
              Nat.mul_le_mul_right _ (by rw [offs_succ] at hle; omega)
            rw [Nat.succ_mul] at h3
            omega
          · intro x hx hxk
            obtain ⟨J, hJ, hx⟩ := List.mem_flatMap.1 hx
            obtain ⟨e, he, rfl⟩ := List.mem_map.1 hx
            obtain ⟨rfl, r1, r2⟩ := hwho J (List.mem_range.1 hJ) e he hxk
            have := (blk_range h hbd he).2.1
            omega
      unfold Bsr.mat
      rw [show (bsrOf A bd ro rp bi bv).bd = bd from rfl, hI, hlo I (by omega), hhi I hi']
      by_cases hmem : ((j / bd : Nat) : Int) ∈ A.blkCols bd I
      · obtain ⟨t, ht, htJ⟩ := List.mem_iff_getElem.1 hmem
        -- the block that holds it
        have hmap : ∀ x ∈ Ico (offs (A.blkCols bd) I) (offs (A.blkCols bd) (I + 1)),
            σ x ∈ Ico (offs (A.blkCols bd) I) (offs (A.blkCols bd) (I + 1)) := by
          intro x hx
          rw [mem_Ico] at hx ⊢
          exact hσ I hi' x hx
        obtain ⟨k, hk, hke⟩ := Finset.surj_on_of_inj_on_of_card_le (fun x _ => σ x) hmap
          (fun a b _ _ hab => σ.injective hab) (le_refl _) (offs (A.blkCols bd) I + t)
          (by rw [mem_Ico, offs_succ]; omega)
        rw [sum_eq_single k]
        · have hk' := mem_Ico.1 hk
          obtain ⟨t', ht', k1, k2⟩ := hcolI I hi' k hk'.1 hk'.2
          have htt : t' = t := by omega
          subst htt
          rw [if_pos (by rw [k2, htJ])]
          show bv.getD (k * (bd * bd) + blkPos ro bd (i % bd) (j % bd)) 0 = _
          have h3 : (k + 1) * (bd * bd)
              ≤ offs (A.blkCols bd) (nblk A.m bd) * (bd * bd) := Nat.mul_le_mul_right _ (by omega)
          rw [Nat.succ_mul] at h3
          rw [hg.getD 0 (by rw [f3]; omega), hgv k _ hpl, k1, List.getD_eq_getElem?_getD,
            helem t' ht' htJ]
          rfl
        · intro k' hk' hne
          have hk'' := mem_Ico.1 hk'
          obtain ⟨t', ht', k1, k2⟩ := hcolI I hi' k' hk''.1 hk''.2
          rw [if_neg]
          intro heq
          apply hne
          rw [k2, ← htJ] at heq
          have := (List.Nodup.getElem_inj_iff (firsts_nodup _)).1 heq
          subst this
          exact σ.injective (by rw [k1]; exact hke)
        · intro hk'
          exact absurd hk hk'
      · rw [sum_eq_zero]
        · -- no entry there
          rcases Nat.lt_or_ge i A.m with him | him
          · rw [Csr.mat, Csr.entry_eq_get (hnd i him), Csr.get_of_not_mem]
            intro v hv
            apply hmem
            have hm : ((i % bd, (j : Int), v) : Nat × Int × R) ∈ A.blkEntries bd I := by
              refine Csr.mem_winEntries.2 ⟨?_, by rw [hiI]; exact hv⟩
              simp only [blkRows]; omega
            refine mem_firsts.2 (List.mem_map.2 ⟨_, hm, ?_⟩)
            push_cast
            rfl
          · simp [Csr.mat, Csr.entry, Csr.row_of_ge h him]
        · intro k hk
          have hk' := mem_Ico.1 hk
          obtain ⟨t', ht', k1, k2⟩ := hcolI I hi' k hk'.1 hk'.2
          rw [if_neg]
          intro heq
          apply hmem
          rw [← heq, k2]
          exact List.getElem_mem ht'

end Verif
