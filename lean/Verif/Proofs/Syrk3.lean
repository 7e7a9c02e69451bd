import Verif.Proofs.Syrk2

namespace Verif
open Model Finset

variable {R : Type} [CommRing R] [StarRing R] [DecidableEq R]

theorem ShareCol.symm {A : Csr R} : ∀ i j, ShareCol A i j → ShareCol A j i :=
  fun _ _ ⟨h1, h2, c, h3, h4⟩ => ⟨h2, h1, c, h4, h3⟩

theorem ShareRow.symm {A : Csr R} : ∀ i j, ShareRow A i j → ShareRow A j i :=
  fun _ _ ⟨x, h1, h2, h3⟩ => ⟨x, h1, h3, h2⟩

/-- the computation into arrays as long as the estimate -/
def KernelOk (eff : Int) (isT : Bool) (A : Csr R) (K : Nat) (G : Mat R) (P : Nat → Nat → Prop)
    (est : Int) : Prop :=
  ∀ (ptr ind : List Int) (val : List R), ptr.length = K + 1 → est ≤ ind.length → est ≤ val.length →
    ∃ (ptr' ind' : List Int) (val' : List R) (C : Csr R),
      syrkKernel star eff (A.raw isT) ptr ind val = some (.ok (ptr', ind', val', (C.nnz : Int))) ∧
      ind'.length = ind.length ∧ val'.length = val.length ∧
      HoldsCsr C ptr' ind' val' ∧ IsUpper K A.base G P C

theorem kernel_n {A : Csr R} (hA : A.WF) (hnd : A.NoDup) (isT : Bool) :
    KernelOk 111 isT A A.m
      (fun i j => ∑ k ∈ range A.n, if isT then star (A.mat i k) * A.mat j k else A.mat i k * star (A.mat j k))
      (ShareCol A) (∑ i ∈ range A.m, estT A.m (estN A i)) := by
  intro ptr ind val hp hi hv
  have hest : ∀ {G : Mat R} {C : Csr R}, IsUpper A.m A.base G (ShareCol A) C →
      (C.nnz : Int) ≤ ∑ i ∈ range A.m, estT A.m (estN A i) := by
    intro G C h
    exact upper_nnz h ShareCol.symm (fun i hi _ => by
      have := estN_ge hA hi
      convert this)
  unfold syrkKernel
  rw [if_pos rfl]
  by_cases hc : (A.raw isT).isT = false ∧ (A.raw isT).m < 3000 ∧ (A.raw isT).m < (A.raw isT).n ∧
      (A.raw isT).nnz ≤ (A.raw isT).m * 10
  · rw [if_pos hc]
    have hT : isT = false := hc.1
    subst hT
    have hup := aat_upper hA (starRingEnd R)
    have hle := hest hup
    rw [mkCsr_nnz] at hle
    obtain ⟨p, a, b, e, l1, l2, hH⟩ := aatDense_ok hA hnd (starRingEnd R) hp (ind := ind) (val := val)
      (by omega) (by omega)
    refine ⟨p, a, b, _, ?_, l1, l2, hH, hup.mono (fun _ _ _ _ h => h) ?_⟩
    · rw [mkCsr_nnz]
      have e' : aatDense star (A.raw false).m (A.raw false).n (A.raw false).arrs ptr ind val
          = some (p, a, b, (offs (aatRows (starRingEnd R) A) A.m : Int)) := e
      rw [e']
      rfl
    · intro i j _ _
      rfl
  · rw [if_neg hc]
    obtain ⟨T, e1, ho, hst⟩ := orient_strict hA hnd isT
    have hTm : T.m = A.n := ho.m
    have hTn : T.n = A.m := ho.n
    have hTb : T.base = A.base := ho.base
    let f : R → R := if !isT then star else id
    let Y := T.mapVal f
    have hY : Y.WF := ho.wf.mapVal f
    obtain ⟨V, hV, _, hfill⟩ := atb_ok hY (hst.mapVal ho.wf f)
    have hYm : Y.m = A.n := hTm
    have hYn : Y.n = A.m := hTn
    have hmat : ∀ x i, x < A.n → i < A.m → Y.mat x i = f (A.mat i x) := by
      intro x i hx hi
      have h1 := ho.entry x i (by omega) (by omega)
      rw [if_pos rfl] at h1
      have h2 : T.mat x i = A.mat i x := h1
      rw [← h2]
      cases isT
      · exact Csr.mapVal_mat ho.wf (starRingEnd R).toAddMonoidHom (by omega) i
      · exact Csr.mapVal_mat ho.wf (AddMonoidHom.id R) (by omega) i
    have hup0 := atb_upper (R := R) hY hV (starRingEnd R) (RingHom.id R) hA.base01
      (G := fun i j => ∑ k ∈ range A.n, if isT then star (A.mat i k) * A.mat j k
        else A.mat i k * star (A.mat j k)) (by
      intro i j hi hj
      rw [hYm]
      apply Finset.sum_congr rfl
      intro x hx
      have hx := Finset.mem_range.mp hx
      rw [hmat x i hx (by omega), hmat x j hx (by omega)]
      cases isT <;> simp [f, starRingEnd_apply])
    rw [hYn] at hup0
    have hup := hup0.mono (P' := ShareCol A) (by
      rintro i j hi hj ⟨x, hx, h1, h2⟩
      have hxn : x < A.n := by omega
      rw [mapVal_cols ho.wf f (by omega), ho.stored x i (by omega) (by omega), if_pos rfl] at h1
      rw [mapVal_cols ho.wf f (by omega), ho.stored x j (by omega) (by omega), if_pos rfl] at h2
      exact ⟨hi, hj, (x : Int), h1, h2⟩) (fun _ _ _ _ => rfl)
    have hle := hest hup
    have hnz : ∀ b, (atbCsr true (starRingEnd R) (RingHom.id R) Y Y V b).nnz
        = (atbCsr true (starRingEnd R) (RingHom.id R) Y Y V 0).nnz := by
      intro b
      simp only [atbCsr, mkCsr_nnz]
    rw [hnz] at hle
    obtain ⟨p, a, b, e2, l1, l2, hH⟩ := hfill hY rfl true (starRingEnd R) (RingHom.id R) A.base
      hA.base01 ptr ind val (by omega) (by omega) (by omega)
    refine ⟨p, a, b, _, ?_, l1, l2, hH, hup⟩
    rw [e1]
    simp only [Option.bind_some]
    rw [conjLoop_ok (!(A.raw isT).isT) star T.arrs.val
      (n := (A.raw isT).nnz) (by
        have h1 := ho.nnz
        have h2 := ho.wf.val_len
        simp only [Csr.nnz, Csr.raw, Csr.arrs] at *
        omega), Option.bind_some, hnz]
    have e2' : atbFill true star id (A.raw isT).n (A.raw isT).m (A.raw isT).m
        { T.arrs with val := T.arrs.val.map (if (!(A.raw isT).isT) = true then star else id) }
        { T.arrs with val := T.arrs.val.map (if (!(A.raw isT).isT) = true then star else id) }
        (A.raw isT).base ptr ind val
          = some (p, a, b, ((atbCsr true (starRingEnd R) (RingHom.id R) Y Y V 0).nnz : Int)) := by
      have := e2
      rw [hYm, hYn] at this
      exact this
    rw [e2']
    rfl

theorem kernel_t {A : Csr R} (hA : A.WF) (hnd : A.NoDup) (hs : A.Sorted) {eff : Int} (he : eff ≠ 111)
    (isT : Bool) :
    KernelOk eff isT A A.n
      (fun i j => ∑ k ∈ range A.m, if isT then A.mat k i * star (A.mat k j) else star (A.mat k i) * A.mat k j)
      (ShareRow A) (∑ i ∈ range A.n, estT A.n (estTr A i)) := by
  intro ptr ind val hp hi hv
  obtain ⟨V, hV, _, hfill⟩ := atb_ok hA (Csr.strict_of hs hnd)
  unfold syrkKernel
  rw [if_neg he]
  have hest : ∀ {G : Mat R} {C : Csr R}, IsUpper A.n A.base G (ShareRow A) C →
      (C.nnz : Int) ≤ ∑ i ∈ range A.n, estT A.n (estTr A i) := by
    intro G C h
    exact upper_nnz h ShareRow.symm (fun i hi _ => by
      have := estTr_ge hA hi
      convert this)
  cases isT
  · have hup := atb_upper hA hV (starRingEnd R) (RingHom.id R) hA.base01
      (G := fun i j => ∑ k ∈ range A.m, star (A.mat k i) * A.mat k j) (fun i j _ _ => rfl)
    have hle := hest hup
    have hnz : (atbCsr true (starRingEnd R) (RingHom.id R) A A V A.base).nnz
        = (atbCsr true (starRingEnd R) (RingHom.id R) A A V 0).nnz := by
      simp only [atbCsr, mkCsr_nnz]
    rw [hnz] at hle
    obtain ⟨p, a, b, e2, l1, l2, hH⟩ := hfill hA rfl true (starRingEnd R) (RingHom.id R) A.base
      hA.base01 ptr ind val (by omega) (by omega) (by omega)
    refine ⟨p, a, b, _, ?_, l1, l2, hH, hup.mono (fun _ _ _ _ h => h) (fun _ _ _ _ => rfl)⟩
    have e2' : atbFill true star id (A.raw false).m (A.raw false).n (A.raw false).n (A.raw false).arrs
        (A.raw false).arrs (A.raw false).base ptr ind val
          = some (p, a, b, ((atbCsr true (starRingEnd R) (RingHom.id R) A A V 0).nnz : Int)) := e2
    rw [if_neg (by simp [Csr.raw]), e2', hnz]
    rfl
  · have hup := atb_upper hA hV (RingHom.id R) (starRingEnd R) hA.base01
      (G := fun i j => ∑ k ∈ range A.m, A.mat k i * star (A.mat k j)) (fun i j _ _ => rfl)
    have hle := hest hup
    have hnz : (atbCsr true (RingHom.id R) (starRingEnd R) A A V A.base).nnz
        = (atbCsr true (RingHom.id R) (starRingEnd R) A A V 0).nnz := by
      simp only [atbCsr, mkCsr_nnz]
    rw [hnz] at hle
    obtain ⟨p, a, b, e2, l1, l2, hH⟩ := hfill hA rfl true (RingHom.id R) (starRingEnd R) A.base
      hA.base01 ptr ind val (by omega) (by omega) (by omega)
    refine ⟨p, a, b, _, ?_, l1, l2, hH, hup.mono (fun _ _ _ _ h => h) (fun _ _ _ _ => rfl)⟩
    have e2' : atbFill true id star (A.raw true).m (A.raw true).n (A.raw true).n (A.raw true).arrs
        (A.raw true).arrs (A.raw true).base ptr ind val
          = some (p, a, b, ((atbCsr true (RingHom.id R) (starRingEnd R) A A V 0).nnz : Int)) := e2
    rw [if_pos (by simp [Csr.raw]), e2', hnz]
    rfl

/-- both cases, in terms of the user's matrix -/
theorem kernel_ok {A : Csr R} (hA : A.WF) (hnd : A.NoDup) (isT : Bool) (op : Op)
    (hs : (isT = true ↔ op = .none) → A.Sorted) (hreal : op = .trans → ∀ x : R, star x = x) (w : Nat) :
    ∃ est : Int,
      estimateNnz w (syEff isT op.code) A.m A.n A.arrs
        = some (if sumOverflow 64 w est then .error .invalidSize else .ok est) ∧
      est ≤ (opRows op isT A : Int) * ((opRows op isT A : Int) / 2 + 1) ∧
      KernelOk (syEff isT op.code) isT A (opRows op isT A) (gram op (userMat isT A) (opCols op isT A))
        (gramStored op isT A) est := by
  by_cases hc : isT = true ↔ op = .none
  · -- the stored arrays are transposed on the fly
    have hsrt := hs hc
    have hK : opRows op isT A = A.n := by
      cases isT <;> cases op <;> simp_all [opRows, userRows, userCols]
    have hL : opCols op isT A = A.m := by
      cases isT <;> cases op <;> simp_all [opCols, userRows, userCols]
    have heff : syEff isT op.code ≠ 111 := by
      cases isT <;> cases op <;> simp_all [syEff, Op.code]
    refine ⟨∑ j ∈ range A.n, estT A.n (estTr A j), ?_, ?_, ?_⟩
    · unfold estimateNnz
      rw [if_neg heff, estimateT_ok hA]
      simp only [Option.bind_eq_bind, Option.bind_some]
      split <;> rfl
    · rw [hK]; exact est_le _
    · intro ptr ind val hp hi hv
      rw [hK] at hp
      obtain ⟨p, a, b, C, e, l1, l2, hH, hU⟩ := kernel_t hA hnd hsrt heff isT ptr ind val hp hi hv
      refine ⟨p, a, b, C, e, l1, l2, hH, ?_⟩
      rw [hK, hL]
      refine hU.mono ?_ ?_
      · rintro i j hi hj ⟨x, hx, h1, h2⟩
        refine ⟨x, by omega, ?_⟩
        cases isT <;> cases op <;> simp_all [opStored, userStored, Csr.cols]
      · intro i j hi hj
        unfold gram
        apply Finset.sum_congr rfl
        intro k _
        cases isT <;> cases op <;> simp_all [applyOp, userMat, transM]
  · have hK : opRows op isT A = A.m := by
      cases isT <;> cases op <;> simp_all [opRows, userRows, userCols]
    have hL : opCols op isT A = A.n := by
      cases isT <;> cases op <;> simp_all [opCols, userRows, userCols]
    have heff : syEff isT op.code = 111 := by
      cases isT <;> cases op <;> simp_all [syEff, Op.code]
    refine ⟨∑ j ∈ range A.m, estT A.m (estN A j), ?_, ?_, ?_⟩
    · unfold estimateNnz
      rw [if_pos heff, estimateN_ok hA]
      simp only [Option.bind_eq_bind, Option.bind_some]
      split <;> rfl
    · rw [hK]; exact est_le _
    · intro ptr ind val hp hi hv
      rw [hK] at hp
      rw [heff]
      obtain ⟨p, a, b, C, e, l1, l2, hH, hU⟩ := kernel_n hA hnd isT ptr ind val hp hi hv
      refine ⟨p, a, b, C, e, l1, l2, hH, ?_⟩
      rw [hK, hL]
      refine hU.mono ?_ ?_
      · rintro i j hi hj ⟨_, _, c, h1, h2⟩
        obtain ⟨e, he, hce⟩ := mem_cols_iff.mp h1
        have hr := Csr.row_range hA he
        have hcc : ((c.toNat : Nat) : Int) = c := by omega
        refine ⟨c.toNat, by omega, ?_⟩
        rw [← hcc] at h1 h2
        cases isT <;> cases op <;> simp_all [opStored, userStored, Csr.cols]
      · intro i j hi hj
        unfold gram
        apply Finset.sum_congr rfl
        intro k _
        cases isT <;> cases op <;> simp_all [applyOp, userMat, transM]

end Verif
