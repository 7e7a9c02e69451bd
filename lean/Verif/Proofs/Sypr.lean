import Verif.Proofs.SymAb2
import Verif.Proofs.Syrk2
import Verif.Model.Sypr
import Verif.Proofs.Sp2m3

namespace Verif
open Model Finset

variable {R : Type} [CommRing R] [StarRing R] [DecidableEq R]

/-! ### the right factor -/

/-- the conjugation of the left factor -/
def sjA (flip : Bool) : R →+* R := if flip then RingHom.id R else starRingEnd R
/-- the conjugation of the right factor -/
def sjB (flip : Bool) : R →+* R := if flip then starRingEnd R else RingHom.id R

omit [DecidableEq R] in
theorem sjA_coe (flip : Bool) : ((sjA flip : R →+* R) : R → R) = if flip then id else star := by
  cases flip <;> rfl

omit [DecidableEq R] in
theorem sjB_coe (flip : Bool) : ((sjB flip : R →+* R) : R → R) = if flip then star else id := by
  cases flip <;> rfl

/-- M is op(A)ᴴ up to the conjugation left to the kernels -/
structure SyFactor (op : Op) (isT : Bool) (A : Csr R) (flip : Bool) (M : Csr R) : Prop where
  wf : M.WF
  strict : M.Strict
  m : M.m = opCols op isT A
  n : M.n = opRows op isT A
  nnz : M.nnz = A.nnz
  left : ∀ k i, k < opCols op isT A → i < opRows op isT A →
    sjA flip (M.mat k i) = applyOp op (userMat isT A) i k
  right : ∀ k i, k < opCols op isT A → i < opRows op isT A →
    sjB flip (M.mat k i) = star (applyOp op (userMat isT A) i k)
  stored : ∀ k i, k < opCols op isT A → i < opRows op isT A →
    ((i : Int) ∈ M.cols k ↔ opStored op isT A i k)

theorem factor_ok {A : Csr R} (hA : A.WF) (hnd : A.NoDup) (isT : Bool) (op : Op) {vt : Nat}
    (hvt : vt < 4) (hreal : vt = 0 ∨ vt = 1 → ∀ x : R, star x = x) (hop : vt = 0 ∨ vt = 1 ∨ op ≠ .trans)
    (hs : (isT = true ↔ op = .none) → A.Sorted) :
    ∃ M, syprFactor star (syEff isT op.code) (A.raw isT) = some (.ok M.arrs) ∧
      SyFactor op isT A (syprFlip isT vt op.code) M := by
  have hreal' : op = .trans → ∀ x : R, star x = x := by
    intro ht
    rcases hop with h | h | h
    · exact hreal (.inl h)
    · exact hreal (.inr h)
    · exact absurd ht h
  by_cases hc : isT = true ↔ op = .none
  · have heff : syEff isT op.code ≠ 111 := by
      cases isT <;> cases op <;> simp_all [syEff, Op.code]
    have hm : A.m = opCols op isT A := by
      cases isT <;> cases op <;> simp_all [opCols, userRows, userCols]
    have hn : A.n = opRows op isT A := by
      cases isT <;> cases op <;> simp_all [opRows, userRows, userCols]
    refine ⟨A, by unfold syprFactor; rw [if_neg heff]; rfl, hA, Csr.strict_of (hs hc) hnd, hm, hn, rfl,
      ?_, ?_, ?_⟩
    · intro k i _ _
      cases isT
      · cases op <;> simp_all [syprFlip, sjA, applyOp, userMat, starRingEnd_apply]
      · have ho : op = .none := hc.mp rfl
        subst ho
        by_cases hv : vt = 2 ∨ vt = 3
        · simp [syprFlip, sjA, applyOp, userMat, transM, hv, Op.code, starRingEnd_apply]
        · simp [syprFlip, sjA, applyOp, userMat, transM, hv, Op.code, starRingEnd_apply, hreal (by omega)]
    · intro k i _ _
      cases isT
      · cases op <;> simp_all [syprFlip, sjB, applyOp, userMat, starRingEnd_apply]
      · have ho : op = .none := hc.mp rfl
        subst ho
        by_cases hv : vt = 2 ∨ vt = 3
        · simp [syprFlip, sjB, applyOp, userMat, transM, hv, Op.code, starRingEnd_apply]
        · simp [syprFlip, sjB, applyOp, userMat, transM, hv, Op.code, starRingEnd_apply, hreal (by omega)]
    · intro k i _ _
      cases isT <;> cases op <;> simp_all [opStored, userStored, Csr.cols]
  · have heff : syEff isT op.code = 111 := by
      cases isT <;> cases op <;> simp_all [syEff, Op.code]
    have hm : A.n = opCols op isT A := by
      cases isT <;> cases op <;> simp_all [opCols, userRows, userCols]
    have hn : A.m = opRows op isT A := by
      cases isT <;> cases op <;> simp_all [opRows, userRows, userCols]
    have hfl : syprFlip isT vt op.code = false := by
      cases isT <;> cases op <;> simp_all [syprFlip, Op.code]
    obtain ⟨T, e1, ho, hst⟩ := orient_strict hA hnd isT
    have hTm : T.m = A.n := ho.m
    have hTn : T.n = A.m := ho.n
    let f : R → R := if !isT then star else id
    have hmat : ∀ x i, x < A.n → i < A.m → (T.mapVal f).mat x i = f (A.mat i x) := by
      intro x i hx hi
      have h1 := ho.entry x i (by omega) (by omega)
      rw [if_pos rfl] at h1
      have h2 : T.mat x i = A.mat i x := h1
      rw [← h2]
      cases isT
      · exact Csr.mapVal_mat ho.wf (starRingEnd R).toAddMonoidHom (by omega) i
      · exact Csr.mapVal_mat ho.wf (AddMonoidHom.id R) (by omega) i
    refine ⟨T.mapVal f, ?_, ho.wf.mapVal f, hst.mapVal ho.wf f, by rw [← hm]; exact hTm,
      by rw [← hn]; exact hTn, ?_, ?_, ?_, ?_⟩
    · unfold syprFactor
      rw [if_pos heff, e1, Option.bind_some]
      dsimp only
      rw [conjLoop_ok (!(A.raw isT).isT) star T.arrs.val
        (n := (A.raw isT).nnz) (by
          have h1 := ho.nnz
          have h2 := ho.wf.val_len
          simp only [Csr.nnz, Csr.raw, Csr.arrs] at *
          omega), Option.bind_some]
      rfl
    · exact ho.nnz
    · intro k i hk hi
      rw [hmat k i (by omega) (by omega), hfl]
      cases isT <;> cases op <;> simp_all [sjA, applyOp, userMat, transM, f, starRingEnd_apply]
    · intro k i hk hi
      rw [hmat k i (by omega) (by omega), hfl]
      cases isT <;> cases op <;> simp_all [sjB, applyOp, userMat, transM, f, starRingEnd_apply]
    · intro k i hk hi
      rw [mapVal_cols ho.wf f (by omega), ho.stored k i (by omega) (by omega), if_pos rfl]
      cases isT <;> cases op <;> simp_all [opStored, userStored, Csr.cols]

/-! ### the intermediate and the final matrix -/

omit [CommRing R] [StarRing R] [DecidableEq R] in
theorem symStored_perm [Zero R] {B Y : Csr R} (hsq : B.m = B.n)
    (hp : ∀ i, i < B.m → (Y.row i).Perm (B.row i ++ if (i : Int) ∉ B.cols i ∧ i < B.n then
      [((i : Int), 0)] else [])) (f : Fill) {k l : Nat} (hk : k < B.m) (hl : l < B.m) :
    symStored f Y k l ↔ symStored f B k l := by
  unfold symStored
  rw [perm_cols (hp k hk) (by omega), perm_cols (hp l hl) (by omega)]
  by_cases e : k = l
  · simp [e]
  · simp only [e, false_or]
    rw [show ((l : Int) = k ↔ False) from ⟨fun h => e (by omega), False.elim⟩,
      show ((k : Int) = l ↔ False) from ⟨fun h => e (by omega), False.elim⟩]
    simp

/-- the elements of the result in terms of what the kernels compute -/
theorem sypr_core {A B : Csr R} (hB : B.WF) (hBs : B.Strict) (hsq : B.m = B.n) {op : Op} {isT : Bool}
    (hdim : B.m = opCols op isT A) (f : Fill) {flip : Bool} {M : Csr R} (hM : SyFactor op isT A flip M)
    (hA0 : A.nnz ≠ 0) (hB0 : B.nnz ≠ 0) (srt : (Int → Int → Bool) → List Int → List Int)
    (gi : Nat → Int) (gv : Nat → R) :
    ∃ (o : OptCsr R) (T C : Csr R),
      csrOptimize srt gi gv B.m B.n B.nnz B.base B.ptr B.ind B.val = some (.ok o) ∧
      (∀ w, syprT w (decide (f = .lower)) star (if flip then star else id) B.m M.n o M.arrs
        = some (if sumOverflow 64 w (tempCount op isT A f B : Int) then .error .invalidSize
            else .ok T.arrs)) ∧
      (∀ w (ptr : List Int), ptr.length = opRows op isT A + 1 →
        atbCount w true B.m M.n M.n M.arrs T.arrs ptr
          = some (if sumOverflow 64 w (tripleCount op isT A f B : Int) then .invalidSize else .success,
              C.ptr, (tripleCount op isT A f B : Int))) ∧
      (∀ (ptr ind : List Int) (val : List R), ptr.length = opRows op isT A + 1 →
        ind.length = tripleCount op isT A f B → val.length = tripleCount op isT A f B →
        atbFill true (if flip then id else star) id B.m M.n M.n M.arrs T.arrs 0 ptr ind val
          = some (C.ptr, C.ind, C.val, (C.nnz : Int))) ∧
      C.nnz = tripleCount op isT A f B ∧ 0 < C.nnz ∧
      IsUpper (opRows op isT A) 0
        (triple op (userMat isT A) (structured .hermitian f .nonUnit B.mat) (opCols op isT A))
        (tripleStored op isT A f B) C := by
  obtain ⟨o, eo, hY, hcl, hYs, hp⟩ := optimize_strict (srt := srt) gi gv hB hBs
  obtain ⟨W, hWs, hWm, hsym⟩ := sym_ok hY hYs hsq hcl f
  replace hWs : ∀ i, i < B.m → ∀ g : Nat → R, ((W i).map fun e => e.1 * g e.2).sum
      = ∑ l ∈ range B.m, structured .hermitian f .nonUnit (o.csr B.m B.n).mat i l * g l := hWs
  replace hWm : ∀ i, i < B.m → ∀ l, (∃ e ∈ W i, e.2 = l) ↔ l < B.m ∧ symStored f (o.csr B.m B.n) i l := hWm
  have hMm : M.m = B.m := by rw [hM.m, hdim]
  obtain ⟨hcnt, hfil⟩ := hsym hM.wf hMm (sjB flip)
  let T := symCsr (sjB flip) B.m M W
  have hTw : T.WF := mkCsr_wf (.inl rfl) fun i _ e he => spOut_range hM.wf _ _ _ _ he
  have hTm : T.m = B.m := rfl
  have hTn : T.n = M.n := rfl
  have hTnd : T.NoDup := by
    intro i hi
    replace hi : i < B.m := hi
    show ((symCsr (sjB flip) B.m M W).cols i).Nodup
    unfold symCsr
    rw [Csr.cols, mkCsr_row hi]
    exact spOut_nodup _ _ _ _ _
  have hTc : ∀ k c : Nat, k < B.m → c < M.n →
      ((c : Int) ∈ T.cols k ↔ ∃ l < B.m, symStored f B k l ∧ opStored op isT A c l) := by
    intro k c hk hc
    show (c : Int) ∈ (symCsr (sjB flip) B.m M W).cols k ↔ _
    unfold symCsr
    rw [Csr.cols, mkCsr_row hk, spOut_mem]
    constructor
    · rintro ⟨-, e, he, hce⟩
      obtain ⟨h1, h2⟩ := (hWm k hk e.2).mp ⟨e, he, rfl⟩
      exact ⟨e.2, h1, (symStored_perm hsq hp f hk h1).mp h2,
        (hM.stored e.2 c (by omega) (by rw [← hM.n]; exact hc)).mp hce⟩
    · rintro ⟨l, hl, h1, h2⟩
      obtain ⟨e, he, rfl⟩ := (hWm k hk l).mpr ⟨hl, (symStored_perm hsq hp f hk hl).mpr h1⟩
      exact ⟨by simp, e, he, (hM.stored e.2 c (by omega) (by rw [← hM.n]; exact hc)).mpr h2⟩
  have hTmat : ∀ k c, k < B.m → c < M.n → T.mat k c
      = ∑ l ∈ range B.m, structured .hermitian f .nonUnit B.mat k l * star (applyOp op (userMat isT A) c l) := by
    intro k c hk hc
    rw [mat_eq_colSum]
    show colSum ((symCsr (sjB flip) B.m M W).row k) c = _
    unfold symCsr
    rw [mkCsr_row hk, spOut_colSum, if_neg (by simp), hWs k hk (fun l => sjB flip (M.mat l c))]
    apply Finset.sum_congr rfl
    intro l hl
    have hl := Finset.mem_range.mp hl
    rw [hM.right l c (by omega) (by rw [← hM.n]; exact hc)]
    congr 1
    simp only [structured, diagVal, perm_mat (hp k hk), perm_mat (hp l hl)]
  have hTnnz : T.nnz = tempCount op isT A f B := by
    rw [Csr.nnz_eq_ncard hTw hTnd]
    unfold tempCount
    congr 1
    ext p
    simp only [Set.mem_setOf_eq, hTm, hTn, ← hdim, ← hM.n]
    constructor
    · rintro ⟨h1, h2, h3⟩
      exact ⟨h1, h2, (hTc _ _ h1 h2).mp h3⟩
    · rintro ⟨h1, h2, h3⟩
      exact ⟨h1, h2, (hTc _ _ h1 h2).mpr h3⟩
  -- a stored element of M
  obtain ⟨x0, c0, hx0, hc0, hxc⟩ : ∃ x c : Nat, x < M.m ∧ c < M.n ∧ (c : Int) ∈ M.cols x := by
    have h0 : M.nnz ≠ 0 := by rw [hM.nnz]; exact hA0
    rw [Csr.nnz_eq_ncard hM.wf hM.strict.nodup] at h0
    obtain ⟨p, h1, h2, h3⟩ := Set.nonempty_of_ncard_ne_zero h0
    exact ⟨p.1, p.2, h1, h2, h3⟩
  have hT0 : T.nnz ≠ 0 := by
    intro h
    have h1 := hTc x0 c0 (by omega) hc0
    have h2 : (c0 : Int) ∈ T.cols x0 := h1.mpr ⟨x0, by omega, .inl rfl,
      (hM.stored x0 c0 (by omega) (by rw [← hM.n]; exact hc0)).mp hxc⟩
    obtain ⟨e, he, -⟩ := mem_cols_iff.mp h2
    have h3 := Csr.row_length hTw (i := x0) (by omega)
    have h4 := List.length_pos_of_mem he
    have h5 := hTw.offs_row (i := T.m) (le_refl _)
    have h6 := hTw.ptr_last
    have h7 : T.p (x0 + 1) ≤ T.p T.m := hTw.mono (by omega) (le_refl _)
    have h8 : T.p 0 ≤ T.p x0 := hTw.mono (by omega) (by omega)
    have h9 := hTw.ptr_first
    have h10 : (T.ind.length : Int) = 0 := by
      have : T.ind.length = 0 := h
      omega
    omega
  obtain ⟨V, hV, hcount, hfill⟩ := atb_ok hM.wf hM.strict
  let C := atbCsr true (sjA flip) (RingHom.id R) M T V 0
  have hCw : C.WF := mkCsr_wf (.inl rfl) fun i _ e he => spOut_range hTw _ _ _ _ he
  have hCm : C.m = M.n := rfl
  have hCn : C.n = M.n := rfl
  have hCnd : C.NoDup := by
    intro i hi
    replace hi : i < M.n := hi
    show ((atbCsr true (sjA flip) (RingHom.id R) M T V 0).cols i).Nodup
    unfold atbCsr
    rw [Csr.cols, mkCsr_row hi]
    exact spOut_nodup _ _ _ _ _
  have hCc : ∀ i j : Nat, i < M.n → j < M.n →
      ((j : Int) ∈ C.cols i ↔ i ≤ j ∧ tripleStored op isT A f B i j) := by
    intro i j hi hj
    show (j : Int) ∈ (atbCsr true (sjA flip) (RingHom.id R) M T V 0).cols i ↔ _
    unfold atbCsr
    rw [Csr.cols, mkCsr_row hi, atb_mem _ _ hV true hi]
    constructor
    · rintro ⟨h1, x, h2, h3, h4⟩
      obtain ⟨l, h5, h6, h7⟩ := (hTc x j (by omega) hj).mp h4
      refine ⟨by have : ¬ j < i := fun h => h1 ⟨rfl, h⟩
                 omega, x, by omega, l, by omega, ?_, h6, h7⟩
      exact (hM.stored x i (by omega) (by rw [← hM.n]; exact hi)).mp h3
    · rintro ⟨h1, x, h2, l, h3, h4, h5, h6⟩
      refine ⟨by omega, x, by omega, ?_, (hTc x j (by omega) hj).mpr ⟨l, by omega, h5, h6⟩⟩
      exact (hM.stored x i (by omega) (by rw [← hM.n]; exact hi)).mpr h4
  have hCnnz : C.nnz = tripleCount op isT A f B := by
    rw [Csr.nnz_eq_ncard hCw hCnd]
    unfold tripleCount
    rw [if_neg hB0]
    congr 1
    ext p
    simp only [Set.mem_setOf_eq, hCm, hCn, ← hM.n]
    constructor
    · rintro ⟨h1, h2, h3⟩
      have := (hCc _ _ h1 h2).mp h3
      exact ⟨this.1, h2, this.2⟩
    · rintro ⟨h1, h2, h3⟩
      exact ⟨by omega, h2, (hCc _ _ (by omega) h2).mpr ⟨h1, h3⟩⟩
  have hC0 : 0 < C.nnz := by
    rw [Csr.nnz_eq_ncard hCw hCnd]
    have hst := (hM.stored x0 c0 (by omega) (by rw [← hM.n]; exact hc0)).mp hxc
    apply (Set.ncard_pos ?_).mpr
    · exact ⟨(c0, c0), hc0, hc0, (hCc c0 c0 hc0 hc0).mpr ⟨le_refl _, x0, by omega, x0, by omega, hst,
        .inl rfl, hst⟩⟩
    · refine Set.Finite.subset ((range C.m ×ˢ range C.n).finite_toSet) ?_
      rintro p ⟨h1, h2, -⟩
      simp [h1, h2]
  refine ⟨o, T, C, eo, ?_, ?_, ?_, hCnnz, hC0, ?_⟩
  · intro w
    have e1 := hcnt w (List.replicate (B.m + 1) 0) (by rw [List.length_replicate]; rfl)
    have e2 := hfil (symCsr (sjB flip) B.m M W).ptr (List.replicate T.nnz 0) (List.replicate T.nnz 0)
      hTw.ptr_len (by rw [List.length_replicate]; rfl) (by rw [List.length_replicate]; rfl)
    unfold syprT
    simp only [Option.bind_eq_bind]
    rw [show ((B.m : Int) + 1).toNat = B.m + 1 by omega]
    rw [show symCount w (decide (f = Fill.lower)) star (B.m : Int) B.m M.n o.arrs o.idiag M.arrs
      (List.replicate (B.m + 1) 0) = _ from e1, Option.bind_some]
    have hTn' : ((symCsr (sjB flip) (o.csr B.m B.n).m M W).nnz : Int) = tempCount op isT A f B := by
      rw [← hTnnz]; rfl
    simp only [hTn']
    by_cases hov : sumOverflow 64 w (tempCount op isT A f B : Int) = true
    · rw [if_pos hov, if_pos (by simp), if_pos hov]
    · rw [if_neg hov, if_neg (by simp), if_neg hov, if_neg (by rw [← hTnnz]; exact_mod_cast hT0),
        Int.toNat_natCast, ← hTnnz]
      have e2' : symFill (decide (f = Fill.lower)) star (if flip = true then star else id) (B.m : Int) B.m M.n
          o.arrs o.idiag M.arrs (symCsr (sjB flip) (o.csr B.m B.n).m M W).ptr (List.replicate T.nnz 0)
          (List.replicate T.nnz 0) = some (T.ptr, T.ind, T.val, (T.nnz : Int)) := by
        have h := e2
        rw [show symFill (decide (f = Fill.lower)) star (sjB flip) _ _ _ _ _ _ _ _ _
          = symFill (decide (f = Fill.lower)) star (if flip = true then star else id) _ _ _ _ _ _ _ _ _
          from by rw [← sjB_coe]] at h
        exact h
      rw [e2', Option.bind_some]
      rfl
  · intro w ptr hl
    have e := hcount hTw hMm true (sjA flip) (RingHom.id R) w ptr (by rw [hl, hM.n])
    rw [hMm, hTn] at e
    rw [e, ← hCnnz]
  · intro ptr ind val h1 h2 h3
    have hb : ∀ b, b = 0 → (atbCsr true (sjA flip) (RingHom.id R) M T V b).nnz = C.nnz := by
      rintro _ rfl; rfl
    obtain ⟨p, a, b, e, l1, l2, hH⟩ := hfill hTw hMm true (sjA flip) (RingHom.id R) 0 (.inl rfl) ptr ind val
      (by rw [h1, hM.n]) (by rw [h2, ← hCnnz]) (by rw [h3, ← hCnnz])
    rw [hMm, hTn] at e
    rw [sjA_coe] at e
    have e' : atbFill true (if flip then id else star) id B.m M.n M.n M.arrs T.arrs 0 ptr ind val
        = some (p, a, b, (C.nnz : Int)) := by
      rw [← hb 0 rfl, sjA_coe]; exact e
    rw [e']
    have q1 := hH.ptr
    have q2 := hH.ind
    have q3 := hH.val
    rw [hb 0 rfl, List.take_of_length_le (by omega)] at q2 q3
    rw [q1, q2, q3]
  · refine ⟨hM.n, hM.n, rfl, hCw, hCnd, ?_, ?_⟩
    · intro i j hi hj
      have hjn : j < M.n := by
        obtain ⟨e, he, hee⟩ := mem_cols_iff.mp hj
        have := Csr.row_range hCw he
        omega
      exact (hCc i j (by rw [hM.n]; exact hi) hjn).mp hj
    · intro i j hij hj
      have hjn : j < M.n := by rw [hM.n]; exact hj
      rw [mat_eq_colSum]
      show colSum ((atbCsr true (sjA flip) (RingHom.id R) M T V 0).row i) j = _
      unfold atbCsr
      rw [mkCsr_row (by omega), atb_mat _ _ hV true (by omega), if_neg (by omega)]
      unfold triple
      rw [hM.m]
      apply Finset.sum_congr rfl
      intro k hk
      have hk := Finset.mem_range.mp hk
      rw [hM.left k i hk (by omega)]
      show _ * T.mat k j = _
      rw [hTmat k j (by omega) hjn, Finset.mul_sum, hdim]
      apply Finset.sum_congr rfl
      intro l _
      ring

end Verif
