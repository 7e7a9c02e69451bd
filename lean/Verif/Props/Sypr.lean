/-
C49  Triple product of sparse matrices op(A)·B·op(A)ᴴ with symmetric or Hermitian B.
-/
import Verif.Proofs.Sypr
import Verif.Props.Syrk

namespace Verif
open Model Finset

variable {R : Type} [CommRing R] [StarRing R] [DecidableEq R]

/-- The inputs of the triple product: matrices without repeated entries, of dimensions that fit, B sorted
and stored by rows, A stored by rows or columns and sorted if the operation works along its stored columns;
symmetric B for real, Hermitian B for complex matrices; the plain transpose for real matrices only.
`vt` is the type of the values, `sA` tells whether A is marked as sorted. -/
structure SyprIn (op : Op) (isT : Bool) (vt : Nat) (t : MType) (A : Csr R) (sA : Bool) (B : Csr R) : Prop where
  wfA : A.WF
  nodupA : A.NoDup
  wfB : B.WF
  nodupB : B.NoDup
  sortedB : B.Sorted
  square : B.m = B.n
  dim : B.m = opCols op isT A
  vt4 : vt < 4
  type : (vt = 0 ∨ vt = 1) ∧ t = .symmetric ∨ (vt = 2 ∨ vt = 3) ∧ t = .hermitian
  real : vt = 0 ∨ vt = 1 → ∀ x : R, star x = x
  supported : vt = 0 ∨ vt = 1 ∨ op ≠ .trans
  flag : sA = true → A.Sorted
  sortedA : sA = true ∨ ¬ (isT = true ↔ op = .none)

/-- the call for the matrix A (stored by columns if `isT`), B and a descriptor of B with type `t`, triangle
`f` and stored diagonal -/
def syprCall (w : Nat) (g : Garb R) (srt : (Int → Int → Bool) → List Int → List Int) (op : Op) (isT : Bool)
    (vt : Nat) (t : MType) (f : Fill) (A : Csr R) (sA : Bool) (B : Csr R) (old : Option (SyOut R))
    (req : Int) : Option (Status × Option (SyOut R)) :=
  syprApi w g srt star op.code (some ⟨A.raw isT, vt, sA⟩) (some ⟨B.raw false, vt, true⟩)
    (some ⟨t.code, f.code, Diag.nonUnit.code, B.base⟩) true old req

/-- the handle holds, zero based, the upper triangle of op(A)·B·op(A)ᴴ: nothing below the diagonal, no
position twice, and elements exactly at the positions that are sums of products of stored elements -/
def IsTriple (op : Op) (isT : Bool) (t : MType) (f : Fill) (A B : Csr R) (o : SyOut R) : Prop :=
  ∃ C : Csr R,
    IsUpper (opRows op isT A) 0
      (triple op (userMat isT A) (structured t f .nonUnit B.mat) (opCols op isT A))
      (tripleStored op isT A f B) C ∧
    C.nnz = tripleCount op isT A f B ∧
    o.m = opRows op isT A ∧ o.n = opRows op isT A ∧ o.nnz = C.nnz ∧ o.base = 0 ∧
    o.ptr = C.ptr ∧ o.ind = C.ind ∧ o.val = C.val

/-- the numbers of elements of B·op(A)ᴴ and of the result fit the integer type -/
def TripleFits (w : Nat) (op : Op) (isT : Bool) (f : Fill) (A B : Csr R) : Prop :=
  64 ≤ w ∨ A.nnz = 0 ∨ B.nnz = 0 ∨
    ((tempCount op isT A f B : Int) ≤ intMax w ∧ (tripleCount op isT A f B : Int) ≤ intMax w)

/-! ### auxiliary statements -/

omit [StarRing R] [DecidableEq R] [CommRing R] in
theorem SyprIn.strictA [CommRing R] [StarRing R] {op : Op} {isT : Bool} {vt : Nat} {t : MType} {A B : Csr R}
    {sA : Bool} (h : SyprIn op isT vt t A sA B) : (isT = true ↔ op = .none) → A.Sorted := fun hc =>
  h.flag (h.sortedA.resolve_right (not_not.mpr hc))

omit [DecidableEq R] in
theorem SyprIn.herm {op : Op} {isT : Bool} {vt : Nat} {t : MType} {A B : Csr R} {sA : Bool}
    (h : SyprIn op isT vt t A sA B) (f : Fill) (M : Mat R) :
    structured t f .nonUnit M = structured .hermitian f .nonUnit M := by
  rcases h.type with ⟨hv, rfl⟩ | ⟨-, rfl⟩
  · funext i j
    simp only [structured, h.real hv]
  · rfl

omit [CommRing R] [StarRing R] [DecidableEq R] in
theorem sypr_quick [CommRing R] [StarRing R] [DecidableEq R] {op : Op} {isT : Bool} {vt : Nat} {t : MType}
    {A B : Csr R} {sA : Bool} (h : SyprIn op isT vt t A sA B) :
    ((B.raw false).um = 0 ∨ (if op.code = 111 then (A.raw isT).um else (A.raw isT).un) = 0 ∨
      (A.raw isT).nnz = 0 ∨ (B.raw false).nnz = 0) ↔ A.nnz = 0 ∨ B.nnz = 0 := by
  constructor
  · rintro (h1 | h1 | h1 | h1)
    · right
      exact quick_empty h.wfB (isT := false) (.inl h1)
    · left
      apply quick_empty h.wfA (isT := isT)
      split at h1
      · exact .inl h1
      · exact .inr (.inl h1)
    · left
      have : (A.nnz : Int) = 0 := h1
      exact_mod_cast this
    · right
      have : (B.nnz : Int) = 0 := h1
      exact_mod_cast this
  · rintro (h1 | h1)
    · exact .inr (.inr (.inl (by simp [Csr.raw, h1])))
    · exact .inr (.inr (.inr (by simp [Csr.raw, h1])))

/-- the empty result -/
def syEmpty (K : Nat) : SyOut R := ⟨K, K, 0, 0, 0, List.replicate (K + 1) 0, [], []⟩

omit [DecidableEq R] in
theorem empty_triple {op : Op} {isT : Bool} {vt : Nat} {t : MType} {A B : Csr R} {sA : Bool}
    (h : SyprIn op isT vt t A sA B) (f : Fill) (h0 : A.nnz = 0 ∨ B.nnz = 0) :
    IsTriple op isT t f A B (syEmpty (opRows op isT A)) ∧ tripleCount op isT A f B = 0 := by
  have hc : tripleCount op isT A f B = 0 := by
    unfold tripleCount
    rcases h0 with h0 | h0
    · split
      · rfl
      · convert Set.ncard_empty (Nat × Nat)
        ext p
        simp only [Set.mem_setOf_eq, Set.mem_empty_iff_false, iff_false]
        rintro ⟨-, -, k, -, l, -, h1, -⟩
        have hno := (nnz_zero_iff h.wfA).mp h0
        revert h1
        cases isT <;> cases op <;> simp only [opStored, userStored] <;> intro h1
        all_goals exact hno _ _ (by simpa [Csr.cols] using h1)
    · rw [if_pos h0]
  refine ⟨⟨mkCsr (opRows op isT A) (opRows op isT A) 0 (fun _ => []), ?_, ?_, rfl, rfl, ?_, rfl, ?_, ?_, ?_⟩, hc⟩
  · refine ⟨rfl, rfl, rfl, mkCsr_wf (.inl rfl) (by simp), ?_, ?_, ?_⟩
    · intro i hi
      replace hi : i < opRows op isT A := hi
      rw [mkCsr_row hi]
      simp
    · intro i j hi hj
      rw [Csr.cols, mkCsr_row hi] at hj
      simp at hj
    · intro i j hij hj
      rw [mat_eq_colSum, mkCsr_row (by omega)]
      unfold triple
      rw [Finset.sum_eq_zero]
      · rfl
      · intro k _
        apply Finset.sum_eq_zero
        intro l _
        rcases h0 with h0 | h0
        · have : applyOp op (userMat isT A) i k = 0 := by
            cases isT <;> cases op <;> simp [applyOp, userMat, transM, empty_mat h.wfA h0]
          rw [this, zero_mul, zero_mul]
        · have : structured t f .nonUnit B.mat k l = 0 := by
            rw [h.herm f]
            simp [structured, diagVal, empty_mat h.wfB h0]
          rw [this, mul_zero, zero_mul]
  · rw [mkCsr_nnz, hc]; simp [offs]
  · rw [mkCsr_nnz]; simp [offs, syEmpty]
  · simp [mkCsr, offs, syEmpty]
  · simp [mkCsr, offs, syEmpty]
  · simp [mkCsr, offs, syEmpty]

/-- what holds of a handle between the stages, for matrices with the patterns of A and B -/
def SyReady (w : Nat) (op : Op) (isT : Bool) (f : Fill) (A B : Csr R) (o : SyOut R) : Prop :=
  ((A.nnz = 0 ∨ B.nnz = 0) ∧ o = syEmpty (opRows op isT A)) ∨
  (¬ (A.nnz = 0 ∨ B.nnz = 0) ∧ o.m = opRows op isT A ∧ o.n = opRows op isT A ∧ o.base = 0 ∧
    o.nnz = tripleCount op isT A f B ∧ o.ptr.length = opRows op isT A + 1 ∧
    o.ind.length = tripleCount op isT A f B ∧ o.val.length = tripleCount op isT A f B ∧
    sumOverflow 64 w (tempCount op isT A f B : Int) = false)

theorem sypr_dims {w : Nat} {g : Garb R} {srt : (Int → Int → Bool) → List Int → List Int} {op : Op}
    {isT : Bool} {vt : Nat} {t : MType} {A B : Csr R} {sA : Bool} (h : SyprIn op isT vt t A sA B) (f : Fill)
    (old : Option (SyOut R)) {req : Int} (hreq : req = 0 ∨ req = 1 ∨ req = 2) :
    syprCall w g srt op isT vt t f A sA B old req
      = syprDims w g srt star op.code ⟨A.raw isT, vt, sA⟩ ⟨B.raw false, vt, true⟩ (decide (f = .lower)) req
          (if req = 1 then old else none) := by
  have hisop : isOp op.code := by cases op <;> simp [isOp, Op.code]
  unfold syprCall syprApi
  dsimp only
  rw [if_pos ⟨rfl, h.vt4⟩, if_neg (not_not.mpr hreq), if_neg (not_not.mpr hisop)]
  unfold syprChecks
  dsimp only
  rw [if_neg (by simp [Csr.raw]), if_neg (by simp [Csr.raw]), if_neg, if_neg (by simp [Csr.raw]), if_neg,
    if_neg (by simp [Diag.code])]
  · have : decide (f.code = 0) = decide (f = .lower) := by cases f <;> simp [Fill.code]
    rw [this]
  · rcases h.type with ⟨hv, rfl⟩ | ⟨hv, rfl⟩
    · rw [if_neg (by omega)]
      simp [MType.code]
    · rw [if_pos hv]
      simp [MType.code]
  · rintro ⟨h1, h2⟩
    have : op = .trans := by cases op <;> simp_all [Op.code]
    rcases h.supported with h | h | h
    · omega
    · omega
    · exact h this

/-- everything up to the computation -/
theorem sypr_run {w : Nat} {g : Garb R} {srt : (Int → Int → Bool) → List Int → List Int} {op : Op}
    {isT : Bool} {vt : Nat} {t : MType} {A B : Csr R} {sA : Bool} (h : SyprIn op isT vt t A sA B) (f : Fill)
    (old : Option (SyOut R)) {req : Int} (hreq : req = 0 ∨ req = 1 ∨ req = 2)
    (hold : req = 1 → ∃ o, old = some o ∧ o.m = opRows op isT A ∧ o.n = opRows op isT A) :
    syprCall w g srt op isT vt t f A sA B old req =
      if A.nnz = 0 ∨ B.nnz = 0 then
        some (.success, some (syprEmpty g (opRows op isT A) (if req = 1 then old else none)))
      else syprRun w g srt star op.code ⟨A.raw isT, vt, sA⟩ ⟨B.raw false, vt, true⟩ (decide (f = .lower)) req
          B.m (opRows op isT A) (if req = 1 then old else none) := by
  rw [sypr_dims h f old hreq]
  unfold syprDims
  dsimp only
  have hn : (if op.code = 111 then (A.raw isT).um else (A.raw isT).un) = (opRows op isT A : Int) := by
    cases isT <;> cases op <;> simp [Csr.raw, Op.code, opRows, userRows, userCols, RawMat.um, RawMat.un]
  have hm : (if op.code = 111 then (A.raw isT).un else (A.raw isT).um) = (opCols op isT A : Int) := by
    cases isT <;> cases op <;> simp [Csr.raw, Op.code, opCols, userRows, userCols, RawMat.um, RawMat.un]
  have hum : (B.raw false).um = B.m := rfl
  have hq := sypr_quick h
  rw [hn] at hq
  rw [hn, hm, hum, if_neg, if_neg, if_neg, if_neg]
  · rw [hum] at hq
    by_cases h0 : A.nnz = 0 ∨ B.nnz = 0
    · rw [if_pos (hq.mpr h0), if_pos h0]
    · rw [if_neg (fun x => h0 (hq.mp x)), if_neg h0, if_neg]
      rintro (⟨h1, h2⟩ | h1)
      · rcases h.sortedA with h3 | h3
        · rw [h3] at h1; exact absurd h1 (by simp)
        · revert h2 h3
          cases isT <;> cases op <;> simp [Csr.raw, syEff, Op.code]
      · exact absurd h1 (by simp)
  · unfold syprBad
    intro hb
    rw [Bool.and_eq_true, decide_eq_true_eq] at hb
    obtain ⟨hb1, hb2⟩ := hb
    obtain ⟨o, rfl, h1, h2⟩ := hold hb1
    rw [if_pos hb1] at hb2
    simp [h1, h2] at hb2
  · have := h.wfA.base01
    show ¬ (A.base ≠ 0 ∧ A.base ≠ 1)
    omega
  · rw [← h.dim]; simp
  · have := h.square
    show ¬ ((B.m : Int) ≠ B.n)
    rw [this]; simp

omit [DecidableEq R] in
theorem IsTriple.of {op : Op} {isT : Bool} {vt : Nat} {t : MType} {A B : Csr R} {sA : Bool}
    (h : SyprIn op isT vt t A sA B) {f : Fill} {C : Csr R}
    (hU : IsUpper (opRows op isT A) 0
        (triple op (userMat isT A) (structured .hermitian f .nonUnit B.mat) (opCols op isT A))
        (tripleStored op isT A f B) C) (hC : C.nnz = tripleCount op isT A f B) {o : SyOut R}
    (h1 : o.m = opRows op isT A) (h2 : o.n = opRows op isT A) (h3 : o.nnz = C.nnz) (h4 : o.base = 0)
    (h5 : o.ptr = C.ptr) (h6 : o.ind = C.ind) (h7 : o.val = C.val) : IsTriple op isT t f A B o :=
  ⟨C, by rw [h.herm f]; exact hU, hC, h1, h2, h3, h4, h5, h6, h7⟩

/-- the computation: the three stages -/
theorem sypr_stages {w : Nat} {srt : (Int → Int → Bool) → List Int → List Int} {op : Op}
    {isT : Bool} {vt : Nat} {t : MType} {A B : Csr R} {sA : Bool} (h : SyprIn op isT vt t A sA B) (f : Fill)
    (h0 : ¬ (A.nnz = 0 ∨ B.nnz = 0)) (g : Garb R) :
    ∃ C : Csr R, C.nnz = tripleCount op isT A f B ∧ C.ptr.length = opRows op isT A + 1 ∧
      IsUpper (opRows op isT A) 0
        (triple op (userMat isT A) (structured .hermitian f .nonUnit B.mat) (opCols op isT A))
        (tripleStored op isT A f B) C ∧
      ∀ (old : Option (SyOut R)) (req : Int),
        (sumOverflow 64 w (tempCount op isT A f B : Int) = true →
          syprRun w g srt star op.code ⟨A.raw isT, vt, sA⟩ ⟨B.raw false, vt, true⟩ (decide (f = .lower)) req
            B.m (opRows op isT A) old = some (.invalidSize, old)) ∧
        (sumOverflow 64 w (tempCount op isT A f B : Int) = false →
          (req ≠ 1 → sumOverflow 64 w (tripleCount op isT A f B : Int) = true →
            syprRun w g srt star op.code ⟨A.raw isT, vt, sA⟩ ⟨B.raw false, vt, true⟩ (decide (f = .lower)) req
              B.m (opRows op isT A) old = some (.invalidSize, none)) ∧
          (req = 0 → sumOverflow 64 w (tripleCount op isT A f B : Int) = false →
            syprRun w g srt star op.code ⟨A.raw isT, vt, sA⟩ ⟨B.raw false, vt, true⟩ (decide (f = .lower)) req
              B.m (opRows op isT A) old
              = some (.success, some ⟨opRows op isT A, opRows op isT A, tripleCount op isT A f B, -1, 0, C.ptr,
                  alloc (tripleCount op isT A f B) g.i, alloc (tripleCount op isT A f B) g.v⟩)) ∧
          (req = 2 → sumOverflow 64 w (tripleCount op isT A f B : Int) = false →
            syprRun w g srt star op.code ⟨A.raw isT, vt, sA⟩ ⟨B.raw false, vt, true⟩ (decide (f = .lower)) req
              B.m (opRows op isT A) old
              = some (.success, some ⟨opRows op isT A, opRows op isT A, tripleCount op isT A f B, -1, 0, C.ptr,
                  C.ind, C.val⟩)) ∧
          (req = 1 → ∀ o, old = some o → o.ptr.length = opRows op isT A + 1 →
            o.ind.length = tripleCount op isT A f B → o.val.length = tripleCount op isT A f B →
            syprRun w g srt star op.code ⟨A.raw isT, vt, sA⟩ ⟨B.raw false, vt, true⟩ (decide (f = .lower)) req
              B.m (opRows op isT A) old
              = some (.success, some { o with ptr := C.ptr, ind := C.ind, val := C.val }))) := by
  obtain ⟨hA0, hB0⟩ := not_or.mp h0
  obtain ⟨M, eM, hM⟩ := factor_ok h.wfA h.nodupA isT op h.vt4 h.real h.supported h.strictA
  obtain ⟨o, T, C, eo, eT, eC, eF, hn, hpos, hU⟩ := sypr_core h.wfB (Csr.strict_of h.sortedB h.nodupB) h.square
    h.dim f hM hA0 hB0 srt g.i g.v
  have hpl : (newPtr g (opRows op isT A : Int) (-1) 0).length = opRows op isT A + 1 := by
    unfold newPtr
    split <;> simp <;> omega
  have hCl : C.ptr.length = opRows op isT A + 1 := by rw [hU.wf.ptr_len, hU.m]
  refine ⟨C, hn, hCl, hU, ?_⟩
  intro old req
  have hrun : syprRun w g srt star op.code ⟨A.raw isT, vt, sA⟩ ⟨B.raw false, vt, true⟩ (decide (f = .lower)) req
      B.m (opRows op isT A) old
      = if sumOverflow 64 w (tempCount op isT A f B : Int) = true then some (.invalidSize, old)
        else syprStage w g (if syprFlip isT vt op.code = true then id else star) req B.m (opRows op isT A)
          M.arrs T.arrs old := by
    unfold syprRun
    dsimp only
    rw [show syprFactor star (syEff (A.raw isT).isT op.code) (A.raw isT) = _ from eM, Option.bind_some]
    dsimp only
    rw [show csrOptimize srt g.i g.v (B.raw false).m (B.raw false).n (B.raw false).nnz (B.raw false).base
      (B.raw false).ptr (B.raw false).ind (B.raw false).val = _ from eo, Option.bind_some]
    dsimp only
    have e := eT w
    rw [hM.n] at e
    rw [show syprT w (decide (f = .lower)) star (if syprFlip (A.raw isT).isT vt op.code = true then star else id)
      B.m (opRows op isT A) o M.arrs = _ from e, Option.bind_some]
    by_cases hov : sumOverflow 64 w (tempCount op isT A f B : Int) = true
    · rw [if_pos hov, if_pos hov]
    · rw [if_neg hov, if_neg hov]
      rfl
  rw [hrun]
  rw [hM.n] at eC eF
  have hcnt : syprCount w g B.m (opRows op isT A) M.arrs T.arrs
      = some (if sumOverflow 64 w (tripleCount op isT A f B : Int) = true then .error .invalidSize
          else .ok ⟨opRows op isT A, opRows op isT A, tripleCount op isT A f B, -1, 0, C.ptr,
                  alloc (tripleCount op isT A f B) g.i, alloc (tripleCount op isT A f B) g.v⟩) := by
    unfold syprCount
    simp only [Option.bind_eq_bind]
    rw [eC w _ hpl, Option.bind_some]
    dsimp only
    split
    · rw [if_pos (by simp)]
    · rw [if_neg (by simp), Int.toNat_natCast]
  have hfill : ∀ o : SyOut R, o.ptr.length = opRows op isT A + 1 → o.ind.length = tripleCount op isT A f B →
      o.val.length = tripleCount op isT A f B →
      syprFill (if syprFlip isT vt op.code = true then id else star) B.m (opRows op isT A) M.arrs T.arrs o
        = some { o with ptr := C.ptr, ind := C.ind, val := C.val } := by
    intro o h1 h2 h3
    unfold syprFill
    simp only [Option.bind_eq_bind]
    rw [eF _ _ _ h1 h2 h3, Option.bind_some]
  constructor
  · intro hov
    rw [if_pos hov]
  · intro hov
    rw [if_neg (by rw [hov]; simp)]
    unfold syprStage
    refine ⟨?_, ?_, ?_, ?_⟩
    · intro h1 h2
      rw [if_neg h1, hcnt, Option.bind_some, if_pos h2]
    · intro h1 h2
      rw [if_neg (by omega), hcnt, Option.bind_some, if_neg (by rw [h2]; simp)]
      dsimp only
      rw [if_neg (by omega)]
    · intro h1 h2
      rw [if_neg (by omega), hcnt, Option.bind_some, if_neg (by rw [h2]; simp)]
      dsimp only
      rw [if_pos h1, hfill _ hCl (by simp) (by simp), Option.bind_some]
    · rintro h1 o rfl h2 h3 h4
      rw [if_pos h1]
      dsimp only
      rw [hfill o h2 h3 h4, Option.bind_some]

/-- the first stage and the full computation -/
theorem sypr_start {w : Nat} {g : Garb R} {srt : (Int → Int → Bool) → List Int → List Int} {op : Op}
    {isT : Bool} {vt : Nat} {t : MType} {A B : Csr R} {sA : Bool} (h : SyprIn op isT vt t A sA B) (f : Fill)
    (old : Option (SyOut R)) {req : Int} (hreq : req = 0 ∨ req = 2) :
    (TripleFits w op isT f A B → ∃ o,
      syprCall w g srt op isT vt t f A sA B old req = some (.success, some o) ∧
      SyReady w op isT f A B o ∧ o.nnz = tripleCount op isT A f B ∧
      (req = 2 → IsTriple op isT t f A B o)) ∧
    (¬ TripleFits w op isT f A B →
      syprCall w g srt op isT vt t f A sA B old req = some (.invalidSize, none)) := by
  have hr1 : req ≠ 1 := by omega
  rw [sypr_run h f old (by omega) (fun e => absurd e hr1), if_neg hr1]
  by_cases h0 : A.nnz = 0 ∨ B.nnz = 0
  · rw [if_pos h0]
    obtain ⟨e1, e2⟩ := empty_triple h f h0
    have he : syprEmpty g (opRows op isT A) none = (syEmpty (opRows op isT A) : SyOut R) := by
      unfold syprEmpty syEmpty newPtr
      dsimp only
      rw [if_pos rfl, show ((opRows op isT A : Int) + 1).toNat = opRows op isT A + 1 by omega]
    refine ⟨fun _ => ⟨_, rfl, .inl ⟨h0, he⟩, by rw [he, e2]; rfl, fun _ => by rw [he]; exact e1⟩, fun hn => ?_⟩
    exact absurd (by rcases h0 with h0 | h0
                     · exact .inr (.inl h0)
                     · exact .inr (.inr (.inl h0))) hn
  · rw [if_neg h0]
    obtain ⟨C, hn, hl, hU, hst⟩ := sypr_stages (w := w) (srt := srt) h f h0 g
    obtain ⟨s1, s2⟩ := hst none req
    have hf : TripleFits w op isT f A B ↔ sumOverflow 64 w (tempCount op isT A f B : Int) = false ∧
        sumOverflow 64 w (tripleCount op isT A f B : Int) = false := by
      unfold TripleFits sumOverflow
      by_cases hw : 64 > w
      · rw [if_pos hw, if_pos hw, decide_eq_false_iff_not, decide_eq_false_iff_not]
        obtain ⟨a1, a2⟩ := not_or.mp h0
        simp only [a1, a2, false_or]
        omega
      · rw [if_neg hw, if_neg hw]
        simp only [and_self, iff_true]
        left; omega
    rw [hf]
    constructor
    · rintro ⟨f1, f2⟩
      obtain ⟨-, c1, c2, -⟩ := s2 f1
      rcases hreq with hreq | hreq
      · refine ⟨_, c1 hreq f2, .inr ⟨h0, rfl, rfl, rfl, rfl, hl, by simp, by simp, f1⟩, rfl, fun e => ?_⟩
        omega
      · have hi : C.ind.length = tripleCount op isT A f B := hn
        refine ⟨_, c2 hreq f2, .inr ⟨h0, rfl, rfl, rfl, rfl, hl, hi, ?_, f1⟩, rfl, fun _ => ?_⟩
        · rw [← hn]; exact hU.wf.val_len
        · exact IsTriple.of h hU hn rfl rfl (by rw [hn]) rfl rfl rfl rfl
    · intro hnf
      by_cases f1 : sumOverflow 64 w (tempCount op isT A f B : Int) = true
      · exact s1 f1
      · have f1' : sumOverflow 64 w (tempCount op isT A f B : Int) = false := by simpa using f1
        have f2 : sumOverflow 64 w (tripleCount op isT A f B : Int) = true := by
          by_contra hc
          exact hnf ⟨f1', by simpa using hc⟩
        exact (s2 f1').1 hr1 f2

/-! ### the same patterns -/

omit [CommRing R] [StarRing R] [DecidableEq R] in
theorem SamePat.sym {B B' : Csr R} (p : SamePat B B') (f : Fill) (k l : Nat) :
    symStored f B' k l ↔ symStored f B k l := by
  unfold symStored
  rw [p.2.2, p.2.2]

omit [CommRing R] [StarRing R] [DecidableEq R] in
theorem SamePat.opSt {A A' : Csr R} (p : SamePat A A') (op : Op) (isT : Bool) (i j : Nat) :
    opStored op isT A' i j ↔ opStored op isT A i j := by
  have h : ∀ i c, c ∈ (A'.row i).map (·.1) ↔ c ∈ (A.row i).map (·.1) := p.2.2
  unfold opStored userStored
  cases isT <;> cases op <;> simp [h]

omit [StarRing R] [DecidableEq R] in
theorem SamePat.nnz0 {A A' : Csr R} (p : SamePat A A') (h : A.WF) (h' : A'.WF) : A'.nnz = 0 ↔ A.nnz = 0 := by
  rw [nnz_zero_iff h, nnz_zero_iff h']
  simp only [p.2.2]

omit [StarRing R] [DecidableEq R] in
theorem SamePat.triple {A A' B B' : Csr R} (pA : SamePat A A') (pB : SamePat B B') (hB : B.WF) (hB' : B'.WF)
    (op : Op) (isT : Bool) (f : Fill) :
    tripleCount op isT A' f B' = tripleCount op isT A f B ∧ tempCount op isT A' f B' = tempCount op isT A f B := by
  have hd := pA.dims op isT
  constructor
  · unfold tripleCount tripleStored
    simp only [pA.opSt op isT, pB.sym, hd.1, hd.2, pB.nnz0 hB hB']
  · unfold tempCount
    simp only [pA.opSt op isT, pB.sym, hd.1, hd.2]

/-- the second stage -/
theorem sypr_next {w : Nat} {g : Garb R} {srt : (Int → Int → Bool) → List Int → List Int} {op : Op}
    {isT : Bool} {vt : Nat} {t : MType} {A B A' B' : Csr R} {sA : Bool} (hA : A.WF) (hB : B.WF)
    (h : SyprIn op isT vt t A' sA B') (f : Fill) (pA : SamePat A A') (pB : SamePat B B') {o : SyOut R}
    (hr : SyReady w op isT f A B o) :
    ∃ o', syprCall w g srt op isT vt t f A' sA B' (some o) 1 = some (.success, some o') ∧
      SyReady w op isT f A B o' ∧ IsTriple op isT t f A' B' o' := by
  have hd := pA.dims op isT
  obtain ⟨t1, t2⟩ := pA.triple pB hB h.wfB op isT f
  have hz : (A'.nnz = 0 ∨ B'.nnz = 0) ↔ (A.nnz = 0 ∨ B.nnz = 0) := by
    rw [pA.nnz0 hA h.wfA, pB.nnz0 hB h.wfB]
  have hmn : o.m = opRows op isT A' ∧ o.n = opRows op isT A' := by
    rw [hd.1]
    rcases hr with ⟨-, rfl⟩ | ⟨-, h1, h2, -⟩
    · exact ⟨rfl, rfl⟩
    · exact ⟨h1, h2⟩
  rw [sypr_run h f (some o) (by omega) (fun _ => ⟨o, rfl, hmn⟩), if_pos rfl]
  by_cases h0 : A'.nnz = 0 ∨ B'.nnz = 0
  · rw [if_pos h0]
    refine ⟨o, rfl, hr, ?_⟩
    rcases hr with ⟨-, rfl⟩ | ⟨hn, -⟩
    · rw [← hd.1]
      exact (empty_triple h f h0).1
    · exact absurd (hz.mp h0) hn
  · rw [if_neg h0]
    obtain ⟨C, hn, hl, hU, hst⟩ := sypr_stages (w := w) (srt := srt) h f h0 g
    rcases hr with ⟨hn0, -⟩ | ⟨-, r1, r2, r3, r4, r5, r6, r7, r8⟩
    · exact absurd (hz.mpr hn0) h0
    · obtain ⟨-, -, -, c3⟩ := (hst (some o) 1).2 (by rw [t2]; exact r8)
      refine ⟨_, c3 rfl o rfl (by rw [hd.1]; exact r5) (by rw [t1]; exact r6) (by rw [t1]; exact r7), ?_, ?_⟩
      · refine .inr ⟨fun x => h0 (hz.mpr x), r1, r2, r3, r4, by rw [← hd.1]; exact hl, ?_, ?_, r8⟩
        · show C.ind.length = _
          rw [← t1, ← hn]; rfl
        · show C.val.length = _
          rw [← t1, ← hn]; exact hU.wf.val_len
      · exact IsTriple.of h hU hn hmn.1 hmn.2 (by show o.nnz = _; rw [r4, hn, t1]) r3 rfl rfl rfl

/-! ### the theorems -/

/-- **C49, full computation.**  For all conforming A and B, every operation the type supports, both triangles,
every base, any content of fresh memory and any sorting routine: one call with the full-computation request
returns a new handle holding exactly the upper triangle of op(A)·B·op(A)ᴴ, if the numbers of elements of the
result and of the intermediate product fit the integer type; otherwise `invalid_size` without a matrix. -/
theorem C49_full {w : Nat} (g : Garb R) (srt : (Int → Int → Bool) → List Int → List Int) {op : Op}
    {isT : Bool} {vt : Nat} {t : MType} {A B : Csr R} {sA : Bool} (h : SyprIn op isT vt t A sA B) (f : Fill)
    (old : Option (SyOut R)) :
    (TripleFits w op isT f A B → ∃ o,
      syprCall w g srt op isT vt t f A sA B old 2 = some (.success, some o) ∧ IsTriple op isT t f A B o) ∧
    (¬ TripleFits w op isT f A B →
      syprCall w g srt op isT vt t f A sA B old 2 = some (.invalidSize, none)) := by
  obtain ⟨h1, h2⟩ := sypr_start (w := w) (g := g) (srt := srt) h f old (req := 2) (.inr rfl)
  refine ⟨fun hf => ?_, h2⟩
  obtain ⟨o, e, -, -, hp⟩ := h1 hf
  exact ⟨o, e, hp rfl⟩

/-- **C49, first stage.**  The number of elements of the handle made by the first stage is the number of
positions of the upper triangle that are sums of products of stored elements. -/
theorem C49_count {w : Nat} (g : Garb R) (srt : (Int → Int → Bool) → List Int → List Int) {op : Op}
    {isT : Bool} {vt : Nat} {t : MType} {A B : Csr R} {sA : Bool} (h : SyprIn op isT vt t A sA B) (f : Fill)
    (old : Option (SyOut R)) :
    (TripleFits w op isT f A B → ∃ o,
      syprCall w g srt op isT vt t f A sA B old 0 = some (.success, some o) ∧ o.m = opRows op isT A ∧
      o.n = opRows op isT A ∧ o.nnz = tripleCount op isT A f B) ∧
    (¬ TripleFits w op isT f A B →
      syprCall w g srt op isT vt t f A sA B old 0 = some (.invalidSize, none)) := by
  obtain ⟨h1, h2⟩ := sypr_start (w := w) (g := g) (srt := srt) h f old (req := 0) (.inl rfl)
  refine ⟨fun hf => ?_, h2⟩
  obtain ⟨o, e, hr, hn, -⟩ := h1 hf
  refine ⟨o, e, ?_, ?_, hn⟩
  · rcases hr with ⟨-, rfl⟩ | ⟨-, h1, -⟩
    · rfl
    · exact h1
  · rcases hr with ⟨-, rfl⟩ | ⟨-, -, h1, -⟩
    · rfl
    · exact h1

/-- Handles that a history of calls on matrices with the patterns of `A` and `B` produces: a first stage or a
full computation, then any number of second stages. -/
inductive SyReach (w : Nat) (op : Op) (isT : Bool) (f : Fill) (A B : Csr R) : SyOut R → Prop
  | start (g : Garb R) (srt : (Int → Int → Bool) → List Int → List Int) (vt : Nat) (t : MType)
      (A' B' : Csr R) (sA : Bool) (req : Int) (old : Option (SyOut R)) (o : SyOut R)
      (h : SyprIn op isT vt t A' sA B') (pA : SamePat A A') (pB : SamePat B B') (hreq : req = 0 ∨ req = 2)
      (he : syprCall w g srt op isT vt t f A' sA B' old req = some (.success, some o)) :
      SyReach w op isT f A B o
  | next (g : Garb R) (srt : (Int → Int → Bool) → List Int → List Int) (vt : Nat) (t : MType)
      (A' B' : Csr R) (sA : Bool) (o o' : SyOut R) (hr : SyReach w op isT f A B o)
      (h : SyprIn op isT vt t A' sA B') (pA : SamePat A A') (pB : SamePat B B')
      (he : syprCall w g srt op isT vt t f A' sA B' (some o) 1 = some (.success, some o')) :
      SyReach w op isT f A B o'

theorem SyReach.ready {w : Nat} {op : Op} {isT : Bool} {f : Fill} {A B : Csr R} {o : SyOut R} (hA : A.WF)
    (hB : B.WF) (h : SyReach w op isT f A B o) : SyReady w op isT f A B o := by
  induction h with
  | start g srt vt t A' B' sA req old o h pA pB hreq he =>
    obtain ⟨h1, h2⟩ := sypr_start (w := w) (g := g) (srt := srt) h f old hreq
    by_cases hf : TripleFits w op isT f A' B'
    · obtain ⟨o', e, hr, -⟩ := h1 hf
      rw [he] at e
      simp only [Option.some.injEq, Prod.mk.injEq, true_and] at e
      subst e
      obtain ⟨t1, t2⟩ := pA.triple pB hB h.wfB op isT f
      have hz : (A'.nnz = 0 ∨ B'.nnz = 0) ↔ (A.nnz = 0 ∨ B.nnz = 0) := by
        rw [pA.nnz0 hA h.wfA, pB.nnz0 hB h.wfB]
      have hd := pA.dims op isT
      unfold SyReady at hr ⊢
      rw [hz, t1, t2, hd.1] at hr
      exact hr
    · rw [h2 hf] at he
      simp at he
  | next g srt vt t A' B' sA o o' hr h pA pB he ih =>
    obtain ⟨o1, e, hr1, -⟩ := sypr_next (w := w) (g := g) (srt := srt) hA hB h f pA pB ih
    rw [he] at e
    simp only [Option.some.injEq, Prod.mk.injEq, true_and] at e
    exact e ▸ hr1

/-- **C49, second stage.**  Whatever calls on matrices with the same patterns made the handle (a first stage or
a full computation, then any number of second stages), a second stage with current values succeeds and
leaves the upper triangle of op(A')·B'·op(A')ᴴ for the current A' and B'. -/
theorem C49_finalize {w : Nat} (g : Garb R) (srt : (Int → Int → Bool) → List Int → List Int) {op : Op}
    {isT : Bool} {vt : Nat} {t : MType} {A B A' B' : Csr R} {sA : Bool} (hA : A.WF) (hB : B.WF)
    {f : Fill} {o : SyOut R} (hr : SyReach w op isT f A B o) (h : SyprIn op isT vt t A' sA B')
    (pA : SamePat A A') (pB : SamePat B B') :
    ∃ o', syprCall w g srt op isT vt t f A' sA B' (some o) 1 = some (.success, some o') ∧
      IsTriple op isT t f A' B' o' := by
  obtain ⟨o', e, -, hp⟩ := sypr_next (w := w) (g := g) (srt := srt) hA hB h f pA pB (hr.ready hA hB)
  exact ⟨o', e, hp⟩

omit [CommRing R] [StarRing R] [DecidableEq R] in
/-- **C49, sizes that always fit.** -/
theorem C49_fits {w : Nat} (op : Op) (isT : Bool) (f : Fill) (A B : Csr R)
    (h1 : (opCols op isT A : Int) * opRows op isT A ≤ intMax w)
    (h2 : (opRows op isT A : Int) * opRows op isT A ≤ intMax w) : TripleFits w op isT f A B := by
  refine .inr (.inr (.inr ⟨?_, ?_⟩))
  · refine le_trans ?_ h1
    have : tempCount op isT A f B ≤ opCols op isT A * opRows op isT A := by
      refine (Set.ncard_le_ncard (t := ((range (opCols op isT A) ×ˢ range (opRows op isT A) : Finset (Nat × Nat)) :
        Set (Nat × Nat))) ?_ (Finset.finite_toSet _)).trans ?_
      · rintro p ⟨a, b, -⟩
        simp [a, b]
      · rw [Set.ncard_coe_finset]
        simp
    exact_mod_cast this
  · refine le_trans ?_ h2
    have : tripleCount op isT A f B ≤ opRows op isT A * opRows op isT A := by
      unfold tripleCount
      split
      · omega
      · refine (Set.ncard_le_ncard (t := ((range (opRows op isT A) ×ˢ range (opRows op isT A) :
          Finset (Nat × Nat)) : Set (Nat × Nat))) ?_ (Finset.finite_toSet _)).trans ?_
        · rintro p ⟨a, b, -⟩
          simp only [coe_product, coe_range, Set.mem_prod, Set.mem_Iio]
          omega
        · rw [Set.ncard_coe_finset]
          simp
    exact_mod_cast this

/-- **C49, refusals.**  Null pointers, types that differ, unknown requests and operations: the documented
status, nothing written.  Formats other than CSR or CSC, B stored by columns, the plain transpose of complex
matrices, a base or matrix type of the descriptor that does not fit B, another diagonal type: the documented
status; the output is a null pointer except in the second stage, where the handle stays as it was. -/
theorem C49_refused (w : Nat) (g : Garb R) (srt : (Int → Int → Bool) → List Int → List Int) (cj : R → R)
    (op req : Int) (dest : Bool) (old : Option (SyOut R)) (A B : Option (SyMat R)) (a b : SyMat R)
    (d : Descr) (D : Option Descr) :
    (A = none ∨ B = none ∨ dest = false →
      syprApi w g srt cj op A B D dest old req = some (.invalidPointer, old)) ∧
    (a.vt ≠ b.vt ∨ 4 ≤ a.vt → syprApi w g srt cj op (some a) (some b) D true old req = some (.wrongType, old)) ∧
    (a.vt = b.vt → a.vt < 4 →
      ((req ≠ 0 ∧ req ≠ 1 ∧ req ≠ 2) ∨ (∀ o : Op, op ≠ o.code) →
        syprApi w g srt cj op (some a) (some b) D true old req = some (.invalidValue, old)) ∧
      ((req = 0 ∨ req = 1 ∨ req = 2) → (∃ o : Op, op = o.code) →
        syprApi w g srt cj op (some a) (some b) none true old req = some (.invalidPointer, old) ∧
        (a.raw.fmt ≠ 0 ∨ b.raw.fmt ≠ 0 ∨ b.raw.isT = true ∨ ((a.vt = 2 ∨ a.vt = 3) ∧ op = Op.trans.code) →
          syprApi w g srt cj op (some a) (some b) (some d) true old req
            = some (.notImplemented, if req = 1 then old else none)) ∧
        (a.raw.fmt = 0 → b.raw.fmt = 0 → b.raw.isT = false → ¬ ((a.vt = 2 ∨ a.vt = 3) ∧ op = Op.trans.code) →
          (d.base ≠ b.raw.base ∨ d.type ≠ (if a.vt = 2 ∨ a.vt = 3 then MType.hermitian.code
              else MType.symmetric.code) →
            syprApi w g srt cj op (some a) (some b) (some d) true old req
              = some (.invalidValue, if req = 1 then old else none)) ∧
          (d.base = b.raw.base → d.type = (if a.vt = 2 ∨ a.vt = 3 then MType.hermitian.code
              else MType.symmetric.code) → d.diag ≠ Diag.nonUnit.code →
            syprApi w g srt cj op (some a) (some b) (some d) true old req
              = some (.notImplemented, if req = 1 then old else none))))) := by
  have hisop : ∀ o : Op, isOp o.code := by intro o; cases o <;> simp [isOp, Op.code]
  have hty : (if a.vt = 2 ∨ a.vt = 3 then MType.hermitian.code else MType.symmetric.code)
      = if a.vt = 2 ∨ a.vt = 3 then 2 else 1 := rfl
  refine ⟨?_, ?_, ?_⟩
  · rintro (rfl | rfl | rfl)
    · rfl
    · cases A <;> rfl
    · cases A <;> cases B <;> rfl
  · intro h
    unfold syprApi
    dsimp only
    rw [if_neg (by omega)]
  · intro h1 h2
    constructor
    · intro h
      unfold syprApi
      dsimp only
      rw [if_pos ⟨h1, h2⟩]
      rcases h with h | h
      · rw [if_pos (by omega)]
      · split
        · rfl
        · rw [if_pos]
          intro ho
          simp only [isOp, decide_eq_true_eq] at ho
          rcases ho with e | e | e
          · exact h .none e
          · exact h .trans e
          · exact h .conjTrans e
    · rintro hreq ⟨o, rfl⟩
      have hred : ∀ D, syprApi w g srt cj o.code (some a) (some b) D true old req =
          match D with
          | none => some (.invalidPointer, old)
          | some d => syprChecks w g srt cj o.code a b d req (if req = 1 then old else none) := by
        intro D
        unfold syprApi
        dsimp only
        rw [if_pos ⟨h1, h2⟩, if_neg (not_not.mpr hreq), if_neg (not_not.mpr (hisop o))]
        cases D <;> rfl
      rw [hred, hred]
      refine ⟨rfl, ?_, ?_⟩
      · intro h
        dsimp only
        unfold syprChecks
        split
        · rfl
        · rename_i hf
          split
          · rfl
          · rename_i hT
            rw [if_pos]
            rcases h with h | h | h | h
            · exact absurd (.inl h) hf
            · exact absurd (.inr h) hf
            · exact absurd h hT
            · exact h
      · intro f1 f2 f3 f4
        have hred2 : syprChecks w g srt cj o.code a b d req (if req = 1 then old else none) =
            if b.raw.base ≠ d.base then some (.invalidValue, if req = 1 then old else none)
            else if d.type ≠ (if a.vt = 2 ∨ a.vt = 3 then 2 else 1) then
              some (.invalidValue, if req = 1 then old else none)
            else if d.diag ≠ 0 then some (.notImplemented, if req = 1 then old else none)
            else syprDims w g srt cj o.code a b (decide (d.fill = 0)) req (if req = 1 then old else none) := by
          unfold syprChecks
          rw [if_neg (by omega), if_neg (by simp [f3]), if_neg (show ¬ ((a.vt = 2 ∨ a.vt = 3) ∧ o.code = 112) from f4)]
        dsimp only
        rw [hred2, hty]
        constructor
        · rintro (h | h)
          · rw [if_pos (Ne.symm h)]
          · rw [if_pos h]
            split <;> rfl
        · intro h3 h4 h5
          rw [if_neg (by simp [h3]), if_neg (by simp [h4]), if_pos (show d.diag ≠ 0 from h5)]

/-- **C49, dimensions, stages and order.**  B not square or of the wrong size: `invalid_size`; a second stage
without a handle or with one of other dimensions: `invalid_value`; an unsorted B, or an unsorted A when the
operation works along its stored columns: `unsorted_input`.  In every case nothing is computed. -/
theorem C49_refused_dims (w : Nat) (g : Garb R) (srt : (Int → Int → Bool) → List Int → List Int) (cj : R → R)
    (op : Op) (req : Int) (hreq : req = 0 ∨ req = 1 ∨ req = 2) (old : Option (SyOut R)) (isT : Bool)
    (A B : Csr R) (hA : A.WF) (hB : B.WF) (vt : Nat) (hvt : vt < 4) (hop : vt = 0 ∨ vt = 1 ∨ op ≠ .trans)
    (sA sB : Bool) (t : MType) (ht : (vt = 0 ∨ vt = 1) ∧ t = .symmetric ∨ (vt = 2 ∨ vt = 3) ∧ t = .hermitian)
    (f : Fill) :
    let call := syprApi w g srt cj op.code (some ⟨A.raw isT, vt, sA⟩) (some ⟨B.raw false, vt, sB⟩)
      (some ⟨t.code, f.code, Diag.nonUnit.code, B.base⟩) true old req
    let out := if req = 1 then old else none
    (B.m ≠ B.n ∨ B.m ≠ opCols op isT A → call = some (.invalidSize, out)) ∧
    (B.m = B.n → B.m = opCols op isT A →
      (req = 1 → (∀ o, old = some o → ¬ (o.m = opRows op isT A ∧ o.n = opRows op isT A)) →
        call = some (.invalidValue, old)) ∧
      ((req = 1 → ∃ o, old = some o ∧ o.m = opRows op isT A ∧ o.n = opRows op isT A) →
        A.nnz ≠ 0 → B.nnz ≠ 0 → (sB = false ∨ (sA = false ∧ (isT = true ↔ op = .none))) →
        call = some (.unsortedInput, out))) := by
  intro call out
  have hisop : isOp op.code := by cases op <;> simp [isOp, Op.code]
  have hn : (if op.code = 111 then (A.raw isT).um else (A.raw isT).un) = (opRows op isT A : Int) := by
    cases isT <;> cases op <;> simp [Csr.raw, Op.code, opRows, userRows, userCols, RawMat.um, RawMat.un]
  have hm : (if op.code = 111 then (A.raw isT).un else (A.raw isT).um) = (opCols op isT A : Int) := by
    cases isT <;> cases op <;> simp [Csr.raw, Op.code, opCols, userRows, userCols, RawMat.um, RawMat.un]
  have hum : (B.raw false).um = B.m := rfl
  have hun : (B.raw false).un = B.n := rfl
  have hcall : call = syprDims w g srt cj op.code ⟨A.raw isT, vt, sA⟩ ⟨B.raw false, vt, sB⟩
      (decide (f.code = 0)) req out := by
    show syprApi _ _ _ _ _ _ _ _ _ _ _ = _
    unfold syprApi
    dsimp only
    rw [if_pos ⟨rfl, hvt⟩, if_neg (not_not.mpr hreq), if_neg (not_not.mpr hisop)]
    unfold syprChecks
    dsimp only
    rw [if_neg (by simp [Csr.raw]), if_neg (by simp [Csr.raw]), if_neg, if_neg (by simp [Csr.raw]), if_neg,
      if_neg (by simp [Diag.code])]
    · rcases ht with ⟨hv, rfl⟩ | ⟨hv, rfl⟩
      · rw [if_neg (by omega)]
        simp [MType.code]
      · rw [if_pos hv]
        simp [MType.code]
    · rintro ⟨h1, h2⟩
      have : op = .trans := by cases op <;> simp_all [Op.code]
      rcases hop with h | h | h
      · omega
      · omega
      · exact h this
  rw [hcall]
  unfold syprDims
  dsimp only
  rw [hn, hm, hum, hun]
  constructor
  · intro h
    by_cases h1 : (B.m : Int) ≠ B.n
    · rw [if_pos h1]
    · rw [if_neg h1, if_pos]
      rcases h with h | h
      · exact absurd (by exact_mod_cast h) h1
      · exact_mod_cast h
  · intro h1 h2
    have hb := hA.base01
    rw [if_neg (by rw [h1]; simp), if_neg (by rw [h2]; simp),
      if_neg (show ¬ ((A.raw isT).base ≠ 0 ∧ (A.raw isT).base ≠ 1) from
        (by omega : ¬ (A.base ≠ 0 ∧ A.base ≠ 1)))]
    constructor
    · intro hr ho
      have hout : out = old := if_pos hr
      rw [if_pos, hout]
      unfold syprBad
      rw [hout, Bool.and_eq_true, decide_eq_true_eq]
      refine ⟨hr, ?_⟩
      cases old with
      | none => rfl
      | some o =>
        have := ho o rfl
        simp only [decide_eq_true_eq]
        by_contra hc
        exact this ⟨by omega, by omega⟩
    · intro ho h3 h4 h5
      rw [if_neg, if_neg, if_pos]
      · rcases h5 with h5 | ⟨h5, h6⟩
        · exact .inr h5
        · refine .inl ⟨h5, ?_⟩
          revert h6
          cases isT <;> cases op <;> simp [Csr.raw, syEff, Op.code]
      · rintro (h | h | h | h)
        · exact h4 (quick_empty hB (isT := false) (.inl h))
        · have hz : (A.raw isT).um = 0 ∨ (A.raw isT).un = 0 := by
            rw [← hn] at h
            split at h
            · exact .inl h
            · exact .inr h
          apply h3
          apply quick_empty hA (isT := isT)
          rcases hz with h | h
          · exact .inl h
          · exact .inr (.inl h)
        · have h' : (A.nnz : Int) = 0 := h
          exact h3 (by exact_mod_cast h')
        · have h' : (B.nnz : Int) = 0 := h
          exact h4 (by exact_mod_cast h')
      · unfold syprBad
        intro hb'
        rw [Bool.and_eq_true, decide_eq_true_eq] at hb'
        obtain ⟨hb1, hb2⟩ := hb'
        obtain ⟨o, rfl, q1, q2⟩ := ho hb1
        rw [show out = some o from if_pos hb1] at hb2
        simp [q1, q2] at hb2

/-! ### cases that meet the hypotheses -/

/-- a Hermitian 3×3 matrix given by its upper triangle, without a stored diagonal element in row 1; the
element (2, 0) of the other triangle is not used -/
def spB3 : Csr Gau := ⟨3, 3, 0, [0, 2, 3, 5], [0, 1, 2, 0, 2], [2, ⟨0, 1⟩, ⟨1, 1⟩, 9, 3]⟩

/-- a Hermitian 2×2 matrix given by its lower triangle, base 1 -/
def spB2 : Csr Gau := ⟨2, 2, 1, [1, 2, 4], [1, 1, 2], [2, ⟨0, 1⟩, 3]⟩

theorem spB_ok : (spB3.WF ∧ spB3.NoDup ∧ spB3.Sorted) ∧ spB2.WF ∧ spB2.NoDup ∧ spB2.Sorted := by
  decide +kernel

/-- A·B·Aᴴ by rows (A need not be sorted), Aᴴ·B·A by rows, and both for the same arrays as columns -/
theorem sypr_cases :
    SyprIn .none false 3 .hermitian syA false spB3 ∧ SyprIn .conjTrans false 3 .hermitian syA true spB2 ∧
    SyprIn .none true 3 .hermitian syA true spB2 ∧ SyprIn .conjTrans true 3 .hermitian syA false spB3 := by
  obtain ⟨⟨b1, b2, b3⟩, c1, c2, c3⟩ := spB_ok
  obtain ⟨a1, a2, a3⟩ := syA_ok
  refine ⟨⟨a1, a2, b1, b2, b3, rfl, rfl, by omega, .inr ⟨.inr rfl, rfl⟩, fun h => by omega,
      .inr (.inr (by simp)), fun _ => a3, .inr (by simp)⟩,
    ⟨a1, a2, c1, c2, c3, rfl, rfl, by omega, .inr ⟨.inr rfl, rfl⟩, fun h => by omega,
      .inr (.inr (by simp)), fun _ => a3, .inl rfl⟩,
    ⟨a1, a2, c1, c2, c3, rfl, rfl, by omega, .inr ⟨.inr rfl, rfl⟩, fun h => by omega,
      .inr (.inr (by simp)), fun _ => a3, .inl rfl⟩,
    ⟨a1, a2, b1, b2, b3, rfl, rfl, by omega, .inr ⟨.inr rfl, rfl⟩, fun h => by omega,
      .inr (.inr (by simp)), fun _ => a3, .inr (by simp)⟩⟩

example : ∃ o, syprCall 32 syG (fun _ l => l) .none false 3 .hermitian .upper syA false spB3 none 2
    = some (.success, some o) ∧ IsTriple .none false .hermitian .upper syA spB3 o :=
  (C49_full syG _ sypr_cases.1 .upper none).1
    (C49_fits _ _ _ _ _ (by decide +kernel) (by decide +kernel))

example : syprCall 32 syG (fun _ l => l) .none false 3 .hermitian .upper syA false spB3 none 2
      = some (.success, some ⟨2, 2, 3, -1, 0, [0, 2, 3], [0, 1, 1], [16, ⟨5, -1⟩, 1]⟩) ∧
    syprCall 32 syG (fun _ l => l) .conjTrans false 3 .hermitian .lower syA true spB2 none 2
      = some (.success, some ⟨3, 3, 6, -1, 0, [0, 3, 5, 6], [0, 2, 1, 2, 1, 2],
          [4, ⟨3, -5⟩, ⟨1, -1⟩, ⟨2, -3⟩, 3, 11]⟩) ∧
    syprCall 32 syG (fun _ l => l) .none true 3 .hermitian .lower syA true spB2 none 2
      = some (.success, some ⟨3, 3, 6, -1, 0, [0, 3, 5, 6], [0, 2, 1, 2, 1, 2],
          [4, ⟨5, 3⟩, ⟨-1, -1⟩, ⟨-2, 3⟩, 3, 11]⟩) ∧
    syprCall 32 syG (fun _ l => l) .conjTrans true 3 .hermitian .upper syA false spB3 none 2
      = some (.success, some ⟨2, 2, 3, -1, 0, [0, 2, 3], [0, 1, 1], [16, ⟨7, 3⟩, 5]⟩) := by decide +kernel

/-- `syA` with other values -/
def syA2 : Csr Gau := ⟨2, 3, 0, [0, 2, 4], [0, 2, 1, 2], [3, ⟨0, 5⟩, 7, 1]⟩

/-- a first stage, then a second stage with other values of A -/
example : ∃ o o', syprCall 32 syG (fun _ l => l) .none false 3 .hermitian .upper syA false spB3 none 0
      = some (.success, some o) ∧
    syprCall 32 syG (fun _ l => l) .none false 3 .hermitian .upper syA2 true spB3 (some o) 1
      = some (.success, some o') ∧ IsTriple .none false .hermitian .upper syA2 spB3 o' := by
  obtain ⟨o, e, -⟩ := (C49_count (w := 32) syG (fun _ l => l) sypr_cases.1 .upper none).1
    (C49_fits _ _ _ _ _ (by decide +kernel) (by decide +kernel))
  have h2 : syA2.WF ∧ syA2.NoDup ∧ syA2.Sorted := by decide +kernel
  obtain ⟨⟨b1, b2, b3⟩, -⟩ := spB_ok
  have hin : SyprIn .none false 3 .hermitian syA2 true spB3 :=
    ⟨h2.1, h2.2.1, b1, b2, b3, rfl, rfl, by omega, .inr ⟨.inr rfl, rfl⟩, fun h => by omega,
      .inr (.inr (by simp)), fun _ => h2.2.2, .inl rfl⟩
  have hpat : SamePat syA syA2 := by
    refine ⟨rfl, rfl, fun i c => ?_⟩
    have hc : ∀ i < 2, syA2.cols i = syA.cols i := by decide +kernel
    by_cases hi : i < 2
    · rw [hc i hi]
    · constructor
      · intro h
        obtain ⟨x, hx, -⟩ := mem_cols_iff.mp h
        rw [Csr.row_of_ge h2.1 (show syA2.m ≤ i by show 2 ≤ i; omega)] at hx
        simp at hx
      · intro h
        obtain ⟨x, hx, -⟩ := mem_cols_iff.mp h
        rw [Csr.row_of_ge syA_ok.1 (show syA.m ≤ i by show 2 ≤ i; omega)] at hx
        simp at hx
  obtain ⟨o', e', ht⟩ := C49_finalize (w := 32) syG (fun _ l => l) syA_ok.1 b1
    (.start syG _ 3 .hermitian syA spB3 false 0 none o sypr_cases.1 (SamePat.refl _) (SamePat.refl _) (.inl rfl) e)
    hin hpat (SamePat.refl _)
  exact ⟨o, o', e, e', ht⟩

/-! ### findings -/

/-- a 2×3 matrix with one element -/
def syA1 : Csr Gau := ⟨2, 3, 0, [0, 1, 1], [0], [1]⟩

/-- **C49, second stage on another pattern.**  The second stage checks the dimensions of the handle only: after
a first stage for a matrix of one element, the second stage for a matrix of the same dimensions with more
elements writes past the end of the arrays. -/
theorem C49_needs_same_pattern :
    ∃ o : SyOut Gau, syprCall 32 syG (fun _ l => l) .none false 3 .hermitian .upper syA1 true spB3 none 0
        = some (.success, some o) ∧ o.nnz = 1 ∧
      syprCall 32 syG (fun _ l => l) .none false 3 .hermitian .upper syA true spB3 (some o) 1 = none :=
  ⟨⟨2, 2, 1, -1, 0, [0, 1, 1], [7], [7]⟩, by decide +kernel⟩

/-- **C49, second stage into a one-based matrix.**  The base of the handle is not checked either: the second
stage writes zero-based arrays into a handle whose base stays 1. -/
theorem C49_base_ignored :
    syprCall 32 syG (fun _ l => l) .none false 3 .hermitian .upper syA true spB3
        (some ⟨2, 2, 3, 3, 1, [1, 3, 4], [1, 2, 2], [1, 1, 1]⟩) 1
      = some (.success, some ⟨2, 2, 3, 3, 1, [0, 2, 3], [0, 1, 1], [16, ⟨5, -1⟩, 1]⟩) := by decide +kernel

/-- **C49, converting a result.**  The CSR object of a result holds −1 as its number of elements:
aoclsparse_convert_csr copies that many, a length that wraps to almost 2⁶⁴ bytes. -/
theorem C49_convert_overrun :
    ∃ o : SyOut Gau, syprCall 32 syG (fun _ l => l) .none false 3 .hermitian .upper syA true spB3 none 2
        = some (.success, some o) ∧ o.nnz = 3 ∧ o.objNnz = -1 ∧
      convertCsr syG star (some (o.handle 3)) 111 true = none :=
  ⟨⟨2, 2, 3, -1, 0, [0, 2, 3], [0, 1, 1], [16, ⟨5, -1⟩, 1]⟩, by decide +kernel⟩

/-- **C49, repeated entries.**  Without `NoDup` the claim is false: for the sorted 1×3 matrix `syDup`, accepted
at creation, and B = (1), Aᵀ·B·A has 9 at (1, 1), (1, 2) and (2, 2); sypr stores 3 and 3 in row 1 and nothing
in row 2. -/
theorem C49_duplicates :
    let one : Csr Int := ⟨1, 1, 0, [0, 1], [0], [1]⟩
    syDup.WF ∧ syDup.Sorted ∧ one.WF ∧
    (triple .trans syDup.mat (structured .symmetric .upper .nonUnit one.mat) 1 1 1 = 9 ∧
     triple .trans syDup.mat (structured .symmetric .upper .nonUnit one.mat) 1 1 2 = 9 ∧
     triple .trans syDup.mat (structured .symmetric .upper .nonUnit one.mat) 1 2 2 = 9) ∧
    syprCall 32 ⟨fun _ => 7, fun _ => 7, fun _ => 7⟩ (fun _ l => l) .trans false 0 .symmetric .upper syDup true
        one none 2
      = some (.success, some ⟨3, 3, 2, -1, 0, [0, 0, 2, 2], [1, 2], [3, 3]⟩) := by
  decide +kernel

end Verif
