/-
C31  Sparse times dense product.
-/
import Verif.Proofs.MCopy
import Verif.Props.Sp2m
import Verif.Props.Dense
import Verif.Props.CsrmvSym
import Mathlib.Tactic.NormNum

namespace Verif
open Model Finset

variable {R : Type} [CommRing R] [StarRing R] [DecidableEq R]

omit [StarRing R] [DecidableEq R] in
theorem IsMm.congr {col : Bool} {alpha beta : R} {M M' : Mat R} {m k n ldb ldc : Nat}
    {B C C' : List R} (h : IsMm col alpha beta M m k n ldb ldc B C C')
    (hM : ∀ i l, i < m → l < k → M' i l = M i l) : IsMm col alpha beta M' m k n ldb ldc B C C' := by
  refine ⟨h.length, ?_, h.rest⟩
  intro i j hi hj
  rw [h.cells i j hi hj]
  congr 3
  apply sum_congr rfl
  intro l hl
  rw [hM i l hi (mem_range.mp hl)]

/-- a call on dense arrays given by natural-number dimensions -/
def mmCallOf (alpha beta : R) (B : List R) (n ldb ldc : Nat) (col : Bool) : MmCall R :=
  ⟨star, alpha, beta, B, n, ldb, ldc, col⟩

/-- conjugation or the identity -/
def cjIf (c : Bool) : R →+ R := if c then conjAdd else AddMonoidHom.id R

omit [DecidableEq R] in
theorem cjIf_fun (c : Bool) : (if c then (star : R → R) else id) = ⇑(cjIf (R := R) c) := by
  cases c <;> rfl

omit [DecidableEq R] in
theorem cjIf_apply (c : Bool) (x : R) : cjIf c x = if c then star x else x := by
  cases c <;> rfl

/-! ### stored symmetric and Hermitian matrices -/

omit [DecidableEq R] in
theorem inTri_fill (f : Fill) (i j : Nat) :
    inTri (decide (f.code = 0)) i j = true ↔ strictTri f i j := by
  cases f <;> simp [inTri, strictTri, Fill.code]

/-- what the symmetric kernels multiply with -/
theorem symMat_eq (c hc : Bool) (f : Fill) (D : Diag) (A : Csr R) (i j : Nat) :
    symMat (cjIf c) (cjIf hc) (decide (f.code = 0)) D.code A i j
      = sgn c false (structured (if hc then .hermitian else .symmetric) f D A.mat) i j := by
  unfold symMat
  have h1 := inTri_fill f i j
  have h2 := inTri_fill f j i
  by_cases hij : i = j
  · subst hij
    have hn : ¬ strictTri f i i := by cases f <;> simp [strictTri]
    rw [if_pos rfl, if_neg (by rw [h1]; exact hn), map_zero, map_zero, add_zero, add_zero]
    cases c <;> cases hc <;> cases D <;>
      simp [dVal, Diag.code, sgn, structured, diagVal, cjIf_apply]
  · rw [if_neg hij, zero_add]
    have ht := strict_total f hij
    by_cases hs : strictTri f i j
    · rw [if_pos (h1.2 hs), if_neg (by rw [h2]; exact ht.1 hs), map_zero, map_zero, add_zero]
      cases c <;> cases hc <;> simp [sgn, structured, hij, hs, cjIf_apply]
    · have hs' : strictTri f j i := by
        by_contra hc'
        exact hs (ht.2 hc')
      rw [if_neg (by rw [h1]; exact hs), if_pos (h2.2 hs'), map_zero, zero_add]
      cases c <;> cases hc <;> simp [sgn, structured, hij, hs, cjIf_apply]

variable {alpha beta : R} {A : Csr R} {B C : List R} {n ldb ldc w : Nat} {tm : MmTeam} {ker : MmKernel R}
  {col isReal ta : Bool} {op : Op} {t : MType} {f : Fill} {D : Diag}

/-- a kernel applied to the arrays of `X` -/
theorem kernel_call (hk : ker.Ok) (X : Csr R) (hX : X.WF) (c : Bool)
    (htm : tm.Ok w (if col then n else X.m)) (hn : 0 < n) (hld : (if col then X.m else n) ≤ ldc)
    (hB : ∀ l j, l < X.n → j < n → denseOff col ldb l j < B.length)
    (hC : ∀ i j, i < X.m → j < n → denseOff col ldc i j < C.length) (s : Arrs R)
    (hs : s = ⟨X.base, X.ptr, X.ind, X.val⟩) (m : Int) (hm : m = X.m) :
    ∃ C', mmKernel w tm ker col ((mmCallOf alpha beta B n ldb ldc col).args c m s) C = some C' ∧
      IsMm col alpha beta (fun i j => if c then star (X.mat i j) else X.mat i j) X.m X.n n ldb ldc B C C' := by
  obtain ⟨C', e, h⟩ := mmKernel_ok (alpha := alpha) (beta := beta) hk htm (cjIf c) hX hn hld hB hC
  refine ⟨C', ?_, h.congr fun i l _ _ => by rw [cjIf_apply]⟩
  rw [← e]
  subst hs
  unfold MmCall.args mmOf mmCallOf
  dsimp only
  rw [← cjIf_fun, hm]

/-- the identifier of a request that is not triangular -/
theorem getDoid_lt (isReal : Bool) (t : MType) (f : Fill) (op : Op) (ht : t ≠ .triangular) :
    getDoid isReal t.code f.code op.code < 12 ∧
    (t = .general ↔ getDoid isReal t.code f.code op.code < 4) ∧
    (getDoid isReal t.code f.code op.code >>> 2 = 2 → t = .hermitian) := by
  cases isReal <;> cases t <;> cases f <;> cases op <;> first | exact absurd rfl ht | decide

theorem transDoid_lt : ∀ d < 12, transDoid d < 12 ∧ (transDoid d < 4 ↔ d < 4) ∧
    (transDoid d >>> 2 = 2 ↔ d >>> 2 = 2) := by decide

/-- whether the transposed arrays are needed -/
theorem general_kind (isReal ta : Bool) (f : Fill) (op : Op) :
    (kindT (if ta then transDoid (getDoid isReal MType.general.code f.code op.code)
      else getDoid isReal MType.general.code f.code op.code) = trOf ta op) := by
  cases isReal <;> cases ta <;> cases f <;> cases op <;> decide

/-- the lookup found nothing, so a general request does not match the user's arrays -/
theorem lookup_kind (isReal ta : Bool) (f : Fill) (op : Op) :
    (kindT (getDoid isReal MType.general.code f.code op.code) = decide (op ≠ .none)) := by
  cases isReal <;> cases ta <;> cases f <;> cases op <;> decide

/-- the effective identifier denotes the request on the stored arrays -/
theorem eff_meaning (isReal ta : Bool) (t : MType) (f : Fill) (D : Diag) (op : Op) (A : Csr R)
    (ht : t ≠ .triangular) (hreal : isReal = true → ∀ x : R, star x = x)
    (hherm : t = .hermitian → RealDiag A.mat) :
    doidOp D (if ta then transDoid (getDoid isReal t.code f.code op.code)
        else getDoid isReal t.code f.code op.code) A.mat
      = operator t f D op (userMat ta A) := by
  have hd := getDoid_lt isReal t f op ht
  have hherm' : t = .hermitian → RealDiag (userMat ta A) := by
    intro h i
    have := hherm h i
    cases ta <;> exact this
  rw [← C02_getDoid_meaning isReal t f op D (userMat ta A) hreal hherm']
  cases ta
  · rfl
  · simp only [if_true]
    rw [← (C02_trans_conj_meaning D _ (by omega : getDoid isReal t.code f.code op.code < 20)
      (userMat true A) (fun h => hherm' (hd.2.2 h))).1]
    rfl

/-- the facts about a call that do not depend on the way it is executed -/
structure MmOk (w : Nat) (tm : MmTeam) (col ta : Bool) (op : Op) (t : MType) (A : Csr R)
    (B C : List R) (n ldb ldc : Nat) : Prop where
  wf : A.WF
  square : t ≠ .general → A.m = A.n
  rows : 0 < A.m
  cols : 0 < A.n
  ncols : 0 < n
  leadB : (if col then opCols op ta A else n) ≤ ldb
  leadC : (if col then opRows op ta A else n) ≤ ldc
  /-- the sizes of B and C fit the integer type -/
  fitB : ((if col then n else opCols op ta A : Nat) : Int) * ldb ≤ intMax w
  fitC : ((if col then n else opRows op ta A : Nat) : Int) * ldc ≤ intMax w
  team : tm.Ok w (if col then n else opRows op ta A)
  inB : ∀ l j, l < opCols op ta A → j < n → denseOff col ldb l j < B.length
  inC : ∀ i j, i < opRows op ta A → j < n → denseOff col ldc i j < C.length

omit [CommRing R] [StarRing R] [DecidableEq R] in
theorem MmOk.sq_dims (h : MmOk w tm col ta op t A B C n ldb ldc) (ht : t ≠ .general) :
    opRows op ta A = A.m ∧ opCols op ta A = A.n := by
  have := h.square ht
  cases ta <;> cases op <;> simp [opRows, opCols, userRows, userCols, this]

/-- dispatch without a copy -/
theorem mmDirect_ok (hk : ker.Ok) (g : Garb R) (ht : t ≠ .triangular)
    (h : MmOk w tm col ta op t A B C n ldb ldc) (hreal : isReal = true → ∀ x : R, star x = x)
    (hherm : t = .hermitian → RealDiag A.mat) :
    ∃ C', mmDirect w tm ker g (mmCallOf alpha beta B n ldb ldc col) (A.raw ta)
        ⟨t.code, f.code, D.code, A.base⟩ op.code
        (if ta then transDoid (getDoid isReal t.code f.code op.code)
          else getDoid isReal t.code f.code op.code) C = some (.success, C') ∧
      IsMm col alpha beta (operator t f D op (userMat ta A)) (opRows op ta A) (opCols op ta A)
        n ldb ldc B C C' := by
  have hm := eff_meaning isReal ta t f D op A ht hreal hherm
  have hA := h.wf
  by_cases hg : t = .general
  · subst hg
    have hgk := general_kind isReal ta f op
    have hlt : (if ta then transDoid (getDoid isReal MType.general.code f.code op.code)
          else getDoid isReal MType.general.code f.code op.code) < 4 := by
      cases isReal <;> cases ta <;> cases f <;> cases op <;> decide
    generalize (if ta then transDoid (getDoid isReal MType.general.code f.code op.code)
          else getDoid isReal MType.general.code f.code op.code) = e at hm hgk hlt
    obtain ⟨hr1, hr2⟩ := effRows ta op A
    unfold mmDirect
    dsimp only
    rw [if_neg (by omega), if_neg (by omega), if_pos (by omega)]
    have hcode : (e = gt ∨ e = gh) ↔ kindT e = true := by
      unfold kindT; simp [gt, gh]
    by_cases hT : kindT e = true
    · rw [if_pos (hcode.2 hT)]
      rw [hgk] at hT
      rw [if_pos hT] at hr1 hr2
      obtain ⟨X, e1, ho⟩ := orientG_ok hA true ta g
      have hxm := ho.m
      have hxn := ho.n
      simp only [if_true] at hxm hxn
      rw [← hxm] at hr1
      rw [← hxn] at hr2
      obtain ⟨C', e2, h2⟩ := kernel_call (alpha := alpha) (beta := beta) (ker := ker) (n := n) (ldb := ldb) (ldc := ldc) (B := B) (C := C) (col := col) hk X ho.wf
        (decide (e = gh)) (by rw [← hr1]; exact h.team) h.ncols (by rw [← hr1]; exact h.leadC)
        (by rw [← hr2]; exact h.inB) (by rw [← hr1]; exact h.inC) X.arrs rfl A.n (by rw [hxm])
      refine ⟨C', ?_, ?_⟩
      · have e1' : orientG true g { A.raw ta with base := A.base } = some (.ok X.arrs) := e1
        rw [e1', Option.bind_some]
        dsimp only
        have e2' : mmKernel w tm ker col ((mmCallOf alpha beta B n ldb ldc col).args (decide (e = gh))
          (A.raw ta).n X.arrs) C = some C' := e2
        rw [show (mmCallOf alpha beta B n ldb ldc col).col = col from rfl, e2']
        rfl
      · rw [hr1, hr2]
        refine h2.congr fun i l hi hl => ?_
        rw [← hm]
        have he := ho.entry i l hi hl
        rw [if_pos rfl] at he
        have he' : X.mat i l = A.mat l i := he
        rw [he']
        have hT' : e = 2 ∨ e = 3 := hcode.2 (by rw [hgk]; exact hT)
        rcases hT' with rfl | rfl <;> simp [doidOp, doidMeaning, structured, conjM, transM, gh]
    · rw [if_neg (by rw [hcode]; exact hT)]
      have hT' : e = 0 ∨ e = 1 := by
        rw [← hcode] at hT
        simp only [gt, gh] at hT
        omega
      rw [hgk] at hT
      rw [if_neg hT] at hr1 hr2
      obtain ⟨C', e2, h2⟩ := kernel_call (alpha := alpha) (beta := beta) (ker := ker) (n := n) (ldb := ldb) (ldc := ldc) (B := B) (C := C) (col := col) hk A hA
        (decide (e = gc)) (by rw [← hr1]; exact h.team) h.ncols (by rw [← hr1]; exact h.leadC)
        (by rw [← hr2]; exact h.inB) (by rw [← hr1]; exact h.inC) A.arrs rfl A.m rfl
      refine ⟨C', ?_, ?_⟩
      · have e2' : mmKernel w tm ker col ((mmCallOf alpha beta B n ldb ldc col).args (decide (e = gc))
          (A.raw ta).m ⟨A.base, (A.raw ta).ptr, (A.raw ta).ind, (A.raw ta).val⟩) C = some C' := e2
        rw [show (mmCallOf alpha beta B n ldb ldc col).col = col from rfl, e2']
        rfl
      · rw [hr1, hr2]
        refine h2.congr fun i l hi hl => ?_
        rw [← hm]
        rcases hT' with rfl | rfl <;> simp [doidOp, doidMeaning, structured, conjM, gc]
  · -- symmetric and Hermitian
    obtain ⟨hr1, hr2⟩ := h.sq_dims hg
    have hsq := h.square hg
    have key : ∃ (c hc : Bool) (f' : Fill),
        (hc = true → t = .hermitian) ∧
        doidMeaning (if ta then transDoid (getDoid isReal t.code f.code op.code)
          else getDoid isReal t.code f.code op.code)
          = some (if hc then .hermitian else .symmetric, f', c, false) ∧
        (if ta then transDoid (getDoid isReal t.code f.code op.code)
          else getDoid isReal t.code f.code op.code) / 4 = (if hc then 2 else 1) ∧
        decide ((if ta then transDoid (getDoid isReal t.code f.code op.code)
          else getDoid isReal t.code f.code op.code) = 5 ∨
          (if ta then transDoid (getDoid isReal t.code f.code op.code)
          else getDoid isReal t.code f.code op.code) = 7 ∨
          (if ta then transDoid (getDoid isReal t.code f.code op.code)
          else getDoid isReal t.code f.code op.code) = 9 ∨
          (if ta then transDoid (getDoid isReal t.code f.code op.code)
          else getDoid isReal t.code f.code op.code) = 10) = c ∧
        (if ta && decide (t.code ≠ 0) then decide (f.code ≠ 0) else decide (f.code = 0))
          = decide (f'.code = 0) := by
      cases t
      · exact absurd rfl hg
      · cases isReal <;> cases ta <;> cases f <;> cases op <;>
          first
          | exact ⟨false, false, .lower, by decide⟩ | exact ⟨false, false, .upper, by decide⟩
          | exact ⟨true, false, .lower, by decide⟩ | exact ⟨true, false, .upper, by decide⟩
      · cases isReal <;> cases ta <;> cases f <;> cases op <;>
          first
          | exact ⟨false, false, .lower, by decide⟩ | exact ⟨false, false, .upper, by decide⟩
          | exact ⟨true, false, .lower, by decide⟩ | exact ⟨true, false, .upper, by decide⟩
          | exact ⟨false, true, .lower, by decide⟩ | exact ⟨false, true, .upper, by decide⟩
          | exact ⟨true, true, .lower, by decide⟩ | exact ⟨true, true, .upper, by decide⟩
      · exact absurd rfl ht
    obtain ⟨c, hc, f', k0, k1, k2, k3, k4⟩ := key
    have hdim : (if op.code = 111 then (A.raw ta).um else (A.raw ta).un) = (A.m : Int) := by
      cases ta <;> cases op <;> simp [Op.code, RawMat.um, RawMat.un, Csr.raw, hsq]
    have hun : (A.raw ta).un = (A.m : Int) := by
      cases ta <;> simp [RawMat.un, Csr.raw, hsq]
    generalize (if ta then transDoid (getDoid isReal t.code f.code op.code)
          else getDoid isReal t.code f.code op.code) = e at hm k1 k2 k3
    obtain ⟨C1, C2, e1, e2, h2⟩ := mmSym_ok (alpha := alpha) (beta := beta) (col := col) (n := n) (ldb := ldb)
      (ldc := ldc) (B := B) (C := C) (lower := decide (f'.code = 0)) (diag := D.code)
      (a := (mmCallOf alpha beta B n ldb ldc col).args c (A.m : Int) A.arrs) (cjIf c) (cjIf hc) hA hsq.symm
      ⟨by unfold MmCall.args mmCallOf; dsimp only; rw [cjIf_fun], rfl, rfl, rfl, rfl, rfl, rfl, rfl, rfl, rfl, rfl⟩
      (by rw [← hr1]; exact h.leadC) (by rw [← hr2]; exact h.inB) (by rw [← hr1]; exact h.inC)
    refine ⟨C2, ?_, ?_⟩
    · unfold mmDirect
      dsimp only
      have k4' : (if (A.raw ta).isT && decide (t.code ≠ 0) then decide (f.code ≠ 0)
        else decide (f.code = 0)) = decide (f'.code = 0) := k4
      rw [k3, hdim, hun, k4']
      have e1' : scaleDense (mmCallOf alpha beta B n ldb ldc col).col A.m
        (mmCallOf alpha beta B n ldb ldc col).n (mmCallOf alpha beta B n ldb ldc col).ldc
        (mmCallOf alpha beta B n ldb ldc col).beta C = some C1 := e1
      have e2' : mmSym (mmCallOf alpha beta B n ldb ldc col).col (⇑(cjIf hc)) (decide (f'.code = 0)) D.code
        ((mmCallOf alpha beta B n ldb ldc col).args c (A.m : Int)
          ⟨A.base, (A.raw ta).ptr, (A.raw ta).ind, (A.raw ta).val⟩) C1 = some C2 := e2
      cases hc
      · simp only [Bool.false_eq_true, if_false] at k2
        rw [if_pos (by omega)]
        have : (id : R → R) = ⇑(cjIf (R := R) false) := rfl
        rw [this, e1', Option.bind_some, e2']
        rfl
      · simp only [if_true] at k2
        rw [if_neg (by omega), if_pos (by omega)]
        have : (mmCallOf alpha beta B n ldb ldc col).cj = ⇑(cjIf (R := R) true) := rfl
        rw [this, e1', Option.bind_some, e2']
        rfl
    · rw [hr1, hr2]
      refine h2.congr fun i l _ _ => ?_
      rw [symMat_eq c hc f' D A i l, ← hm, doidOp_eq D e A.mat k1]

/-! ### copies -/

omit [CommRing R] [StarRing R] [DecidableEq R] in
theorem findCopy_spec {req : Nat} {L : List (MCopy R)} {r} (h : findCopy req L = some r) :
    L = r.1 ++ r.2.1 :: r.2.2 ∧ r.2.1.doid = req := by
  induction L generalizing r with
  | nil => simp [findCopy] at h
  | cons c cs ih =>
    unfold findCopy at h
    split at h
    · rename_i hc
      obtain rfl := Option.some.inj h
      exact ⟨rfl, hc⟩
    · obtain ⟨r', h1, rfl⟩ := Option.map_eq_some_iff.1 h
      obtain ⟨g1, g2⟩ := ih h1
      exact ⟨by rw [g1]; rfl, g2⟩

/-- the user's arrays are a copy of kind `gn` or `gt` -/
theorem copy0_ok (hA : A.WF) (ta : Bool) :
    CopyOk (userMat ta A) (userRows ta A) (userCols ta A) (A.raw ta).copy0 := by
  have hd : (A.raw ta).copy0.doid = if ta then 2 else 0 := by cases ta <;> rfl
  have hcsr : (A.raw ta).copy0.csr (userRows ta A) (userCols ta A) = A := by
    cases ta <;> rfl
  refine ⟨by rw [hd]; split <;> omega, by rw [hcsr]; rfl, by rw [hcsr]; exact hA, ?_, ?_⟩
  · rw [hcsr]
    refine ⟨.nonUnit, rfl, fun i j _ _ => ?_⟩
    rw [hd]
    cases ta <;> simp [doidOp, doidMeaning, structured, userMat, transM]
  · rw [hd]
    intro h
    split at h <;> omega

/-- the copies held by a handle, after the user's arrays, are copies of the user's matrix -/
def CopiesOk (ta : Bool) (A : Csr R) (L : List (MCopy R)) : Prop :=
  ∀ c ∈ L, CopyOk (userMat ta A) (userRows ta A) (userCols ta A) c

/-- using a copy -/
theorem mmUseCopy_ok (hk : ker.Ok) (ht : t ≠ .triangular)
    (h : MmOk w tm col ta op t A B C n ldb ldc) (hreal : isReal = true → ∀ x : R, star x = x)
    (hherm : t = .hermitian → RealDiag A.mat) {pre post : List (MCopy R)} {x : MCopy R}
    (hx : CopyOk (userMat ta A) (userRows ta A) (userCols ta A) x)
    (hd : x.doid = getDoid isReal t.code f.code op.code) :
    ∃ C' x', mmUseCopy w tm ker (mmCallOf alpha beta B n ldb ldc col) (A.raw ta)
        ⟨t.code, f.code, D.code, A.base⟩ pre x post C = some (.success, C', pre ++ x' :: post) ∧
      (t = .general → x' = x) ∧
      CopyOk (userMat ta A) (userRows ta A) (userCols ta A) x' ∧
      IsMm col alpha beta (operator t f D op (userMat ta A)) (opRows op ta A) (opCols op ta A)
        n ldb ldc B C C' := by
  have hlt := getDoid_lt isReal t f op ht
  have hherm' : t = .hermitian → RealDiag (userMat ta A) := by
    intro h i
    have := hherm h i
    cases ta <;> exact this
  have hmean := C02_getDoid_meaning isReal t f op D (userMat ta A) hreal hherm'
  -- the dimensions of the arrays
  have hdims : ∀ y : MCopy R, y.doid = getDoid isReal t.code f.code op.code →
      (y.csr (userRows ta A) (userCols ta A)).m = opRows op ta A ∧
      (y.csr (userRows ta A) (userCols ta A)).n = opCols op ta A := by
    intro y hy
    by_cases hg : t = .general
    · subst hg
      have := lookup_kind isReal ta f op
      simp only [MCopy.csr, hy, this]
      unfold opRows opCols
      cases op <;> simp
    · have hsq := h.square hg
      have hrc : userRows ta A = userCols ta A := by
        cases ta <;> simp [userRows, userCols, hsq]
      simp only [MCopy.csr]
      unfold opRows opCols
      rw [hrc]
      simp
  -- the kernel on a copy with the right diagonal
  have go : ∀ y : MCopy R, CopyOk (userMat ta A) (userRows ta A) (userCols ta A) y →
      y.doid = getDoid isReal t.code f.code op.code → (t = .general ∨ y.mtxDiag = D.code) →
      ∃ C', mmKernel w tm ker col ((mmCallOf alpha beta B n ldb ldc col).args false y.m
          ⟨y.base, y.ptr, y.ind, y.val⟩) C = some C' ∧
        IsMm col alpha beta (operator t f D op (userMat ta A)) (opRows op ta A) (opCols op ta A)
        n ldb ldc B C C' := by
    intro y hy hyd hyD
    obtain ⟨r1, r2⟩ := hdims y hyd
    obtain ⟨C', e2, h2⟩ := kernel_call (alpha := alpha) (beta := beta) (ker := ker) (n := n)
        (ldb := ldb) (ldc := ldc) (B := B) (C := C) (col := col) hk
        (y.csr (userRows ta A) (userCols ta A)) hy.wf
        false (by rw [r1]; exact h.team) h.ncols (by rw [r1]; exact h.leadC)
        (by rw [r2]; exact h.inB) (by rw [r1]; exact h.inC) ⟨y.base, y.ptr, y.ind, y.val⟩ rfl y.m hy.rows
    refine ⟨C', e2, ?_⟩
    rw [r1, r2] at h2
    refine h2.congr fun i l hi hl => ?_
    obtain ⟨D0, g1, g2⟩ := hy.elems
    simp only [Bool.false_eq_true, if_false]
    rw [g2 i l (by rw [r1]; exact hi) (by rw [r2]; exact hl), hyd, ← hmean]
    rcases hyD with rfl | hyD
    · have hop : operator .general f D op (userMat ta A) = operator .general f D0 op (userMat ta A) := rfl
      rw [hmean, hop, C02_getDoid_meaning isReal .general f op D0 (userMat ta A) hreal (by simp)]
    · have : D0 = D := by
        rw [g1] at hyD
        cases D0 <;> cases D <;> first | rfl | exact absurd hyD (by decide)
      rw [this]
  have hum : (A.raw ta).um = (userRows ta A : Int) := by cases ta <;> rfl
  unfold mmUseCopy
  dsimp only
  by_cases hc : D.code ≠ x.mtxDiag ∧ t.code ≠ 0
  · rw [if_pos hc]
    have hg : t ≠ .general := by
      rintro rfl
      exact hc.2 rfl
    obtain ⟨x', e1, d1, d2, hx', _⟩ := setMatDiag_ok hx (by
      rw [hd]
      have := hlt.2.1.not.1 hg
      omega) D
    rw [hum, e1, Option.bind_some]
    obtain ⟨C', e2, h2⟩ := go x' hx' (by rw [d1, hd]) (.inr d2)
    refine ⟨C', x', ?_, fun h => absurd h hg, hx', h2⟩
    dsimp only
    rw [if_neg (by simp)]
    rw [show (mmCallOf alpha beta B n ldb ldc col).col = col from rfl, e2]
    rfl
  · rw [if_neg hc]
    obtain ⟨C', e2, h2⟩ := go x hx hd (by
      by_cases hg : t = .general
      · exact .inl hg
      · right
        have : t.code ≠ 0 := by cases t <;> first | exact absurd rfl hg | decide
        by_contra hne
        exact hc ⟨fun h => hne h.symm, this⟩)
    refine ⟨C', x, ?_, fun _ => rfl, hx, h2⟩
    rw [show (mmCallOf alpha beta B n ldb ldc col).col = col from rfl, e2]
    rfl

/-! ### the whole call -/

/-- scaling is the product with `alpha = 0` -/
theorem scaleDense_isMm (col : Bool) (M : Mat R) {m k n ldb ldc : Nat} {B C : List R}
    (hld : (if col then m else n) ≤ ldc)
    (hC : ∀ i j, i < m → j < n → denseOff col ldc i j < C.length) :
    ∃ C', scaleDense col m n ldc beta C = some C' ∧ IsMm col 0 beta M m k n ldb ldc B C C' := by
  obtain ⟨C', e, h⟩ := scaleDense_ok (beta := beta) hld hC
  exact ⟨C', e, isMm_of_done hld hC h (fun i j v _ _ => by ring)⟩

theorem fits_of {w a b : Nat} (hw : 2 ≤ w) (ha : 0 < a) (hb : 0 < b) (h : (a : Int) * b ≤ intMax w) :
    prodOvf w a b = false := by
  have hp := pow_pos' w
  have h1 : (a : Int) ≤ a * b := by nlinarith
  have h2 : (b : Int) ≤ a * b := by nlinarith
  simp only [intMax] at h
  refine prodOvf_false hw ?_ ?_ (by omega) (by omega) ?_ <;> unfold Representable <;>
    constructor <;> nlinarith

theorem lead_ok {x ld : Nat} (h : x ≤ ld) (h0 : 0 < ld) :
    ¬ (ld : Int) < (if 1 ≥ (x : Int) then (1 : Int) else (x : Int)) := by
  split <;> omega

/-- **C31.**  For a general, symmetric or Hermitian descriptor, any operation, order, stored
orientation (CSR or CSC arrays), diagonal type and fill mode, every kernel of the dispatch table and
any schedule of any number of threads, and whatever correct internal copies the handle holds: if the
leading dimensions and sizes are valid, the call succeeds, C becomes
`alpha * op(A) * B + beta * C` with the operator the descriptor describes, nothing else in C's array
changes, and the handle still holds correct copies. -/
theorem C31_csrmm (hw : 2 ≤ w) (hk : ker.Ok) (g : Garb R) (ht : t ≠ .triangular)
    (h : MmOk w tm col ta op t A B C n ldb ldc) (hreal : isReal = true → ∀ x : R, star x = x)
    (hherm : t = .hermitian → RealDiag A.mat) (copies : List (MCopy R)) (hcp : CopiesOk ta A copies)
    (alpha beta : R) :
    ∃ C' copies', csrmm w isReal tm ker g star op.code alpha (some (A.raw ta)) copies
        (some ⟨t.code, f.code, D.code, A.base⟩) (if col then 1 else 0) (some B) n ldb beta (some C) ldc
        = some (.success, some C', copies') ∧
      IsMm col alpha beta (operator t f D op (userMat ta A)) (opRows op ta A) (opCols op ta A)
        n ldb ldc B C C' ∧
      copies'.length = copies.length ∧ CopiesOk ta A copies' := by
  have u1 : (A.raw ta).um = (userRows ta A : Int) := by cases ta <;> rfl
  have u2 : (A.raw ta).un = (userCols ta A : Int) := by cases ta <;> rfl
  have hn := h.ncols
  have hm0 : 0 < userRows ta A ∧ 0 < userCols ta A := by
    have := h.rows
    have := h.cols
    cases ta <;> simp [userRows, userCols] <;> omega
  have r1 : (if op.code = 111 then (userRows ta A : Int) else userCols ta A) = (opRows op ta A : Int) := by
    unfold opRows; cases op <;> simp [Op.code]
  have r2 : (if op.code = 111 then (userCols ta A : Int) else userRows ta A) = (opCols op ta A : Int) := by
    unfold opCols; cases op <;> simp [Op.code]
  have hor : 0 < opRows op ta A := by unfold opRows; split <;> omega
  have hoc : 0 < opCols op ta A := by unfold opCols; split <;> omega
  have hlB := h.leadB
  have hlC := h.leadC
  have hb0 : 0 < ldb := by cases col <;> simp at hlB <;> omega
  have hc0 : 0 < ldc := by cases col <;> simp at hlC <;> omega
  unfold csrmm
  dsimp only
  rw [u1, u2]
  rw [if_neg (by simp [Csr.raw]), if_neg (by cases op <;> decide),
    if_neg (by cases t <;> simp [MType.code] at ht ⊢), if_neg (by
      rintro ⟨h1, h2⟩
      have hg : t ≠ .general := by rintro rfl; simp [MType.code] at h1
      have := h.square hg
      apply h2
      cases ta <;> simp [userRows, userCols, this]),
    if_neg (by cases col <;> simp), if_neg (by simp [Csr.raw]), if_neg (by omega), if_neg (by omega)]
  by_cases hq : alpha = 0 ∧ beta = 1
  · rw [if_pos hq]
    obtain ⟨rfl, rfl⟩ := hq
    refine ⟨C, copies, rfl, ⟨rfl, ?_, fun _ _ => rfl⟩, rfl, hcp⟩
    intro i j hi hj
    rw [zero_mul, zero_add, one_mul, List.getElem?_eq_getElem (h.inC i j hi hj)]
    simp [h.inC i j hi hj]
  · rw [if_neg hq]
    have hcol : decide ((if col then (1 : Int) else 0) = 1) = col := by cases col <;> decide
    rw [hcol]
    unfold mmRun
    dsimp only
    rw [u1, u2, r1, r2]
    have q1 : (if op.code = 111 then (if col then (userCols ta A : Int) else n)
        else (if col then (userRows ta A : Int) else n)) = ((if col then opCols op ta A else n : Nat) : Int) := by
      cases col
      · simp
      · simpa using r2
    have q2 : (if op.code = 111 then (if col then (userRows ta A : Int) else n)
        else (if col then (userCols ta A : Int) else n)) = ((if col then opRows op ta A else n : Nat) : Int) := by
      cases col
      · simp
      · simpa using r1
    have q3 : (if col then (n : Int) else opRows op ta A) = ((if col then n else opRows op ta A : Nat) : Int) := by
      cases col <;> rfl
    have q4 : (if col then (n : Int) else opCols op ta A) = ((if col then n else opCols op ta A : Nat) : Int) := by
      cases col <;> rfl
    rw [q1, q2, q3, q4]
    rw [if_neg (lead_ok hlB hb0), if_neg (lead_ok hlC hc0), if_neg (by
      rw [fits_of hw (by split <;> omega) hc0 h.fitC, fits_of hw (by split <;> omega) hb0 h.fitB]
      simp)]
    by_cases ha : alpha = 0
    · rw [if_pos ha]
      subst ha
      obtain ⟨C', e, r⟩ := scaleDense_isMm (beta := beta) (k := opCols op ta A) (ldb := ldb) (B := B) (C := C) col
        (operator t f D op (userMat ta A)) hlC h.inC
      exact ⟨C', copies, by rw [e]; rfl, r, rfl, hcp⟩
    · rw [if_neg ha]
      cases hfind : findCopy (getDoid isReal t.code f.code op.code) ((A.raw ta).copy0 :: copies) with
      | none =>
        obtain ⟨C', e, r⟩ := mmDirect_ok (alpha := alpha) (beta := beta) (f := f) (D := D) hk g ht h hreal hherm
        refine ⟨C', copies, ?_, r, rfl, hcp⟩
        dsimp only
        have e' : mmDirect w tm ker g ⟨star, alpha, beta, B, n, ldb, ldc, col⟩ (A.raw ta)
          ⟨t.code, f.code, D.code, A.base⟩ op.code
          (if (A.raw ta).isT = true then transDoid (getDoid isReal t.code f.code op.code)
          else getDoid isReal t.code f.code op.code) C = some (.success, C') := e
        rw [e']
        rfl
      | some r =>
        obtain ⟨pre, x, post⟩ := r
        obtain ⟨g1, g2⟩ := findCopy_spec hfind
        dsimp only at g1 g2
        have hall : ∀ c ∈ (A.raw ta).copy0 :: copies,
            CopyOk (userMat ta A) (userRows ta A) (userCols ta A) c := by
          intro c hc
          rcases List.mem_cons.1 hc with rfl | hc
          · exact copy0_ok h.wf ta
          · exact hcp c hc
        rw [g1] at hall
        obtain ⟨C', x', e, hgen, hx', hr⟩ := mmUseCopy_ok (alpha := alpha) (beta := beta) (f := f) (D := D)
          (pre := pre) (post := post) hk ht h hreal hherm
          (hall x (by simp)) g2
        refine ⟨C', (pre ++ x' :: post).tail, ?_, hr, ?_, ?_⟩
        · dsimp only
          have e' : mmUseCopy w tm ker ⟨star, alpha, beta, B, n, ldb, ldc, col⟩ (A.raw ta)
            ⟨t.code, f.code, D.code, A.base⟩ pre x post C = some (.success, C', pre ++ x' :: post) := e
          rw [e']
          rfl
        · have := congrArg List.length g1
          simp at this ⊢
          omega
        · intro c hc
          have hc' := List.mem_of_mem_tail hc
          rcases List.mem_append.1 hc' with hc' | hc'
          · exact hall c (by simp [hc'])
          · rcases List.mem_cons.1 hc' with rfl | hc'
            · exact hx'
            · exact hall c (by simp [hc'])

/-- An empty result or an empty inner dimension: success, nothing is written — whatever `beta` is. -/
theorem C31_empty (w : Nat) (isReal : Bool) (tm : MmTeam) (ker : MmKernel R) (g : Garb R) (A : Csr R)
    (ta : Bool) (op : Op) (t : MType) (f : Fill) (D : Diag) (ht : t ≠ .triangular)
    (hsq : t ≠ .general → A.m = A.n) (col : Bool) (n : Nat) (h0 : A.m = 0 ∨ A.n = 0 ∨ n = 0)
    (copies : List (MCopy R)) (alpha beta : R) (B C : List R) (ldb ldc : Int) :
    csrmm w isReal tm ker g star op.code alpha (some (A.raw ta)) copies
        (some ⟨t.code, f.code, D.code, A.base⟩) (if col then 1 else 0) (some B) n ldb beta (some C) ldc
      = some (.success, some C, copies) := by
  have u1 : (A.raw ta).um = (userRows ta A : Int) := by cases ta <;> rfl
  have u2 : (A.raw ta).un = (userCols ta A : Int) := by cases ta <;> rfl
  unfold csrmm
  dsimp only
  rw [u1, u2]
  rw [if_neg (by simp [Csr.raw]), if_neg (by cases op <;> decide),
    if_neg (by cases t <;> simp [MType.code] at ht ⊢), if_neg (by
      rintro ⟨h1, h2⟩
      have hg : t ≠ .general := by rintro rfl; simp [MType.code] at h1
      have := hsq hg
      apply h2
      cases ta <;> simp [userRows, userCols, this]),
    if_neg (by cases col <;> simp), if_neg (by simp [Csr.raw]), if_neg (by omega), if_pos (by
      cases ta <;> simp [userRows, userCols] <;> omega)]

/-- A leading dimension that is too small for the layout, or a dense array whose size does not fit
the integer type: `invalid_size`, and neither C nor the handle changes. -/
theorem C31_invalid_size (hw : 2 ≤ w) (isReal : Bool) (tm : MmTeam) (ker : MmKernel R) (g : Garb R) (A : Csr R)
    (ta : Bool) (op : Op) (t : MType) (f : Fill) (D : Diag) (ht : t ≠ .triangular)
    (hsq : t ≠ .general → A.m = A.n) (col : Bool) (hm : 0 < A.m) (hn : 0 < A.n) (hn0 : 0 < n)
    (hrep : (A.m : Int) ≤ intMax w ∧ (A.n : Int) ≤ intMax w ∧ (n : Int) ≤ intMax w ∧
      (ldb : Int) ≤ intMax w ∧ (ldc : Int) ≤ intMax w)
    (hbad : ldb < (if col then opCols op ta A else n) ∨ ldc < (if col then opRows op ta A else n) ∨
      intMax w < ((if col then n else opCols op ta A : Nat) : Int) * ldb ∨
      intMax w < ((if col then n else opRows op ta A : Nat) : Int) * ldc)
    (copies : List (MCopy R)) (alpha beta : R) (hab : ¬ (alpha = 0 ∧ beta = 1)) (B C : List R) :
    csrmm w isReal tm ker g star op.code alpha (some (A.raw ta)) copies
        (some ⟨t.code, f.code, D.code, A.base⟩) (if col then 1 else 0) (some B) n ldb beta (some C) ldc
      = some (.invalidSize, some C, copies) := by
  have u1 : (A.raw ta).um = (userRows ta A : Int) := by cases ta <;> rfl
  have u2 : (A.raw ta).un = (userCols ta A : Int) := by cases ta <;> rfl
  have hm0 : 0 < userRows ta A ∧ 0 < userCols ta A := by
    cases ta <;> simp [userRows, userCols] <;> omega
  have hmr : (userRows ta A : Int) ≤ intMax w ∧ (userCols ta A : Int) ≤ intMax w := by
    cases ta <;> simp [userRows, userCols] <;> omega
  have r1 : (if op.code = 111 then (userRows ta A : Int) else userCols ta A) = (opRows op ta A : Int) := by
    unfold opRows; cases op <;> simp [Op.code]
  have r2 : (if op.code = 111 then (userCols ta A : Int) else userRows ta A) = (opCols op ta A : Int) := by
    unfold opCols; cases op <;> simp [Op.code]
  have hor : 0 < opRows op ta A ∧ (opRows op ta A : Int) ≤ intMax w := by
    unfold opRows; split <;> omega
  have hoc : 0 < opCols op ta A ∧ (opCols op ta A : Int) ≤ intMax w := by
    unfold opCols; split <;> omega
  unfold csrmm
  dsimp only
  rw [u1, u2]
  rw [if_neg (by simp [Csr.raw]), if_neg (by cases op <;> decide),
    if_neg (by cases t <;> simp [MType.code] at ht ⊢), if_neg (by
      rintro ⟨h1, h2⟩
      have hg : t ≠ .general := by rintro rfl; simp [MType.code] at h1
      have := hsq hg
      apply h2
      cases ta <;> simp [userRows, userCols, this]),
    if_neg (by cases col <;> simp), if_neg (by simp [Csr.raw]), if_neg (by omega), if_neg (by omega),
    if_neg hab]
  have hcol : decide ((if col then (1 : Int) else 0) = 1) = col := by cases col <;> decide
  rw [hcol]
  unfold mmRun
  dsimp only
  rw [u1, u2, r1, r2]
  have q1 : (if op.code = 111 then (if col then (userCols ta A : Int) else n)
      else (if col then (userRows ta A : Int) else n)) = ((if col then opCols op ta A else n : Nat) : Int) := by
    cases col
    · simp
    · simpa using r2
  have q2 : (if op.code = 111 then (if col then (userRows ta A : Int) else n)
      else (if col then (userCols ta A : Int) else n)) = ((if col then opRows op ta A else n : Nat) : Int) := by
    cases col
    · simp
    · simpa using r1
  have q3 : (if col then (n : Int) else opRows op ta A) = ((if col then n else opRows op ta A : Nat) : Int) := by
    cases col <;> rfl
  have q4 : (if col then (n : Int) else opCols op ta A) = ((if col then n else opCols op ta A : Nat) : Int) := by
    cases col <;> rfl
  have hf1 : ((if col then n else opRows op ta A : Nat) : Int) ≤ intMax w := by split <;> omega
  have hf2 : ((if col then n else opCols op ta A : Nat) : Int) ≤ intMax w := by split <;> omega
  have ovf : ∀ a b : Nat, (a : Int) ≤ intMax w → (b : Int) ≤ intMax w → intMax w < (a : Int) * b →
      prodOvf w a b = true := by
    intro a b ha hb hab
    have hp := pow_pos' w
    simp only [intMax] at ha hb hab
    obtain ⟨r, e1, e2⟩ := C37_product_exact w hw a b (by unfold Representable; omega)
      (by unfold Representable; omega) (by omega) (by omega)
    unfold prodOvf
    rw [e1]
    exact e2.2 (fun h => by unfold Representable at h; omega)
  rw [q1, q2, q3, q4]
  generalize (if col then opCols op ta A else n) = x1 at hbad
  generalize (if col then opRows op ta A else n) = x2 at hbad
  generalize (if col then n else opRows op ta A) = x3 at hbad hf1
  generalize (if col then n else opCols op ta A) = x4 at hbad hf2
  by_cases c1 : (ldb : Int) < (if 1 ≥ (x1 : Int) then (1 : Int) else (x1 : Int))
  · rw [if_pos c1]; rfl
  · rw [if_neg c1]
    by_cases c2 : (ldc : Int) < (if 1 ≥ (x2 : Int) then (1 : Int) else (x2 : Int))
    · rw [if_pos c2]; rfl
    · rw [if_neg c2, if_pos]
      · rfl
      · rcases hbad with h | h | h | h
        · exact absurd (show (ldb : Int) < (if 1 ≥ (x1 : Int) then (1 : Int) else (x1 : Int)) by
            split <;> omega) c1
        · exact absurd (show (ldc : Int) < (if 1 ≥ (x2 : Int) then (1 : Int) else (x2 : Int)) by
            split <;> omega) c2
        · exact .inr (ovf _ _ hf2 hrep.2.2.2.1 h)
        · exact .inl (ovf _ _ hf1 hrep.2.2.2.2 h)

/-- F24 also holds here: with columns (rows, in row order) × threads above the range of the integer
type the reference kernels are undefined. -/
theorem C31_thread_overflow {w : Nat} {tm : MmTeam} (a : MmIn R) (C : List R) (n : Nat) (hn : a.n = n)
    (hT : 0 < tm.T) (hord : tm.ord.Perm (List.range tm.T)) (hov : intMax w < (n : Int) * tm.T) :
    mmKernel w tm .ref true a C = none := by
  unfold mmKernel mmColRef
  rw [hn]
  exact team_overflow hT hov (hord.mem_iff.mpr (List.mem_range.mpr (by omega)))

/-! ### concrete cases -/
section witness

/-- a 2×3 matrix, one-based -/
def mm31A : Csr Rat := ⟨2, 3, 1, [1, 3, 4], [1, 3, 2], [1, 2, 3]⟩
/-- two threads, run in reverse order -/
def mm31T : MmTeam := ⟨2, [1, 0]⟩

/-- the hypotheses of C31 for `op = transpose`, column order -/
example : MmOk 32 mm31T true false .trans .general mm31A [1, 2, 0, 3, 4, 0] (List.replicate 8 1) 2 3 4 where
  wf := by decide +kernel
  square := fun h => absurd rfl h
  rows := by decide
  cols := by decide
  ncols := by decide
  leadB := by decide
  leadC := by decide
  fitB := by decide +kernel
  fitC := by decide +kernel
  team := ⟨by decide, by decide +kernel, by decide⟩
  inB := by
    intro l j hl hj
    have hl' : l < 2 := hl
    interval_cases l <;> interval_cases j <;> decide
  inC := by
    intro i j hi hj
    have hi' : i < 3 := hi
    interval_cases i <;> interval_cases j <;> decide

example : (MmKernel.kt 4 (vecLanes 4 hsum4l) : MmKernel Rat).Ok := vecLanes_ok (by omega) hsum4l_sum

/-- … and the result: Aᵀ·[1 3; 2 4] + 10·C, the padding of C unchanged -/
example : (csrmm 32 true mm31T .ref ⟨fun _ => 0, fun _ => 0, fun _ => 0⟩ star 112 1 (some (mm31A.raw false)) []
    (some ⟨0, 0, 0, 1⟩) 1 (some [1, 2, 0, 3, 4, 0]) 2 3 10 (some (List.replicate 8 1)) 4).map
      (fun r => (r.1, r.2.1)) = some (.success, some [11, 16, 12, 1, 13, 22, 16, 1]) := by
  decide +kernel

/-- a symmetric matrix given by its lower triangle, [2 5; 5 7] -/
def mm31S : Csr Rat := ⟨2, 2, 0, [0, 1, 3], [0, 0, 1], [2, 5, 7]⟩
/-- its expanded copy -/
def mm31C : MCopy Rat := ⟨4, 0, 2, 2, 0, [0, 2, 4], [0, 1, 0, 1], [2, 5, 5, 7], some [0, 3], some [2, 7]⟩

/-- the copy is a correct one -/
theorem mm31_copies : CopiesOk false mm31S [mm31C] := by
  intro c hc
  obtain rfl := List.mem_singleton.1 hc
  refine ⟨by decide, rfl, by decide +kernel, ⟨.nonUnit, rfl, ?_⟩, fun _ => ⟨rfl, [0, 3], [2, 7], rfl, rfl, ?_⟩⟩
  · intro i j hi hj
    have hi' : i < 2 := hi
    have hj' : j < 2 := hj
    interval_cases i <;> interval_cases j <;> decide +kernel
  · intro i hi
    have hi' : i < 2 := hi
    interval_cases i
    · refine ⟨0, by decide, ⟨by decide, by decide, by decide, ?_⟩, by decide +kernel⟩
      intro q h1 h2
      have : q < 2 := by
        have h3 : (q : Int) < 2 := h2
        omega
      interval_cases q <;> decide
    · refine ⟨3, by decide, ⟨by decide, by decide, by decide, ?_⟩, by decide +kernel⟩
      intro q h1 h2
      have : 2 ≤ q ∧ q < 4 := by
        have h3 : (q : Int) < 4 := h2
        have h4 : (2 : Int) ≤ q := h1
        omega
      obtain ⟨g1, g2⟩ := this
      interval_cases q <;> decide

/-- with and without the copy, unit diagonal requested -/
example :
    (csrmm 32 true mm31T .ref ⟨fun _ => 0, fun _ => 0, fun _ => 0⟩ star 111 1 (some (mm31S.raw false)) []
      (some ⟨1, 0, 1, 0⟩) 0 (some [1, 10]) 1 1 0 (some [3, 4]) 1).map (fun r => (r.1, r.2.1))
      = some (.success, some [51, 15]) := by decide +kernel
example :
    (csrmm 32 true mm31T .ref ⟨fun _ => 0, fun _ => 0, fun _ => 0⟩ star 111 1 (some (mm31S.raw false))
      [mm31C] (some ⟨1, 0, 1, 0⟩) 0 (some [1, 10]) 1 1 0 (some [3, 4]) 1).map
        (fun r => (r.1, r.2.1, r.2.2.map (·.val)))
      = some (.success, some [51, 15], [[1, 5, 5, 1]]) := by decide +kernel

/-- F26: with an empty inner dimension the product is zero, so C must become `beta * C`; the call
reports success and leaves C as it was. -/
theorem C31_zero_inner_counterexample :
    (csrmm 32 true mm31T .ref ⟨fun _ => 0, fun _ => 0, fun _ => 0⟩ star 111 1
      (some ((⟨2, 0, 0, [0, 0, 0], [], []⟩ : Csr Rat).raw false)) [] (some ⟨0, 0, 0, 0⟩) 1 (some []) 1 1 0
      (some [5, 7]) 2).map (fun r => (r.1, r.2.1)) = some (.success, some [5, 7]) ∧
    ¬ IsMm true (1 : Rat) 0 (Csr.mat ⟨2, 0, 0, [0, 0, 0], [], []⟩) 2 0 1 1 2 [] [5, 7] [5, 7] := by
  refine ⟨by decide +kernel, fun h => ?_⟩
  have := h.cells 0 0 (by omega) (by omega)
  revert this
  decide +kernel

end witness

end Verif
