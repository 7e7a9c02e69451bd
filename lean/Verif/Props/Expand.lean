/-
C43: the copies made for hints — the transposed and conjugate-transposed copies of a general matrix
and the full copies of symmetric and Hermitian matrices — hold the elements of the operator they stand
for; switching the diagonal type back and forth restores them exactly; products computed after
`aoclsparse_optimize` equal those computed before.
-/
import Verif.Proofs.Expand3
import Verif.Props.Csrmm

namespace Verif
open Model Finset

variable {R : Type} [CommRing R] [StarRing R]

/-- fill mode seen by arrays holding the transpose -/
def effFill (ta : Bool) (f : Fill) : Fill := flipIf ta f

/-- what the identifiers of symmetric and Hermitian hints mean on the stored arrays -/
theorem full_meaning (isReal ta : Bool) (t : MType) (f : Fill) (op : Op) (ht : t = .symmetric ∨ t = .hermitian) :
    let d := if ta then transDoid (getDoid isReal t.code f.code op.code)
      else getDoid isReal t.code f.code op.code
    4 ≤ d ∧ d < 12 ∧ ∃ c : Bool, doidMeaning d
        = some (if 8 ≤ d then .hermitian else .symmetric, effFill ta f, c, false) ∧
      c = decide (if 8 ≤ d then d = 9 ∨ d = 10 else d = 5 ∨ d = 7) ∧ (8 ≤ d → t = .hermitian) ∧
      4 ≤ getDoid isReal t.code f.code op.code := by
  rcases ht with rfl | rfl <;> cases isReal <;> cases ta <;> cases f <;> cases op <;>
    exact ⟨by decide, by decide, by first | exact ⟨true, by decide⟩ | exact ⟨false, by decide⟩⟩

/-- the requests copies are made for, and what the transformation needs to know of the matrix: a
symmetric or Hermitian request needs a square matrix with at most one stored diagonal entry per row,
a Hermitian one a real diagonal -/
structure HintOk (isReal ta : Bool) (A : Csr R) (t : MType) (f : Fill) (op : Op) : Prop where
  square : t = .symmetric ∨ t = .hermitian → A.n = A.m
  one : t = .symmetric ∨ t = .hermitian → A.OneDiag
  real : t = .hermitian → RealDiag A.mat

variable {A : Csr R} {isReal ta : Bool} {t : MType} {f : Fill} {op : Op}

omit [StarRing R] in
theorem mkCsr_mat {m n : Nat} {rows : Nat → List (Int × R)} {i : Nat} (hi : i < m) (j : Nat) :
    (mkCsr m n 0 rows).mat i j = colSum (rows i) j := by
  rw [mat_eq_colSum, mkCsr_row hi]

/-- the full copy -/
theorem makeFull_ok (hA : A.WF) (h : HintOk isReal ta A t f op) (g : Garb R) (re : R → R)
    (hre : ∀ x, star x = x → re x = x) (hreal : isReal = true → ∀ x : R, star x = x)
    (ht : t = .symmetric ∨ t = .hermitian) :
    let d := if ta then transDoid (getDoid isReal t.code f.code op.code)
      else getDoid isReal t.code f.code op.code
    ∃ c, makeFull g star re (A.raw ta) (decide (8 ≤ d))
        (decide (if 8 ≤ d then d = 9 ∨ d = 10 else d = 5 ∨ d = 7)) (effFill ta f).code
        (getDoid isReal t.code f.code op.code) = some (.success, some c) ∧
      c.doid = getDoid isReal t.code f.code op.code ∧
      CopyOk (userMat ta A) (userRows ta A) (userCols ta A) c := by
  classical
  intro d
  obtain ⟨hd4, hd12, cb, hmean, hcb, hherm, hq4⟩ := full_meaning isReal ta t f op ht
  have hsq := h.square ht
  have hum : (A.raw ta).um = (A.m : Int) := by
    cases ta
    · rfl
    · show (A.n : Int) = A.m
      omega
  have hun : (A.raw ta).un = (A.m : Int) := by
    cases ta
    · show (A.n : Int) = A.m
      omega
    · rfl
  have hur : userRows ta A = A.m := by cases ta <;> simp [userRows, hsq]
  have huc : userCols ta A = A.m := by cases ta <;> simp [userCols, hsq]
  have hU : doidOp .nonUnit (getDoid isReal t.code f.code op.code) (userMat ta A) = doidOp .nonUnit d A.mat := by
    rw [eff_meaning isReal ta t f .nonUnit op A (by rcases ht with rfl | rfl <;> simp) hreal h.real]
    exact C02_getDoid_meaning isReal t f op .nonUnit (userMat ta A) hreal (by
      intro h' i
      have := h.real h' i
      cases ta <;> exact this)
  set hb : Bool := decide (8 ≤ d) with hhb
  set u : Bool := decide ((effFill ta f).code ≠ 0) with hu
  have hu' : (!u) = decide ((effFill ta f).code = 0) := by
    rw [hu]; simp
  have e1 : (if hb then (star : R → R) else id) = ⇑(cjIf (R := R) hb) := cjIf_fun hb
  set dg : Nat → R := fun i => lastDiag (if hb then re else id) i (A.row i) with hdg
  have hdgv : ∀ i, i < A.m → dg i = A.mat i i := by
    intro i hi
    have h1 := h.one ht i hi
    rw [hdg, mat_eq_colSum]
    dsimp only
    apply lastDiag_eq _ _ _ h1
    cases hb0 : hb
    · rfl
    · have : t = .hermitian := hherm (by rw [hhb] at hb0; simpa using hb0)
      exact hre _ (h.real this i)
  obtain ⟨x, ex, hX, hidg, hdv⟩ := convertGeneral_ok (hc := ⇑(cjIf (R := R) hb))
    (re := if hb then re else id) (u := u) hA hsq (d := dg) (fun i => rfl) g
  have hWF0 : (mkCsr A.m A.m 0 (expRows u (cjIf (R := R) hb) dg A)).WF :=
    mkCsr_wf (.inl rfl) (expRows_range hA hsq)
  have hp : x.ptr = (mkCsr A.m A.m 0 (expRows u (cjIf (R := R) hb) dg A)).ptr := by rw [← hX]
  have hi' : x.ind = (mkCsr A.m A.m 0 (expRows u (cjIf (R := R) hb) dg A)).ind := by rw [← hX]
  have hv : x.val = (mkCsr A.m A.m 0 (expRows u (cjIf (R := R) hb) dg A)).val := by rw [← hX]
  have hnnz : rd x.ptr (A.m : Int) = some (x.val.length : Int) := by
    have h0 := hWF0.rd_ptr (i := A.m) (le_refl _)
    rw [hp, h0, hv]
    have h2 := hWF0.val_len
    have h3 : (mkCsr A.m A.m 0 (expRows u (cjIf (R := R) hb) dg A)).p A.m
        = ((mkCsr A.m A.m 0 (expRows u (cjIf (R := R) hb) dg A)).val.length : Int) := by
      have h4 := hWF0.ptr_last
      have h5 : (mkCsr A.m A.m 0 (expRows u (cjIf (R := R) hb) dg A)).m = A.m := rfl
      have h6 : (mkCsr A.m A.m 0 (expRows u (cjIf (R := R) hb) dg A)).base = 0 := rfl
      rw [h5, h6] at h4
      rw [h2]
      omega
    rw [h3]
  have hrun : makeFull g star re (A.raw ta) hb
        (decide (if 8 ≤ d then d = 9 ∨ d = 10 else d = 5 ∨ d = 7)) (effFill ta f).code
        (getDoid isReal t.code f.code op.code)
      = some (.success, some ⟨getDoid isReal t.code f.code op.code, 0, A.m, A.m, 0, x.ptr, x.ind,
          x.val.map (cjIf cb), some x.idiag, some (x.diagVal.map (cjIf cb))⟩) := by
    unfold makeFull
    rw [if_neg (by rw [hum, hun]; simp), hum, hun, e1]
    simp only [Csr.raw]
    rw [ex]
    simp only [Option.bind_eq_bind, Option.bind_some]
    rw [hnnz]
    simp only [Option.bind_some]
    rw [← hcb, conjLoop_ok cb star x.val rfl, conjLoop_ok cb star x.diagVal (by rw [hdv.1])]
    simp only [Option.bind_some, cjIf_fun]
  refine ⟨_, hrun, rfl, ?_⟩
  set q := getDoid isReal t.code f.code op.code with hqd
  have hq12 : q < 12 := (getDoid_lt isReal t f op (by rcases ht with rfl | rfl <;> simp)).1
  have hkT : kindT q = false := by unfold kindT; simp; omega
  -- the arrays as a matrix
  have hcsr : (⟨q, 0, A.m, A.m, 0, x.ptr, x.ind, x.val.map (cjIf cb), some x.idiag,
        some (x.diagVal.map (cjIf cb))⟩ : MCopy R).csr (userRows ta A) (userCols ta A)
      = mkCsr A.m A.m 0 (fun i => (expRows u (cjIf (R := R) hb) dg A i).map fun e => (e.1, cjIf cb e.2)) := by
    rw [hur, huc]
    unfold Model.MCopy.csr
    simp only [hkT, hp, hi', hv, Bool.false_eq_true, if_false]
    unfold mkCsr
    simp only [offs_map, Csr.mk.injEq, true_and, List.map_map]
    rw [← List.map_flatMap, List.map_map, List.map_map]
    exact ⟨rfl, rfl⟩
  have hWF : (mkCsr A.m A.m 0 (fun i => (expRows u (cjIf (R := R) hb) dg A i).map
      fun e => (e.1, cjIf cb e.2))).WF := by
    refine mkCsr_wf (.inl rfl) ?_
    intro i hi e he
    rw [List.mem_map] at he
    obtain ⟨e', he', rfl⟩ := he
    exact expRows_range hA hsq i hi e' he'
  -- its elements
  have helem : ∀ i j, i < A.m → j < A.m →
      cjIf cb (colSum (expRows u (cjIf (R := R) hb) dg A i) j) = doidOp .nonUnit d A.mat i j := by
    intro i j hi hj
    rw [expRows_mat hA _ hi hj, hu', doidOp_eq .nonUnit d A.mat hmean]
    have hsym := symMat_eq cb hb (effFill ta f) .nonUnit A i j
    have hty : (if hb then MType.hermitian else .symmetric) = (if 8 ≤ d then .hermitian else .symmetric) := by
      rw [hhb]; simp
    rw [hty] at hsym
    rw [← hsym]
    unfold symMat
    rw [map_add, map_add]
    congr 1
    · congr 1
      by_cases hij : i = j
      · rw [if_pos hij, if_pos hij, hdgv i hi]
        rfl
      · rw [if_neg hij, if_neg hij, map_zero]
    · cases cb <;> cases hb <;> simp [cjIf_apply]
  refine ⟨hq12, ?_, by rw [hcsr]; exact hWF, ⟨.nonUnit, rfl, ?_⟩, ?_⟩
  · rw [hcsr]; rfl
  · rw [hcsr]
    intro i j hi hj
    have hi2 : i < A.m := hi
    rw [mkCsr_mat hi2, colSum_addHom, helem i j hi2 hj, ← hU]
  · intro _
    rw [hcsr, hur, huc]
    refine ⟨rfl, x.idiag, _, rfl, rfl, ?_⟩
    intro i hi
    refine ⟨_, hidg.rd_nat hi, ?_, ?_⟩
    · refine diagPos_of_row hWF hi
        (L1 := (bucket (evs u (cjIf (R := R) hb) dg A A.m) (3 * i)).map fun e => (e.1, cjIf cb e.2))
        (L2 := (bucket (evs u (cjIf (R := R) hb) dg A A.m) (3 * i + 2)).map fun e => (e.1, cjIf cb e.2))
        (v := cjIf cb (dg i)) ?_ ?_ ?_ ?_
      · rw [mkCsr_row hi]
        unfold expRows
        rw [List.map_append, List.map_cons]
      · intro e he
        rw [List.mem_map] at he
        obtain ⟨e', he', rfl⟩ := he
        exact (expRows_off hA hsq hi (.inl he')).2.2
      · intro e he
        rw [List.mem_map] at he
        obtain ⟨e', he', rfl⟩ := he
        exact (expRows_off hA hsq hi (.inr he')).2.2
      · rw [mkCsr_p (by omega), offs_map, offs_expRows (by omega), List.length_map, bucket_length,
          startK_succ]
        show _ = (0 : Int) + _ - 0 + _
        push_cast
        ring
    · have hm : (x.diagVal.map (cjIf (R := R) cb))[i]? = some (cjIf cb (dg i)) := by
        rw [List.getElem?_map, hdv.getElem? hi]
        rfl
      rw [rd_ofNat, hm, hU, ← helem i i hi hi, expRows_mat hA _ hi hi]
      simp [inTri]

/-- the transposed copy -/
theorem makeTrans_ok (hA : A.WF) (g : Garb R) (conj ta : Bool) (q : Nat)
    (hq : q < 4) (hk : kindT q = !ta)
    (hel : ∀ i j, doidOp .nonUnit q (userMat ta A) i j = if conj then star (A.mat j i) else A.mat j i) :
    ∃ c, makeTrans g star (A.raw ta) conj q = some (.success, some c) ∧ c.doid = q ∧
      CopyOk (userMat ta A) (userRows ta A) (userCols ta A) c := by
  obtain ⟨B, he, h1, h2, h3, hwf, hrow, hp⟩ := C05_csr2csc A hA 0 (.inl rfl)
    (alloc (A.n + 1) g.p) (alloc A.nnz g.i) (alloc A.nnz g.v) (by simp) (by simp) (by simp)
  have hnnz : B.nnz = A.nnz := by
    have h1 := hp.length_eq
    rw [List.length_map, Csr.triples, Csr.triples, List.length_map, List.length_map,
      Csr.entries_length hA, Csr.entries_length hwf] at h1
    exact h1
  have hrun : makeTrans g star (A.raw ta) conj q
      = some (.success, some ⟨q, 0, A.n, A.m, 0, B.ptr, B.ind, B.val.map (cjIf conj), none, none⟩) := by
    unfold makeTrans
    simp only [Csr.raw]
    rw [show ((A.n : Int) + 1).toNat = A.n + 1 by omega, Int.toNat_natCast, he]
    simp only [Option.bind_eq_bind, Option.bind_some]
    rw [conjLoop_ok conj star B.val (by rw [hwf.val_len, ← hnnz]; rfl)]
    simp only [Option.bind_some, cjIf_fun]
  refine ⟨_, hrun, rfl, ?_⟩
  have hcsr : (⟨q, 0, A.n, A.m, 0, B.ptr, B.ind, B.val.map (cjIf conj), none, none⟩ : MCopy R).csr
      (userRows ta A) (userCols ta A) = { B with val := B.val.map (cjIf conj) } := by
    unfold Model.MCopy.csr
    simp only [hk]
    cases ta <;> simp [userRows, userCols, h1, h2, h3]
  have hwf2 : ({ B with val := B.val.map (cjIf conj) } : Csr R).WF :=
    ⟨hwf.base01, hwf.ptr_len, hwf.ptr_first, hwf.ptr_mono, hwf.ptr_last, by
      rw [List.length_map]; exact hwf.val_len, hwf.ind_range⟩
  have hrow2 : ∀ i, i < B.m → ({ B with val := B.val.map (cjIf conj) } : Csr R).row i
      = (B.row i).map fun e => (e.1, cjIf conj e.2) := by
    intro i hi
    apply List.ext_getElem?
    intro s
    have l1 := Csr.row_length hwf hi
    have l2 := Csr.row_length hwf2 (i := i) hi
    have ep : ∀ k, ({ B with val := B.val.map (cjIf conj) } : Csr R).p k = B.p k := fun _ => rfl
    rw [ep, ep] at l2
    by_cases hs : (s : Int) < B.p (i + 1) - B.p i
    · obtain ⟨c, v, a1, a2, a3⟩ := Csr.row_getElem? hwf hi hs
      obtain ⟨c', v', b1, b2, b3⟩ := Csr.row_getElem? hwf2 (i := i) hi (t := s) hs
      rw [ep] at b1 b2
      have hb1 : rd B.ind (B.p i - B.base + s) = some c' := b1
      rw [a1] at hb1
      have hc := Option.some.inj hb1
      have hlo := hwf.lo (i := i) (by omega)
      have hb2 : rd (B.val.map (cjIf (R := R) conj)) (B.p i - B.base + s) = some v' := b2
      rw [rd_eq (by omega)] at a2
      rw [rd_eq (by omega), List.getElem?_map, a2] at hb2
      have hv := Option.some.inj hb2
      rw [b3, List.getElem?_map, a3, ← hc, ← hv]
      rfl
    · rw [List.getElem?_eq_none (by omega), List.getElem?_eq_none (by rw [List.length_map]; omega)]
  refine ⟨by show q < 12; omega, ?_, by rw [hcsr]; exact hwf2, ⟨.nonUnit, rfl, ?_⟩, ?_⟩
  · rw [hcsr]
    show (A.n : Int) = B.m
    omega
  · rw [hcsr]
    intro i j hi hj
    have hi' : i < B.m := hi
    have hj' : j < B.n := hj
    rw [mat_eq_colSum, hrow2 i hi', colSum_addHom, ← mat_eq_colSum]
    show _ = doidOp .nonUnit q (userMat ta A) i j
    rw [hel, cjIf_apply]
    have : B.mat i j = A.mat j i := Csr.entry_of_cols hA h1 hp (by omega) (by omega)
    rw [this]
  · intro h4
    have : 4 ≤ q := h4
    omega

/-- which hints get a copy: all symmetric and Hermitian ones, and general ones that are not served by
the user's arrays, except the conjugate transpose of a CSC matrix -/
def Served (ta isReal : Bool) (t : MType) (f : Fill) (op : Op) : Prop :=
  t ≠ .triangular ∧ ¬ (ta = true ∧ getDoid isReal t.code f.code op.code = gh)

/-- the copy made for a hint -/
theorem makeCopy_ok (hA : A.WF) (h : HintOk isReal ta A t f op) (g : Garb R) (re : R → R)
    (hre : ∀ x, star x = x → re x = x) (hreal : isReal = true → ∀ x : R, star x = x)
    (hne : getDoid isReal t.code f.code op.code ≠ (A.raw ta).doid) :
    ∃ r, makeCopy g star re (A.raw ta)
        (if ta then transDoid (getDoid isReal t.code f.code op.code)
          else getDoid isReal t.code f.code op.code) (effFill ta f).code
        (getDoid isReal t.code f.code op.code) = some (.success, r) ∧
      (∀ c, r = some c → c.doid = getDoid isReal t.code f.code op.code ∧
        CopyOk (userMat ta A) (userRows ta A) (userCols ta A) c) ∧
      (Served ta isReal t f op → r ≠ none) := by
  unfold makeCopy
  by_cases ht : t = .symmetric ∨ t = .hermitian
  · obtain ⟨hd4, hd12, cb, hmean, hcb, hherm, hq4⟩ := full_meaning isReal ta t f op ht
    obtain ⟨c, e, hd, hc⟩ := makeFull_ok (isReal := isReal) (ta := ta) (f := f) (op := op) hA h g re hre hreal ht
    set d := if ta then transDoid (getDoid isReal t.code f.code op.code)
      else getDoid isReal t.code f.code op.code with hdd
    refine ⟨some c, ?_, ?_, by simp⟩
    · rw [if_neg (by omega)]
      by_cases h8 : 8 ≤ d
      · rw [if_neg (by omega), if_pos (by omega), ← e]
        simp [h8]
      · rw [if_pos (by omega), ← e]
        simp [h8]
    · intro c' hc'
      cases hc'
      exact ⟨hd, hc⟩
  · by_cases htr : t = .triangular
    · have hbig : 12 ≤ (if ta then transDoid (getDoid isReal t.code f.code op.code)
          else getDoid isReal t.code f.code op.code) := by
        subst htr
        cases isReal <;> cases ta <;> cases f <;> cases op <;> decide
      refine ⟨none, ?_, by simp, fun hs => absurd htr hs.1⟩
      rw [if_neg (by omega), if_neg (by omega), if_neg (by omega)]
    · have hg : t = .general := by
        cases t <;> simp at ht htr ⊢
      subst hg
      cases ta
      · have hq : getDoid isReal MType.general.code f.code op.code = 2 ∨
            getDoid isReal MType.general.code f.code op.code = 3 := by
          have hne' : getDoid isReal MType.general.code f.code op.code ≠ 0 := hne
          revert hne'
          cases isReal <;> cases f <;> cases op <;> decide
        simp only [Bool.false_eq_true, if_false]
        rw [if_pos hq]
        obtain ⟨c, e, h1, h2⟩ := makeTrans_ok hA g
          (decide (getDoid isReal MType.general.code f.code op.code = 3)) false
          (getDoid isReal MType.general.code f.code op.code) (by omega)
          (by unfold kindT; simp [hq]) (by
            intro i j
            rcases hq with hq | hq <;> rw [hq] <;>
              simp [doidOp, doidMeaning, structured, userMat, transM, conjM])
        exact ⟨some c, e, fun c' hc' => by cases hc'; exact ⟨h1, h2⟩, by simp⟩
      · have hq : getDoid isReal MType.general.code f.code op.code = 0 ∨
            getDoid isReal MType.general.code f.code op.code = 3 := by
          have hne' : getDoid isReal MType.general.code f.code op.code ≠ 2 := hne
          revert hne'
          cases isReal <;> cases f <;> cases op <;> decide
        simp only [if_true]
        rcases hq with hq | hq
        · rw [hq]
          have h2 : transDoid 0 = 2 := by decide
          rw [h2, if_pos (.inl rfl)]
          obtain ⟨c, e, h1, h2⟩ := makeTrans_ok hA g false true 0 (by omega) (by decide) (by
            intro i j
            simp [doidOp, doidMeaning, structured, userMat, transM])
          exact ⟨some c, e, fun c' hc' => by cases hc'; exact ⟨h1, h2⟩, by simp⟩
        · rw [hq]
          refine ⟨none, by rw [show transDoid 3 = 1 by decide]; simp, by simp, ?_⟩
          rintro ⟨_, h2⟩
          exact absurd ⟨rfl, hq⟩ h2

/-- a hint recorded for a request -/
def IsHint (isReal : Bool) (t : MType) (f : Fill) (op : Op) (x : OptHint) : Prop :=
  x.doid = getDoid isReal t.code f.code op.code ∧ x.fill = f.code

theorem transformHint_ok (hA : A.WF) {x : OptHint} (hx : IsHint isReal t f op x)
    (h : HintOk isReal ta A t f op) (g : Garb R) (re : R → R)
    (hre : ∀ y, star y = y → re y = y) (hreal : isReal = true → ∀ y : R, star y = y)
    (copies : List (MCopy R)) (hcp : CopiesOk ta A copies) :
    ∃ x' ext, transformHint g star re (A.raw ta) x copies = some (.success, x', copies ++ ext) ∧
      x'.doid = x.doid ∧ x'.fill = x.fill ∧ CopiesOk ta A (copies ++ ext) ∧
      (x.done = false → Served ta isReal t f op →
        ∃ c ∈ (A.raw ta).copy0 :: (copies ++ ext), c.doid = x.doid) := by
  unfold transformHint
  by_cases hd : x.done = true
  · rw [if_pos hd]
    exact ⟨x, [], by simp, rfl, rfl, by simpa using hcp, fun h' => by rw [hd] at h'; cases h'⟩
  · rw [if_neg hd]
    by_cases hf : ((A.raw ta).copy0 :: copies).any (fun c => decide (c.doid = x.doid)) = true
    · rw [if_pos hf]
      refine ⟨x, [], by simp, rfl, rfl, by simpa using hcp, fun _ _ => ?_⟩
      rw [List.any_eq_true] at hf
      obtain ⟨c, hc, hc2⟩ := hf
      exact ⟨c, by simpa using hc, by simpa using hc2⟩
    · rw [if_neg hf]
      have hne : getDoid isReal t.code f.code op.code ≠ (A.raw ta).doid := by
        intro he
        apply hf
        rw [List.any_cons]
        have : decide ((A.raw ta).copy0.doid = x.doid) = true := by
          rw [decide_eq_true_eq, hx.1, he]; rfl
        rw [this]
        rfl
      obtain ⟨r, er, hr1, hr2⟩ := makeCopy_ok hA h g re hre hreal hne
      have hda : ((A.raw ta).doid = gt) ↔ ta = true := by
        cases ta <;> simp [RawMat.doid, Csr.raw, gt, gn]
      have e1 : (if (A.raw ta).doid = gt then transDoid x.doid else x.doid)
          = if ta then transDoid (getDoid isReal t.code f.code op.code)
            else getDoid isReal t.code f.code op.code := by
        rw [hx.1]
        cases ta <;> rfl
      have e2 : (if (A.raw ta).doid = gt then (if x.fill = 0 then 1 else 0) else x.fill)
          = (effFill ta f).code := by
        rw [hx.2]
        cases ta <;> cases f <;> rfl
      rw [e1, e2, hx.1, er]
      cases r with
      | none =>
        refine ⟨x, [], by simp, hx.1, rfl, by simpa using hcp, fun _ hs => absurd rfl (hr2 hs)⟩
      | some c =>
        obtain ⟨c1, c2⟩ := hr1 c rfl
        refine ⟨{ x with done := true }, [c], by rw [hx.1]; rfl, hx.1, rfl, ?_, fun _ _ => ⟨c, by simp, c1⟩⟩
        intro y hy
        rcases List.mem_append.1 hy with hy | hy
        · exact hcp y hy
        · rw [List.mem_singleton.1 hy]
          exact c2

/-- **C43, copies.**  For a CSR or CSC handle and any list of hints recorded for requests the matrix
allows (`HintOk`), in fresh memory of any contents, the transformation step of `aoclsparse_optimize`
succeeds; every copy it makes, like every correct copy already there, holds the elements of the operator
its identifier stands for (`CopiesOk`); the copies already there are kept; and for every hint that was
not acted on before, other than triangular ones and the conjugate transpose of CSC matrices, the handle
then holds arrays of its kind. -/
theorem C43_transform (hA : A.WF) (g : Garb R) (re : R → R)
    (hre : ∀ y, star y = y → re y = y) (hreal : isReal = true → ∀ y : R, star y = y)
    (hints : List OptHint)
    (hh : ∀ x ∈ hints, ∃ t f op, IsHint isReal t f op x ∧ HintOk isReal ta A t f op)
    (copies : List (MCopy R)) (hcp : CopiesOk ta A copies) :
    ∃ hints' ext, matrixTransform g star re (A.raw ta) hints copies
        = some (.success, hints', copies ++ ext) ∧
      hints'.map (fun x => (x.doid, x.fill)) = hints.map (fun x => (x.doid, x.fill)) ∧
      CopiesOk ta A (copies ++ ext) ∧
      ∀ x ∈ hints, x.done = false → ∀ t f op, IsHint isReal t f op x → Served ta isReal t f op →
        ∃ c ∈ (A.raw ta).copy0 :: (copies ++ ext), c.doid = x.doid := by
  induction hints generalizing copies with
  | nil => exact ⟨[], [], by simp [matrixTransform], rfl, by simpa using hcp, by simp⟩
  | cons x hs ih =>
    obtain ⟨t, f, op, hx, hok⟩ := hh x (by simp)
    obtain ⟨x', ext, e, d1, d2, hc', hserv⟩ := transformHint_ok hA hx hok g re hre hreal copies hcp
    obtain ⟨hs', ext', e', hmap, hc'', hserv'⟩ := ih (fun y hy => hh y (by simp [hy])) (copies ++ ext) hc'
    refine ⟨x' :: hs', ext ++ ext', ?_, ?_, ?_, ?_⟩
    · unfold matrixTransform
      rw [e]
      simp only [Option.bind_eq_bind, Option.bind_some, if_true]
      rw [e']
      simp
    · simp [hmap, d1, d2]
    · rw [← List.append_assoc]; exact hc''
    · intro y hy hyd t1 f1 op1 hy1 hs1
      rcases List.mem_cons.1 hy with rfl | hy
      · have hs2 : Served ta isReal t f op := by
          have hdo : getDoid isReal t.code f.code op.code = getDoid isReal t1.code f1.code op1.code := by
            rw [← hx.1, hy1.1]
          refine ⟨?_, by rw [hdo]; exact hs1.2⟩
          intro htr
          have h12 : 12 ≤ getDoid isReal t.code f.code op.code := by
            subst htr
            cases isReal <;> cases f <;> cases op <;> decide
          have := (getDoid_lt isReal t1 f1 op1 hs1.1).1
          omega
        obtain ⟨c, hc, hcd⟩ := hserv hyd hs2
        refine ⟨c, ?_, hcd⟩
        rcases List.mem_cons.1 hc with rfl | hc
        · simp
        · exact List.mem_cons_of_mem _ (by
            rw [← List.append_assoc]
            exact List.mem_append_left _ hc)
      · obtain ⟨c, hc, hcd⟩ := hserv' y hy hyd t1 f1 op1 hy1 hs1
        exact ⟨c, by rw [← List.append_assoc]; exact hc, hcd⟩

/-- A hint for a symmetric or Hermitian product of a matrix that is not square: `invalid_size`, and no
copy is made for it. -/
theorem C43_not_square (g : Garb R) (re : R → R) (x : OptHint) (hx : IsHint isReal t f op x)
    (hd : x.done = false) (ht : t = .symmetric ∨ t = .hermitian) (hns : A.m ≠ A.n)
    (hs : List OptHint) (copies : List (MCopy R)) (hno : ∀ c ∈ copies, c.doid ≠ x.doid) :
    matrixTransform g star re (A.raw ta) (x :: hs) copies = some (.invalidSize, x :: hs, copies) := by
  obtain ⟨hd4, hd12, cb, hmean, hcb, hherm, hq4⟩ := full_meaning isReal ta t f op ht
  have hnf : ¬ ((A.raw ta).copy0 :: copies).any (fun c => decide (c.doid = x.doid)) = true := by
    rw [List.any_eq_true]
    rintro ⟨c, hc, hc2⟩
    rw [decide_eq_true_eq] at hc2
    rcases List.mem_cons.1 hc with rfl | hc
    · rw [hx.1] at hc2
      have : (A.raw ta).copy0.doid ≤ 2 := by
        cases ta
        · exact Nat.zero_le _
        · exact le_refl _
      omega
    · exact hno c hc hc2
  have e1 : (if (A.raw ta).doid = gt then transDoid x.doid else x.doid)
      = if ta then transDoid (getDoid isReal t.code f.code op.code)
        else getDoid isReal t.code f.code op.code := by
    rw [hx.1]
    cases ta <;> rfl
  have hnsq : (A.raw ta).um ≠ (A.raw ta).un := by
    cases ta
    · show (A.m : Int) ≠ A.n
      omega
    · show (A.n : Int) ≠ A.m
      omega
  unfold matrixTransform transformHint
  rw [if_neg (by simp [hd]), if_neg hnf, e1]
  unfold makeCopy
  rw [if_neg (by omega)]
  set d := if ta then transDoid (getDoid isReal t.code f.code op.code)
    else getDoid isReal t.code f.code op.code
  unfold makeFull
  rw [if_pos hnsq, if_pos hnsq]
  by_cases h8 : 8 ≤ d
  · rw [if_neg (by omega), if_pos (by omega)]
    simp
  · rw [if_pos (by omega)]
    simp

/-! ### switching the diagonal type -/

/-- a sequence of products with other diagonal types -/
def setDiags (M : Nat) : List Diag → MCopy R → Option (Status × MCopy R)
  | [], c => some (.success, c)
  | D :: Ds, c => (setMatDiag M D.code c).bind fun r => setDiags M Ds r.2

/-- **C43, diagonal types.**  Whatever diagonal types a full copy is switched to, in any sequence, it
always holds the operator with the last of them, and switching back to the stored diagonal restores
the array of values exactly. -/
theorem C43_diag_restore {U : Mat R} {M N : Nat} {c : MCopy R} (h : CopyOk U M N c) (hs : 4 ≤ c.doid)
    (Ds : List Diag) (D : Diag) :
    ∃ c', setDiags M (Ds ++ [D]) c = some (.success, c') ∧ CopyOk U M N c' ∧ c'.mtxDiag = D.code ∧
      (c.mtxDiag = Diag.nonUnit.code → D = .nonUnit → c' = c) := by
  have hpos : ∃ pos : Nat → Nat, (∀ i, i < M → c.idiag.bind (fun l => rd l i) = some (pos i : Int)) := by
    obtain ⟨_, _, _, _, _, _, _, pos, hp, _⟩ := setMatDiag_ok h hs .unit
    exact ⟨pos, hp⟩
  obtain ⟨pos, hp⟩ := hpos
  -- what a switched copy looks like
  have key : ∀ (Ds : List Diag) (c0 : MCopy R), CopyOk U M N c0 →
      (c0 = { c with val := c0.val, mtxDiag := c0.mtxDiag } ∧ c0.val.length = c.val.length ∧
        ∀ q, (∀ i, i < M → q ≠ pos i) → c0.val[q]? = c.val[q]?) →
      ∃ c', setDiags M (Ds ++ [D]) c0 = some (.success, c') ∧ CopyOk U M N c' ∧ c'.mtxDiag = D.code ∧
        (c' = { c with val := c'.val, mtxDiag := c'.mtxDiag } ∧ c'.val.length = c.val.length ∧
        ∀ q, (∀ i, i < M → q ≠ pos i) → c'.val[q]? = c.val[q]?) ∧
        (∀ i, i < M → pos i < c.val.length ∧ c'.val[pos i]? = some (match D with
          | .nonUnit => doidOp .nonUnit c.doid U i i | .unit => 1 | .zero => 0)) := by
    have one : ∀ (D' : Diag) (c0 : MCopy R), CopyOk U M N c0 →
      (c0 = { c with val := c0.val, mtxDiag := c0.mtxDiag } ∧ c0.val.length = c.val.length ∧
        ∀ q, (∀ i, i < M → q ≠ pos i) → c0.val[q]? = c.val[q]?) →
      ∃ c', setMatDiag M D'.code c0 = some (.success, c') ∧ CopyOk U M N c' ∧ c'.mtxDiag = D'.code ∧
        (c' = { c with val := c'.val, mtxDiag := c'.mtxDiag } ∧ c'.val.length = c.val.length ∧
        ∀ q, (∀ i, i < M → q ≠ pos i) → c'.val[q]? = c.val[q]?) ∧
        (∀ i, i < M → pos i < c.val.length ∧ c'.val[pos i]? = some (match D' with
          | .nonUnit => doidOp .nonUnit c.doid U i i | .unit => 1 | .zero => 0)) := by
      rintro D' c0 h0 ⟨a1, a2, a3⟩
      have hd0 : c0.doid = c.doid := by rw [a1]
      have hid : c0.idiag = c.idiag := by rw [a1]
      obtain ⟨c', e, b1, b2, b3, b4, b5, pos', p1, p2, p3⟩ := setMatDiag_ok h0 (by omega) D'
      have hpp : ∀ i, i < M → pos' i = pos i := by
        intro i hi
        have x1 := p1 i hi
        rw [hid, hp i hi] at x1
        have := Option.some.inj x1
        omega
      refine ⟨c', e, b3, b2, ⟨?_, b5.trans a2, ?_⟩, ?_⟩
      · rw [b4, a1]
      · intro q hq
        rw [p3 q (fun i hi => by rw [hpp i hi]; exact hq i hi), a3 q hq]
      · intro i hi
        have := p2 i hi
        rw [hpp i hi, hd0, a2] at this
        exact this
    intro Ds
    induction Ds with
    | nil =>
      intro c0 h0 a
      obtain ⟨c', e, r⟩ := one D c0 h0 a
      refine ⟨c', ?_, r⟩
      simp [setDiags, e]
    | cons D' Ds ih =>
      intro c0 h0 a
      obtain ⟨c1, e, b1, b2, b3, _⟩ := one D' c0 h0 a
      obtain ⟨c', e', r⟩ := ih c1 b1 b3
      refine ⟨c', ?_, r⟩
      simp only [List.cons_append, setDiags, e, Option.bind_some]
      exact e'
  obtain ⟨c', e, b1, b2, ⟨b3, b4, b5⟩, b6⟩ := key Ds c h ⟨rfl, rfl, fun _ _ => rfl⟩
  refine ⟨c', e, b1, b2, ?_⟩
  intro hnu hD
  subst hD
  -- the values before: the diagonal is the stored one
  obtain ⟨D0, hD0, hel⟩ := h.elems
  have hD0' : D0 = .nonUnit := by
    rw [hnu] at hD0
    cases D0 <;> simp [Diag.code] at hD0 ⊢
  subst hD0'
  obtain ⟨hMN, idiag, dv, i1, i2, hall⟩ := h.sym hs
  subst hMN
  have hkT : kindT c.doid = false := by unfold kindT; have := h.kind; simp; omega
  have hXm : (c.csr M M).m = M := by simp [MCopy.csr]
  have hXn : (c.csr M M).n = M := by simp [MCopy.csr]
  have hdiag : ∀ i, i < M → c.val[pos i]? = some (doidOp .nonUnit c.doid U i i) := by
    intro i hi
    obtain ⟨p, q1, q2, q3⟩ := hall i hi
    have hpi : pos i = p := by
      have := hp i hi
      rw [i1] at this
      have h2 : rd idiag i = some (pos i : Int) := this
      rw [q1] at h2
      have := Option.some.inj h2
      omega
    have hX := h.wf
    rw [← hel i i (by omega) (by omega), mat_eq_colSum]
    have hrl := Csr.row_length hX (i := i) (by omega)
    have hlo := hX.lo (i := i) (by omega)
    have hl1 := q2.lo
    have hl2 := q2.hi
    obtain ⟨s, hs'⟩ : ∃ s : Nat, (p : Int) = (c.csr M M).p i - (c.csr M M).base + s :=
      ⟨((p : Int) - ((c.csr M M).p i - (c.csr M M).base)).toNat, by omega⟩
    obtain ⟨cc, v, a1, a2, a3⟩ := Csr.row_getElem? hX (i := i) (by omega) (t := s) (by omega)
    rw [← hs'] at a1 a2
    have hcc := a1.symm.trans q2.here
    have hslt : s < ((c.csr M M).row i).length := by omega
    have hrow := List.getElem?_eq_getElem hslt
    rw [a3] at hrow
    have hrs := Option.some.inj hrow
    rw [colSum_single_pos _ hslt (by rw [← hrs]; have := Option.some.inj hcc; simp only; omega)]
    · rw [← hrs, hpi]
      rw [rd_ofNat] at a2
      exact a2
    · intro s' hs2 hc'
      obtain ⟨cc', v', a1', a2', a3'⟩ := Csr.row_getElem? hX (i := i) (by omega) (t := s') (by omega)
      have hrow' := List.getElem?_eq_getElem hs2
      rw [a3'] at hrow'
      have hrs' := Option.some.inj hrow'
      rw [← hrs'] at hc'
      simp only at hc'
      obtain ⟨p', hp'⟩ : ∃ p' : Nat, (p' : Int) = (c.csr M M).p i - (c.csr M M).base + s' :=
        ⟨((c.csr M M).p i - (c.csr M M).base + s').toNat, by omega⟩
      have := q2.only p' (by omega) (by omega) (by rw [hp', a1']; congr 1; omega)
      omega
  have hval : c'.val = c.val := by
    apply List.ext_getElem?
    intro q
    by_cases hq : ∃ i, i < M ∧ q = pos i
    · obtain ⟨i, hi, rfl⟩ := hq
      rw [(b6 i hi).2, hdiag i hi]
    · exact b5 q (fun i hi hqi => hq ⟨i, hi, hqi⟩)
  rw [b3, hval, b2, ← hnu]

/-! ### products before and after -/

omit [StarRing R] in
/-- a product is determined by its factors -/
theorem IsMm.unique {col : Bool} {alpha beta : R} {M : Mat R} {m k n ldb ldc : Nat} {B C C1 C2 : List R}
    (h1 : IsMm col alpha beta M m k n ldb ldc B C C1) (h2 : IsMm col alpha beta M m k n ldb ldc B C C2) :
    C1 = C2 := by
  apply List.ext_getElem?
  intro p
  by_cases hp : ∃ i j, i < m ∧ j < n ∧ p = denseOff col ldc i j
  · obtain ⟨i, j, hi, hj, rfl⟩ := hp
    rw [h1.cells i j hi hj, h2.cells i j hi hj]
  · have hp' : ∀ i j, i < m → j < n → p ≠ denseOff col ldc i j := fun i j hi hj he => hp ⟨i, j, hi, hj, he⟩
    rw [h1.rest p hp', h2.rest p hp']

/-- **C43, products.**  The sparse times dense product of a handle is the same after
`aoclsparse_optimize` made copies for any hints the matrix allows as it was before. -/
theorem C43_same_product [DecidableEq R] {w : Nat} {tm : MmTeam} {ker : MmKernel R} {col : Bool}
    {B C : List R} {n ldb ldc : Nat} {D : Diag} (hw : 2 ≤ w) (hk : ker.Ok) (g g' : Garb R) (re : R → R)
    (hre : ∀ y, star y = y → re y = y) (ht : t ≠ .triangular)
    (h : MmOk w tm col ta op t A B C n ldb ldc) (hreal : isReal = true → ∀ x : R, star x = x)
    (hherm : t = .hermitian → RealDiag A.mat) (hints : List OptHint)
    (hh : ∀ x ∈ hints, ∃ t f op, IsHint isReal t f op x ∧ HintOk isReal ta A t f op) (alpha beta : R) :
    ∃ hints' copies copies' C', matrixTransform g' star re (A.raw ta) hints [] = some (.success, hints', copies) ∧
      csrmm w isReal tm ker g star op.code alpha (some (A.raw ta)) []
        (some ⟨t.code, f.code, D.code, A.base⟩) (if col then 1 else 0) (some B) n ldb beta (some C) ldc
        = some (.success, some C', []) ∧
      csrmm w isReal tm ker g star op.code alpha (some (A.raw ta)) copies
        (some ⟨t.code, f.code, D.code, A.base⟩) (if col then 1 else 0) (some B) n ldb beta (some C) ldc
        = some (.success, some C', copies') ∧ copies'.length = copies.length := by
  obtain ⟨hints', ext, e, _, hc, _⟩ := C43_transform h.wf g' re hre hreal hints hh [] (by intro c hc; simp at hc)
  obtain ⟨C1, cp1, e1, r1, l1, _⟩ := C31_csrmm (f := f) (D := D) hw hk g ht h hreal hherm []
    (by intro c hc; simp at hc) alpha beta
  obtain ⟨C2, cp2, e2, r2, l2, _⟩ := C31_csrmm (f := f) (D := D) hw hk g ht h hreal hherm _ hc alpha beta
  have hcp1 : cp1 = [] := List.length_eq_zero_iff.1 l1
  subst hcp1
  have := r1.unique r2
  subst this
  exact ⟨hints', _, cp2, C1, e, e1, e2, l2⟩

/-! ### concrete cases -/
section witness

def ex43g : Garb Rat := ⟨fun k => 7 + k, fun _ => 9, fun _ => 3⟩

/-- a symmetric matrix given by its lower triangle, rows not sorted, one-based, a missing diagonal
entry, and an entry of the other triangle, which is ignored -/
def ex43A : Csr Rat := ⟨3, 3, 1, [1, 3, 4, 7], [3, 1, 1, 2, 3, 1], [100, 1, 5, 6, 7, 8]⟩

example : ex43A.WF := by decide +kernel
example : ex43A.OneDiag := by decide +kernel

/-- its hint and the copy: [1 5 8; 5 0 6; 8 6 7] -/
example : (matrixTransform ex43g star id (ex43A.raw false) [⟨4, 0, false⟩] []).map
      (fun r => r.2.2.map fun c => (c.ptr ++ c.ind, c.val, c.idiag))
    = some [([0, 3, 6, 9] ++ [0, 1, 2, 0, 1, 2, 1, 0, 2], [1, 5, 8, 5, 0, 6, 6, 8, 7],
        some [0, 4, 8])] := by decide +kernel

example : IsHint true .symmetric .lower .none ⟨4, 0, false⟩ := ⟨by decide, by decide⟩

example : HintOk (R := Rat) true false ex43A .symmetric .lower .none :=
  ⟨fun _ => rfl, fun _ => by decide +kernel, fun h => by cases h⟩

/-- F27: a row with two stored diagonal entries (not accepted at creation).  The kernels add them, the full copy keeps the last
one, so the product changes when the matrix is optimized: [1+1]·[1] is 2 before and 1 after. -/
def ex43D : Csr Rat := ⟨1, 1, 0, [0, 2], [0, 0], [1, 1]⟩

theorem C43_duplicate_diagonal_counterexample :
    ex43D.WF ∧ ¬ ex43D.OneDiag ∧
    (csrmm 32 true ⟨1, [0]⟩ .ref ex43g star 111 1 (some (ex43D.raw false)) []
      (some ⟨1, 0, 0, 0⟩) 1 (some [1]) 1 1 0 (some [0]) 1).map (fun r => (r.1, r.2.1))
      = some (.success, some [2]) ∧
    ((matrixTransform ex43g star id (ex43D.raw false) [⟨4, 0, false⟩] []).bind fun r =>
      (csrmm 32 true ⟨1, [0]⟩ .ref ex43g star 111 1 (some (ex43D.raw false)) r.2.2
        (some ⟨1, 0, 0, 0⟩) 1 (some [1]) 1 1 0 (some [0]) 1).map (fun r => (r.1, r.2.1)))
      = some (.success, some [1]) := by decide +kernel

end witness

end Verif
