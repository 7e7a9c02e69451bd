/-
C50  Dense products op(A)·op(A)ᴴ and op(A)·B·op(A)ᴴ accumulated into the upper triangle.
-/
import Verif.Proofs.Syrkd2
import Verif.Props.Syrk
import Verif.Props.Csrmm

namespace Verif
open Model Finset

variable {R : Type} [CommRing R] [StarRing R] [DecidableEq R]

/-! ### auxiliary statements -/

theorem fits_or_zero {w a b : Nat} (hw : 2 ≤ w) (h : (a : Int) * b ≤ intMax w) : prodOvf w a b = false := by
  rcases Nat.eq_zero_or_pos a with rfl | ha
  · simp [prodOvf, productOverflow]
  rcases Nat.eq_zero_or_pos b with rfl | hb
  · simp [prodOvf, productOverflow]
  exact fits_of hw ha hb h

theorem overflow_of {w a b : Nat} (hw : 2 ≤ w) (ha : (a : Int) ≤ intMax w) (hb : (b : Int) ≤ intMax w)
    (hab : intMax w < (a : Int) * b) : prodOvf w a b = true := by
  have hp := pow_pos' w
  simp only [intMax] at ha hb hab
  obtain ⟨r, e1, e2⟩ := C37_product_exact w hw a b (by unfold Representable; omega)
    (by unfold Representable; omega) (by omega) (by omega)
  unfold prodOvf
  rw [e1]
  exact e2.2 (fun h => by unfold Representable at h; omega)

theorem Op.isOp (o : Op) : Model.isOp o.code := by cases o <;> simp [Model.isOp, Op.code]

omit [CommRing R] [StarRing R] [DecidableEq R] in
theorem sy_dims {op : Op} {isT : Bool} (A : Csr R) :
    (if syEff (A.raw isT).isT op.code = 111 then (A.raw isT).m else (A.raw isT).n) = (opRows op isT A : Int) := by
  cases isT <;> cases op <;> simp [Csr.raw, syEff, Op.code, opRows, userRows, userCols]

omit [DecidableEq R] in
theorem gram_empty {A : Csr R} (hA : A.WF) (h0 : A.nnz = 0) (op : Op) (isT : Bool) (K i j : Nat) :
    gram op (userMat isT A) K i j = 0 := by
  unfold gram
  apply sum_eq_zero
  intro k _
  cases isT <;> cases op <;> simp [applyOp, userMat, transM, empty_mat hA h0]

theorem IsUpCells.congr {col : Bool} {K ld : Nat} {F G : Nat → Nat → R → R} {C C' : List R}
    (h : IsUpCells col K ld F C C') (hFG : ∀ i j c, i ≤ j → j < K → F i j c = G i j c) :
    IsUpCells col K ld G C C' :=
  ⟨h.length, fun i j h1 h2 => by rw [h.cells i j h1 h2, hFG i j _ h1 h2], h.rest⟩

/-! ### syrkd -/

/-- **C50, op(A)·op(A)ᴴ.**  For every well-formed CSR or CSC matrix without repeated entries, sorted when
the operation works along its stored columns, every operation (the plain transpose of real matrices only),
base, layout, coefficients and leading dimension at least the order `K` of the product with `K·ldc` in the
range of the integers: the call succeeds and replaces every element c of the upper triangle of C at (i, j) by
alpha·(op(A)·op(A)ᴴ)(i, j) + beta·c, where only the real parts of alpha and beta count for complex matrices.
Nothing else in the array of C changes. -/
theorem C50_syrkd {A : Csr R} (hA : A.WF) (hnd : A.NoDup) (isT : Bool) (op : Op) {vt : Nat}
    (hop : vt = 0 ∨ vt = 1 ∨ op ≠ .trans)
    (hreal : vt = 0 ∨ vt = 1 → ∀ x : R, star x = x) {sorted : Bool} (hs : sorted = true → A.Sorted)
    (hsrt : sorted = true ∨ ¬ (isT = true ↔ op = .none)) {w : Nat} (hw : 2 ≤ w) (re : R → R) (alpha beta : R)
    {C : List R} (col : Bool) {ldc : Nat} (hld : opRows op isT A ≤ ldc)
    (hfit : (opRows op isT A : Int) * ldc ≤ intMax w)
    (hC : ∀ i j, i ≤ j → j < opRows op isT A → denseOff col ldc i j < C.length) :
    ∃ C', syrkdApi w vt star re op.code (some ⟨A.raw isT, vt, sorted⟩) alpha beta (some C)
        (if col then 1 else 0) ldc = some (.success, some C') ∧
      IsUpCells col (opRows op isT A) ldc (fun i j c =>
        (if vt = 2 ∨ vt = 3 then re alpha else alpha) * gram op (userMat isT A) (opCols op isT A) i j
          + (if vt = 2 ∨ vt = 3 then re beta else beta) * c) C C' := by
  have hreal' : op = .trans → ∀ x : R, star x = x := by
    intro ht
    rcases hop with h | h | h
    · exact hreal (.inl h)
    · exact hreal (.inr h)
    · exact absurd ht h
  set a := if vt = 2 ∨ vt = 3 then re alpha else alpha with ha
  set b := if vt = 2 ∨ vt = 3 then re beta else beta with hb
  have hcol : decide ((if col then (1 : Int) else 0) = 1) = col := by cases col <;> rfl
  unfold syrkdApi
  dsimp only
  rw [if_neg (not_not.mpr (Op.isOp op)), if_neg (by cases col <;> simp), if_neg (by simp [Csr.raw]),
    if_neg (by simp), if_neg (by
      rintro ⟨h1, h2⟩
      have : op = .trans := by cases op <;> simp_all [Op.code]
      rcases hop with h | h | h
      · omega
      · omega
      · exact h this), hcol, ← ha, ← hb]
  unfold syrkdRun
  dsimp only
  have heff : syEff (A.raw isT).isT op.code = 111 ↔ ¬ (isT = true ↔ op = .none) := by
    cases isT <;> cases op <;> simp [Csr.raw, syEff, Op.code]
  rw [if_neg (by
    rintro ⟨h1, h2⟩
    rw [Ne, heff, not_not] at h2
    rcases hsrt with h | h
    · rw [h] at h1; exact absurd h1 (by simp)
    · exact h h2), sy_dims, if_neg (by omega), if_neg (by rw [fits_or_zero hw hfit]; simp)]
  obtain ⟨C1, e1, r1⟩ := upScale_ok b hld hC (Rep.of_list C (0 : R))
  rw [e1, Option.bind_some]
  by_cases hq : (A.raw isT).um = 0 ∨ (A.raw isT).un = 0 ∨ (A.raw isT).nnz = 0
  · rw [if_pos hq]
    have h0 := quick_empty hA hq
    refine ⟨C1, rfl, upper_final hld hC (D := fun _ => 0) (r1.congr (fun p _ => by rw [add_zero])) ?_
      (fun _ _ => rfl)⟩
    intro i j _ _
    rw [gram_empty hA h0, mul_zero]
  · rw [if_neg hq]
    obtain ⟨D, h1, h2, h3⟩ := sdKernel_ok hA hnd isT op (fun h => hs (hsrt.resolve_right (not_not.mpr h)))
      hreal' col a hld hC
    obtain ⟨C2, e2, r2⟩ := h1 C1 _ r1
    have e2' : sdKernel col star (syEff (A.raw isT).isT op.code) (A.raw isT) a ldc C1 = some (.success, C2) := e2
    rw [e2']
    exact ⟨C2, rfl, upper_final hld hC r2 h2 h3⟩

/-- **C50, refusals of syrkd.**  A null pointer, an unknown operation or layout, a format other than CSR or CSC,
a matrix of another type, the plain transpose of a complex matrix, an unsorted matrix when the operation works
along its stored columns, a leading dimension below the order `K` of the product, and `K·ldc` out of the range
of the integers: the documented status, and C is unchanged. -/
theorem C50_syrkd_refused (w t : Nat) (cj re : R → R) (alpha beta : R) (op layout ldc : Int)
    (A : SyMat R) (B : Csr R) (isT sorted : Bool) (o : Op) (C : Option (List R)) (C' : List R) (lay : Bool) :
    syrkdApi w t cj re op none alpha beta C layout ldc = some (.invalidPointer, C) ∧
    syrkdApi w t cj re op (some A) alpha beta none layout ldc = some (.invalidPointer, none) ∧
    ((∀ o : Op, op ≠ o.code) →
      syrkdApi w t cj re op (some A) alpha beta (some C') layout ldc = some (.invalidValue, some C')) ∧
    (layout ≠ 0 → layout ≠ 1 →
      syrkdApi w t cj re op (some A) alpha beta (some C') layout ldc = some (.invalidValue, some C')) ∧
    (A.raw.fmt ≠ 0 → syrkdApi w t cj re o.code (some A) alpha beta (some C') (if lay then 1 else 0) ldc
      = some (.notImplemented, some C')) ∧
    (A.raw.fmt = 0 → A.vt ≠ t → syrkdApi w t cj re o.code (some A) alpha beta (some C') (if lay then 1 else 0) ldc
      = some (.wrongType, some C')) ∧
    (A.raw.fmt = 0 → A.vt = t → t = 2 ∨ t = 3 →
      syrkdApi w t cj re Op.trans.code (some A) alpha beta (some C') (if lay then 1 else 0) ldc
        = some (.notImplemented, some C')) ∧
    (A.raw.fmt = 0 → A.vt = t → (t = 0 ∨ t = 1 ∨ o ≠ .trans) → t < 4 → A.sorted = false →
      (A.raw.isT = true ↔ o = .none) →
      syrkdApi w t cj re o.code (some A) alpha beta (some C') (if lay then 1 else 0) ldc
        = some (.unsortedInput, some C')) ∧
    (t < 4 → (t = 0 ∨ t = 1 ∨ o ≠ .trans) → (sorted = true ∨ ¬ (isT = true ↔ o = .none)) →
      ldc < opRows o isT B →
      syrkdApi w t cj re o.code (some ⟨B.raw isT, t, sorted⟩) alpha beta (some C') (if lay then 1 else 0) ldc
        = some (.invalidValue, some C')) ∧
    (∀ ld : Nat, 2 ≤ w → t < 4 → (t = 0 ∨ t = 1 ∨ o ≠ .trans) → (sorted = true ∨ ¬ (isT = true ↔ o = .none)) →
      opRows o isT B ≤ ld → (ld : Int) ≤ intMax w → intMax w < (opRows o isT B : Int) * ld →
      syrkdApi w t cj re o.code (some ⟨B.raw isT, t, sorted⟩) alpha beta (some C') (if lay then 1 else 0) ld
        = some (.invalidSize, some C')) := by
  have hsup : ∀ {vt : Nat} {o : Op}, vt = 0 ∨ vt = 1 ∨ o ≠ .trans → ¬ ((vt = 2 ∨ vt = 3) ∧ o.code = 112) := by
    rintro vt o h ⟨h1, h2⟩
    have : o = .trans := by cases o <;> simp_all [Op.code]
    rcases h with h | h | h
    · omega
    · omega
    · exact h this
  have hlay : ∀ b : Bool, ¬ ((if b then (1 : Int) else 0) ≠ 0 ∧ (if b then (1 : Int) else 0) ≠ 1) := by
    intro b; cases b <;> simp
  have hsr : (sorted = true ∨ ¬ (isT = true ↔ o = .none)) →
      ¬ (sorted = false ∧ syEff (B.raw isT).isT o.code ≠ 111) := by
    rintro h ⟨h1, h2⟩
    rcases h with h | h
    · rw [h] at h1; exact absurd h1 (by simp)
    · revert h h2
      cases isT <;> cases o <;> simp [Csr.raw, syEff, Op.code]
  refine ⟨rfl, rfl, ?_, ?_, ?_, ?_, ?_, ?_, ?_, ?_⟩
  · intro h
    unfold syrkdApi
    dsimp only
    rw [if_pos]
    intro ho
    simp only [isOp, decide_eq_true_eq] at ho
    rcases ho with h' | h' | h'
    · exact h .none h'
    · exact h .trans h'
    · exact h .conjTrans h'
  · intro h1 h2
    unfold syrkdApi
    dsimp only
    split
    · rfl
    · rw [if_pos ⟨h1, h2⟩]
  · intro h
    unfold syrkdApi
    dsimp only
    rw [if_neg (not_not.mpr (Op.isOp o)), if_neg (hlay lay), if_pos h]
  · intro h1 h2
    unfold syrkdApi
    dsimp only
    rw [if_neg (not_not.mpr (Op.isOp o)), if_neg (hlay lay), if_neg (not_not.mpr h1), if_pos h2]
  · intro h1 h2 h3
    unfold syrkdApi
    dsimp only
    rw [if_neg (not_not.mpr (Op.isOp .trans)), if_neg (hlay lay), if_neg (not_not.mpr h1),
      if_neg (not_not.mpr h2), if_pos ⟨by rw [h2]; exact h3, rfl⟩]
  · intro h1 h2 h3 h4 h5 h6
    unfold syrkdApi
    dsimp only
    rw [if_neg (not_not.mpr (Op.isOp o)), if_neg (hlay lay), if_neg (not_not.mpr h1),
      if_neg (not_not.mpr h2), if_neg (hsup (by rw [h2]; exact h3))]
    unfold syrkdRun
    dsimp only
    rw [if_pos]
    · rfl
    refine ⟨h5, ?_⟩
    revert h6
    cases A.raw.isT <;> cases o <;> simp [syEff, Op.code]
  · intro h1 h2 h3 h4
    unfold syrkdApi
    dsimp only
    rw [if_neg (not_not.mpr (Op.isOp o)), if_neg (hlay lay), if_neg (by simp [Csr.raw]),
      if_neg (by simp), if_neg (hsup h2)]
    unfold syrkdRun
    dsimp only
    rw [if_neg (hsr h3), sy_dims, if_pos h4]
    rfl
  · intro ld h0 h1 h2 h3 h4 h5 h6
    unfold syrkdApi
    dsimp only
    rw [if_neg (not_not.mpr (Op.isOp o)), if_neg (hlay lay), if_neg (by simp [Csr.raw]),
      if_neg (by simp), if_neg (hsup h2)]
    unfold syrkdRun
    dsimp only
    rw [if_neg (hsr h3), sy_dims, if_neg (by omega), if_pos (overflow_of h0 (by omega) h5 h6)]
    rfl

/-! ### syprd -/

/-- **C50, op(A)·B·op(A)ᴴ.**  For every well-formed CSR or CSC matrix A (entries in any order, repeated or
not) with at least one row, every operation (the plain transpose of real matrices only), base, layout,
coefficients, leading dimensions at least the orders of B and of the product, products of orders and leading
dimensions in the range of the integers: the call succeeds and replaces every element c of the upper triangle
of C at (i, j) by alpha·(op(A)·B·op(A)ᴴ)(i, j) + beta·c, where B is the Hermitian matrix with the upper
triangle in its array.  Nothing else in the array of C changes. -/
theorem C50_syprd {A : Csr R} (hA : A.WF) (isT : Bool) (op : Op) {vt : Nat}
    (hop : vt = 0 ∨ vt = 1 ∨ op ≠ .trans) (hvt : vt < 4)
    (hreal : vt = 0 ∨ vt = 1 → ∀ x : R, star x = x) (sorted : Bool) {w : Nat} (hw : 2 ≤ w) (alpha beta : R)
    {B C : List R} (col : Bool) {ldb ldc : Nat} (hrows : 0 < userRows isT A)
    (hldb : opCols op isT A ≤ ldb) (hldc : opRows op isT A ≤ ldc) (hb0 : 0 < ldb) (hc0 : 0 < ldc)
    (hfitb : (opCols op isT A : Int) * ldb ≤ intMax w) (hfitc : (opRows op isT A : Int) * ldc ≤ intMax w)
    (hB : ∀ k l, k ≤ l → l < opCols op isT A → denseOff col ldb k l < B.length)
    (hC : ∀ i j, i ≤ j → j < opRows op isT A → denseOff col ldc i j < C.length) :
    ∃ C', syprdApi w vt star op.code (some ⟨A.raw isT, vt, sorted⟩) (some B) (if col then 1 else 0) ldb
        alpha beta (some C) (if col then 1 else 0) ldc = some (.success, some C') ∧
      IsUpCells col (opRows op isT A) ldc (fun i j c =>
        alpha * triple op (userMat isT A) (hermUp col ldb B) (opCols op isT A) i j + beta * c) C C' := by
  have hreal' : op = .trans → ∀ x : R, star x = x := by
    intro ht
    rcases hop with h | h | h
    · exact hreal (.inl h)
    · exact hreal (.inr h)
    · exact absurd ht h
  have hcol : decide ((if col then (1 : Int) else 0) = 1) = col := by cases col <;> rfl
  unfold syprdApi
  dsimp only
  rw [if_neg (by simp), if_neg (not_not.mpr (Op.isOp op)), if_neg (by cases col <;> simp),
    if_neg (by cases col <;> simp), if_neg (by simp), if_neg (by simp [Csr.raw]), if_neg (by
      rintro ⟨h1, h2⟩
      have : op = .trans := by cases op <;> simp_all [Op.code]
      rcases hop with h | h | h
      · omega
      · omega
      · exact h this), hcol]
  have hkb : (if op.code = 111 then (A.raw isT).un else (A.raw isT).um) = (opCols op isT A : Int) := by
    cases isT <;> cases op <;> simp [Csr.raw, RawMat.un, RawMat.um, Op.code, opCols, userRows, userCols]
  have hkc : (if op.code = 111 then (A.raw isT).um else (A.raw isT).un) = (opRows op isT A : Int) := by
    cases isT <;> cases op <;> simp [Csr.raw, RawMat.un, RawMat.um, Op.code, opRows, userRows, userCols]
  have hum : (A.raw isT).um = (userRows isT A : Int) := by
    cases isT <;> simp [Csr.raw, RawMat.um, userRows]
  have hun : (A.raw isT).un = (userCols isT A : Int) := by
    cases isT <;> simp [Csr.raw, RawMat.un, userCols]
  unfold syprdSized
  dsimp only
  rw [hkb, hkc, hum, hun, if_neg (by omega), if_neg (by omega)]
  by_cases hq : alpha = 0 ∧ beta = 1
  · rw [if_pos hq]
    refine ⟨C, rfl, rfl, fun i j h1 h2 => ?_, fun _ _ => rfl⟩
    rw [hq.1, hq.2, zero_mul, one_mul, zero_add, List.getD_eq_getElem?_getD,
      List.getElem?_eq_getElem (hC i j h1 h2)]
    rfl
  rw [if_neg hq, if_neg (by unfold atLeast1; split <;> omega), if_neg (by unfold atLeast1; split <;> omega),
    if_neg (by rw [fits_or_zero hw hfitb, fits_or_zero hw hfitc]; simp)]
  unfold syprdRun
  by_cases hc : isT = true ↔ op = .none
  · have hK : opRows op isT A = A.n := by
      cases isT <;> cases op <;> simp_all [opRows, userRows, userCols]
    have hL : opCols op isT A = A.m := by
      cases isT <;> cases op <;> simp_all [opCols, userRows, userCols]
    have heff : pdEff (A.raw isT).isT op.code ≠ 111 := by
      cases isT <;> cases op <;> simp_all [pdEff, Op.code, Csr.raw]
    rw [if_neg heff]
    obtain ⟨T, e1, ho⟩ := orient_ok hA true isT
    have hTm : T.m = A.n := ho.m
    have hTn : T.n = A.m := ho.n
    rw [e1, Option.bind_some]
    dsimp only
    obtain ⟨C', e, r⟩ := pdKernel_ok (col := col) (cjl := decide ((vt = 2 ∨ vt = 3) ∧ op.code = 113)) ho.wf
      (ldb := ldb) (B := B) (by rw [hTn, ← hL]; exact hB) alpha beta (ldc := ldc) (C := C) (by omega)
      (by rw [hTm, ← hK]; exact hC)
    rw [hTm, hTn] at e r
    have e' : pdKernel col (decide ((vt = 2 ∨ vt = 3) ∧ op.code = 113)) star (A.raw isT).n (A.raw isT).m
      T.arrs B ldb alpha beta C ldc = some C' := e
    rw [e', hK, hL]
    refine ⟨C', rfl, r.congr ?_⟩
    intro i j c hi hj
    congr 2
    unfold triple
    rw [sum_comm]
    apply sum_congr rfl
    intro l hl
    have hl := mem_range.mp hl
    rw [sum_mul]
    apply sum_congr rfl
    intro k hk
    have hk := mem_range.mp hk
    have hm : ∀ x y, x < A.n → y < A.m → T.mat x y = A.mat y x := by
      intro x y hx hy
      have h1 := ho.entry x y (by omega) (by omega)
      rw [if_pos rfl] at h1
      exact h1
    rw [hm i k (by omega) hk, hm j l (by omega) hl]
    rcases (by omega : (vt = 0 ∨ vt = 1) ∨ (vt = 2 ∨ vt = 3)) with hv | hv
    · have hr := hreal hv
      have hv' : ¬ (vt = 2 ∨ vt = 3) := by omega
      cases isT <;> cases op <;> simp_all [applyOp, userMat, transM, leftH, rightH, starRingEnd_apply]
    · cases isT <;> cases op <;>
        simp_all [applyOp, userMat, transM, leftH, rightH, starRingEnd_apply, Op.code]
  · have hK : opRows op isT A = A.m := by
      cases isT <;> cases op <;> simp_all [opRows, userRows, userCols]
    have hL : opCols op isT A = A.n := by
      cases isT <;> cases op <;> simp_all [opCols, userRows, userCols]
    have heff : pdEff (A.raw isT).isT op.code = 111 := by
      cases isT <;> cases op <;> simp_all [pdEff, Op.code, Csr.raw]
    rw [if_pos heff]
    obtain ⟨C', e, r⟩ := pdKernel_ok (col := col) (cjl := decide ((vt = 2 ∨ vt = 3) ∧ op.code = 113)) hA
      (ldb := ldb) (B := B) (by rw [← hL]; exact hB) alpha beta (ldc := ldc) (C := C) (by omega)
      (by rw [← hK]; exact hC)
    have e' : pdKernel col (decide ((vt = 2 ∨ vt = 3) ∧ op.code = 113)) star (A.raw isT).m (A.raw isT).n
      (A.raw isT).arrs B ldb alpha beta C ldc = some C' := e
    rw [e', hK, hL]
    refine ⟨C', rfl, r.congr ?_⟩
    intro i j c hi hj
    congr 2
    unfold triple
    rw [sum_comm]
    apply sum_congr rfl
    intro l _
    rw [sum_mul]
    apply sum_congr rfl
    intro k _
    rcases (by omega : (vt = 0 ∨ vt = 1) ∨ (vt = 2 ∨ vt = 3)) with hv | hv
    · have hr := hreal hv
      have hv' : ¬ (vt = 2 ∨ vt = 3) := by omega
      cases isT <;> cases op <;> simp_all [applyOp, userMat, transM, leftH, rightH, starRingEnd_apply]
    · cases isT <;> cases op <;>
        simp_all [applyOp, userMat, transM, leftH, rightH, starRingEnd_apply, Op.code]

/-- **C50, refusals of syprd.**  A null pointer, a matrix of another type, an unknown operation or layout,
different layouts of B and C, a format other than CSR or CSC, the plain transpose of a complex matrix, a leading
dimension below the order of its matrix, and a product of the two out of the range of the integers: the status
of the table below, and C is unchanged. -/
theorem C50_syprd_refused (w t : Nat) (cj : R → R) (alpha beta : R) (op oB oC ldb ldc : Int) (A : SyMat R)
    (M : Csr R) (isT sorted : Bool) (o : Op) (B C : Option (List R)) (B' C' : List R) (lay : Bool) :
    syprdApi w t cj op none B oB ldb alpha beta C oC ldc = some (.invalidPointer, C) ∧
    syprdApi w t cj op (some A) none oB ldb alpha beta C oC ldc = some (.invalidPointer, C) ∧
    syprdApi w t cj op (some A) B oB ldb alpha beta none oC ldc = some (.invalidPointer, none) ∧
    (A.vt ≠ t → syprdApi w t cj op (some A) (some B') oB ldb alpha beta (some C') oC ldc
      = some (.wrongType, some C')) ∧
    (A.vt = t → (∀ o : Op, op ≠ o.code) →
      syprdApi w t cj op (some A) (some B') oB ldb alpha beta (some C') oC ldc = some (.invalidValue, some C')) ∧
    (A.vt = t → (oB ≠ 0 ∧ oB ≠ 1 ∨ oC ≠ 0 ∧ oC ≠ 1) →
      syprdApi w t cj op (some A) (some B') oB ldb alpha beta (some C') oC ldc = some (.invalidValue, some C')) ∧
    (A.vt = t → (oB = 0 ∧ oC = 1 ∨ oB = 1 ∧ oC = 0) →
      syprdApi w t cj o.code (some A) (some B') oB ldb alpha beta (some C') oC ldc
        = some (.invalidOperation, some C')) ∧
    (A.vt = t → A.raw.fmt ≠ 0 →
      syprdApi w t cj o.code (some A) (some B') (if lay then 1 else 0) ldb alpha beta (some C')
        (if lay then 1 else 0) ldc = some (.invalidPointer, some C')) ∧
    (A.vt = t → A.raw.fmt = 0 → t = 2 ∨ t = 3 →
      syprdApi w t cj Op.trans.code (some A) (some B') (if lay then 1 else 0) ldb alpha beta (some C')
        (if lay then 1 else 0) ldc = some (.notImplemented, some C')) ∧
    (∀ lb lc : Nat, 2 ≤ w → t < 4 → (t = 0 ∨ t = 1 ∨ o ≠ .trans) → 0 < userRows isT M →
      ¬ (alpha = 0 ∧ beta = 1) → (lb : Int) ≤ intMax w → (lc : Int) ≤ intMax w →
      lb < opCols o isT M ∨ lc < opRows o isT M ∨ lb = 0 ∨ lc = 0 ∨
        intMax w < (opCols o isT M : Int) * lb ∨ intMax w < (opRows o isT M : Int) * lc →
      syprdApi w t cj o.code (some ⟨M.raw isT, t, sorted⟩) (some B') (if lay then 1 else 0) lb alpha beta (some C')
        (if lay then 1 else 0) lc = some (.invalidSize, some C')) := by
  have hlay : ∀ b : Bool, ¬ ((if b then (1 : Int) else 0) ≠ 0 ∧ (if b then (1 : Int) else 0) ≠ 1) := by
    intro b; cases b <;> simp
  refine ⟨rfl, rfl, ?_, ?_, ?_, ?_, ?_, ?_, ?_, ?_⟩
  · cases B <;> rfl
  · intro h
    unfold syprdApi
    dsimp only
    rw [if_pos h]
  · intro h1 h
    unfold syprdApi
    dsimp only
    rw [if_neg (not_not.mpr h1), if_pos]
    intro ho
    simp only [isOp, decide_eq_true_eq] at ho
    rcases ho with h' | h' | h'
    · exact h .none h'
    · exact h .trans h'
    · exact h .conjTrans h'
  · intro h1 h2
    unfold syprdApi
    dsimp only
    rw [if_neg (not_not.mpr h1)]
    split
    · rfl
    · split
      · rfl
      · next h => rw [if_pos (h2.resolve_left h)]
  · intro h1 h2
    unfold syprdApi
    dsimp only
    rw [if_neg (not_not.mpr h1), if_neg (not_not.mpr (Op.isOp o)), if_neg (by omega), if_neg (by omega),
      if_pos (by omega)]
  · intro h1 h2
    unfold syprdApi
    dsimp only
    rw [if_neg (not_not.mpr h1), if_neg (not_not.mpr (Op.isOp o)), if_neg (hlay lay), if_neg (hlay lay),
      if_neg (by simp), if_pos h2]
  · intro h1 h2 h3
    unfold syprdApi
    dsimp only
    rw [if_neg (not_not.mpr h1), if_neg (not_not.mpr (Op.isOp .trans)), if_neg (hlay lay), if_neg (hlay lay),
      if_neg (by simp), if_neg (not_not.mpr h2), if_pos ⟨by rw [h1]; exact h3, rfl⟩]
  · intro lb lc hw ht hop hrows hq hfb hfc hbad
    unfold syprdApi
    dsimp only
    rw [if_neg (by simp), if_neg (not_not.mpr (Op.isOp o)), if_neg (hlay lay), if_neg (hlay lay),
      if_neg (by simp), if_neg (by simp [Csr.raw]), if_neg (by
        rintro ⟨h1, h2⟩
        have : o = .trans := by cases o <;> simp_all [Op.code]
        rcases hop with h | h | h
        · omega
        · omega
        · exact h this)]
    have hkb : (if o.code = 111 then (M.raw isT).un else (M.raw isT).um) = (opCols o isT M : Int) := by
      cases isT <;> cases o <;> simp [Csr.raw, RawMat.un, RawMat.um, Op.code, opCols, userRows, userCols]
    have hkc : (if o.code = 111 then (M.raw isT).um else (M.raw isT).un) = (opRows o isT M : Int) := by
      cases isT <;> cases o <;> simp [Csr.raw, RawMat.un, RawMat.um, Op.code, opRows, userRows, userCols]
    have hum : (M.raw isT).um = (userRows isT M : Int) := by
      cases isT <;> simp [Csr.raw, RawMat.um, userRows]
    have hun : (M.raw isT).un = (userCols isT M : Int) := by
      cases isT <;> simp [Csr.raw, RawMat.un, userCols]
    unfold syprdSized
    dsimp only
    rw [hkb, hkc, hum, hun, if_neg (by omega), if_neg (by omega), if_neg hq]
    by_cases c1 : (lb : Int) < atLeast1 (opCols o isT M)
    · rw [if_pos c1]; rfl
    rw [if_neg c1]
    by_cases c2 : (lc : Int) < atLeast1 (opRows o isT M)
    · rw [if_pos c2]; rfl
    rw [if_neg c2, if_pos]
    · rfl
    have d1 : 1 ≤ lb ∧ opCols o isT M ≤ lb := by
      unfold atLeast1 at c1
      split at c1 <;> omega
    have d2 : 1 ≤ lc ∧ opRows o isT M ≤ lc := by
      unfold atLeast1 at c2
      split at c2 <;> omega
    rcases hbad with h | h | h | h | h | h
    · omega
    · omega
    · omega
    · omega
    · exact .inr (overflow_of hw (by omega) hfb h)
    · exact .inl (overflow_of hw (by omega) hfc h)

/-! ### cases that meet the hypotheses -/

/-- real part of a Gaussian integer -/
def gauRe (x : Gau) : Gau := ⟨x.re, 0⟩

/-- Aᴴ·A of a complex 2×3 matrix in a 3×3 part of a column-major array with leading dimension 4 -/
example : ∃ C', syrkdApi 32 3 star gauRe Op.conjTrans.code (some ⟨syA.raw false, 3, true⟩) ⟨2, 5⟩ ⟨1, 1⟩
      (some (List.replicate 12 1)) 1 4 = some (.success, some C') ∧
    IsUpCells true 3 4 (fun i j c => gauRe ⟨2, 5⟩ * gram .conjTrans syA.mat 2 i j + gauRe ⟨1, 1⟩ * c)
      (List.replicate 12 1) C' := by
  obtain ⟨h1, h2, h3⟩ := syA_ok
  exact C50_syrkd h1 h2 false .conjTrans (vt := 3) (.inr (.inr (by simp)))
    (fun h => absurd h (by omega)) (sorted := true) (fun _ => h3) (.inl rfl) (by omega) gauRe _ _ true (ldc := 4)
    (by decide) (by decide +kernel) (by
      intro i j h1 h2
      replace h2 : j < 3 := h2
      simp [denseOff]; omega)

example : syrkdApi 32 3 star gauRe Op.conjTrans.code (some ⟨syA.raw false, 3, true⟩) ⟨2, 5⟩ ⟨1, 1⟩
      (some (List.replicate 12 1)) 1 4
    = some (.success, some [5, 1, 1, 1, 1, 3, 1, 1, ⟨5, -4⟩, ⟨1, -2⟩, 11, 1]) ∧
  syrkdApi 32 3 star gauRe Op.conjTrans.code (some ⟨syA.raw true, 3, false⟩) 1 0 (some (List.replicate 4 7)) 0 2
    = some (.success, some [6, 2, 7, 2]) := by decide +kernel

/-- a Hermitian 3×3 matrix in its upper triangle, row-major; what is below does not matter -/
def pdB : List Gau := [1, ⟨0, 1⟩, 2, 99, 3, ⟨1, -1⟩, 99, 99, 4]

example : ∃ C', syprdApi 32 3 star Op.none.code (some ⟨syA.raw false, 3, true⟩) (some pdB) 0 3 2 ⟨1, 1⟩
      (some [1, 1, 1, 1]) 0 2 = some (.success, some C') ∧
    IsUpCells false 2 2 (fun i j c => 2 * triple .none syA.mat (hermUp false 3 pdB) 3 i j + ⟨1, 1⟩ * c)
      [1, 1, 1, 1] C' := by
  exact C50_syprd syA_ok.1 false .none (vt := 3) (.inr (.inr (by simp))) (by omega)
    (fun h => absurd h (by omega)) true (by omega) _ _ false (ldb := 3) (ldc := 2) (by decide) (by decide) (by decide)
    (by omega) (by omega) (by decide +kernel) (by decide +kernel) (by
      intro i j h1 h2
      replace h2 : j < 3 := h2
      have : i * 3 + j < 9 := by omega
      simpa [denseOff, pdB] using this) (by
      intro i j h1 h2
      replace h2 : j < 2 := h2
      have : i * 2 + j < 4 := by omega
      simpa [denseOff] using this)

/-! ### findings -/

/-- **C50, repeated entries.**  Without `NoDup` the claim about syrkd is false: for the sorted matrix `syDup`,
accepted at creation, Aᵀ·A has 9 at (1, 1), (1, 2) and (2, 2); syrkd adds 3, 3 and 0. -/
theorem C50_syrkd_duplicates :
    syDup.WF ∧ syDup.Sorted ∧
    (gram .trans syDup.mat 1 1 1 = 9 ∧ gram .trans syDup.mat 1 1 2 = 9 ∧ gram .trans syDup.mat 1 2 2 = 9) ∧
    syrkdApi 32 0 id id Op.trans.code (some ⟨syDup.raw false, 0, true⟩) 1 0 (some (List.replicate 9 7)) 0 3
      = some (.success, some [0, 0, 0, 7, 3, 3, 7, 7, 0]) := by
  decide +kernel

/-- **C50, a matrix without rows.**  With op(A) the transpose of a 0×2 matrix the product is the 2×2 zero matrix,
so C should become beta·C = 3·C; syrkd does that, syprd returns success and leaves C alone. -/
theorem C50_syprd_no_rows :
    let A : Csr Int := ⟨0, 2, 0, [0], [], []⟩
    A.WF ∧
    syrkdApi 32 0 id id Op.trans.code (some ⟨A.raw false, 0, true⟩) 1 3 (some [1, 1, 1, 1]) 0 2
      = some (.success, some [3, 3, 1, 3]) ∧
    syprdApi 32 0 id Op.trans.code (some ⟨A.raw false, 0, true⟩) (some []) 0 1 1 3 (some [1, 1, 1, 1]) 0 2
      = some (.success, some [1, 1, 1, 1]) := by
  decide +kernel

end Verif
