/-
C27 on handles: the triangular solve after any history.
-/
import Verif.Model.Symgs
import Verif.Props.Trsv
import Verif.Props.Mv

namespace Verif
open Model Finset

variable {R : Type} [Field R] [DecidableEq R] [StarRing R]

/-- the clean copy of a correct handle -/
theorem clean_copy_of {ta : Bool} {A : Csr R} {H : MvHandle R} (hH : HandleOk ta A H) {i : Nat}
    {c : MCopy R} {iu : Option (List Int)} (h : H.mats[i]? = some (.csr c true iu)) :
    ∃ (B : Csr R) (idl iul : List Int), c.idiag = some idl ∧ iu = some iul ∧ B.WF ∧ B.m = A.m ∧ B.n = A.n ∧
      B = ⟨A.m, A.n, c.base, c.ptr, c.ind, c.val⟩ ∧ Clean B idl iul ∧ (A.NoDup → B.NoDup) ∧
      decide (c.doid = gt) = ta ∧ (∀ i j, i < A.m → j < A.n → B.mat i j = A.mat i j) ∧
      (H.fulldiag = true ↔ A.FullDiag) := by
  have hm := List.mem_of_getElem? h
  obtain ⟨k1, k2, k3, k4⟩ := hH.all _ hm
  obtain ⟨k5, -, -, k6, idl, iul, k7, k8, k9⟩ := k4 rfl
  have hB : c.csr (userRows ta A) (userCols ta A) = ⟨A.m, A.n, c.base, c.ptr, c.ind, c.val⟩ := by
    unfold Model.MCopy.csr kindT
    rw [k5, raw_doid]
    cases ta <;> rfl
  refine ⟨c.csr (userRows ta A) (userCols ta A), idl, iul, k7, k8, k1.wf, by rw [hB], by rw [hB], hB, k9,
    k6, ?_, ?_, hH.full _ hm rfl⟩
  · rw [k5, raw_doid]
    cases ta <;> rfl
  · intro i j hi hj
    obtain ⟨D, d1, d2⟩ := k1.elems
    rw [d2 i j (by rw [hB]; exact hi) (by rw [hB]; exact hj), k5, raw_doid]
    cases ta <;> rfl

section
variable {srt : (Int → Int → Bool) → List Int → List Int} {isReal : Bool} {w : Nat} {im : TrsvImpl R}
  {op : Op} {alpha : R} {ta : Bool} {A : Csr R} {H : MvHandle R} {t : MType} {f : Fill} {Dg : Diag}
  {b x : List R} {incb incx : Nat}

/-- **C27, on handles.**  Whatever copies a correct handle holds: the solve succeeds, the returned
vector solves `op(T)·x = alpha·b` for the selected triangle of the user's matrix, the rest of the array
is not touched, and the handle stays correct. -/
theorem C27_handle (hsrt : StdSort srt) (g : Garb R) (hreal : isReal = true → ∀ v : R, star v = v)
    (hA : A.WF) (hd1 : A.OneDiag) (hnd : A.Grouped ∨ A.NoDup) (hm : 0 < A.m) (hnz : 0 < A.nnz)
    (hsq : A.m = A.n) (ht : t = .symmetric ∨ t = .triangular)
    (hdz : Dg ≠ .zero) (hinv : Dg = .nonUnit → A.FullDiag ∧ ∀ i, i < A.m → A.mat i i ≠ 0)
    (him : SolveOk im A alpha) (hincb : 0 < incb)
    (hincx : 0 < incx) (hov : prodOvf w ((A.m : Int) - 1) incx = false)
    (hovb : prodOvf w ((A.m : Int) - 1) incb = false)
    (hb : ∀ i, i < A.m → i * incb < b.length) (hx : ∀ i, i < A.m → i * incx < x.length)
    (hH : HandleOk ta A H) :
    ∃ x' H', trsvH isReal w star srt g im true op.code alpha (some H)
        (some ⟨t.code, f.code, Dg.code, A.base⟩) (some b) incb (some x) incx
        = some (.success, some x', some H') ∧ HandleOk ta A H' ∧
      IsSolve (operator .triangular f Dg op (userMat ta A)) A.m alpha b incb x incx x' := by
  obtain ⟨i, H', c, iu, e1, h1, h2⟩ := csrCscOptimize_spec hsrt g.i g.v hA hd1 hnd hH
  obtain ⟨B, idl, iul, b1, b2, b3, b4, b5, b6, b7, b8, b9, hmat, hfd⟩ := clean_copy_of h1 h2
  have hdoid : trsvDoid isReal ⟨t.code, f.code, Dg.code, A.base⟩ op.code
      = getDoid isReal 3 f.code op.code := by
    rcases ht with rfl | rfl <;> rfl
  have hrange : ∀ (r : Bool) (f : Fill) (op : Op), 12 ≤ getDoid r 3 f.code op.code ∧
      getDoid r 3 f.code op.code ≤ 19 ∧ 12 ≤ transDoid (getDoid r 3 f.code op.code) ∧
      transDoid (getDoid r 3 f.code op.code) ≤ 19 := by
    intro r f op; cases r <;> cases f <;> cases op <;> decide
  have hmean : doidOp Dg (getDoid isReal 3 f.code op.code) (userMat ta A)
      = operator .triangular f Dg op (userMat ta A) :=
    C02_getDoid_meaning isReal .triangular f op Dg (userMat ta A) hreal (by simp)
  obtain ⟨g1, g2, g3, g4⟩ := hrange isReal f op
  generalize hdd : getDoid isReal 3 f.code op.code = d at *
  have hd' : 12 ≤ (if ta then transDoid d else d) ∧ (if ta then transDoid d else d) ≤ 19 := by
    cases ta <;> simp [g1, g2, g3, g4]
  have hop : doidOp Dg (if ta then transDoid d else d) A.mat = doidOp Dg d (userMat ta A) := by
    cases ta
    · rfl
    · have hsh : ∀ d, 12 ≤ d → d ≤ 19 → ¬ (d >>> 2 = 2) := by
        intro d h1 h2
        rcases (by omega : d = 12 ∨ d = 13 ∨ d = 14 ∨ d = 15 ∨ d = 16 ∨ d = 17 ∨ d = 18 ∨ d = 19)
          with rfl | rfl | rfl | rfl | rfl | rfl | rfl | rfl <;> decide
      exact (C02_trans_conj_meaning Dg d (by omega) (transM A.mat)
        (fun h => absurd h (hsh d g1 g2))).1
  have him' : ImplOk im B alpha (if ta then transDoid d else d) := by
    cases im with
    | ref => trivial
    | kt V K => exact ⟨him.1, fun _ => ⟨b8 him.2.1, him.2.2⟩⟩
  obtain ⟨x', e, hs⟩ := C27_kernel im (if ta then transDoid d else d) hd' B b3 (by omega)
    idl iul b7 Dg hdz (fun hn i hi => by
      rw [hmat i i (by omega) (by omega)]; exact (hinv hn).2 i (by omega)) alpha him' b x incb incx hincx
      (by rw [b4]; exact hb) (by rw [b4]; exact hx)
  rw [b4] at hs e
  refine ⟨x', H', ?_, h1, hs.length, ?_, hs.rest⟩
  · have hum : H.raw.um = A.m := by rw [hH.raw]; cases ta <;> simp [RawMat.um, Csr.raw, hsq]
    have hun : H.raw.un = A.n := by rw [hH.raw]; cases ta <;> simp [RawMat.un, Csr.raw, hsq]
    have hum' : H'.raw.um = A.m := by rw [h1.raw, ← hum, hH.raw]
    have hnz' : H.raw.nnz = A.nnz := by rw [hH.raw]; rfl
    have hbs : H.raw.base = A.base := by rw [hH.raw]; rfl
    have hfm : H.raw.fmt = 0 := by rw [hH.raw]; rfl
    have c1 : ¬ (H.raw.um ≤ 0 ∨ H.raw.nnz ≤ 0) := by omega
    have c2 : ¬ (H.raw.um ≠ H.raw.un ∨ (incb : Int) ≤ 0 ∨ (incx : Int) ≤ 0) := by omega
    have c3 : ¬ (A.base ≠ 0 ∧ A.base ≠ 1) := by
      have := hA.base01; omega
    have c4 : ¬ (op.code ≠ 111 ∧ op.code ≠ 112 ∧ op.code ≠ 113) := by cases op <;> simp [Op.code]
    have c5 : ¬ (t.code ≠ 1 ∧ t.code ≠ 3) := by rcases ht with rfl | rfl <;> simp [MType.code]
    have c6 : ¬ Dg.code = 2 := by cases Dg <;> simp_all [Diag.code]
    have c7 : ¬ (f.code ≠ 0 ∧ f.code ≠ 1) := by cases f <;> simp [Fill.code]
    unfold trsvH
    dsimp only
    rw [if_neg (by simp [hfm]), if_neg c1, if_neg c2, if_neg (by simp [hbs]), if_neg c3, if_neg c4,
      if_neg c5, if_neg c6, if_neg c7, if_neg (by simp)]
    simp only [e1, Option.bind_eq_bind, Option.bind_some]
    unfold trsvCopy
    rw [h2, b2]
    simp only [b1, Option.bind_eq_bind, Option.bind_some, b9]
    unfold trsvRun
    dsimp only
    rw [hdoid, hum', if_neg, if_neg (by omega), if_neg (by simp [hov, hovb])]
    · rw [b6] at e
      dsimp only at e
      rw [e]
      rfl
    · rintro ⟨ha, hb⟩
      have hn : Dg = .nonUnit := by cases Dg <;> simp_all [Diag.code]
      have := hfd.mpr (hinv hn).1
      rw [ha] at this
      exact absurd this (by simp)
  · intro i hi
    rw [← hs.solves i hi, ← hmean, ← hop]
    apply sum_congr rfl
    intro j hj
    have hj := mem_range.mp hj
    congr 1
    have hst : ∀ tt ff i j, i < A.m → j < A.m →
        structured tt ff Dg A.mat i j = structured tt ff Dg B.mat i j := by
      intro tt ff i j hi hj
      cases Dg <;> simp only [structured, diagVal, hmat i j hi (by omega), hmat j i hj (by omega),
        hmat i i hi (by omega)]
    unfold doidOp
    rcases doidMeaning (if ta then transDoid d else d) with _ | ⟨tt, ff, c, tr⟩
    · rfl
    · cases c <;> cases tr <;>
        simp [conjM, transM, hst _ _ i j hi hj, hst _ _ j i hj hi]

/-- **C27, on handles, missing diagonal.**  With an ordinary diagonal type and a diagonal entry that is not
stored, the call reports an invalid value and does not write `x`. -/
theorem C27_handle_missing_diagonal (hsrt : StdSort srt) (g : Garb R) {cjg : R → R}
    (hA : A.WF) (hd1 : A.OneDiag) (hnd : A.Grouped ∨ A.NoDup) (hm : 0 < A.m) (hnz : 0 < A.nnz)
    (hsq : A.m = A.n) (ht : t = .symmetric ∨ t = .triangular) (hfd : ¬ A.FullDiag) (hincb : 0 < incb)
    (hincx : 0 < incx) (hH : HandleOk ta A H) :
    ∃ H', trsvH isReal w cjg srt g im true op.code alpha (some H)
        (some ⟨t.code, f.code, Diag.nonUnit.code, A.base⟩) (some b) incb (some x) incx
        = some (.invalidValue, some x, some H') ∧ HandleOk ta A H' := by
  obtain ⟨i, H', c, iu, e1, h1, h2⟩ := csrCscOptimize_spec hsrt g.i g.v hA hd1 hnd hH
  obtain ⟨B, idl, iul, b1, b2, -, -, -, -, -, -, -, -, hf⟩ := clean_copy_of h1 h2
  have hff : H'.fulldiag = false := by
    cases h : H'.fulldiag
    · rfl
    · exact absurd (hf.1 h) hfd
  have hum : H.raw.um = A.m := by rw [hH.raw]; cases ta <;> simp [RawMat.um, Csr.raw, hsq]
  have hun : H.raw.un = A.n := by rw [hH.raw]; cases ta <;> simp [RawMat.un, Csr.raw, hsq]
  have hnz' : H.raw.nnz = A.nnz := by rw [hH.raw]; rfl
  have hbs : H.raw.base = A.base := by rw [hH.raw]; rfl
  have hfm : H.raw.fmt = 0 := by rw [hH.raw]; rfl
  have c1 : ¬ (H.raw.um ≤ 0 ∨ H.raw.nnz ≤ 0) := by omega
  have c2 : ¬ (H.raw.um ≠ H.raw.un ∨ (incb : Int) ≤ 0 ∨ (incx : Int) ≤ 0) := by omega
  have c3 : ¬ (A.base ≠ 0 ∧ A.base ≠ 1) := by
    have := hA.base01; omega
  have c4 : ¬ (op.code ≠ 111 ∧ op.code ≠ 112 ∧ op.code ≠ 113) := by cases op <;> simp [Op.code]
  have c5 : ¬ (t.code ≠ 1 ∧ t.code ≠ 3) := by rcases ht with rfl | rfl <;> simp [MType.code]
  have c6 : ¬ Diag.nonUnit.code = 2 := by simp [Diag.code]
  have c7 : ¬ (f.code ≠ 0 ∧ f.code ≠ 1) := by cases f <;> simp [Fill.code]
  refine ⟨H', ?_, h1⟩
  unfold trsvH
  dsimp only
  rw [if_neg (by simp [hfm]), if_neg c1, if_neg c2, if_neg (by simp [hbs]), if_neg c3, if_neg c4,
    if_neg c5, if_neg c6, if_neg c7, if_neg (by simp)]
  simp only [e1, Option.bind_eq_bind, Option.bind_some]
  unfold trsvCopy
  rw [h2, b2]
  simp only [b1, Option.bind_eq_bind, Option.bind_some]
  unfold trsvRun
  dsimp only
  rw [if_pos ⟨hff, rfl⟩]
  rfl

/-- **C27, on handles.**  The solve keeps every handle correct, whatever its status. -/
theorem C27_handle_keeps (hsrt : StdSort srt) (g : Garb R) {cjg : R → R} (hA : A.WF) (hd1 : A.OneDiag)
    (hnd : A.Grouped ∨ A.NoDup) (hH : HandleOk ta A H) {same : Bool} {opc : Int} {d : Option Descr}
    {bo xo : Option (List R)} {ib ix : Int} {st : Status} {xo' : Option (List R)} {H' : MvHandle R}
    (e : trsvH isReal w cjg srt g im same opc alpha (some H) d bo ib xo ix = some (st, xo', some H')) :
    HandleOk ta A H' := by
  obtain ⟨i, H1, c, iu, e1, h1, h2⟩ := csrCscOptimize_spec hsrt g.i g.v hA hd1 hnd hH
  unfold trsvH at e
  rcases xo with _ | x0
  · cases e; exact hH
  rcases bo with _ | b0
  · cases e; exact hH
  rcases d with _ | d0
  · cases e; exact hH
  dsimp only at e
  iterate 10
    (rcases ite_or e with ⟨-, e'⟩ | ⟨-, e'⟩
     · cases e'; exact hH
     replace e := e'; clear e')
  simp only [e1, Option.bind_eq_bind, Option.bind_some] at e
  unfold trsvCopy at e
  rw [h2] at e
  obtain ⟨B, idl, iul, b1, b2, -⟩ := clean_copy_of h1 h2
  rw [b2] at e
  simp only [b1, Option.bind_eq_bind, Option.bind_some] at e
  cases hr : trsvRun isReal w cjg im d0 opc alpha H1.raw.um (decide (c.doid = gt))
    ⟨false, c.base, c.ptr, c.ind, c.val, idl, iul, H1.fulldiag⟩ b0 ib x0 ix with
  | none => rw [hr] at e; cases e
  | some r =>
    rw [hr] at e
    cases r <;> cases e <;> exact h1

end
end Verif
