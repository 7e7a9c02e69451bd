/-
Symmetric Gauss-Seidel: the two triangles of the operator, and the two sweeps.
-/
import Verif.Spec.Smooth
import Verif.Props.TrsvH

namespace Verif
open Model Finset

variable {R : Type} [Field R] [DecidableEq R] [StarRing R]

/-- the operator the smoother works with is one it can get from one triangle or from both -/
structure GsOp (isReal : Bool) (t : MType) (op : Op) (M0 : Mat R) : Prop where
  gen : t = .general → op ≠ .conjTrans
  sym : t = .symmetric → isReal = false → op ≠ .conjTrans
  herm : t = .hermitian → RealDiag M0 ∧ (isReal = false → op ≠ .trans)

theorem gsModes_ok {isReal : Bool} (hreal : isReal = true → ∀ v : R, star v = v) {t : MType} {f : Fill}
    {op : Op} {M0 : Mat R} (ht : t ≠ .triangular) (h : GsOp isReal t op M0) :
    ∃ (uf lf : Fill) (uo lo : Op),
      gsModes t.code f.code op.code = ⟨uo.code, lo.code, uf.code, lf.code⟩ ∧
      ((uo = .conjTrans ∨ lo = .conjTrans) → t = .hermitian) ∧
      (∀ i j, operator .triangular uf .zero uo M0 i j
        = if i < j then operator t f .nonUnit op M0 i j else 0) ∧
      (∀ i j, operator .triangular uf .nonUnit uo M0 i j
        = if i ≤ j then operator t f .nonUnit op M0 i j else 0) ∧
      (∀ i j, operator .triangular lf .zero lo M0 i j
        = if j < i then operator t f .nonUnit op M0 i j else 0) ∧
      (∀ i j, operator .triangular lf .nonUnit lo M0 i j
        = if j ≤ i then operator t f .nonUnit op M0 i j else 0) := by
  have hrd : t = .hermitian → ∀ i, star (M0 i i) = M0 i i := fun ht => (h.herm ht).1
  have key : ∀ i j : Nat, i < j ∨ i = j ∨ j < i := fun i j => by omega
  have hstar : ∀ v : R, t = .symmetric → op = .conjTrans → star v = v := by
    intro v h1 h2
    cases hr : isReal
    · exact absurd h2 (h.sym h1 hr)
    · exact hreal hr v
  have hstar' : ∀ v : R, t = .hermitian → op = .trans → star v = v := by
    intro v h1 h2
    cases hr : isReal
    · exact absurd h2 ((h.herm h1).2 hr)
    · exact hreal hr v
  cases t
  · cases op
    · refine ⟨.upper, .lower, .none, .none, by cases f <;> rfl, by simp, ?_⟩
      all_goals
        refine ⟨?_, ?_, ?_, ?_⟩ <;> intro i j <;> rcases key i j with hh | rfl | hh
      all_goals first
        | (have a1 := hh.ne; have a2 := hh.ne'; have a3 := not_lt.2 hh.le; have a4 := hh.le
           have a5 := not_le.2 hh
           simp [operator, applyOp, structured, strictTri, diagVal, hh, a1, a2, a3, a4, a5])
        | simp [operator, applyOp, structured, strictTri, diagVal]
    · refine ⟨.lower, .upper, .trans, .trans, by cases f <;> rfl, by simp, ?_⟩
      all_goals
        refine ⟨?_, ?_, ?_, ?_⟩ <;> intro i j <;> rcases key i j with hh | rfl | hh
      all_goals first
        | (have a1 := hh.ne; have a2 := hh.ne'; have a3 := not_lt.2 hh.le; have a4 := hh.le
           have a5 := not_le.2 hh
           simp [operator, applyOp, structured, strictTri, diagVal, hh, a1, a2, a3, a4, a5])
        | simp [operator, applyOp, structured, strictTri, diagVal]
    · exact absurd rfl (h.gen rfl)
  · cases f
    · refine ⟨.lower, .lower, .trans, .none, by cases op <;> rfl, by simp, ?_⟩
      cases op
      all_goals
        refine ⟨?_, ?_, ?_, ?_⟩ <;> intro i j <;> rcases key i j with hh | rfl | hh
      all_goals first
        | (have a1 := hh.ne; have a2 := hh.ne'; have a3 := not_lt.2 hh.le; have a4 := hh.le
           have a5 := not_le.2 hh
           simp [operator, applyOp, structured, strictTri, diagVal, hh, a1, a2, a3, a4, a5, hstar _ rfl])
        | simp [operator, applyOp, structured, strictTri, diagVal, hstar _ rfl]
    · refine ⟨.upper, .upper, .none, .trans, by cases op <;> rfl, by simp, ?_⟩
      cases op
      all_goals
        refine ⟨?_, ?_, ?_, ?_⟩ <;> intro i j <;> rcases key i j with hh | rfl | hh
      all_goals first
        | (have a1 := hh.ne; have a2 := hh.ne'; have a3 := not_lt.2 hh.le; have a4 := hh.le
           have a5 := not_le.2 hh
           simp [operator, applyOp, structured, strictTri, diagVal, hh, a1, a2, a3, a4, a5, hstar _ rfl])
        | simp [operator, applyOp, structured, strictTri, diagVal, hstar _ rfl]
  · cases f
    · refine ⟨.lower, .lower, .conjTrans, .none, by cases op <;> rfl, by simp, ?_⟩
      cases op
      all_goals
        refine ⟨?_, ?_, ?_, ?_⟩ <;> intro i j <;> rcases key i j with hh | rfl | hh
      all_goals first
        | (have a1 := hh.ne; have a2 := hh.ne'; have a3 := not_lt.2 hh.le; have a4 := hh.le
           have a5 := not_le.2 hh
           simp [operator, applyOp, structured, strictTri, diagVal, hh, a1, a2, a3, a4, a5, hstar' _ rfl, hrd rfl])
        | simp [operator, applyOp, structured, strictTri, diagVal, hstar' _ rfl, hrd rfl]
    · refine ⟨.upper, .upper, .none, .conjTrans, by cases op <;> rfl, by simp, ?_⟩
      cases op
      all_goals
        refine ⟨?_, ?_, ?_, ?_⟩ <;> intro i j <;> rcases key i j with hh | rfl | hh
      all_goals first
        | (have a1 := hh.ne; have a2 := hh.ne'; have a3 := not_lt.2 hh.le; have a4 := hh.le
           have a5 := not_le.2 hh
           simp [operator, applyOp, structured, strictTri, diagVal, hh, a1, a2, a3, a4, a5, hstar' _ rfl, hrd rfl])
        | simp [operator, applyOp, structured, strictTri, diagVal, hstar' _ rfl, hrd rfl]
  · exact absurd rfl ht

/-- the kernels work and are there -/
structure GsEnvOk (E : GsEnv R) (A : Csr R) : Prop where
  srt : StdSort E.srt
  sel : E.k.Ok
  kernels : E.k.gn.isSome ∧ E.k.gt.isSome ∧ E.k.sym.isSome ∧ E.isa.vl = true
  im : SolveOk E.im A 1
  ovf : prodOvf E.w ((A.m : Int) - 1) 1 = false

/-- a square matrix that can be cleaned, with full and nonzero diagonal -/
structure GsMat (A : Csr R) : Prop where
  wf : A.WF
  one : A.OneDiag
  nodup : A.Grouped ∨ A.NoDup
  square : A.m = A.n
  pos : 0 < A.m
  nnz : 0 < A.nnz
  full : A.FullDiag
  diag : ∀ i, i < A.m → A.mat i i ≠ 0

section
variable {E : GsEnv R} {A : Csr R} {ta : Bool} {H : MvHandle R}

theorem gsTrsv_spec (hE : GsEnvOk E A) (hA : GsMat A) (hH : HandleOk ta A H) (f : Fill) (op : Op)
    {b x : List R} (hb : A.m ≤ b.length) (hx : A.m ≤ x.length) :
    ∃ x' H', gsTrsv E op.code H ⟨3, f.code, 0, A.base⟩ b x = some (.success, x', H') ∧ HandleOk ta A H' ∧
      IsSolve (operator .triangular f .nonUnit op (userMat ta A)) A.m 1 b 1 x 1 x' := by
  obtain ⟨x', H', e, h1, h2⟩ := C27_handle (isReal := E.k.real) (w := E.w) (im := E.im) (op := op)
    (alpha := 1) (t := .triangular) (f := f) (Dg := .nonUnit) (b := b) (x := x) (incb := 1) (incx := 1)
    hE.srt E.g hE.sel.real hA.wf hA.one hA.nodup hA.pos hA.nnz hA.square (.inr rfl) (by simp)
    (fun _ => ⟨hA.full, hA.diag⟩) hE.im (by omega) (by omega) hE.ovf hE.ovf
    (fun i hi => by omega) (fun i hi => by omega) hH
  refine ⟨x', H', ?_, h1, h2⟩
  unfold gsTrsv
  rw [hE.sel.cj]
  have e' : trsvH E.k.real E.w star E.srt E.g E.im true op.code 1 (some H)
    (some ⟨3, f.code, 0, A.base⟩) (some b) 1 (some x) 1 = _ := e
  simp only [e', Option.bind_eq_bind, Option.bind_some]

theorem gsMv_spec (hE : GsEnvOk E A) (hH : HandleOk ta A H) (hn : H.nulls = 0) {t : MType} {f : Fill} {D : Diag} {op : Op}
    (alpha : R) {x y : List R} (hc : MvCall E.k ta A t f D op x y)
    (hs : MvSupported E.isa E.k ta A t D op) :
    ∃ y' H', gsMv E op.code alpha H ⟨t.code, f.code, D.code, A.base⟩ x y = some (.success, y', H') ∧
      HandleOk ta A H' ∧
      IsMv alpha 0 (operator t f D op (userMat ta A)) (opRows op ta A) (opCols op ta A) x y y' := by
  obtain ⟨st, y', H', e, h1, -, h3, h4⟩ := C21_mv (isa := E.isa) (alpha := alpha) (beta := 0) hE.srt E.g
    hE.sel hc hH hn
  have := h4 hs
  subst this
  refine ⟨y', H', ?_, h1, h3 rfl⟩
  unfold gsMv
  simp only [e, Option.bind_eq_bind, Option.bind_some]

omit [StarRing R] [DecidableEq R] in
theorem gsSub_spec {m : Nat} {b q r : List R} (hb : m ≤ b.length) (hq : m ≤ q.length)
    (hr : m ≤ r.length) :
    ∃ r', gsSub (m : Int) b q r = some r' ∧ r'.length = r.length ∧
      ∀ i, i < m → r'.getD i 0 = b.getD i 0 - q.getD i 0 := by
  obtain ⟨r', e, h1, h2⟩ := forC_inv_nat (n := m) (s := r) (f := fun i r => do
      let bi ← rd b i
      let qi ← rd q i
      wr r i (bi - qi)) (P := fun k z => z.length = r.length ∧
    ∀ i, i < k → z.getD i 0 = b.getD i 0 - q.getD i 0) ⟨rfl, fun i hi => absurd hi (by omega)⟩ (by
    rintro k z hk ⟨h1, h2⟩
    have e1 : rd b (k : Int) = some (b.getD k 0) := by
      rw [rd_ofNat, List.getD_eq_getElem?_getD, List.getElem?_eq_getElem (by omega)]; rfl
    have e2 : rd q (k : Int) = some (q.getD k 0) := by
      rw [rd_ofNat, List.getD_eq_getElem?_getD, List.getElem?_eq_getElem (by omega)]; rfl
    refine ⟨z.set k (b.getD k 0 - q.getD k 0), ?_, by simpa using h1, ?_⟩
    · simp only [e1, e2, Option.bind_eq_bind, Option.bind_some]
      exact wr_ofNat (by omega)
    · intro i hi
      by_cases hik : i = k
      · subst hik
        rw [List.getD_eq_getElem?_getD, List.getElem?_set_self (by omega)]
        rfl
      · rw [List.getD_eq_getElem?_getD, List.getElem?_set_ne (by omega), ← List.getD_eq_getElem?_getD]
        exact h2 i (by omega))
  exact ⟨r', e, h1, h2⟩

omit [DecidableEq R] [StarRing R] in
theorem sum_tri {m : Nat} (p : Nat → Prop) [DecidablePred p] (M : Nat → R) (v : Nat → R) (T : Nat → R)
    (h : ∀ j, T j = if p j then M j else 0) :
    ∑ j ∈ range m, T j * v j = ∑ j ∈ range m with p j, M j * v j := by
  rw [sum_filter]
  apply sum_congr rfl
  intro j _
  rw [h j]
  split <;> simp

theorem gsFuse_spec (hE : GsEnvOk E A) (hA : GsMat A) (hH : HandleOk ta A H) (hn : H.nulls = 0) {t : MType} {f : Fill}
    {op : Op} {x : List R} {y : Option (List R)} {fuse : Bool} (hx : A.m ≤ x.length)
    (hy : fuse = true → ∃ yl, y = some yl ∧ A.m ≤ yl.length)
    (hh : fuse = true → t = .hermitian → RealDiag A.mat ∧ E.k.real = false)
    (hc : fuse = true → ¬ (E.k.real = false ∧ ta = true ∧ op = .conjTrans ∧ (t = .general ∨ t = .triangular))) :
    ∃ y' H', gsFuse E op.code H ⟨t.code, f.code, 0, A.base⟩ x y fuse = some (.success, x, y', H') ∧
      HandleOk ta A H' ∧ (fuse = false → y' = y) ∧ (fuse = true → ∃ yl yl', y = some yl ∧ y' = some yl' ∧
        IsMv 1 0 (operator t f .nonUnit op (userMat ta A)) A.m A.m x yl yl') := by
  unfold gsFuse
  cases fuse with
  | false => exact ⟨y, H, rfl, hH, fun _ => rfl, by simp⟩
  | true =>
    obtain ⟨yl, rfl, hl⟩ := hy rfl
    have hr : opRows op ta A = A.m := by
      have := hA.square
      cases op <;> cases ta <;> simp [opRows, userRows, userCols, this]
    have hcl : opCols op ta A = A.m := by
      have := hA.square
      cases op <;> cases ta <;> simp [opCols, userRows, userCols, this]
    obtain ⟨y', H', e, h1, h2⟩ := gsMv_spec (t := t) (f := f) (D := .nonUnit) (op := op) hE hH hn 1
      (x := x) (y := yl)
      ⟨hA.wf, fun _ => ⟨hA.one, hA.nodup⟩, fun h => (hh rfl h).1, fun _ => .inl rfl,
        fun _ _ h => by simp at h, by omega, by omega⟩
      ⟨⟨hE.kernels.1, hE.kernels.2.1, hE.kernels.2.2.1, hE.kernels.2.2.2, fun _ => rfl⟩,
        fun _ => hA.square, fun h => (hh rfl h).2, hc rfl⟩
    have e' : gsMv E op.code 1 H ⟨t.code, f.code, 0, A.base⟩ x yl = _ := e
    rw [hr, hcl] at h2
    simp only [if_true, e', Option.bind_eq_bind, Option.bind_some]
    exact ⟨some y', H', rfl, h1, by simp, fun _ => ⟨yl, y', rfl, rfl, h2⟩⟩

/-- what a successful call computes -/
def GsOut (ta : Bool) (A : Csr R) (M : Mat R) (fuse : Bool) (y : Option (List R)) (Q : List R → Prop)
    (r : Option (Status × List R × Option (List R) × MvHandle R)) : Prop :=
  ∃ x' y' H', r = some (.success, x', y', H') ∧ HandleOk ta A H' ∧ Q x' ∧ (fuse = false → y' = y) ∧
    (fuse = true → ∃ yl yl', y = some yl ∧ y' = some yl' ∧ IsMv 1 0 M A.m A.m x' yl yl')

theorem gsTri_spec (hE : GsEnvOk E A) (hA : GsMat A) (hH : HandleOk ta A H) (hn : H.nulls = 0) {f : Fill}
    {op : Op} {b x : List R} {y : Option (List R)} {fuse : Bool} (hb : A.m ≤ b.length) (hx : A.m ≤ x.length)
    (hy : fuse = true → ∃ yl, y = some yl ∧ A.m ≤ yl.length)
    (hc : fuse = true → ¬ (E.k.real = false ∧ ta = true ∧ op = .conjTrans)) :
    GsOut ta A (operator .triangular f .nonUnit op (userMat ta A)) fuse y
      (IsSolve (operator .triangular f .nonUnit op (userMat ta A)) A.m 1 b 1 x 1)
      (gsTri E op.code H ⟨3, f.code, 0, A.base⟩ b x y fuse) := by
  obtain ⟨x', H1, e1, h1, s1⟩ := gsTrsv_spec hE hA hH f op hb hx
  obtain ⟨y', H2, e2, h2, s2, s3⟩ := gsFuse_spec (t := .triangular) (f := f) (op := op) (y := y)
    (fuse := fuse) hE hA h1 ((gsTrsv_nulls e1).trans hn) (x := x') (by rw [s1.length]; exact hx) hy (fun _ h => by simp at h)
    (fun h hh => hc h ⟨hh.1, hh.2.1, hh.2.2.1⟩)
  refine ⟨x', y', H2, ?_, h2, s1, s2, s3⟩
  unfold gsTri
  simp only [e1, Option.bind_eq_bind, Option.bind_some, ne_eq, not_true_eq_false, if_false]
  exact e2

theorem gsSweeps_spec (hE : GsEnvOk E A) (hA : GsMat A) (hH : HandleOk ta A H) (hn : H.nulls = 0) {t : MType} {f : Fill}
    {op : Op} {alpha : R} {b x : List R} {y : Option (List R)} {fuse : Bool} (ht : t ≠ .triangular)
    (hop : GsOp E.k.real t op (userMat ta A)) (hherm : t = .hermitian → E.k.real = false → ta = false)
    (hb : A.m ≤ b.length) (hx : A.m ≤ x.length)
    (hy : fuse = true → ∃ yl, y = some yl ∧ A.m ≤ yl.length)
    (hh : fuse = true → t = .hermitian → E.k.real = false) :
    GsOut ta A (operator t f .nonUnit op (userMat ta A)) fuse y
      (IsSymgs (operator t f .nonUnit op (userMat ta A)) A.m alpha b x)
      (gsSweeps E (gsModes t.code f.code op.code) op.code alpha H ⟨t.code, f.code, 0, A.base⟩ b x y
        fuse) := by
  obtain ⟨uf, lf, uo, lo, em, hcj, hU0, hU, hL0, hL⟩ := gsModes_ok (f := f) hE.sel.real ht hop
  rw [em]
  have hsq := hA.square
  have hrows : ∀ o : Op, opRows o ta A = A.m := by
    intro o; cases o <;> cases ta <;> simp [opRows, userRows, userCols, hsq]
  have hcols : ∀ o : Op, opCols o ta A = A.m := by
    intro o; cases o <;> cases ta <;> simp [opCols, userRows, userCols, hsq]
  have hum : ∀ H1 : MvHandle R, HandleOk ta A H1 → H1.raw.um = (A.m : Int) := by
    intro H1 h; rw [h.raw]; cases ta <;> simp [RawMat.um, Csr.raw, hsq]
  have hsup : ∀ o : Op, (o = .conjTrans → t = .hermitian) →
      MvSupported E.isa E.k ta A .triangular .zero o := by
    intro o ho
    refine ⟨⟨hE.kernels.1, hE.kernels.2.1, hE.kernels.2.2.1, hE.kernels.2.2.2, fun h => by simp at h⟩,
      fun h => by simp at h, fun h => by simp at h, ?_⟩
    rintro ⟨r1, r2, r3, -⟩
    have := hherm (ho r3) r1
    rw [r2] at this
    cases this
  have hcall : ∀ (o : Op) (ff : Fill) (u v : List R), A.m ≤ u.length → A.m ≤ v.length →
      MvCall E.k ta A .triangular ff .zero o u v := by
    intro o ff u v hu hv
    exact ⟨hA.wf, fun _ => ⟨hA.one, hA.nodup⟩, fun h => by simp at h, fun _ => .inr (by omega),
      fun _ _ h => by simp at h, by rw [hcols]; exact hu, by rw [hrows]; exact hv⟩
  have hm0 : H.raw.um.toNat = A.m := by rw [hum H hH]; simp
  -- first sweep
  obtain ⟨q1, H1, e1, h1, s1⟩ := gsMv_spec hE hH hn alpha
    (hcall uo uf x (List.replicate A.m 0) hx (by simp)) (hsup uo fun h => hcj (.inl h))
  rw [hrows, hcols] at s1
  have lq1 : q1.length = A.m := by rw [s1.length]; simp
  obtain ⟨z, e2, l2, s2⟩ := gsSub_spec (m := A.m) (b := b) (q := q1) (r := List.replicate A.m 0) hb
    (by omega) (by simp)
  obtain ⟨q2, H2, e3, h3, s3⟩ := gsTrsv_spec hE hA h1 lf lo (b := z) (x := q1) (by rw [l2]; simp) (by omega)
  have lq2 : q2.length = A.m := by rw [s3.length, lq1]
  -- second sweep
  have n3 : H2.nulls = 0 := (gsTrsv_nulls e3).trans ((gsMv_nulls e1).trans hn)
  obtain ⟨z2, H3, e4, h4, s4⟩ := gsMv_spec hE h3 n3 1
    (hcall lo lf q2 z (by omega) (by rw [l2]; simp)) (hsup lo fun h => hcj (.inr h))
  rw [hrows, hcols] at s4
  have lz2 : z2.length = A.m := by rw [s4.length, l2]; simp
  obtain ⟨q3, e5, l5, s5⟩ := gsSub_spec (m := A.m) (b := b) (q := z2) (r := q2) hb (by omega) (by omega)
  obtain ⟨x', H4, e6, h6, s6⟩ := gsTrsv_spec hE hA h4 uf uo (b := q3) (x := x) (by omega) hx
  obtain ⟨y', H5, e7, h7, s7, s8⟩ := gsFuse_spec (t := t) (f := f) (op := op) (y := y)
    (fuse := fuse) hE hA h6 ((gsTrsv_nulls e6).trans ((gsMv_nulls e4).trans n3)) (x := x') (by rw [s6.length]; exact hx) hy
    (fun hf hht => ⟨fun i => by
      have := (hop.herm hht).1 i
      cases ta <;> exact this, hh hf hht⟩) (by
      rintro hf ⟨-, -, r3, r4 | r4⟩
      · exact hop.gen r4 r3
      · exact ht r4)
  refine ⟨x', y', H5, ?_, h7, ?_, s7, s8⟩
  · unfold gsSweeps gsBack
    have e1' : gsMv E uo.code alpha H ⟨3, uf.code, 2, A.base⟩ x (List.replicate A.m 0) = _ := e1
    have e4' : gsMv E lo.code 1 H2 ⟨3, lf.code, 2, A.base⟩ q2 z = _ := e4
    simp only [hm0, e1', e2, e3, e4', e5, e6, hum H1 h1, hum H3 h4, Option.bind_eq_bind, Option.bind_some,
      ne_eq, not_true_eq_false, if_false]
    exact e7
  · refine ⟨s6.length, ⟨fun j => q2.getD j 0, ?_, ?_⟩, ?_⟩
    · intro i hi
      have a1 := s3.solves i hi
      simp only [mul_one, one_mul] at a1
      rw [sum_tri (fun j => j ≤ i) (fun j => operator t f .nonUnit op (userMat ta A) i j) (fun j => q2.getD j 0)
        _ (hL i), s2 i hi] at a1
      rw [a1]
      congr 1
      have a2 := s1.rows i hi
      have a3 : q1.getD i 0 = alpha * matVec (operator .triangular uf .zero uo (userMat ta A)) A.m x i := by
        rw [List.getD_eq_getElem?_getD, a2]
        simp
      rw [a3]
      congr 1
      exact sum_tri (fun j => i < j) (fun j => operator t f .nonUnit op (userMat ta A) i j)
        (fun j => x.getD j 0) _ (hU0 i)
    · intro i hi
      have a1 := s6.solves i hi
      simp only [mul_one, one_mul] at a1
      rw [sum_tri (fun j => i ≤ j) (fun j => operator t f .nonUnit op (userMat ta A) i j) (fun j => x'.getD j 0)
        _ (hU i), s5 i hi] at a1
      rw [a1]
      congr 1
      have a2 := s4.rows i hi
      have a3 : z2.getD i 0 = matVec (operator .triangular lf .zero lo (userMat ta A)) A.m q2 i := by
        rw [List.getD_eq_getElem?_getD, a2]
        simp
      rw [a3]
      exact sum_tri (fun j => j < i) (fun j => operator t f .nonUnit op (userMat ta A) i j)
        (fun j => q2.getD j 0) _ (hL0 i)
    · intro i hi
      exact s6.rest i (fun k hk => by omega)

end
end Verif
