/-
C27  Triangular solve.
-/
import Verif.Proofs.Trsv2
import Verif.Props.Doid
import Verif.Props.CsrOpt
import Mathlib.Data.Rat.Star

namespace Verif
open Model Finset

variable {R : Type} [Field R] [DecidableEq R] [StarRing R]

/-- The kernel of the table can be used: the vectorised kernels of the transposed solves lose
updates when a row stores a column twice, and ignore `alpha = 0`. -/
def ImplOk (im : TrsvImpl R) (A : Csr R) (alpha : R) (d : Nat) : Prop :=
  match im with
  | .ref => True
  | .kt V K => V.Ok K ∧ ((∃ t f c, doidMeaning d = some (t, f, c, true)) → A.NoDup ∧ alpha ≠ 0)

theorem bind_of {α β : Type} {o : Option α} {a : α} {f : α → Option β} {r : Option β}
    (h : o = some a) (e : f a = r) : (o >>= f) = r := by
  rw [h]; exact e

theorem nodup_parts {A : Csr R} (hnd : A.NoDup) {idiag iurow : List Int}
    {L D U : Nat → List (Int × R)}
    (hc : ∀ i, i < A.m → CleanRow A idiag iurow i (L i) (D i) (U i)) (i : Nat) (hi : i < A.m) :
    ((L i).map (·.1)).Nodup ∧ ((U i).map (·.1)).Nodup := by
  have h := hnd i hi
  rw [(hc i hi).1, List.map_append, List.map_append] at h
  have h1 := List.nodup_append.mp h
  exact ⟨(List.nodup_append.mp h1.1).1, h1.2.1⟩

/-- **C27** Every kernel of the table solves the system its operation identifier denotes. -/
theorem C27_kernel (im : TrsvImpl R) (d : Nat) (hd : 12 ≤ d ∧ d ≤ 19) (A : Csr R) (hA : A.WF)
    (hsq : A.m = A.n) (idiag iurow : List Int) (hcl : Clean A idiag iurow) (Dg : Diag)
    (hdz : Dg ≠ .zero) (hinv : Dg = .nonUnit → ∀ i, i < A.m → A.mat i i ≠ 0)
    (alpha : R) (him : ImplOk im A alpha d) (b x : List R) (incb incx : Nat) (hincx : 0 < incx)
    (hb : ∀ i, i < A.m → i * incb < b.length) (hx : ∀ i, i < A.m → i * incx < x.length) :
    ∃ x', trsvKernel star im d alpha A.m A.base A.val A.ind A.ptr idiag iurow b incb x incx
        (decide (Dg.code = 1)) = some x' ∧
      IsSolve (doidOp Dg d A.mat) A.m alpha b incb x incx x' := by
  obtain ⟨L, D, U, hc⟩ := hcl.choose'
  have hdg : DiagOk Dg A (decide (Dg.code = 1)) := by
    cases Dg
    · exact Or.inr ⟨rfl, rfl, hinv rfl⟩
    · exact Or.inl ⟨rfl, rfl⟩
    · exact absurd rfl hdz
  generalize decide (Dg.code = 1) = unit at *
  have ctx : TrsvCtx A idiag iurow L D U b x incb incx := ⟨hA, hsq, hc, hincx, hb, hx⟩
  obtain ⟨x1, i1, s1⟩ := trsvInit_spec alpha hincx hb (SVec.start x incx A.m hx)
  cases im with
  | ref =>
    rcases (by omega : d = 12 ∨ d = 13 ∨ d = 14 ∨ d = 15 ∨ d = 16 ∨ d = 17 ∨ d = 18 ∨ d = 19)
      with rfl | rfl | rfl | rfl | rfl | rfl | rfl | rfl
    · exact lower_rows (RingHom.id R) ctx hdg (refLRow_step (RingHom.id R) unit ctx alpha)
    · exact lower_rows (starRingEnd R) ctx hdg (refLRow_step (starRingEnd R) unit ctx alpha)
    · obtain ⟨x2, e, h⟩ := lower_cols (RingHom.id R) ctx hdg
        (refLthRow_step (RingHom.id R) unit ctx) s1
      exact ⟨x2, bind_of i1 e, h⟩
    · obtain ⟨x2, e, h⟩ := lower_cols (starRingEnd R) ctx hdg
        (refLthRow_step (starRingEnd R) unit ctx) s1
      exact ⟨x2, bind_of i1 e, h⟩
    · exact upper_rows (RingHom.id R) ctx hdg (refURow_step (RingHom.id R) unit ctx alpha)
    · exact upper_rows (starRingEnd R) ctx hdg (refURow_step (starRingEnd R) unit ctx alpha)
    · obtain ⟨x2, e, h⟩ := upper_cols (RingHom.id R) ctx hdg
        (refUthRow_step (RingHom.id R) unit ctx) s1
      exact ⟨x2, bind_of i1 e, h⟩
    · obtain ⟨x2, e, h⟩ := upper_cols (starRingEnd R) ctx hdg
        (refUthRow_step (starRingEnd R) unit ctx) s1
      exact ⟨x2, bind_of i1 e, h⟩
  | kt V K =>
    obtain ⟨hV, htr⟩ := him
    have hK := hV.1
    rcases (by omega : d = 12 ∨ d = 13 ∨ d = 14 ∨ d = 15 ∨ d = 16 ∨ d = 17 ∨ d = 18 ∨ d = 19)
      with rfl | rfl | rfl | rfl | rfl | rfl | rfl | rfl
    · exact lower_rows (RingHom.id R) ctx hdg (ktLRow_step (RingHom.id R) unit hV ctx alpha)
    · exact lower_rows (starRingEnd R) ctx hdg (ktLRow_step (starRingEnd R) unit hV ctx alpha)
    · obtain ⟨hnd, ha⟩ := htr ⟨_, _, _, rfl⟩
      obtain ⟨x1, i1, s1⟩ := ktInit_spec ctx ha
      obtain ⟨x2, e, h⟩ := lower_cols (RingHom.id R) ctx hdg
        (ktLtRow_step (RingHom.id R) unit hK (fun i hi => (nodup_parts hnd hc i hi).1) ctx) s1
      exact ⟨x2, bind_of i1 e, h⟩
    · obtain ⟨hnd, ha⟩ := htr ⟨_, _, _, rfl⟩
      obtain ⟨x1, i1, s1⟩ := ktInit_spec ctx ha
      obtain ⟨x2, e, h⟩ := lower_cols (starRingEnd R) ctx hdg
        (ktLtRow_step (starRingEnd R) unit hK (fun i hi => (nodup_parts hnd hc i hi).1) ctx) s1
      exact ⟨x2, bind_of i1 e, h⟩
    · exact upper_rows (RingHom.id R) ctx hdg (ktURow_step (RingHom.id R) unit hV ctx alpha)
    · exact upper_rows (starRingEnd R) ctx hdg (ktURow_step (starRingEnd R) unit hV ctx alpha)
    · obtain ⟨hnd, ha⟩ := htr ⟨_, _, _, rfl⟩
      obtain ⟨x1, i1, s1⟩ := ktInit_spec ctx ha
      obtain ⟨x2, e, h⟩ := upper_cols (RingHom.id R) ctx hdg
        (ktUtRow_step (RingHom.id R) unit hK (fun i hi => (nodup_parts hnd hc i hi).2) ctx) s1
      exact ⟨x2, bind_of i1 e, h⟩
    · obtain ⟨hnd, ha⟩ := htr ⟨_, _, _, rfl⟩
      obtain ⟨x1, i1, s1⟩ := ktInit_spec ctx ha
      obtain ⟨x2, e, h⟩ := upper_cols (starRingEnd R) ctx hdg
        (ktUtRow_step (starRingEnd R) unit hK (fun i hi => (nodup_parts hnd hc i hi).2) ctx) s1
      exact ⟨x2, bind_of i1 e, h⟩

/-- a CSR handle holding `A` (`isT = false`), or a CSC handle whose columns are the rows of `A` -/
def Csr.solveMat (A : Csr R) (isT : Bool) : SolveMat R :=
  ⟨0, A.m, A.n, A.nnz, A.base, isT, A.ptr, A.ind, A.val⟩

/-- the kernel picked is one of the scalar ones, or the case is one the vectorised ones handle -/
def SolveOk (im : TrsvImpl R) (A : Csr R) (alpha : R) : Prop :=
  match im with
  | .ref => True
  | .kt V K => V.Ok K ∧ A.NoDup ∧ alpha ≠ 0

/-- **C27** aoclsparse_?trsv on a CSR or CSC handle: the returned vector solves
`op(T)·x = alpha·b`, with `T` the selected triangle of the user's matrix and its diagonal type,
and the rest of the array is not touched. -/
theorem C27_trsv {srt : (Int → Int → Bool) → List Int → List Int} (hsrt : StdSort srt)
    (gi : Nat → Int) (gv : Nat → R) (isReal : Bool) (hreal : isReal = true → ∀ v : R, star v = v)
    (w : Nat) (im : TrsvImpl R) (op : Op) (alpha : R) (A : Csr R) (isT : Bool) (hA : A.WF)
    (hd1 : A.OneDiag) (hnd : A.Grouped ∨ A.NoDup) (hm : 0 < A.m) (hnz : 0 < A.nnz)
    (hsq : A.m = A.n) (t : MType) (ht : t = .symmetric ∨ t = .triangular) (f : Fill) (Dg : Diag)
    (hdz : Dg ≠ .zero) (hinv : Dg = .nonUnit → A.FullDiag ∧ ∀ i, i < A.m → A.mat i i ≠ 0)
    (him : SolveOk im A alpha) (b x : List R) (incb incx : Nat) (hincb : 0 < incb)
    (hincx : 0 < incx) (hov : prodOvf w ((A.m : Int) - 1) incx = false)
    (hovb : prodOvf w ((A.m : Int) - 1) incb = false)
    (hb : ∀ i, i < A.m → i * incb < b.length) (hx : ∀ i, i < A.m → i * incx < x.length) :
    ∃ x', trsv isReal w star srt gi gv im op.code alpha (some (A.solveMat isT))
        (some ⟨t.code, f.code, Dg.code, A.base⟩) (some b) incb (some x) incx = some (.ok x') ∧
      IsSolve (operator .triangular f Dg op (userMat isT A)) A.m alpha b incb x incx x' := by
  obtain ⟨o, h1, h2, h3, h4, -, h6, h7⟩ := C15_clean_copy hsrt gi gv hA hd1 hnd
  have hmat : ∀ i j, i < A.m → (o.csr A.m A.n).mat i j = A.mat i j := by
    obtain ⟨o', h1', -, -, h5⟩ := C15_same_matrix hsrt gi gv hA hd1 hnd
    rw [h1] at h1'
    simp only [Option.some.injEq, Except.ok.injEq] at h1'
    exact h1' ▸ h5
  have hdoid : trsvDoid isReal ⟨t.code, f.code, Dg.code, A.base⟩ op.code
      = getDoid isReal 3 f.code op.code := by
    rcases ht with rfl | rfl <;> rfl
  have hrange : ∀ (r : Bool) (f : Fill) (op : Op), 12 ≤ getDoid r 3 f.code op.code ∧
      getDoid r 3 f.code op.code ≤ 19 ∧ 12 ≤ transDoid (getDoid r 3 f.code op.code) ∧
      transDoid (getDoid r 3 f.code op.code) ≤ 19 := by
    intro r f op; cases r <;> cases f <;> cases op <;> decide
  have hmean : doidOp Dg (getDoid isReal 3 f.code op.code) (userMat isT A)
      = operator .triangular f Dg op (userMat isT A) :=
    C02_getDoid_meaning isReal .triangular f op Dg (userMat isT A) hreal (by simp)
  obtain ⟨g1, g2, g3, g4⟩ := hrange isReal f op
  generalize hdd : getDoid isReal 3 f.code op.code = d at *
  -- the identifier used and what it denotes on the stored arrays
  have hd' : 12 ≤ (if isT then transDoid d else d) ∧ (if isT then transDoid d else d) ≤ 19 := by
    cases isT <;> simp [g1, g2, g3, g4]
  have hop : doidOp Dg (if isT then transDoid d else d) A.mat = doidOp Dg d (userMat isT A) := by
    cases isT
    · rfl
    · have hsh : ∀ d, 12 ≤ d → d ≤ 19 → ¬ (d >>> 2 = 2) := by
        intro d h1 h2
        rcases (by omega : d = 12 ∨ d = 13 ∨ d = 14 ∨ d = 15 ∨ d = 16 ∨ d = 17 ∨ d = 18 ∨ d = 19)
          with rfl | rfl | rfl | rfl | rfl | rfl | rfl | rfl <;> decide
      exact (C02_trans_conj_meaning Dg d (by omega) (transM A.mat)
        (fun h => absurd h (hsh d g1 g2))).1
  have him' : ImplOk im (o.csr A.m A.n) alpha (if isT then transDoid d else d) := by
    cases im with
    | ref => trivial
    | kt V K =>
      refine ⟨him.1, fun _ => ⟨?_, him.2.2⟩⟩
      intro i hi
      exact nodup_copy (h4 i hi) (him.2.1 i hi)
  obtain ⟨x', e, hs⟩ := C27_kernel im (if isT then transDoid d else d) hd' (o.csr A.m A.n) h2 hsq
    o.idiag o.iurow h3 Dg hdz (fun hn i hi => by
      rw [hmat i i hi]; exact (hinv hn).2 i hi) alpha him' b x incb incx hincx hb hx
  refine ⟨x', ?_, hs.length, ?_, hs.rest⟩
  · have c1 : ¬ ((A.m : Int) ≤ 0 ∨ (A.nnz : Int) ≤ 0) := by omega
    have c2 : ¬ ((A.m : Int) ≠ (A.n : Int) ∨ (incb : Int) ≤ 0 ∨ (incx : Int) ≤ 0) := by omega
    have c3 : ¬ (A.base ≠ 0 ∧ A.base ≠ 1) := by
      have := hA.base01; omega
    have c4 : ¬ (op.code ≠ 111 ∧ op.code ≠ 112 ∧ op.code ≠ 113) := by cases op <;> simp [Op.code]
    have c5 : ¬ (t.code ≠ 1 ∧ t.code ≠ 3) := by rcases ht with rfl | rfl <;> simp [MType.code]
    have c6 : ¬ Dg.code = 2 := by cases Dg <;> simp_all [Diag.code]
    have c7 : ¬ (f.code ≠ 0 ∧ f.code ≠ 1) := by cases f <;> simp [Fill.code]
    simp only [trsv, Csr.solveMat, ne_eq, not_true_eq_false, if_false]
    rw [if_neg c1, if_neg c2, if_neg c3, if_neg c4, if_neg c5, if_neg c6, if_neg c7, h1]
    simp only [Option.bind_some, trsvRun, hdoid]
    rw [if_neg, if_neg (by omega), if_neg (by simp [hov, hovb])]
    · change (trsvKernel star im _ alpha A.m o.base o.val o.ind o.ptr o.idiag o.iurow b incb x incx
        (decide (Dg.code = 1))) = some x' at e
      rw [e]
      rfl
    · rintro ⟨ha, hb⟩
      have hn : Dg = .nonUnit := by cases Dg <;> simp_all [Diag.code]
      have := h7.mpr (hinv hn).1
      rw [ha] at this
      exact absurd this (by simp)
  · intro i hi
    rw [← hs.solves i hi, ← hmean, ← hop]
    apply sum_congr rfl
    intro j hj
    have hj := mem_range.mp hj
    congr 1
    have hst : ∀ tt ff i j, i < A.m → j < A.m →
        structured tt ff Dg A.mat i j = structured tt ff Dg (o.csr A.m A.n).mat i j := by
      intro tt ff i j hi hj
      cases Dg <;> simp only [structured, diagVal, hmat i j hi, hmat j i hj, hmat i i hi]
    unfold doidOp
    rcases doidMeaning (if isT then transDoid d else d) with _ | ⟨tt, ff, c, tr⟩
    · rfl
    · cases c <;> cases tr <;>
        simp [conjM, transM, hst _ _ i j hi hj, hst _ _ j i hj hi]

/-- **C27** A non-unit solve with a missing diagonal entry is refused. -/
theorem C27_missing_diagonal {srt : (Int → Int → Bool) → List Int → List Int} (hsrt : StdSort srt)
    (gi : Nat → Int) (gv : Nat → R) (isReal : Bool) (w : Nat) (im : TrsvImpl R) (op : Op)
    (alpha : R) (A : Csr R) (isT : Bool) (hA : A.WF) (hd1 : A.OneDiag)
    (hnd : A.Grouped ∨ A.NoDup) (hm : 0 < A.m) (hnz : 0 < A.nnz) (hsq : A.m = A.n) (t : MType)
    (ht : t = .symmetric ∨ t = .triangular) (f : Fill) (hfd : ¬ A.FullDiag) (b x : List R)
    (incb incx : Nat) (hincb : 0 < incb) (hincx : 0 < incx) :
    trsv isReal w star srt gi gv im op.code alpha (some (A.solveMat isT))
        (some ⟨t.code, f.code, Diag.nonUnit.code, A.base⟩) (some b) incb (some x) incx
      = some (.error .invalidValue) := by
  obtain ⟨o, h1, h2, h3, h4, -, h6, h7⟩ := C15_clean_copy hsrt gi gv hA hd1 hnd
  have c1 : ¬ ((A.m : Int) ≤ 0 ∨ (A.nnz : Int) ≤ 0) := by omega
  have c2 : ¬ ((A.m : Int) ≠ (A.n : Int) ∨ (incb : Int) ≤ 0 ∨ (incx : Int) ≤ 0) := by omega
  have c3 : ¬ (A.base ≠ 0 ∧ A.base ≠ 1) := by
    have := hA.base01; omega
  have c4 : ¬ (op.code ≠ 111 ∧ op.code ≠ 112 ∧ op.code ≠ 113) := by cases op <;> simp [Op.code]
  have c5 : ¬ (t.code ≠ 1 ∧ t.code ≠ 3) := by rcases ht with rfl | rfl <;> simp [MType.code]
  have c6 : ¬ Diag.nonUnit.code = 2 := by decide
  have c7 : ¬ (f.code ≠ 0 ∧ f.code ≠ 1) := by cases f <;> simp [Fill.code]
  simp only [trsv, Csr.solveMat, ne_eq, not_true_eq_false, if_false]
  rw [if_neg c1, if_neg c2, if_neg c3, if_neg c4, if_neg c5, if_neg c6, if_neg c7, h1]
  have hf : o.fulldiag = false := by
    cases h : o.fulldiag
    · rfl
    · exact absurd (h7.mp h) hfd
  simp [trsvRun, hf, Diag.code]

/-! ### examples -/

/-- one-based, 3×3, unsorted -/
def exTri : Csr ℚ := ⟨3, 3, 1, [1, 3, 5, 8], [2, 1, 2, 1, 3, 1, 2], [3, 2, 4, 1, 5, 6, 7]⟩

example : exTri.WF ∧ exTri.OneDiag ∧ exTri.NoDup ∧ exTri.m = exTri.n ∧ exTri.FullDiag ∧
    0 < exTri.nnz := by
  refine ⟨by constructor <;> decide +kernel, ?_⟩
  decide +kernel

example : ∀ i, i < exTri.m → exTri.mat i i ≠ 0 := by decide +kernel

example : prodOvf 32 ((exTri.m : Int) - 1) 2 = false := by decide +kernel

example : SolveOk (.kt (vecLanes 4 hsum4l) 4) exTri (2 : ℚ) :=
  ⟨vecLanes_ok (by omega) hsum4l_sum, by decide +kernel, by decide⟩

/-- a 2×2 clean matrix -/
def exTri2 : Csr ℚ := ⟨2, 2, 0, [0, 1, 3], [0, 0, 1], [2, 3, 5]⟩

/-- **C27** The vectorised kernels of the transposed solve leave `x` as it was when `alpha` is zero
and solve `op(T)·x' = x` instead of `op(T)·x' = 0`. -/
theorem C27_alpha_zero (d : Nat) (hd : d = 14 ∨ d = 18) (V : Vec R) (K : Nat) (hK : 0 < K)
    (A : Csr R) (hA : A.WF) (hsq : A.m = A.n) (hnd : A.NoDup)
    (idiag iurow : List Int) (hcl : Clean A idiag iurow) (Dg : Diag)
    (hdz : Dg ≠ .zero) (hinv : Dg = .nonUnit → ∀ i, i < A.m → A.mat i i ≠ 0)
    (b x : List R) (incb : Int) (incx : Nat) (hincx : 0 < incx)
    (hx : ∀ i, i < A.m → i * incx < x.length) :
    ∃ x', trsvKernel star (.kt V K) d 0 A.m A.base A.val A.ind A.ptr idiag iurow b incb x incx
        (decide (Dg.code = 1)) = some x' ∧
      IsSolve (doidOp Dg d A.mat) A.m 1 x incx x incx x' := by
  obtain ⟨L, D, U, hc⟩ := hcl.choose'
  have hdg : DiagOk Dg A (decide (Dg.code = 1)) := by
    cases Dg
    · exact Or.inr ⟨rfl, rfl, hinv rfl⟩
    · exact Or.inl ⟨rfl, rfl⟩
    · exact absurd rfl hdz
  generalize decide (Dg.code = 1) = unit at *
  have ctx : TrsvCtx A idiag iurow L D U x x incx incx := ⟨hA, hsq, hc, hincx, hx, hx⟩
  have i1 : ktInit (0 : R) A.m b incb x incx = some x := by simp [ktInit]
  have s1 : SVec x x incx A.m (fun i => 1 * x.getD (i * incx) 0) :=
    (SVec.start x incx A.m hx).congr (fun i _ => (one_mul _).symm)
  rcases hd with rfl | rfl
  · obtain ⟨x2, e, h⟩ := lower_cols (RingHom.id R) ctx hdg
      (ktLtRow_step (RingHom.id R) unit hK (fun i hi => (nodup_parts hnd hc i hi).1) ctx) s1
    exact ⟨x2, bind_of i1 e, h⟩
  · obtain ⟨x2, e, h⟩ := upper_cols (RingHom.id R) ctx hdg
      (ktUtRow_step (RingHom.id R) unit hK (fun i hi => (nodup_parts hnd hc i hi).2) ctx) s1
    exact ⟨x2, bind_of i1 e, h⟩

/-- **C27 (counterexample)** `alpha = 0`: the scalar kernel returns zeros, the vectorised kernel
of the transposed solve returns the solution for the old content of `x`. -/
theorem C27_alpha_zero_wrong :
    trsvKernel star .ref 14 (0 : ℚ) 2 0 exTri2.val exTri2.ind exTri2.ptr [0, 2] [1, 3] [1, 1] 1
        [7, 5] 1 false = some [0, 0] ∧
    trsvKernel star (.kt (vecLanes 4 hsum4l) 4) 14 (0 : ℚ) 2 0 exTri2.val exTri2.ind exTri2.ptr
        [0, 2] [1, 3] [1, 1] 1 [7, 5] 1 false = some [2, 1] := by
  constructor <;> decide +kernel

/-- row 4 stores column 0 twice -/
def exTriDup : Csr ℚ :=
  ⟨3, 3, 0, [0, 1, 2, 6], [0, 1, 0, 0, 1, 2], [1, 1, 1, 1, 1, 1]⟩

/-- **C27 (counterexample)** A column stored twice in a row: the matrix is accepted, the scalar
kernel adds the two values, the vectorised kernel of the transposed solve loses one of them. -/
theorem C27_duplicates_wrong :
    exTriDup.WF ∧ exTriDup.OneDiag ∧ exTriDup.Grouped ∧ exTriDup.FullDiag ∧
    trsvKernel star .ref 14 (1 : ℚ) 3 0 exTriDup.val exTriDup.ind exTriDup.ptr [0, 1, 5] [1, 2, 6]
        [1, 1, 1] 1 [0, 0, 0] 1 false = some [-1, 0, 1] ∧
    trsvKernel star (.kt (vecLanes 2 List.sum) 2) 14 (1 : ℚ) 3 0 exTriDup.val exTriDup.ind
        exTriDup.ptr [0, 1, 5] [1, 2, 6] [1, 1, 1] 1 [0, 0, 0] 1 false = some [0, 0, 1] := by
  refine ⟨by constructor <;> decide +kernel, ?_⟩
  decide +kernel

end Verif
