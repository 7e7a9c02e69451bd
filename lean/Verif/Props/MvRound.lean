/-
C72: the rounding errors of matrix-vector products in the other storage formats.
-/
import Verif.Proofs.ShadowFmt
import Verif.Proofs.ShadowSym
import Verif.Props.Ell
import Verif.Props.CsrmvSym
import Verif.Props.Tcsr
import Verif.Props.MmExact

namespace Verif.Props
open Verif Verif.Model Rounding

variable {R : Type} [Zero R] [One R] [Add R] [Mul R] [DecidableEq R]
  {ρ : Rounding} {v : R → ℝ} {fac : R → Option (ℝ × ℝ)}

private theorem ellT_ok {T : Type} [Zero T] [One T] [Add T] [Mul T] [DecidableEq T]
    (kernel : T → Int → List T → List Int → Int → Int → List T → T → List T → Option (List T))
    (alpha beta : T) (m n w : Nat) (hm : 0 < m) (hn : 0 < n) (hw : 0 < w) (base : Int)
    (hb : base = 0 ∨ base = 1) (f D : Nat) (ev : List T) (ec : List Int) (x y : List T) :
    ellmvT kernel 111 alpha m n (some ev) (some ec) w (some ⟨0, f, D, base⟩) (some x) beta (some y)
      = (kernel alpha m ev ec w base x beta y).bind fun y' => some (.success, some y') := by
  unfold ellmvT
  simp only []
  rw [if_neg (by omega), if_neg (by simp), if_neg (by simp), if_neg (by omega), if_neg (by omega),
    if_neg (by omega), if_neg (by omega), if_neg (by omega)]
  rfl

private theorem ell_err {K : Nat → Nat} {A : Csr R} (hA : A.WF) {w : Nat} (hw : 0 < w) (hm : 0 < A.m) (hn : 0 < A.n)
    {alpha beta : R} {x y ev : List R} {ec : List Int} (hy : A.m ≤ y.length) (f D : Nat)
    (kernel : R → Int → List R → List Int → Int → Int → List R → R → List R → Option (List R))
    (kr : ℝ → Int → List ℝ → List Int → Int → Int → List ℝ → ℝ → List ℝ → Option (List ℝ))
    (h : Opt3 (YRel ρ v fac K y (· < A.m)) (kernel alpha A.m ev ec w A.base x beta y)
      (kr (v alpha) A.m (ev.map v) ec w A.base (x.map v) (v beta) (y.map v))
      (kr |v alpha| A.m (szs v ev) ec w A.base (szs v x) |v beta| (szs v y)))
    (he : ∃ y', ellmvT kr 111 (v alpha) A.m A.n (some (ev.map v)) (some ec) w (some ⟨0, f, D, A.base⟩) (some (x.map v))
        (v beta) (some (y.map v)) = some (.success, some y') ∧
        IsMv (v alpha) (v beta) (A.mapTo v).mat A.m A.n (x.map v) (y.map v) y')
    (hs : ∃ y', ellmvT kr 111 |v alpha| A.m A.n (some (szs v ev)) (some ec) w (some ⟨0, f, D, A.base⟩) (some (szs v x))
        |v beta| (some (szs v y)) = some (.success, some y') ∧
        IsMv |v alpha| |v beta| (A.mapTo fun a => |v a|).mat A.m A.n (szs v x) (szs v y) y') :
    ∃ y', ellmvT kernel 111 alpha A.m A.n (some ev) (some ec) w (some ⟨0, f, D, A.base⟩) (some x) beta (some y)
        = some (.success, some y') ∧
      MvErr ρ v K alpha beta (A.mapTo v).mat (A.mapTo fun a => |v a|).mat A.m A.n x y y' := by
  obtain ⟨ye, he, ie⟩ := he
  obtain ⟨ys, hs, is⟩ := hs
  rw [ellT_ok _ _ _ _ _ _ hm hn hw _ hA.base01] at he hs
  obtain ⟨a, ha, e⟩ := Option.bind_eq_some_iff.1 he
  obtain ⟨b, hb, e'⟩ := Option.bind_eq_some_iff.1 hs
  cases e; cases e'
  rw [ha, hb] at h
  obtain ⟨y', hk, hr⟩ := mvErr_of hy h ie is
  exact ⟨y', by rw [ellT_ok _ _ _ _ _ _ hm hn hw _ hA.base01, hk]; rfl, hr⟩

/-- **C72** ELL format, scalar code and AVX2 code. -/
theorem C72_ell (hR : Contracts ρ v fac) (h1 : v 1 = 1) (A : Csr R) (hA : A.WF)
    (w : Nat) (hw0 : 0 < w) (hm : 0 < A.m) (hn : 0 < A.n)
    (hw : ∀ i, i < A.m → (A.row i).length ≤ w) (ec : List Int) (ev : List R)
    (hc : EllContent A.m w (ellOff w) A.base (fun _ => -1) A.row ec ev)
    (alpha beta : R) (x y : List R) (hx : A.n ≤ x.length) (hy : A.m ≤ y.length)
    (px : ∀ a ∈ x, fac a = none) (py : ∀ a ∈ y, fac a = none) (f D : Nat) :
    (∃ y', ellmvT ellmvRef 111 alpha A.m A.n (some ev) (some ec) w (some ⟨0, f, D, A.base⟩)
        (some x) beta (some y) = some (.success, some y') ∧
      MvErr ρ v (fun _ => w + 3) alpha beta (A.mapTo v).mat (A.mapTo fun a => |v a|).mat A.m A.n x y y') ∧
    (∃ y', ellmvT dellmvAvx2 111 alpha A.m A.n (some ev) (some ec) w (some ⟨0, f, D, A.base⟩)
        (some x) beta (some y) = some (.success, some y') ∧
      MvErr ρ v (fun _ => w / 4 + 9) alpha beta (A.mapTo v).mat (A.mapTo fun a => |v a|).mat A.m A.n x y y') := by
  have hl : ∀ (g : R → ℝ), ∀ i, i < A.m → ((A.mapTo g).row i).length ≤ w := by
    intro g i hi; rw [mapTo_row]; simpa using hw i hi
  have E := C09_ellmv (A.mapTo v) (mapTo_wf v hA) w hw0 hm hn (hl v) ec (ev.map v) (ellContent_map v hR.zero hc)
    (v alpha) (v beta) (x.map v) (y.map v) (by simpa [Csr.mapTo] using hx) (by simpa [Csr.mapTo] using hy) f D
  have S := C09_ellmv (A.mapTo fun a => |v a|) (mapTo_wf _ hA) w hw0 hm hn (hl _) ec (szs v ev)
    (ellContent_map (fun a => |v a|) (by rw [hR.zero, abs_zero]) hc)
    |v alpha| |v beta| (szs v x) (szs v y) (by simpa [Csr.mapTo] using hx) (by simpa [Csr.mapTo] using hy) f D
  exact ⟨ell_err hA hw0 hm hn hy f D ellmvRef ellmvRef (ellmvRef_rel hR h1 px py alpha beta A.m w A.base) E.1 S.1,
    ell_err hA hw0 hm hn hy f D dellmvAvx2 dellmvAvx2 (dellmvAvx2_rel hR h1 px py alpha beta A.m w A.base) E.2 S.2⟩

/-- **C72** Transposed ELL format, scalar code and AVX2 code. -/
theorem C72_ellt (hR : Contracts ρ v fac) (h1 : v 1 = 1) (A : Csr R) (hA : A.WF)
    (w : Nat) (hw0 : 0 < w) (hm : 0 < A.m) (hn : 0 < A.n)
    (hw : ∀ i, i < A.m → (A.row i).length ≤ w) (ec : List Int) (ev : List R) (pad : Nat → Int)
    (hc : EllContent A.m w (elltOff A.m) A.base pad A.row ec ev)
    (hpad : ∀ i, i < A.m → 0 ≤ pad i - A.base ∧ pad i - A.base < A.n)
    (alpha beta : R) (x y : List R) (hx : A.n ≤ x.length) (hy : A.m ≤ y.length)
    (px : ∀ a ∈ x, fac a = none) (py : ∀ a ∈ y, fac a = none) (f D : Nat) :
    (∃ y', ellmvT elltmvRef 111 alpha A.m A.n (some ev) (some ec) w (some ⟨0, f, D, A.base⟩)
        (some x) beta (some y) = some (.success, some y') ∧
      MvErr ρ v (fun _ => w + 3) alpha beta (A.mapTo v).mat (A.mapTo fun a => |v a|).mat A.m A.n x y y') ∧
    (∃ y', ellmvT elltmvAvx2 111 alpha A.m A.n (some ev) (some ec) w (some ⟨0, f, D, A.base⟩)
        (some x) beta (some y) = some (.success, some y') ∧
      MvErr ρ v (fun _ => w + 3) alpha beta (A.mapTo v).mat (A.mapTo fun a => |v a|).mat A.m A.n x y y') := by
  have hl : ∀ (g : R → ℝ), ∀ i, i < A.m → ((A.mapTo g).row i).length ≤ w := by
    intro g i hi; rw [mapTo_row]; simpa using hw i hi
  have E := C10_elltmv (A.mapTo v) (mapTo_wf v hA) w hw0 hm hn (hl v) ec (ev.map v) pad (ellContent_map v hR.zero hc) hpad
    (v alpha) (v beta) (x.map v) (y.map v) (by simpa [Csr.mapTo] using hx) (by simpa [Csr.mapTo] using hy) f D
  have S := C10_elltmv (A.mapTo fun a => |v a|) (mapTo_wf _ hA) w hw0 hm hn (hl _) ec (szs v ev) pad
    (ellContent_map (fun a => |v a|) (by rw [hR.zero, abs_zero]) hc) hpad
    |v alpha| |v beta| (szs v x) (szs v y) (by simpa [Csr.mapTo] using hx) (by simpa [Csr.mapTo] using hy) f D
  exact ⟨ell_err hA hw0 hm hn hy f D elltmvRef elltmvRef (elltmvRef_rel hR h1 px py alpha beta A.m w A.base) E.1 S.1,
    ell_err hA hw0 hm hn hy f D elltmvAvx2 elltmvAvx2 (elltmvAvx2_rel hR h1 px py alpha beta A.m w A.base) E.2 S.2⟩

/-- **C72** Triangular matrix in CSR format, scalar code.  What is bounded is the distance to the product with the
triangle that the descriptor names; the size refers to the same triangle of the sizes. -/
theorem C72_triangle (hR : Contracts ρ v fac) (h1 : v 1 = 1) (A : Csr R) (hA : A.WF) (idiag iurow : List Int)
    (hcl : Clean A idiag iurow) (f : Fill) (Dg : Diag) (hsh : Dg = .nonUnit ∨ A.m ≤ A.n)
    (alpha beta : R) (x y : List R) (hx : A.n ≤ x.length) (hy : A.m ≤ y.length)
    (px : ∀ a ∈ x, fac a = none) (py : ∀ a ∈ y, fac a = none) :
    ∃ y', csrmvTri A.base alpha A.m Dg.code f.code A.val A.ind A.ptr idiag iurow x beta y = some y' ∧
      MvErr ρ v (fun i => (A.row i).length + 4) alpha beta (operator .triangular f Dg .none (A.mapTo v).mat)
        (operator .triangular f Dg .none (A.mapTo fun a => |v a|).mat) A.m A.n x y y' := by
  obtain ⟨ye, he, ie⟩ := C20_triangular (A.mapTo v) (mapTo_wf v hA) idiag iurow (clean_map v hcl) f Dg hsh
    (v alpha) (v beta) (x.map v) (y.map v) (by simpa [Csr.mapTo] using hx) (by simpa [Csr.mapTo] using hy)
  obtain ⟨ys, hs, is⟩ := C20_triangular (A.mapTo fun a => |v a|) (mapTo_wf _ hA) idiag iurow (clean_map _ hcl) f Dg hsh
    |v alpha| |v beta| (szs v x) (szs v y) (by simpa [Csr.mapTo] using hx) (by simpa [Csr.mapTo] using hy)
  have h := csrmvTri_rel hR h1 px py A.base Dg.code f.code hy alpha beta (val := A.val) (ind := A.ind) (ptr := A.ptr)
    (idiag := idiag) (iurow := iurow) (fun i => (A.row i).length) fun i hi b hb => tri_len hA hcl f Dg hsh hi b hb
  rw [show csrmvTri A.base (v alpha) A.m Dg.code f.code (A.val.map v) A.ind A.ptr idiag iurow (x.map v) (v beta) (y.map v)
    = some ye from he, show csrmvTri A.base |v alpha| A.m Dg.code f.code (szs v A.val) A.ind A.ptr idiag iurow (szs v x)
      |v beta| (szs v y) = some ys from hs] at h
  exact mvErr_of' hy h ie is

/-- **C72** Triangular matrix in CSR format, AVX2 code (except where F12 strikes: an upper triangle with unit diagonal
and a row of four or more strictly upper entries). -/
theorem C72_triangle_avx2 (hR : Contracts ρ v fac) (A : Csr R) (hA : A.WF) (idiag iurow : List Int)
    (hcl : Clean A idiag iurow) (f : Fill) (Dg : Diag) (hsh : Dg = .nonUnit ∨ A.m ≤ A.n)
    (hok : f = .upper → Dg = .unit → ∀ i, i < A.m → ((A.row i).filter fun e => decide ((i : Int) < e.1)).length < 4)
    (alpha beta : R) (x y : List R) (hx : A.n ≤ x.length) (hy : A.m ≤ y.length)
    (px : ∀ a ∈ x, fac a = none) (py : ∀ a ∈ y, fac a = none) :
    ∃ y', csrmvTriAvx2 A.base alpha A.m Dg.code f.code A.val A.ind A.ptr idiag iurow x beta y = some y' ∧
      MvErr ρ v (fun i => (A.row i).length / 4 + 9) alpha beta (operator .triangular f Dg .none (A.mapTo v).mat)
        (operator .triangular f Dg .none (A.mapTo fun a => |v a|).mat) A.m A.n x y y' := by
  have hup : ∀ (g : R → ℝ), f = .upper → Dg = .unit → ∀ i, i < (A.mapTo g).m → upperCount (A.mapTo g) i < 4 := by
    intro g h1 h2 i hi
    unfold upperCount
    rw [mapTo_row, List.filter_map, List.length_map]
    exact hok h1 h2 i hi
  obtain ⟨ye, he, ie⟩ := C20_avx2 (A.mapTo v) (mapTo_wf v hA) idiag iurow (clean_map v hcl) f Dg hsh (hup v)
    (v alpha) (v beta) (x.map v) (y.map v) (by simpa [Csr.mapTo] using hx) (by simpa [Csr.mapTo] using hy)
  obtain ⟨ys, hs, is⟩ := C20_avx2 (A.mapTo fun a => |v a|) (mapTo_wf _ hA) idiag iurow (clean_map _ hcl) f Dg hsh (hup _)
    |v alpha| |v beta| (szs v x) (szs v y) (by simpa [Csr.mapTo] using hx) (by simpa [Csr.mapTo] using hy)
  have h := csrmvTriAvx2_rel hR px py A.base Dg.code f.code A.m alpha beta (val := A.val) (ind := A.ind) (ptr := A.ptr)
    (idiag := idiag) (iurow := iurow) (fun i => (A.row i).length) fun i hi b hb => tri_len hA hcl f Dg hsh hi b hb
  rw [show csrmvTriAvx2 A.base (v alpha) A.m Dg.code f.code (A.val.map v) A.ind A.ptr idiag iurow (x.map v) (v beta)
    (y.map v) = some ye from he, show csrmvTriAvx2 A.base |v alpha| A.m Dg.code f.code (szs v A.val) A.ind A.ptr idiag
      iurow (szs v x) |v beta| (szs v y) = some ys from hs] at h
  exact mvErr_of hy h ie is

/-- **C72** A matrix made of two triangles (TCSR format), all of it. -/
theorem C72_tcsr (hR : Contracts ρ v fac) {gd gu : Nat → Int} {L U : Csr R} (hL : Sized L) (hU : Sized U) (hm : U.m = L.m)
    (hn : U.n = L.n) (hb : U.base = L.base) {nnz : Int} {T : Tcsr R} {st : MatSort}
    (hT : callCreate gd gu L U nnz = some (.ok (T, st))) (alpha beta : R) (x y : List R) (hx : L.n ≤ x.length)
    (hy : L.m ≤ y.length) (px : ∀ a ∈ x, fac a = none) (py : ∀ a ∈ y, fac a = none) :
    ∃ y', dtcsrmv L.base alpha T x beta y = some y' ∧
      MvErr ρ v (fun i => (L.row i).length / 4 + (U.row i).length / 4 + 10) alpha beta (pairMat (L.mapTo v) (U.mapTo v))
        (pairMat (L.mapTo fun a => |v a|) (U.mapTo fun a => |v a|)) L.m L.n x y y' := by
  have ok := created_ok hL hU hm hn hb hT
  obtain ⟨ye, he, ie⟩ := dtcsrmv_spec (tcsrOk_map v ok) (v alpha) (v beta) (x := x.map v) (y := y.map v)
    (by simpa [Csr.mapTo] using hx) (by simpa [Csr.mapTo] using hy)
  obtain ⟨ys, hs, is⟩ := dtcsrmv_spec (tcsrOk_map (fun a => |v a|) ok) |v alpha| |v beta| (x := szs v x) (y := szs v y)
    (by simpa [Csr.mapTo] using hx) (by simpa [Csr.mapTo] using hy)
  have h := dtcsrmv_rel hR T px py L.base alpha beta L.m ok.m
    (fun i => (L.row i).length / 4 + (U.row i).length / 4) (by
      intro i hi lo hi' ulo uhi e1 e2 e3 e4
      have l1 := Csr.row_length ok.wfL hi
      have l2 := Csr.row_length ok.wfU (i := i) (by omega)
      have g1 := Csr.WF.rd_ptr ok.wfL (i := i) (by omega)
      have g2 := Csr.WF.rd_ptr ok.wfL (i := i + 1) (by omega)
      have g3 := Csr.WF.rd_ptr ok.wfU (i := i) (by omega)
      have g4 := Csr.WF.rd_ptr ok.wfU (i := i + 1) (by omega)
      push_cast at g2 g4
      rw [ok.ptrL] at e1 e2
      rw [ok.ptrU] at e3 e4
      rw [e1] at g1; rw [e2] at g2; rw [e3] at g3; rw [e4] at g4
      cases g1; cases g2; cases g3; cases g4
      omega)
  rw [show dtcsrmv L.base (v alpha) (T.mapTo v) (x.map v) (v beta) (y.map v) = some ye from he,
    show dtcsrmv L.base |v alpha| (T.mapTo fun a => |v a|) (szs v x) |v beta| (szs v y) = some ys from hs] at h
  exact mvErr_of hy h ie is

/-- **C72** The blocked copy that aoclsparse_optimize may build of a CSR matrix. -/
theorem C72_blocked (hR : Contracts ρ v fac) (h1 : v 1 = 1) (A : Csr R) (hA : A.WF) (hn : 0 < A.n)
    (hb : A.base = 0 ∨ A.row 0 ≠ []) (W : Nat) (hW : ∀ i, i < A.m → (A.row i).length ≤ W)
    (gw gp gi : Nat → Int) (gv : Nat → R) (alpha beta : R) (x y : List R) (hx : A.n ≤ x.length)
    (hy : A.m ≤ y.length) (px : ∀ a ∈ x, fac a = none) (py : ∀ a ∈ y, fac a = none) :
    ∃ B y', br4Build A.m A.base A.ptr A.ind A.val gw gp gi gv = some B ∧ br4Mv alpha A.m A.base B x beta y = some y' ∧
      MvErr ρ v (fun _ => W + 3) alpha beta (A.mapTo v).mat (A.mapTo fun a => |v a|).mat A.m A.n x y y' := by
  obtain ⟨B, eB, hB⟩ := br4Build_spec hA gw gp gi gv
  have key : ∀ (g : R → ℝ), g 0 = 0 → ∀ a b : ℝ, ∃ z, br4Mv a A.m A.base (B.mapTo g) (x.map g) b (y.map g) = some z ∧
      IsMv a b (A.mapTo g).mat A.m A.n (x.map g) (y.map g) z := by
    intro g g0 a b
    have hp : br4PadOk (A.mapTo g) := by
      intro i hi _
      have := br4Last_range hA hn hb hi
      rw [br4Last_map]
      exact this
    obtain ⟨z, h1, h2⟩ := br4Mv_spec (mapTo_wf g hA) hp (isBr4_map g g0 hB) (x := x.map g)
      (by simpa [Csr.mapTo] using hx) (alpha := a) (beta := b) (Rep.of_list (y.map g) 0) (by simpa [Csr.mapTo] using hy)
    exact ⟨z, h1, isMv_of_rep (by simpa using hy) (fun i _ => rowDot_eq (mapTo_wf g hA) _ i) h2⟩
  obtain ⟨ye, he, ie⟩ := key v hR.zero (v alpha) (v beta)
  obtain ⟨ys, hs, is⟩ := key (fun a => |v a|) (by rw [hR.zero, abs_zero]) |v alpha| |v beta|
  have hwid : ∀ i, i < A.m → br4Wid A i ≤ W := by
    intro i hi
    unfold br4Wid
    split
    · have q0 := hW (4 * (i / 4)) (by omega)
      have q1 := hW (4 * (i / 4) + 1) (by omega)
      have q2 := hW (4 * (i / 4) + 2) (by omega)
      have q3 := hW (4 * (i / 4) + 3) (by omega)
      omega
    · exact hW i hi
  have hptr : ∀ i, i ≤ A.m → rd B.ptr (i : Int) = some (A.base + (offs (br4Rows A) i : Int)) := by
    intro i hi
    rw [hB.ptr, rd_ofNat, List.getElem?_map, List.getElem?_range (by omega)]; rfl
  have h := br4Mv_rel hR h1 B px py A.base alpha beta A.m W (by
    intro i r r1 hi e1 e2
    have q1 := hptr i (by omega)
    have q2 := hptr (i + 1) (by omega)
    push_cast at q2
    rw [e1] at q1; rw [e2] at q2
    cases q1; cases q2
    rw [offs_succ, br4Rows_length]
    have := hwid i hi
    push_cast
    omega)
  rw [he, hs] at h
  obtain ⟨y', e, r⟩ := mvErr_of hy h ie is
  exact ⟨B, y', eB, e, r⟩

/-- **C72** Transposed triangular matrix in CSR format: element `j` gathers the entries of column `j`. -/
theorem C72_triangle_trans (hR : Contracts ρ v fac) (h1 : v 1 = 1) (A : Csr R) (hA : A.WF) (idiag iurow : List Int)
    (hcl : Clean A idiag iurow) (f : Fill) (Dg : Diag) (hsh : Dg = .nonUnit ∨ A.m ≤ A.n)
    (alpha beta : R) (x y : List R) (hx : A.m ≤ x.length) (hy : A.n ≤ y.length)
    (px : ∀ a ∈ x, fac a = none) (py : ∀ a ∈ y, fac a = none) :
    ∃ y', csrmvTriTh id A.base alpha A.m A.n Dg.code f.code A.val A.ind A.ptr idiag iurow x beta y = some y' ∧
      MvErr ρ v (fun j => A.colCount j + 4) alpha beta (operator .triangular f Dg .trans (A.mapTo v).mat)
        (operator .triangular f Dg .trans (A.mapTo fun a => |v a|).mat) A.n A.m x y y' := by
  obtain ⟨ye, he, ie⟩ := C20_transpose (A.mapTo v) (mapTo_wf v hA) idiag iurow (clean_map v hcl) f Dg hsh
    (v alpha) (v beta) (x.map v) (y.map v) (by simpa [Csr.mapTo] using hx) (by simpa [Csr.mapTo] using hy)
  obtain ⟨ys, hs, is⟩ := C20_transpose (A.mapTo fun a => |v a|) (mapTo_wf _ hA) idiag iurow (clean_map _ hcl) f Dg hsh
    |v alpha| |v beta| (szs v x) (szs v y) (by simpa [Csr.mapTo] using hx) (by simpa [Csr.mapTo] using hy)
  have h := csrmvTriTh_rel hR h1 hA hcl f Dg hsh alpha beta hy px py
  rw [show csrmvTriTh id A.base (v alpha) A.m A.n Dg.code f.code (A.val.map v) A.ind A.ptr idiag iurow (x.map v) (v beta)
    (y.map v) = some ye from he, show csrmvTriTh id A.base |v alpha| A.m A.n Dg.code f.code (szs v A.val) A.ind A.ptr idiag
      iurow (szs v x) |v beta| (szs v y) = some ys from hs] at h
  exact mvErr_of' hy h ie is

/-- **C72** Symmetric matrix of which one triangle is stored, vector code of any width `K` whose horizontal sum adds the
lanes in `d` levels, plain or transposed: element `j` gathers the entries of row `j` and of column `j`. -/
theorem C72_symmetric (hR : Contracts ρ v fac) (h1 : v 1 = 1) {K d : Nat} (hK : 0 < K) {hsum : List R → R}
    (hh : AddsLanes K d hsum) (A : Csr R) (hA : A.WF) (hsq : A.m = A.n) (idiag iurow : List Int)
    (hcl : Clean A idiag iurow) (f : Fill) (Dg : Diag) (op : Op) (hop : op ≠ .conjTrans)
    (alpha beta : R) (x y : List R) (hx : A.n ≤ x.length) (hy : A.m ≤ y.length)
    (pv : ∀ a ∈ A.val, fac a = none) (px : ∀ a ∈ x, fac a = none) (py : ∀ a ∈ y, fac a = none) :
    ∃ y', csrmvSymmKt (vecLanes K hsum) K id A.base alpha A.m Dg.code f.code A.val A.ind A.ptr idiag iurow x beta y
        = some y' ∧
      MvErr ρ v (fun j => A.colCount j + (A.row j).length + (d + 6)) alpha beta
        (operator .symmetric f Dg op (A.mapTo v).mat)
        (operator .symmetric f Dg op (A.mapTo fun a => |v a|).mat) A.m A.m x y y' := by
  have hV : (vecLanes K (List.sum : List ℝ → ℝ)).Ok K := vecLanes_ok hK fun _ _ => rfl
  obtain ⟨ye, he, ie⟩ := (C19_symmetric _ K hV (A.mapTo v) (mapTo_wf v hA) hsq idiag iurow (clean_map v hcl) f Dg op hop
    (v alpha) (v beta) (x.map v) (y.map v) (by simpa [Csr.mapTo] using hx) (by simpa [Csr.mapTo] using hy)).1
  obtain ⟨ys, hs, is⟩ := (C19_symmetric _ K hV (A.mapTo fun a => |v a|) (mapTo_wf _ hA) hsq idiag iurow (clean_map _ hcl)
    f Dg op hop |v alpha| |v beta| (szs v x) (szs v y) (by simpa [Csr.mapTo] using hx) (by simpa [Csr.mapTo] using hy)).1
  have h := csrmvSymmKt_rel hR h1 hK hh hA hsq hcl f Dg.code alpha beta hy pv px py
  rw [show csrmvSymmKt (vecLanes K List.sum) K id A.base (v alpha) A.m Dg.code f.code (A.val.map v) A.ind A.ptr idiag iurow
    (x.map v) (v beta) (y.map v) = some ye from he, show csrmvSymmKt (vecLanes K List.sum) K id A.base |v alpha| A.m Dg.code
      f.code (szs v A.val) A.ind A.ptr idiag iurow (szs v x) |v beta| (szs v y) = some ys from hs] at h
  exact mvErr_of' hy h ie is

/-- **C72** Symmetric matrix, scalar code. -/
theorem C72_symmetric_scalar (hR : Contracts ρ v fac) (h1 : v 1 = 1) (A : Csr R) (hA : A.WF) (hsq : A.m = A.n)
    (idiag iurow : List Int) (hcl : Clean A idiag iurow) (f : Fill) (Dg : Diag) (op : Op) (hop : op ≠ .conjTrans)
    (alpha beta : R) (x y : List R) (hx : A.n ≤ x.length) (hy : A.m ≤ y.length)
    (pv : ∀ a ∈ A.val, fac a = none) (px : ∀ a ∈ x, fac a = none) (py : ∀ a ∈ y, fac a = none) :
    ∃ y', csrmvSymmInternal A.base alpha A.m Dg.code f.code A.val A.ind A.ptr idiag iurow x beta y = some y' ∧
      MvErr ρ v (fun j => A.colCount j + (A.row j).length + 6) alpha beta
        (operator .symmetric f Dg op (A.mapTo v).mat)
        (operator .symmetric f Dg op (A.mapTo fun a => |v a|).mat) A.m A.m x y y' := by
  have hV : (vecLanes 1 (List.sum : List ℝ → ℝ)).Ok 1 := vecLanes_ok (by decide) fun _ _ => rfl
  obtain ⟨ye, he, ie⟩ := (C19_symmetric _ 1 hV (A.mapTo v) (mapTo_wf v hA) hsq idiag iurow (clean_map v hcl) f Dg op hop
    (v alpha) (v beta) (x.map v) (y.map v) (by simpa [Csr.mapTo] using hx) (by simpa [Csr.mapTo] using hy)).2
  obtain ⟨ys, hs, is⟩ := (C19_symmetric _ 1 hV (A.mapTo fun a => |v a|) (mapTo_wf _ hA) hsq idiag iurow (clean_map _ hcl)
    f Dg op hop |v alpha| |v beta| (szs v x) (szs v y) (by simpa [Csr.mapTo] using hx) (by simpa [Csr.mapTo] using hy)).2
  have h := csrmvSymmInternal_rel hR h1 hA hsq hcl f Dg.code alpha beta hy pv px py
  rw [show csrmvSymmInternal A.base (v alpha) A.m Dg.code f.code (A.val.map v) A.ind A.ptr idiag iurow
    (x.map v) (v beta) (y.map v) = some ye from he, show csrmvSymmInternal A.base |v alpha| A.m Dg.code
      f.code (szs v A.val) A.ind A.ptr idiag iurow (szs v x) |v beta| (szs v y) = some ys from hs] at h
  exact mvErr_of' hy h ie is

/-! ### the hypotheses are met -/

/-- a 2×2 lower triangle in double precision -/
def rndA : Csr (Fp (binary 53)) := ⟨2, 2, 0, [0, 1, 3], [0, 0, 1], [⟨2⟩, ⟨3⟩, ⟨4⟩]⟩
/-- a 2×2 upper triangle -/
def rndU : Csr (Fp (binary 53)) := ⟨2, 2, 0, [0, 2, 3], [0, 1, 1], [⟨2⟩, ⟨5⟩, ⟨4⟩]⟩

theorem rndA_wf : rndA.WF := ⟨by simp [rndA], by simp [rndA], rfl, by decide, rfl, by simp [rndA], by decide⟩
theorem rndA_row0 : rndA.row 0 = [(0, ⟨2⟩)] := rfl
theorem rndA_row1 : rndA.row 1 = [(0, ⟨3⟩), (1, ⟨4⟩)] := rfl

theorem rndA_len : ∀ i, i < rndA.m → (rndA.row i).length ≤ 2 := by
  intro i hi
  have : i < 2 := hi
  interval_cases i
  · rw [rndA_row0]; simp
  · rw [rndA_row1]; simp

theorem rndA_clean : Clean rndA [0, 2] [1, 3] := by
  intro i hi
  have : i < 2 := hi
  interval_cases i
  · exact ⟨[], [(0, ⟨2⟩)], [], rndA_row0, by simp, by simp, by simp, rfl, rfl, by simp⟩
  · exact ⟨[(0, ⟨3⟩)], [(1, ⟨4⟩)], [], rndA_row1, by simp, by simp, by simp, rfl, rfl, by simp⟩

theorem rndA_ell : EllContent rndA.m 2 (ellOff 2) rndA.base (fun _ => -1) rndA.row [0, -1, 0, 1] [⟨2⟩, 0, ⟨3⟩, ⟨4⟩] := by
  constructor
  · intro i t hi ht
    have : i < 2 := hi
    interval_cases i
    · have : t < 1 := ht
      interval_cases t; exact ⟨rfl, rfl⟩
    · have : t < 2 := ht
      interval_cases t <;> exact ⟨rfl, rfl⟩
  · intro i t hi h1 h2
    have : i < 2 := hi
    interval_cases i
    · have : 1 ≤ t := h1
      interval_cases t; exact ⟨rfl, rfl⟩
    · have : 2 ≤ t := h1
      omega

theorem rndA_ellt : EllContent rndA.m 2 (elltOff rndA.m) rndA.base (fun _ => 0) rndA.row [0, 0, 0, 1] [⟨2⟩, ⟨3⟩, 0, ⟨4⟩] := by
  constructor
  · intro i t hi ht
    have : i < 2 := hi
    interval_cases i
    · have : t < 1 := ht
      interval_cases t; exact ⟨rfl, rfl⟩
    · have : t < 2 := ht
      interval_cases t <;> exact ⟨rfl, rfl⟩
  · intro i t hi h1 h2
    have : i < 2 := hi
    interval_cases i
    · have : 1 ≤ t := h1
      interval_cases t; exact ⟨rfl, rfl⟩
    · have : 2 ≤ t := h1
      omega

/-- double precision, `[[2, 0], [3, 4]]`, ELL and ELLT with two cells per row -/
example := C72_ell (fp_contracts (binary 53)) rfl rndA rndA_wf 2 (by decide) (by decide) (by decide) rndA_len _ _ rndA_ell
  ⟨7⟩ ⟨10⟩ [⟨5⟩, ⟨6⟩] [⟨1⟩, ⟨1⟩, ⟨9⟩] (by decide) (by decide) (by simp) (by simp) 0 0
example := C72_ellt (fp_contracts (binary 53)) rfl rndA rndA_wf 2 (by decide) (by decide) (by decide) rndA_len _ _ _ rndA_ellt
  (by intro i _; decide) ⟨7⟩ ⟨10⟩ [⟨5⟩, ⟨6⟩] [⟨1⟩, ⟨1⟩, ⟨9⟩] (by decide) (by decide) (by simp) (by simp) 0 0
/-- the lower triangle with its diagonal, and with a unit diagonal -/
example := C72_triangle (fp_contracts (binary 53)) rfl rndA rndA_wf [0, 2] [1, 3] rndA_clean .lower .nonUnit (.inl rfl)
  ⟨7⟩ ⟨10⟩ [⟨5⟩, ⟨6⟩] [⟨1⟩, ⟨1⟩, ⟨9⟩] (by decide) (by decide) (by simp) (by simp)
example := C72_triangle_avx2 (fp_contracts (binary 53)) rndA rndA_wf [0, 2] [1, 3] rndA_clean .lower .unit
  (.inr (by decide)) (by simp) ⟨7⟩ ⟨10⟩ [⟨5⟩, ⟨6⟩] [⟨1⟩, ⟨1⟩, ⟨9⟩] (by decide) (by decide) (by simp) (by simp)
/-- its transpose, and the symmetric matrix `[[2, 3], [3, 4]]` with the AVX2 code for doubles and the scalar code -/
example := C72_triangle_trans (fp_contracts (binary 53)) rfl rndA rndA_wf [0, 2] [1, 3] rndA_clean .lower .unit
  (.inr (by decide)) ⟨7⟩ ⟨10⟩ [⟨5⟩, ⟨6⟩] [⟨1⟩, ⟨1⟩, ⟨9⟩] (by decide) (by decide) (by simp) (by simp)
example := C72_symmetric (fp_contracts (binary 53)) rfl (K := 4) (by decide) addsLanes_hsum4l rndA rndA_wf rfl [0, 2] [1, 3]
  rndA_clean .lower .nonUnit .none (by decide) ⟨7⟩ ⟨10⟩ [⟨5⟩, ⟨6⟩] [⟨1⟩, ⟨1⟩, ⟨9⟩] (by decide) (by decide) (by simp) (by simp)
  (by simp)
example := C72_symmetric_scalar (fp_contracts (binary 53)) rfl rndA rndA_wf rfl [0, 2] [1, 3]
  rndA_clean .lower .unit .trans (by decide) ⟨7⟩ ⟨10⟩ [⟨5⟩, ⟨6⟩] [⟨1⟩, ⟨1⟩, ⟨9⟩] (by decide) (by decide) (by simp) (by simp)
  (by simp)
/-- a 5×5 diagonal matrix: a block of four rows and one more -/
def rndD : Csr (Fp (binary 53)) := ⟨5, 5, 0, [0, 1, 2, 3, 4, 5], [0, 1, 2, 3, 4], [⟨2⟩, ⟨3⟩, ⟨4⟩, ⟨5⟩, ⟨6⟩]⟩
example := C72_blocked (fp_contracts (binary 53)) rfl rndD
  ⟨by simp [rndD], by simp [rndD], rfl, by decide, rfl, by simp [rndD], by decide⟩ (by decide) (.inl rfl) 1
  (by intro i hi; have : i < 5 := hi; interval_cases i <;> exact le_rfl) (fun _ => 0) (fun _ => 0)
  (fun _ => 0) (fun _ => ⟨0⟩) ⟨7⟩ ⟨10⟩ (List.replicate 5 ⟨5⟩) (List.replicate 6 ⟨1⟩) (by decide) (by decide) (by simp) (by simp)
/-- the two triangles of `[[2, 5], [3, 4]]` -/
example : ∃ T st, callCreate (fun _ => 0) (fun _ => 0) rndA rndU 4 = some (.ok (T, st)) ∧
    ∃ y', dtcsrmv 0 ⟨7⟩ T [⟨5⟩, ⟨6⟩] ⟨10⟩ [⟨1⟩, ⟨1⟩] = some y' ∧ y'.length = 2 := by
  refine ⟨_, _, rfl, ?_⟩
  obtain ⟨y', h, r⟩ := C72_tcsr (fp_contracts (binary 53)) (gd := fun _ => 0) (gu := fun _ => 0) (L := rndA) (U := rndU)
    (nnz := 4) ⟨rfl, by decide, by decide⟩ ⟨rfl, by decide, by decide⟩ rfl rfl rfl rfl ⟨7⟩ ⟨10⟩ [⟨5⟩, ⟨6⟩] [⟨1⟩, ⟨1⟩] (by decide) (by decide)
    (by simp) (by simp)
  exact ⟨y', h, r.length⟩

instance {ρ : Rounding} : One (FpFused ρ) := ⟨⟨1, none⟩⟩
noncomputable instance {ρ : Rounding} : DecidableEq (FpFused ρ) := fun _ _ => Classical.propDecidable _
/-- the AVX2 code with fused multiply-adds -/
example := C72_triangle_avx2 (fused_contracts (binary 53)) ⟨1, 1, 0, [0, 1], [0], [⟨3, none⟩]⟩
  ⟨by simp, by simp, rfl, by decide, rfl, by simp, by decide⟩ [0] [1]
  (by intro i hi; have : i < 1 := hi; interval_cases i
      exact ⟨[], [(0, ⟨3, none⟩)], [], rfl, by simp, by simp, by simp, rfl, rfl, by simp⟩)
  .lower .nonUnit (.inl rfl) (by simp) ⟨7, none⟩ ⟨10, none⟩ [⟨5, none⟩] [⟨1, none⟩] (by decide) (by decide)
  (by simp [FpFused.fac]) (by simp [FpFused.fac])

end Verif.Props
