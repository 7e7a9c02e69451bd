/-
C35: symmetric Gauss-Seidel and successive over-relaxation on handles.
-/
import Verif.Proofs.Symgs
import Verif.Proofs.Sor
import Verif.Proofs.Csrmv

namespace Verif
open Model Finset

variable {R : Type} [Field R] [DecidableEq R] [StarRing R]

section
variable {E : GsEnv R} {A : Csr R} {ta : Bool} {H : MvHandle R} {t : MType} {f : Fill} {op : Op}
  {alpha : R} {b x : List R} {y : Option (List R)} {fuse : Bool}

/-- A call within the limits of the library: arrays large enough; the operator is one the smoother can
get from the stored triangles; a complex Hermitian matrix is in CSR; and the fused product exists. -/
structure GsCall (E : GsEnv R) (ta : Bool) (A : Csr R) (t : MType) (op : Op) (b x : List R)
    (y : Option (List R)) (fuse : Bool) : Prop where
  opOk : GsOp E.k.real t op (userMat ta A)
  herm : t = .hermitian → E.k.real = false → ta = false
  blen : A.m ≤ b.length
  xlen : A.m ≤ x.length
  ylen : fuse = true → ∃ yl, y = some yl ∧ A.m ≤ yl.length
  fuseHerm : fuse = true → t = .hermitian → E.k.real = false
  fuseConj : fuse = true → t = .triangular → ¬ (E.k.real = false ∧ ta = true ∧ op = .conjTrans)

theorem symgs_enter (hb1 : A.base = 0 ∨ A.base = 1) (hsq : A.m = A.n) (hm : 0 < A.m) (hn : 0 < A.nnz)
    (hH : HandleOk ta A H) (hgen : t = .general → op ≠ .conjTrans)
    (hy : fuse = true → ∃ yl, y = some yl ∧ A.m ≤ yl.length) :
    symgs E true op.code (some H) (some ⟨t.code, f.code, 0, A.base⟩) alpha (some b) (some x) y fuse
      = (do
      let r ← csrCscOptimize E.srt E.g.i E.g.v H
      match r with
      | .error e => some (e, some x, y, some H)
      | .ok q =>
        if q.2.fulldiag = false then some (.invalidValue, some x, y, some q.2)
        else do
          let s ← symgsRef E op.code alpha q.2 ⟨t.code, f.code, 0, A.base⟩ b x y fuse
          some (s.1, some s.2.1, s.2.2.1, some s.2.2.2)) := by
  have hum : H.raw.um = A.m := by rw [hH.raw]; cases ta <;> simp [RawMat.um, Csr.raw, hsq]
  have hun : H.raw.un = A.m := by rw [hH.raw]; cases ta <;> simp [RawMat.un, Csr.raw, hsq]
  have hnz : H.raw.nnz = A.nnz := by rw [hH.raw]; rfl
  have hbs : H.raw.base = A.base := by rw [hH.raw]; rfl
  have hfm : H.raw.fmt = 0 := by rw [hH.raw]; rfl
  have c1 : ¬ (fuse = true ∧ y = none) := by
    rintro ⟨h1, h2⟩
    obtain ⟨yl, h3, -⟩ := hy h1
    rw [h2] at h3
    cases h3
  have c2 : ¬ (t.code = 0 ∧ op.code = 113) := by
    rintro ⟨h1, h2⟩
    have : t = .general := by cases t <;> simp [MType.code] at h1 ⊢
    exact hgen this (by cases op <;> simp [Op.code] at h2 ⊢)
  unfold symgs
  dsimp only
  rw [if_neg c1, if_neg (by simp [hbs]), if_neg (by simp [hfm]), if_neg (by omega),
    if_neg (by cases op <;> simp [Op.code]), if_neg (by cases f <;> simp [Fill.code]), if_neg (by simp),
    if_neg c2, if_neg (by cases t <;> simp [MType.code]), if_neg (by omega), if_neg (by omega),
    if_neg (by omega), if_neg (by simp)]
  rfl

/-- **C35, symmetric Gauss-Seidel.**  Whatever copies a correct handle holds: a supported call succeeds;
for a triangular matrix the new `x` solves `op(T) x = b`, for the other types it is one forward and one
backward sweep from `alpha * x`; with the fused product `y = op(A) x` for the new `x`, without it `y` is
not touched; and the handle stays correct. -/
theorem C35_symgs (hE : GsEnvOk E A) (hA : GsMat A) (hH : HandleOk ta A H) (hn : H.nulls = 0)
    (hc : GsCall E ta A t op b x y fuse) :
    ∃ x' y' H', symgs E true op.code (some H) (some ⟨t.code, f.code, 0, A.base⟩) alpha (some b) (some x) y
        fuse = some (.success, some x', y', some H') ∧ HandleOk ta A H' ∧
      (t = .triangular → IsSolve (operator t f .nonUnit op (userMat ta A)) A.m 1 b 1 x 1 x') ∧
      (t ≠ .triangular → IsSymgs (operator t f .nonUnit op (userMat ta A)) A.m alpha b x x') ∧
      (fuse = false → y' = y) ∧
      (fuse = true → ∃ yl yl', y = some yl ∧ y' = some yl' ∧
        IsMv 1 0 (operator t f .nonUnit op (userMat ta A)) A.m A.m x' yl yl') := by
  rw [symgs_enter (hA.wf.base01) hA.square hA.pos hA.nnz hH hc.opOk.gen hc.ylen]
  obtain ⟨i, H1, c, iu, e1, h1, h2⟩ := csrCscOptimize_spec hE.srt E.g.i E.g.v hA.wf hA.one hA.nodup hH
  have hfd : H1.fulldiag = true := (h1.full _ (List.mem_of_getElem? h2) rfl).2 hA.full
  have hn1 : H1.nulls = 0 := (csrCscOptimize_nulls e1).trans hn
  simp only [e1, Option.bind_eq_bind, Option.bind_some, hfd, Bool.true_eq_false, if_false]
  unfold symgsRef
  by_cases ht : t = .triangular
  · subst ht
    obtain ⟨x', y', H2, e, k1, k2, k3, k4⟩ := gsTri_spec (f := f) (op := op) (b := b) (x := x) (y := y)
      (fuse := fuse) hE hA h1 hn1 hc.blen hc.xlen hc.ylen (fun h => hc.fuseConj h rfl)
    have e' : gsTri E op.code H1 ⟨MType.triangular.code, f.code, 0, A.base⟩ b x y fuse = _ := e
    rw [if_pos (show (⟨MType.triangular.code, f.code, 0, A.base⟩ : Descr).type = 3 from rfl), e']
    exact ⟨x', y', H2, rfl, k1, fun _ => k2, fun h => absurd rfl h, k3, k4⟩
  · obtain ⟨x', y', H2, e, k1, k2, k3, k4⟩ := gsSweeps_spec (f := f) (alpha := alpha) hE hA h1 hn1 ht hc.opOk
      hc.herm hc.blen hc.xlen hc.ylen hc.fuseHerm
    rw [if_neg (by cases t <;> simp [MType.code] at ht ⊢), e]
    exact ⟨x', y', H2, rfl, k1, fun h => absurd h ht, fun _ => k2, k3, k4⟩

/-- **C35, missing diagonal.**  If a diagonal entry is not stored the call reports an invalid value and
writes neither `x` nor `y`. -/
theorem C35_symgs_no_diag (hsrt : StdSort E.srt) (hA : A.WF) (hd : A.OneDiag) (hnd : A.Grouped ∨ A.NoDup)
    (hsq : A.m = A.n) (hm : 0 < A.m) (hn : 0 < A.nnz) (hH : HandleOk ta A H) (hfd : ¬ A.FullDiag)
    (hgen : t = .general → op ≠ .conjTrans) (hy : fuse = true → ∃ yl, y = some yl ∧ A.m ≤ yl.length) :
    ∃ H', symgs E true op.code (some H) (some ⟨t.code, f.code, 0, A.base⟩) alpha (some b) (some x) y
        fuse = some (.invalidValue, some x, y, some H') ∧ HandleOk ta A H' := by
  rw [symgs_enter hA.base01 hsq hm hn hH hgen hy]
  obtain ⟨i, H1, c, iu, e1, h1, h2⟩ := csrCscOptimize_spec hsrt E.g.i E.g.v hA hd hnd hH
  have h3 : H1.fulldiag = false := by
    cases h : H1.fulldiag
    · rfl
    · exact absurd ((h1.full _ (List.mem_of_getElem? h2) rfl).1 h) hfd
  simp only [e1, Option.bind_eq_bind, Option.bind_some, h3, if_true]
  exact ⟨H1, rfl, h1⟩

omit [StarRing R] in
/-- **C35, rejected calls.**  A null pointer, another format, a base that differs from the descriptor's,
an unknown operation, type or triangle, a unit diagonal, the conjugate transpose of a general matrix, a
matrix that is not square or another value type: an error that changes nothing. -/
theorem C35_symgs_rejected {same : Bool} {opc : Int} {Ho : Option (MvHandle R)} {d : Option Descr}
    {bo xo : Option (List R)}
    (h : Ho = none ∨ d = none ∨ bo = none ∨ xo = none ∨ (fuse = true ∧ y = none) ∨
      ∃ H d', Ho = some H ∧ d = some d' ∧ 0 < H.raw.um ∧ 0 < H.raw.un ∧ 0 < H.raw.nnz ∧
        (H.raw.fmt ≠ 0 ∨ H.raw.base ≠ d'.base ∨ (opc ≠ 111 ∧ opc ≠ 112 ∧ opc ≠ 113) ∨ 3 < d'.type ∨
          1 < d'.fill ∨ d'.diag = 1 ∨ (d'.type = 0 ∧ opc = 113) ∨ H.raw.um ≠ H.raw.un ∨ same = false)) :
    ∃ st, symgs E same opc Ho d alpha bo xo y fuse = some (st, xo, y, Ho) ∧ st ≠ .success := by
  unfold symgs
  rcases xo with _ | x0
  · exact ⟨_, rfl, by simp⟩
  rcases bo with _ | b0
  · exact ⟨_, rfl, by simp⟩
  rcases Ho with _ | H0
  · exact ⟨_, rfl, by simp⟩
  rcases d with _ | d0
  · exact ⟨_, rfl, by simp⟩
  dsimp only
  by_cases c1 : fuse = true ∧ y = none
  · rw [if_pos c1]; exact ⟨_, rfl, by simp⟩
  rw [if_neg c1]
  by_cases c2 : H0.raw.base ≠ d0.base
  · rw [if_pos c2]; exact ⟨_, rfl, by simp⟩
  rw [if_neg c2]
  by_cases c3 : H0.raw.fmt ≠ 0
  · rw [if_pos c3]; exact ⟨_, rfl, by simp⟩
  rw [if_neg c3]
  by_cases c4 : d0.base ≠ 0 ∧ d0.base ≠ 1
  · rw [if_pos c4]; exact ⟨_, rfl, by simp⟩
  rw [if_neg c4]
  by_cases c5 : opc ≠ 111 ∧ opc ≠ 112 ∧ opc ≠ 113
  · rw [if_pos c5]; exact ⟨_, rfl, by simp⟩
  rw [if_neg c5]
  by_cases c6 : d0.fill ≠ 0 ∧ d0.fill ≠ 1
  · rw [if_pos c6]; exact ⟨_, rfl, by simp⟩
  rw [if_neg c6]
  by_cases c7 : d0.diag = 1
  · rw [if_pos c7]; exact ⟨_, rfl, by simp⟩
  rw [if_neg c7]
  by_cases c8 : d0.type = 0 ∧ opc = 113
  · rw [if_pos c8]; exact ⟨_, rfl, by simp⟩
  rw [if_neg c8]
  by_cases c9 : d0.type ≠ 1 ∧ d0.type ≠ 3 ∧ d0.type ≠ 0 ∧ d0.type ≠ 2
  · rw [if_pos c9]; exact ⟨_, rfl, by simp⟩
  rw [if_neg c9]
  rcases h with h | h | h | h | h | ⟨H, d', h1, h2, p1, p2, p3, h⟩
  · cases h
  · cases h
  · cases h
  · cases h
  · exact absurd h c1
  cases h1
  cases h2
  rw [if_neg (by omega), if_neg (by omega)]
  by_cases c10 : H0.raw.um ≠ H0.raw.un
  · rw [if_pos c10]; exact ⟨_, rfl, by simp⟩
  rw [if_neg c10]
  by_cases c11 : same = false
  · rw [if_pos c11]; exact ⟨_, rfl, by simp⟩
  exfalso
  rcases h with h | h | h | h | h | h | h | h | h
  · exact c3 h
  · exact c2 h
  · exact c5 h
  · exact c9 (by omega)
  · exact c6 (by omega)
  · exact c7 h
  · exact c8 h
  · exact c10 h
  · exact c11 h

/-! ### successive over-relaxation -/

variable {omega : R} {D : Diag}

omit [StarRing R] in
/-- the diagonal of the row is stored exactly once and not zero -/
theorem sorRow_iff {i : Nat} : A.SorRow i ↔ (A.cols i).count (i : Int) = 1 ∧ A.mat i i ≠ 0 :=
  ⟨fun h => ⟨h.mat.2.2, h.mat.1⟩, fun h => Csr.sorRow_of h.2 (by omega)⟩

theorem sorv_enter (hsq : A.m = A.n) (hm : 0 < A.m) (hH : HandleOk ta A H) :
    sorv true true 0 (some ⟨0, f.code, D.code, A.base⟩) (some H) omega alpha (some x) (some b)
      = (do
      let r ← sorOn H A.base omega alpha x b
      some (r.1, some r.2.1, some r.2.2)) := by
  have hum : H.raw.um = A.m := by rw [hH.raw]; cases ta <;> simp [RawMat.um, Csr.raw, hsq]
  have hun : H.raw.un = A.m := by rw [hH.raw]; cases ta <;> simp [RawMat.un, Csr.raw, hsq]
  have hnz : H.raw.nnz = A.nnz := by rw [hH.raw]; rfl
  have hbs : H.raw.base = A.base := by rw [hH.raw]; rfl
  have hfm : H.raw.fmt = 0 := by rw [hH.raw]; rfl
  unfold sorv
  dsimp only
  rw [if_neg (by simp), if_neg (by simp [hbs]), if_neg (by omega), if_neg (by omega), if_neg (by omega),
    if_neg (by simp [hfm]), if_neg (by simp), if_neg (by simp), if_neg (by simp)]

theorem HandleOk.set_full (hH : HandleOk ta A H) (hfd : A.FullDiag) :
    HandleOk ta A { H with fulldiag := true } :=
  ⟨hH.raw, hH.first, hH.all, hH.sorted, fun _ _ _ => ⟨fun _ => hfd, fun _ => rfl⟩⟩

/-- **C35, successive over-relaxation.**  If every diagonal entry is stored once and is not zero the call
succeeds, whatever copies the handle holds, and the new `x` is one forward sweep from `alpha * x` for
the matrix whose rows are stored: the user's matrix if it was given in CSR. -/
theorem C35_sorv (hA : A.WF) (hsq : A.m = A.n) (hm : 0 < A.m) (hH : HandleOk ta A H)
    (hd : ∀ i, i < A.m → (A.cols i).count (i : Int) = 1 ∧ A.mat i i ≠ 0)
    (hx : A.m ≤ x.length) (hb : A.m ≤ b.length) :
    ∃ x' H', sorv true true 0 (some ⟨0, f.code, D.code, A.base⟩) (some H) omega alpha (some x) (some b)
        = some (.success, some x', some H') ∧ HandleOk ta A H' ∧
      IsSor (if ta then transM (userMat ta A) else userMat ta A) A.m omega alpha b x x' := by
  rw [sorv_enter hsq hm hH]
  have hd' : ∀ i, i < A.m → A.SorRow i := fun i hi => sorRow_iff.2 (hd i hi)
  have hfd : A.FullDiag := fun i hi _ => (hd' i hi).mat.2.1
  obtain ⟨idl, o, iu, rest, hf⟩ := hH.first
  have hum : H.raw.um = A.m := by rw [hH.raw]; cases ta <;> simp [RawMat.um, Csr.raw, hsq]
  have hun : H.raw.un = A.m := by rw [hH.raw]; cases ta <;> simp [RawMat.un, Csr.raw, hsq]
  have hM : (if ta then transM (userMat ta A) else userMat ta A) = A.mat := by cases ta <;> rfl
  rw [hM]
  obtain ⟨k, e1, hk⟩ := sorCheck_spec hA hm
  have hk' : k = true := hk.2 hd'
  subst hk'
  have hcopy : ({ (A.raw ta).copy0 with idiag := idl } : MCopy R).ptr = A.ptr ∧
      ({ (A.raw ta).copy0 with idiag := idl } : MCopy R).ind = A.ind ∧
      ({ (A.raw ta).copy0 with idiag := idl } : MCopy R).val = A.val := by
    cases ta <;> exact ⟨rfl, rfl, rfl⟩
  unfold sorOn
  rw [hf]
  dsimp only
  by_cases hfl : H.fulldiag = false
  · obtain ⟨x', e, hs⟩ := sorRun_spec hA hsq hd' (H := { H with fulldiag := true }) hcopy hun
      (omega := omega) (alpha := alpha) hx hb
    have e1' : sorCheck H.raw.um A.base ({ (A.raw ta).copy0 with idiag := idl } : MCopy R).ptr
      ({ (A.raw ta).copy0 with idiag := idl } : MCopy R).ind
      ({ (A.raw ta).copy0 with idiag := idl } : MCopy R).val = some true := by
      rw [hum, hcopy.1, hcopy.2.1, hcopy.2.2]; exact e1
    rw [hf] at e
    simp only [hfl, if_true, e1', Option.bind_eq_bind, Option.bind_some, Bool.true_eq_false, if_false, e]
    exact ⟨x', _, rfl, by rw [← hf]; exact hH.set_full hfd, hs⟩
  · obtain ⟨x', e, hs⟩ := sorRun_spec hA hsq hd' (H := H) hcopy hun
      (omega := omega) (alpha := alpha) hx hb
    rw [if_neg hfl]
    simp only [e, Option.bind_eq_bind, Option.bind_some]
    exact ⟨x', _, rfl, hH, hs⟩

/-- **C35, successive over-relaxation, bad diagonal.**  If the handle does not yet carry the mark of a
full diagonal and some diagonal entry is missing, stored twice or zero: invalid value, `x` and the
handle unchanged. -/
theorem C35_sorv_bad_diag (hA : A.WF) (hsq : A.m = A.n) (hm : 0 < A.m) (hH : HandleOk ta A H)
    (hfl : H.fulldiag = false)
    (hd : ¬ ∀ i, i < A.m → (A.cols i).count (i : Int) = 1 ∧ A.mat i i ≠ 0) :
    sorv true true 0 (some ⟨0, f.code, D.code, A.base⟩) (some H) omega alpha (some x) (some b)
      = some (.invalidValue, some x, some H) := by
  rw [sorv_enter hsq hm hH]
  obtain ⟨idl, o, iu, rest, hf⟩ := hH.first
  have hum : H.raw.um = A.m := by rw [hH.raw]; cases ta <;> simp [RawMat.um, Csr.raw, hsq]
  obtain ⟨k, e1, hk⟩ := sorCheck_spec hA hm
  have hk' : k = false := by
    cases k
    · rfl
    · exact absurd (fun i hi => sorRow_iff.1 (hk.1 rfl i hi)) hd
  subst hk'
  unfold sorOn
  rw [hf]
  dsimp only
  have e1' : sorCheck H.raw.um A.base ({ (A.raw ta).copy0 with idiag := idl } : MCopy R).ptr
      ({ (A.raw ta).copy0 with idiag := idl } : MCopy R).ind
      ({ (A.raw ta).copy0 with idiag := idl } : MCopy R).val = some false := by
    rw [hum]; cases ta <;> exact e1
  simp only [hfl, if_true, e1', Option.bind_eq_bind, Option.bind_some]

/-- whatever the status, the handle stays correct -/
theorem C35_sorv_keeps (hA : A.WF) (hH : HandleOk ta A H) {re same : Bool} {ty : Nat} {d : Option Descr}
    {xo bo xo' : Option (List R)} {st : Status} {H' : MvHandle R}
    (e : sorv re same ty d (some H) omega alpha xo bo = some (st, xo', some H')) : HandleOk ta A H' := by
  unfold sorv at e
  rcases ite_or e with ⟨-, e'⟩ | ⟨-, e'⟩
  · cases e'; exact hH
  replace e := e'
  clear e'
  rcases d with _ | d0
  · cases e; exact hH
  rcases xo with _ | x0
  · cases e; exact hH
  rcases bo with _ | b0
  · cases e; exact hH
  dsimp only at e
  rcases ite_or e with ⟨-, e'⟩ | ⟨hbase, e'⟩
  · cases e'; exact hH
  rcases ite_or e' with ⟨-, e''⟩ | ⟨hsq, e''⟩
  · cases e''; exact hH
  rcases ite_or e'' with ⟨-, e'''⟩ | ⟨hm, e'''⟩
  · cases e'''; exact hH
  clear e e' e''
  rename' e''' => e
  iterate 4
    (rcases ite_or e with ⟨-, e'⟩ | ⟨-, e'⟩
     · cases e'; exact hH
     replace e := e'; clear e')
  rcases ite_or e with ⟨-, e'⟩ | ⟨-, e'⟩
  · rcases ite_or e' with ⟨-, e''⟩ | ⟨-, e''⟩ <;> (cases e''; exact hH)
  replace e := e'
  clear e'
  have hq : A.m = A.n := by
    have h0 : H.raw.um = H.raw.un := by simpa using hsq
    rw [hH.raw] at h0
    cases ta <;> simp [RawMat.um, RawMat.un, Csr.raw] at h0 <;> omega
  have hum : H.raw.um = A.m := by rw [hH.raw]; cases ta <;> simp [RawMat.um, Csr.raw, hq]
  have hpos : 0 < A.m := by omega
  have hb : d0.base = A.base := by
    have h0 : H.raw.base = d0.base := by simpa using hbase
    rw [← h0, hH.raw]; rfl
  have hrun : ∀ (c : MCopy R) (H1 : MvHandle R) r, HandleOk ta A H1 →
      sorRun c H1 d0.base omega alpha x0 b0 = some r → HandleOk ta A r.2.2 := by
    intro c H1 r h1 hr
    unfold sorRun at hr
    simp only [Option.bind_eq_bind, Option.bind_eq_some_iff] at hr
    obtain ⟨_, _, _, _, hr⟩ := hr
    cases hr
    exact h1
  obtain ⟨idl, o, iu, rest, hf⟩ := hH.first
  obtain ⟨k, e1, hk⟩ := sorCheck_spec hA hpos
  have e1' : sorCheck H.raw.um d0.base ({ (A.raw ta).copy0 with idiag := idl } : MCopy R).ptr
      ({ (A.raw ta).copy0 with idiag := idl } : MCopy R).ind
      ({ (A.raw ta).copy0 with idiag := idl } : MCopy R).val = some k := by
    rw [hum, hb]; cases ta <;> exact e1
  simp only [Option.bind_eq_bind, Option.bind_eq_some_iff] at e
  obtain ⟨r, hr, e⟩ := e
  cases e
  unfold sorOn at hr
  rw [hf] at hr
  dsimp only at hr
  by_cases hfl : H.fulldiag = false
  · simp only [hfl, if_true, e1', Option.bind_eq_bind, Option.bind_some] at hr
    cases k with
    | false => simp at hr; cases hr; exact hH
    | true =>
      simp only [Bool.true_eq_false, if_false] at hr
      refine hrun _ _ _ ?_ hr
      rw [← hf]
      exact hH.set_full fun i hi _ => (hk.1 rfl i hi).mat.2.1
  · rw [if_neg hfl] at hr
    exact hrun _ _ _ hH hr

omit [StarRing R] in
/-- **C35, rejected calls of successive over-relaxation.**  Complex types, null pointers, another format or
base, a matrix that is not square, not general or of another type, and any sweep but the forward one: an
error that changes nothing. -/
theorem C35_sorv_rejected {re same : Bool} {ty : Nat} {Ho : Option (MvHandle R)} {d : Option Descr}
    {xo bo : Option (List R)}
    (h : re = false ∨ Ho = none ∨ d = none ∨ bo = none ∨ xo = none ∨
      ∃ H d', Ho = some H ∧ d = some d' ∧ 0 < H.raw.um ∧ 0 < H.raw.un ∧
        (H.raw.fmt ≠ 0 ∨ H.raw.base ≠ d'.base ∨ d'.type ≠ 0 ∨ ty ≠ 0 ∨ H.raw.um ≠ H.raw.un ∨
          same = false)) :
    ∃ st, sorv re same ty d Ho omega alpha xo bo = some (st, xo, Ho) ∧ st ≠ .success := by
  unfold sorv
  by_cases c0 : re = false
  · rw [if_pos c0]; exact ⟨_, rfl, by simp⟩
  rw [if_neg c0]
  rcases Ho with _ | H0
  · exact ⟨_, rfl, by simp⟩
  rcases d with _ | d0
  · exact ⟨_, rfl, by simp⟩
  rcases xo with _ | x0
  · exact ⟨_, rfl, by simp⟩
  rcases bo with _ | b0
  · exact ⟨_, rfl, by simp⟩
  rcases h with h | h | h | h | h | ⟨H, d', h1, h2, p1, p2, h⟩
  · exact absurd h c0
  · cases h
  · cases h
  · cases h
  · cases h
  cases h1
  cases h2
  dsimp only
  by_cases c1 : H0.raw.base ≠ d0.base
  · rw [if_pos c1]; exact ⟨_, rfl, by simp⟩
  rw [if_neg c1]
  by_cases c2 : H0.raw.um ≠ H0.raw.un
  · rw [if_pos c2]; exact ⟨_, rfl, by simp⟩
  rw [if_neg c2, if_neg (by omega)]
  by_cases c3 : H0.raw.um < 0 ∨ H0.raw.un < 0 ∨ H0.raw.nnz < 0
  · rw [if_pos c3]; exact ⟨_, rfl, by simp⟩
  rw [if_neg c3]
  by_cases c4 : H0.raw.fmt ≠ 0
  · rw [if_pos c4]; exact ⟨_, rfl, by simp⟩
  rw [if_neg c4]
  by_cases c5 : d0.type ≠ 0
  · rw [if_pos c5]; exact ⟨_, rfl, by simp⟩
  rw [if_neg c5]
  by_cases c6 : same = false
  · rw [if_pos c6]; exact ⟨_, rfl, by simp⟩
  rw [if_neg c6]
  by_cases c7 : ty ≠ 0
  · rw [if_pos c7]
    by_cases c8 : ty = 1 ∨ ty = 2
    · rw [if_pos c8]; exact ⟨_, rfl, by simp⟩
    · rw [if_neg c8]; exact ⟨_, rfl, by simp⟩
  exfalso
  rcases h with h | h | h | h | h | h
  · exact c4 h
  · exact c1 h
  · exact c5 h
  · exact c7 h
  · exact c2 h
  · exact c6 h

end

/-! ### histories -/

/-- The handles a program can reach from `A` with optimize, products, triangular solves and smoothers.
The last three may fail. -/
inductive SmReached (E : GsEnv R) (ta : Bool) (A : Csr R) : MvHandle R → Prop
  | base {H : MvHandle R} (h : MvReached E.isa E.k E.srt ta A H) : SmReached E ta A H
  | optimize {H H' : MvHandle R} {st : Status} {hs hs' : List MvHint} (unrestricted : Bool)
      (ch : MvChoice) (g : Garb R) (g' : MvGarb R) (re : R → R) (hre : ∀ y, star y = y → re y = y)
      (hH : SmReached E ta A H) (hf : ta = false → FmtOk E.isa ch A)
      (hh : ∀ x ∈ hs, ∃ t f op, IsHint E.k.real t f op x.h ∧ HintOk E.k.real ta A t f op)
      (e : Model.optimize E.isa E.k.dbl unrestricted E.srt ch g g' star re H hs = some (st, H', hs')) :
      SmReached E ta A H'
  | mv {H H' : MvHandle R} {st : Status} (g : Garb R) (t : MType) (f : Fill) (D : Diag) (op : Op)
      (alpha beta : R) (x y y' : List R) (hH : SmReached E ta A H) (hc : MvCall E.k ta A t f D op x y)
      (e : Model.mv E.isa E.k E.srt g true op.code (some alpha) (some H)
        (some ⟨t.code, f.code, D.code, A.base⟩) (some x) (some beta) (some y) = some (st, some y', some H')) :
      SmReached E ta A H'
  | trsv {H H' : MvHandle R} {st : Status} (g : Garb R) (im : TrsvImpl R) (same : Bool) (opc : Int)
      (alpha : R) (d : Option Descr) (b x x' : Option (List R)) (incb incx : Int) (hH : SmReached E ta A H)
      (e : trsvH E.k.real E.w E.k.cj E.srt g im same opc alpha (some H) d b incb x incx
        = some (st, x', some H')) :
      SmReached E ta A H'
  | symgs {H H' : MvHandle R} {st : Status} (t : MType) (f : Fill) (op : Op) (alpha : R) (b x : List R)
      (y : Option (List R)) (fuse : Bool) (x' y' : Option (List R)) (hH : SmReached E ta A H)
      (hc : GsCall E ta A t op b x y fuse)
      (e : Model.symgs E true op.code (some H) (some ⟨t.code, f.code, 0, A.base⟩) alpha (some b) (some x) y
        fuse = some (st, x', y', some H')) :
      SmReached E ta A H'
  | sorv {H H' : MvHandle R} {st : Status} (re same : Bool) (ty : Nat) (d : Option Descr) (omega alpha : R)
      (x b x' : Option (List R)) (hH : SmReached E ta A H)
      (e : Model.sorv re same ty d (some H) omega alpha x b = some (st, x', some H')) :
      SmReached E ta A H'

section
variable {E : GsEnv R} {A : Csr R} {ta : Bool}

/-- no null pointer in the list of copies -/
theorem C35_nulls {H : MvHandle R} (h : SmReached E ta A H) : H.nulls = 0 := by
  induction h with
  | base h => exact C21_nulls h
  | optimize un ch g g' re hre _ hf hh e ih => exact (optimize_nulls e).trans ih
  | mv g t f D op alpha beta x y y' _ hc e ih => exact (mv_nulls e).trans ih
  | trsv g im same opc alpha d b x x' incb incx _ e ih => exact (trsvH_nulls e).trans ih
  | symgs t f op alpha b x y fuse x' y' _ hc e ih => exact (symgs_nulls e).trans ih
  | sorv re same ty d omega alpha x b x' _ e ih => exact (sorv_nulls e).trans ih

/-- every handle a program reaches is correct: it holds the user's arrays and correct objects -/
theorem C35_invariant (hE : GsEnvOk E A) (hA : GsMat A) {H : MvHandle R}
    (h : SmReached E ta A H) : HandleOk ta A H := by
  induction h with
  | base h => exact C21_invariant hE.srt hE.sel hA.wf hA.one hA.nodup h
  | optimize un ch g g' re hre _ hf hh e ih =>
    obtain ⟨H1, hs1, e1, h1⟩ := optimize_ok (isa := E.isa) (dbl := E.k.dbl) (unres := un) (ch := ch) (g := g)
      (g' := g') hE.srt hre hE.sel.real hA.wf hA.one hA.nodup hf ih _ hh
    rw [e] at e1
    cases e1
    exact h1
  | mv g t f D op alpha beta x y y' hr hc e ih =>
    obtain ⟨st', y'', H'', e', h1, -⟩ := C21_mv (isa := E.isa) (alpha := alpha) (beta := beta) hE.srt g
      hE.sel hc ih (C35_nulls hr)
    rw [e] at e'
    cases e'
    exact h1
  | trsv g im same opc alpha d b x x' incb incx _ e ih =>
    exact C27_handle_keeps hE.srt g hA.wf hA.one hA.nodup ih e
  | symgs t f op alpha b x y fuse x' y' hr hc e ih =>
    obtain ⟨x1, y1, H1, e', h1, -⟩ := C35_symgs (f := f) (alpha := alpha) hE hA ih (C35_nulls hr) hc
    rw [e] at e'
    cases e'
    exact h1
  | sorv re same ty d omega alpha x b x' _ e ih => exact C35_sorv_keeps hA.wf ih e

/-- **C35.**  After any history of creation, optimisation, products, triangular solves and smoothing
steps with the same handle, a supported smoothing step succeeds and does what it says. -/
theorem C35_history (hE : GsEnvOk E A) (hA : GsMat A) {H : MvHandle R} (h : SmReached E ta A H)
    {t : MType} {f : Fill} {op : Op} {alpha : R} {b x : List R} {y : Option (List R)} {fuse : Bool}
    (hc : GsCall E ta A t op b x y fuse) :
    ∃ x' y' H', symgs E true op.code (some H) (some ⟨t.code, f.code, 0, A.base⟩) alpha (some b) (some x) y
        fuse = some (.success, some x', y', some H') ∧ SmReached E ta A H' ∧
      (t = .triangular → IsSolve (operator t f .nonUnit op (userMat ta A)) A.m 1 b 1 x 1 x') ∧
      (t ≠ .triangular → IsSymgs (operator t f .nonUnit op (userMat ta A)) A.m alpha b x x') ∧
      (fuse = false → y' = y) ∧
      (fuse = true → ∃ yl yl', y = some yl ∧ y' = some yl' ∧
        IsMv 1 0 (operator t f .nonUnit op (userMat ta A)) A.m A.m x' yl yl') := by
  obtain ⟨x', y', H', e, -, k⟩ := C35_symgs (f := f) (alpha := alpha) hE hA (C35_invariant hE hA h) (C35_nulls h) hc
  exact ⟨x', y', H', e, .symgs t f op alpha b x y fuse _ _ h hc e, k⟩

/-- **C35.**  The same for successive over-relaxation with a CSR handle. -/
theorem C35_sorv_history (hE : GsEnvOk E A) (hA : GsMat A) {H : MvHandle R} (h : SmReached E false A H)
    {f : Fill} {D : Diag} {omega alpha : R} {b x : List R} (hx : A.m ≤ x.length) (hb : A.m ≤ b.length) :
    ∃ x' H', sorv true true 0 (some ⟨0, f.code, D.code, A.base⟩) (some H) omega alpha (some x) (some b)
        = some (.success, some x', some H') ∧ SmReached E false A H' ∧
      IsSor (userMat false A) A.m omega alpha b x x' := by
  obtain ⟨x', H', e, -, k⟩ := C35_sorv (f := f) (D := D) (omega := omega) (alpha := alpha) hA.wf hA.square
    hA.pos (C35_invariant hE hA h) (fun i hi => ⟨le_antisymm (hA.one i hi)
      (List.count_pos_iff.2 (hA.full i hi (by have := hA.square; omega))), hA.diag i hi⟩) hx hb
  exact ⟨x', H', e, .sorv _ _ _ _ _ _ _ _ _ h e, k⟩

end

/-! ### the hypotheses are met, and what happens outside them -/

def gsExSel : MvSel Rat := ⟨true, true, star, some .avx2, some 4, 2, [1, 0], some (4, vecLanes 4 hsum4l)⟩
def gsExG : Garb Rat := ⟨fun k => 7 + k, fun _ => 9, fun _ => 3⟩
def gsExE : GsEnv Rat := ⟨⟨true, false, true⟩, gsExSel, insertionSortB, gsExG, .ref, 64⟩

/-- 3 x 3, one-based, columns of the rows in no order -/
def gsExA : Csr Rat := ⟨3, 3, 1, [1, 3, 6, 8], [2, 1, 3, 2, 1, 3, 2], [1, 4, -1, 5, 2, 6, 1]⟩

theorem gsExE_ok : GsEnvOk gsExE gsExA :=
  ⟨insertionSortB_stdSort, ⟨rfl, fun _ x => by simp [gsExE, gsExSel], fun _ => rfl, fun g h => by cases h; trivial,
      fun K h => by cases h; decide, by decide, by decide, fun K V h => by
        cases h; exact vecLanes_ok (by omega) hsum4l_sum⟩,
    ⟨rfl, rfl, rfl, rfl⟩, trivial, by decide⟩

theorem gsExA_ok : GsMat gsExA :=
  ⟨by constructor <;> decide +kernel, by decide +kernel, .inr (by decide +kernel), rfl, by decide,
    by decide, by decide +kernel, by decide +kernel⟩

example : GsCall gsExE false gsExA .general .trans [1, 2, 3] [0, 1, 0] (some [0, 0, 0]) true :=
  ⟨⟨by simp, by simp, by simp⟩, by simp, by decide, by decide, fun _ => ⟨_, rfl, by decide⟩, by simp, by simp⟩

/-- create and smooth -/
def gsExRun {R : Type} [Zero R] [One R] [Add R] [Sub R] [Neg R] [Mul R] [Div R] [DecidableEq R]
    (E : GsEnv R) (ta : Bool) (A : Csr R) (opc : Int) (d : Descr) (alpha : R) (b x : List R)
    (y : Option (List R)) (fuse : Bool) : Option (Status × Option (List R) × Option (List R)) := do
  let r ← symgs E true opc (some (.fresh (A.raw ta) false)) (some d) alpha (some b) (some x) y fuse
  some (r.1, r.2.1, r.2.2.1)

/-! complex numbers with rational parts -/

structure Gi where
  re : Rat
  im : Rat
deriving DecidableEq

namespace Gi
instance : Zero Gi := ⟨⟨0, 0⟩⟩
instance : One Gi := ⟨⟨1, 0⟩⟩
instance : Add Gi := ⟨fun a b => ⟨a.re + b.re, a.im + b.im⟩⟩
instance : Sub Gi := ⟨fun a b => ⟨a.re - b.re, a.im - b.im⟩⟩
instance : Neg Gi := ⟨fun a => ⟨-a.re, -a.im⟩⟩
instance : Mul Gi := ⟨fun a b => ⟨a.re * b.re - a.im * b.im, a.re * b.im + a.im * b.re⟩⟩
instance : Div Gi := ⟨fun a b => ⟨(a.re * b.re + a.im * b.im) / (b.re * b.re + b.im * b.im),
  (a.im * b.re - a.re * b.im) / (b.re * b.re + b.im * b.im)⟩⟩
/-- conjugate -/
def cj (a : Gi) : Gi := ⟨a.re, -a.im⟩
end Gi

def gsCxE : GsEnv Gi := ⟨⟨true, false, true⟩, ⟨false, true, Gi.cj, some .ref, some 4, 2, [1, 0], none⟩,
  insertionSortB, ⟨fun k => 7 + k, fun _ => 9, fun _ => ⟨3, 3⟩⟩, .ref, 64⟩

/-- the Hermitian matrix with rows (2, i) and (-i, 2) -/
def gsCxH : Csr Gi := ⟨2, 2, 0, [0, 2, 4], [0, 1, 0, 1], [⟨2, 0⟩, ⟨0, 1⟩, ⟨0, -1⟩, ⟨2, 0⟩]⟩
/-- the columns of the same matrix -/
def gsCxHt : Csr Gi := ⟨2, 2, 0, [0, 2, 4], [0, 1, 0, 1], [⟨2, 0⟩, ⟨0, -1⟩, ⟨0, 1⟩, ⟨2, 0⟩]⟩
/-- the symmetric matrix with rows (2, i) and (i, 2), and its conjugate -/
def gsCxS : Csr Gi := ⟨2, 2, 0, [0, 2, 4], [0, 1, 0, 1], [⟨2, 0⟩, ⟨0, 1⟩, ⟨0, 1⟩, ⟨2, 0⟩]⟩
def gsCxSc : Csr Gi := ⟨2, 2, 0, [0, 2, 4], [0, 1, 0, 1], [⟨2, 0⟩, ⟨0, -1⟩, ⟨0, -1⟩, ⟨2, 0⟩]⟩

/-- one step for a general matrix, with the product: CSR, and the transpose of the CSC handle with the
same arrays -/
example : ∀ r ∈ [gsExRun gsExE false gsExA 111 ⟨0, 0, 0, 1⟩ 1 [4, 10, 6] [1, 1, 1] (some [0, 0, 0]) true,
      gsExRun gsExE true gsExA 112 ⟨0, 0, 0, 1⟩ 1 [4, 10, 6] [1, 1, 1] (some [0, 0, 0]) true],
    r = some (.success, some [649 / 1200, 551 / 300, 41 / 60], some [4, 5749 / 600, 1781 / 300]) := by
  decide +kernel

/-- a symmetric and a triangular matrix -/
example : gsExRun gsExE false gsExA 112 ⟨1, 0, 0, 1⟩ 2 [4, 10, 6] [1, 1, 1] none false
      = some (.success, some [11 / 150, 139 / 75, 11 / 15], none) ∧
    gsExRun gsExE false gsExA 112 ⟨3, 0, 0, 1⟩ 2 [4, 10, 6] [1, 1, 1] none false
      = some (.success, some [1 / 10, 9 / 5, 1], none) := by decide +kernel

/-- The status of the products inside is dropped: for a complex Hermitian matrix in CSC the conjugate
transposed product is not implemented, the call succeeds and the result is not that of the same matrix
in CSR. -/
theorem C35_hermitian_csc_counterexample :
    (∀ i < 2, ∀ j < 2, gsCxHt.get j i = gsCxH.get i j) ∧
    gsExRun gsCxE false gsCxH 111 ⟨2, 0, 0, 0⟩ 1 [0, 0] [1, 1] none false
      = some (.success, some [⟨0, -1 / 8⟩, ⟨1 / 4, 0⟩], none) ∧
    gsExRun gsCxE true gsCxHt 111 ⟨2, 0, 0, 0⟩ 1 [0, 0] [1, 1] none false
      = some (.success, some [0, 0], none) := by decide +kernel

/-- The operation is dropped for symmetric matrices: the conjugate transpose of a complex symmetric matrix
is its conjugate, but the sweeps use the matrix itself. -/
theorem C35_symmetric_conj_counterexample :
    (∀ i < 2, ∀ j < 2, gsCxSc.get i j = (gsCxS.get j i).cj) ∧
    gsExRun gsCxE false gsCxS 113 ⟨1, 0, 0, 0⟩ 1 [1, 0] [1, 1] none false
      = some (.success, some [⟨3 / 8, 1 / 8⟩, ⟨-1 / 4, -1 / 4⟩], none) ∧
    gsExRun gsCxE false gsCxSc 111 ⟨1, 0, 0, 0⟩ 1 [1, 0] [1, 1] none false
      = some (.success, some [⟨3 / 8, -1 / 8⟩, ⟨-1 / 4, 1 / 4⟩], none) := by decide +kernel

/-- A matrix without entries has no diagonal, but the call succeeds and leaves `x` alone. -/
theorem C35_empty_counterexample :
    gsExRun gsExE false ⟨2, 2, 0, [0, 0, 0], [], []⟩ 111 ⟨0, 0, 0, 0⟩ 1 [4, 10] [1, 1] none false
      = some (.success, some [1, 1], none) := by decide +kernel

/-- With the diagonal type zero the sweeps of a symmetric matrix use the stored diagonal and the fused
product does not. -/
theorem C35_zero_diag_counterexample :
    gsExRun gsExE false gsExA 111 ⟨1, 0, 2, 1⟩ 1 [4, 10, 6] [1, 1, 1] none false
      = gsExRun gsExE false gsExA 111 ⟨1, 0, 0, 1⟩ 1 [4, 10, 6] [1, 1, 1] none false ∧
    gsExRun gsExE false gsExA 111 ⟨1, 0, 2, 1⟩ 1 [4, 10, 6] [1, 1, 1] (some [0, 0, 0]) true
      ≠ gsExRun gsExE false gsExA 111 ⟨1, 0, 0, 1⟩ 1 [4, 10, 6] [1, 1, 1] (some [0, 0, 0]) true := by
  decide +kernel

/-- A real matrix declared Hermitian: without the product the step succeeds, with it the call fails after
`x` was overwritten. -/
theorem C35_real_hermitian_counterexample :
    gsExRun gsExE false gsExA 111 ⟨2, 0, 0, 1⟩ 1 [4, 10, 6] [1, 1, 1] (some [0, 0, 0]) false
      = some (.success, some [13 / 75, 124 / 75, 11 / 15], some [0, 0, 0]) ∧
    gsExRun gsExE false gsExA 111 ⟨2, 0, 0, 1⟩ 1 [4, 10, 6] [1, 1, 1] (some [0, 0, 0]) true
      = some (.notImplemented, some [13 / 75, 124 / 75, 11 / 15], some [0, 0, 0]) := by decide +kernel

/-- create, optionally multiply by the lower triangle, then relax -/
def sorExRun (pre ta : Bool) (A : Csr Rat) (omega alpha : Rat) (x b : List Rat) :
    Option (Status × Option (List Rat)) := do
  let r ← if pre then gsMv gsExE 111 1 (.fresh (A.raw ta) false) ⟨3, 0, 0, A.base⟩ x (List.replicate A.m 0)
    else some (.success, [], .fresh (A.raw ta) false)
  let s ← sorv true true 0 (some ⟨0, 0, 0, A.base⟩) (some r.2.2) omega alpha (some x) (some b)
  some (s.1, s.2.1)

example : ∀ i, i < gsExA.m → (gsExA.cols i).count (i : Int) = 1 ∧ gsExA.mat i i ≠ 0 := by decide +kernel

/-- with and without a copy -/
example : ∀ pre ∈ [false, true], sorExRun pre false gsExA (1 / 2) 1 [1, 1, 1] [4, 10, 6]
    = some (.success, some [7 / 8, 57 / 40, 141 / 160]) := by decide +kernel

/-- rows (0, 1) and (1, 2) -/
def sorExZ : Csr Rat := ⟨2, 2, 0, [0, 2, 4], [0, 1, 0, 1], [0, 1, 1, 2]⟩

/-- A diagonal entry that is stored but zero is reported for a fresh handle only: once another call has
marked the diagonal as full, the step runs and divides by zero. -/
theorem C35_sorv_history_counterexample :
    sorExRun false false sorExZ 1 1 [1, 1] [1, 1] = some (.invalidValue, some [1, 1]) ∧
    (sorExRun true false sorExZ 1 1 [1, 1] [1, 1]).map (·.1) = some .success := by decide +kernel

/-- rows (2, 1) and (0, 2) -/
def sorExU : Csr Rat := ⟨2, 2, 0, [0, 2, 3], [0, 1, 1], [2, 1, 2]⟩
/-- its columns -/
def sorExUt : Csr Rat := ⟨2, 2, 0, [0, 1, 3], [0, 0, 1], [2, 1, 2]⟩

/-- A CSC handle is relaxed with the transpose of the user's matrix. -/
theorem C35_sorv_csc_counterexample :
    (∀ i < 2, ∀ j < 2, sorExUt.get j i = sorExU.get i j) ∧
    sorExRun false false sorExU 1 1 [1, 1] [1, 1] = some (.success, some [0, 1 / 2]) ∧
    sorExRun false true sorExUt 1 1 [1, 1] [1, 1] = some (.success, some [1 / 2, 1 / 4]) := by decide +kernel

end Verif
