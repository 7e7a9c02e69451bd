/-
C60: a matrix handle survives every sequence of calls.
-/
import Verif.Proofs.Life

namespace Verif
open Model Finset

variable {R : Type} [Field R] [StarRing R] [DecidableEq R]

/-- The handles a program can reach, together with the arrays the user believes the matrix to have.  Every call may
be made with any arguments: null pointers, other value types, wrong sizes, operations and descriptors that do not
exist, arrays of any length, user callbacks that do anything; on any instruction set, with any number of threads, and
with any contents of fresh memory; and it may end with any status, as long as it ends.  What the user believes changes
only with a successful change of values and with the ordering of the arrays. -/
inductive Life (ta : Bool) : Csr R → MvHandle R → Prop
  | create {A : Csr R} (hA : A.WF) (hd : A.OneDiag) (hnd : A.Grouped ∨ A.NoDup) (sorted : Bool)
      (hs : sorted = true → A.Sorted) : Life ta A (.fresh (A.raw ta) sorted)
  | optimize {A : Csr R} {H H' : MvHandle R} {st : Status} {hs hs' : List MvHint} (E : GsEnv R) (hE : StdSort E.srt)
      (hk : E.k.Ok) (unrestricted : Bool) (ch : MvChoice) (g : Garb R) (g' : MvGarb R) (re : R → R)
      (hre : ∀ y, star y = y → re y = y) (hH : Life ta A H) (hf : ta = false → FmtOk E.isa ch A)
      (hh : ∀ x ∈ hs, ∃ t f op, IsHint E.k.real t f op x.h ∧ HintOk E.k.real ta A t f op)
      (e : Model.optimize E.isa E.k.dbl unrestricted E.srt ch g g' star re H hs = some (st, H', hs')) : Life ta A H'
  | mv {A : Csr R} {H H' : MvHandle R} {st : Status} (E : GsEnv R) (hE : StdSort E.srt) (same : Bool) (op : Int)
      (alpha beta : Option R) (d : Option Descr) (x y y' : Option (List R)) (hH : Life ta A H)
      (e : Model.mv E.isa E.k E.srt E.g same op alpha (some H) d x beta y = some (st, y', some H')) : Life ta A H'
  | dotmv {A : Csr R} {H H' : MvHandle R} {st : Status} (E : GsEnv R) (hE : StdSort E.srt) (dot : Option (DotKer R))
      (same : Bool) (op : Int) (alpha beta : R) (d : Option Descr) (x y y' : Option (List R)) (out out' : Option R)
      (hH : Life ta A H)
      (e : Model.dotmv E.isa E.k dot E.srt E.g same op alpha (some H) d x beta y out
        = some (st, y', out', some H')) : Life ta A H'
  | csrmm {A : Csr R} {H H' : MvHandle R} {st : Status} (E : GsEnv R) (tm : MmTeam) (ker : MmKernel R) (cj : R → R)
      (same : Bool) (op : Int) (alpha beta : R) (d : Option Descr) (order : Int) (B C C' : Option (List R))
      (n ldb ldc : Int) (hH : Life ta A H)
      (e : csrmmH E.w E.k.real tm ker E.g cj same op alpha (some H) d order B n ldb beta C ldc
        = some (st, C', some H')) : Life ta A H'
  | trsv {A : Csr R} {H H' : MvHandle R} {st : Status} (E : GsEnv R) (hE : StdSort E.srt) (same : Bool) (op : Int)
      (alpha : R) (d : Option Descr) (b x x' : Option (List R)) (incb incx : Int) (hH : Life ta A H)
      (e : trsvH E.k.real E.w E.k.cj E.srt E.g E.im same op alpha (some H) d b incb x incx = some (st, x', some H')) :
      Life ta A H'
  | trsm {A : Csr R} {H H' : MvHandle R} {st : Status} (E : GsEnv R) (hE : StdSort E.srt) (same : Bool)
      (sched : List Nat) (op : Int) (alpha : R) (d : Option Descr) (order : Int) (B X X' : Option (List R))
      (n ldb ldx : Int) (hH : Life ta A H)
      (e : trsmH E.k.real E.w E.k.cj E.srt E.g E.im same sched op alpha (some H) d order B n ldb X ldx
        = some (st, X', some H')) : Life ta A H'
  | symgs {A : Csr R} {H H' : MvHandle R} {st : Status} (E : GsEnv R) (hE : StdSort E.srt) (same : Bool) (op : Int)
      (d : Option Descr) (alpha : R) (b x y x' y' : Option (List R)) (fuse : Bool) (hH : Life ta A H)
      (e : Model.symgs E same op (some H) d alpha b x y fuse = some (st, x', y', some H')) : Life ta A H'
  | sorv {A : Csr R} {H H' : MvHandle R} {st : Status} (re same : Bool) (ty : Nat) (d : Option Descr)
      (omega alpha : R) (x b x' : Option (List R)) (hH : Life ta A H)
      (e : Model.sorv re same ty d (some H) omega alpha x b = some (st, x', some H')) : Life ta A H'
  | cg {A : Csr R} {Q τ : Type} [LinearOrder Q] (E : GsEnv R) (hE : StdSort E.srt) (num : Num R Q) (gnum : GNum R Q)
      (g : Nat → R) (gq : Q) (w : Int) (fuel : Nat) (d : Descr)
      (precond : Option (τ → Int → List R → List R → Option (Int × List R × τ)))
      (monit : Option (τ → Int → Option (List R) → Option (List R) → List Q → Option (Int × List Q × τ)))
      (gmres : DirSt R Q (SgsSt R τ) → Option (Status × DirSt R Q (SgsSt R τ)))
      (hgm : ∀ D z, gmres D = some z → z.2.t.H = D.t.H) (n : Int) (b : Option (List R)) (D : DirSt R Q (SgsSt R τ))
      (r : Status × DirSt R Q (SgsSt R τ)) (hH : Life ta A D.t.H)
      (e : cgDirect num gnum E g gq w fuel d precond monit gmres n b D = some r) : Life ta A r.2.t.H
  | gmres {A : Csr R} {Q τ : Type} [LinearOrder Q] (E : GsEnv R) (hE : StdSort E.srt) (num : Num R Q) (gnum : GNum R Q)
      (nz : R → Bool) (gd : Nat → Int) (g : Nat → R) (gq : Q) (w : Int) (fuel : Nat) (d : Descr)
      (precond : Option (τ → Int → List R → List R → Option (Int × List R × τ)))
      (monit : Option (τ → Int → Option (List R) → Option (List R) → List Q → Option (Int × List Q × τ)))
      (n : Int) (b : Option (List R)) (D : DirSt R Q (GmiSt R τ)) (r : Status × DirSt R Q (GmiSt R τ))
      (hH : Life ta A D.t.H)
      (e : gmDirect num gnum E nz gd g gq w fuel d precond monit n b D = some r) : Life ta A r.2.t.H
  | set {A A' : Csr R} {H H' : MvHandle R} (same : Bool) (row col : Int) (v : R) (hH : Life ta A H)
      (e : setValue same (some H) row col v = some (.success, some H'))
      (hA' : IsSet A A' ((if ta then col else row) - A.base).toNat ((if ta then row else col) - A.base).toNat v) :
      Life ta A' H'
  | setFails {A : Csr R} {H H' : MvHandle R} {st : Status} (same : Bool) (row col : Int) (v : R) (hH : Life ta A H)
      (hst : st ≠ .success) (e : setValue same (some H) row col v = some (st, some H')) : Life ta A H'
  | update {A : Csr R} {H H' : MvHandle R} (same : Bool) (len : Int) (v : List R) (hH : Life ta A H)
      (e : updateValues same (some H) len (some v) = some (.success, some H')) :
      Life ta { A with val := v.take len.toNat } H'
  | updateFails {A : Csr R} {H H' : MvHandle R} {st : Status} (same : Bool) (len : Int) (v : Option (List R))
      (hH : Life ta A H) (hst : st ≠ .success) (e : updateValues same (some H) len v = some (st, some H')) :
      Life ta A H'
  | order {A A' : Csr R} {H H' : MvHandle R} {st : Status} (srt : (Int → Int → Bool) → List Int → List Int)
      (hsrt : StdSort srt) (hnd : A.NoDup) (hsq : ta = true → A.m = A.n) (hcsr : ∀ s ∈ H.mats, s.isCsr)
      (hH : Life ta A H) (e : orderMat srt (some H) = some (st, some H')) (hA' : H'.raw = A'.raw ta) : Life ta A' H'

section
variable {E : GsEnv R} {A : Csr R} {ta : Bool} {H : MvHandle R}

/-- **C60.**  After every history the user's arrays are well formed and the handle is a correct handle of them: its
first object holds exactly these arrays and every other object is a correct copy of the matrix they stand for. -/
theorem C60_invariant (h : Life ta A H) : A.WF ∧ A.OneDiag ∧ (A.Grouped ∨ A.NoDup) ∧ HandleOk ta A H := by
  induction h with
  | create hA hd hnd sorted hs =>
    exact ⟨hA, hd, hnd, fresh_ok hA hs⟩
  | optimize E hE hk un ch g g' re hre _ hf hh e ih =>
    obtain ⟨hA, hd, hnd, hH⟩ := ih
    obtain ⟨H1, hs1, e1, h1⟩ := optimize_ok (isa := E.isa) (dbl := E.k.dbl) (unres := un) (ch := ch) (g := g)
      (g' := g') hE hre hk.real hA hd hnd hf hH _ hh
    rw [e] at e1
    cases e1
    exact ⟨hA, hd, hnd, h1⟩
  | mv E hE same op alpha beta d x y y' _ e ih =>
    obtain ⟨hA, hd, hnd, hH⟩ := ih
    exact ⟨hA, hd, hnd, mv_keeps hE hA hd hnd hH e⟩
  | dotmv E hE dot same op alpha beta d x y y' out out' _ e ih =>
    obtain ⟨hA, hd, hnd, hH⟩ := ih
    exact ⟨hA, hd, hnd, dotmv_keeps hE hA hd hnd hH e⟩
  | csrmm E tm ker cj same op alpha beta d order B C C' n ldb ldc _ e ih =>
    obtain ⟨hA, hd, hnd, hH⟩ := ih
    exact ⟨hA, hd, hnd, csrmm_keeps hH e⟩
  | trsv E hE same op alpha d b x x' incb incx _ e ih =>
    obtain ⟨hA, hd, hnd, hH⟩ := ih
    exact ⟨hA, hd, hnd, C27_handle_keeps hE E.g hA hd hnd hH e⟩
  | trsm E hE same sched op alpha d order B X X' n ldb ldx _ e ih =>
    obtain ⟨hA, hd, hnd, hH⟩ := ih
    exact ⟨hA, hd, hnd, trsm_keeps hE hA hd hnd hH e⟩
  | symgs E hE same op d alpha b x y x' y' fuse _ e ih =>
    obtain ⟨hA, hd, hnd, hH⟩ := ih
    exact ⟨hA, hd, hnd, symgs_keeps hE hA hd hnd hH e⟩
  | sorv re same ty d omega alpha x b x' _ e ih =>
    obtain ⟨hA, hd, hnd, hH⟩ := ih
    exact ⟨hA, hd, hnd, C35_sorv_keeps hA hH e⟩
  | cg E hE num gnum g gq w fuel d precond monit gmres hgm n b D r _ e ih =>
    obtain ⟨hA, hd, hnd, hH⟩ := ih
    exact ⟨hA, hd, hnd, cgDirect_keeps hE hA hd hnd (fun hI ez => (hgm _ _ ez).symm ▸ hI) hH e⟩
  | gmres E hE num gnum nz gd g gq w fuel d precond monit n b D r _ e ih =>
    obtain ⟨hA, hd, hnd, hH⟩ := ih
    exact ⟨hA, hd, hnd, gmDirect_keeps hE hA hd hnd hH e⟩
  | @set A A' H H' same row col v _ e hset ih =>
    obtain ⟨hA, hd, hnd, hH⟩ := ih
    obtain ⟨rfl, i, j, hi, hj, rfl, rfl⟩ := setValue_inside hH e
    have h1 : ((i : Int) + A.base - A.base).toNat = i := by omega
    have h2 : ((j : Int) + A.base - A.base).toNat = j := by omega
    have hset' : IsSet A A' (if ta then j else i) (if ta then i else j) v := by
      cases ta
      · simpa [h1, h2] using hset
      · simpa [h1, h2] using hset
    have hst : userStored ta A i j := by
      by_contra hc
      rw [(C45_set hA hH hi hj v).1 hc] at e
      cases e
    obtain ⟨A1, H1, e1, s1, w1, k1, -⟩ := (C45_set hA hH hi hj v).2 hst
    rw [e] at e1
    cases e1
    have hi' : (if ta then j else i) < A.m := by cases ta <;> assumption
    have := hset'.unique hA hi' s1
    subst this
    have hv : A'.val.length = A.ind.length := s1.len.trans hA.val_len
    have heq : A' = A.withVals A'.val := by
      rcases A' with ⟨m, n, base, ptr, ind, val⟩
      obtain ⟨rfl, rfl, rfl, rfl, rfl, -, -, -⟩ := s1
      rfl
    refine ⟨w1, ?_, ?_, k1⟩
    · rw [heq]; exact (withVals_oneDiag hA hv).2 hd
    · rw [heq]
      exact hnd.imp (withVals_grouped hA hv).2 (withVals_noDup hA hv).2
  | setFails same row col v _ hst e ih => rw [setValue_fails hst e]; exact ih
  | @update A H H' same len v _ e ih =>
    obtain ⟨hA, hd, hnd, hH⟩ := ih
    obtain ⟨v', hv', hl, rfl, rfl, e'⟩ := updateValues_front hH hA e
    cases hv'
    rw [Int.toNat_natCast]
    have hv : (v.take A.nnz).length = A.nnz := by rw [List.length_take]; omega
    obtain ⟨H1, e1, w1, h1, -⟩ := (C22_update hA hH (v.take A.nnz)).1 hv
    rw [e'] at e1
    cases e1
    exact ⟨w1, (withVals_oneDiag hA hv).2 hd, hnd.imp (withVals_grouped hA hv).2 (withVals_noDup hA hv).2, h1⟩
  | updateFails same len v _ hst e ih => rw [updateValues_fails hst e]; exact ih
  | order srt hsrt hnd' hsq hcsr _ e hA' ih =>
    obtain ⟨hA, hd, hnd, hH⟩ := ih
    obtain ⟨-, h1, h2, h3, -⟩ := ordered_keeps hsrt hA hnd' hsq hH hcsr e hA'
    refine ⟨h1, ?_, .inr (h2.noDup hnd'), h3⟩
    intro i hi
    exact List.nodup_iff_count_le_one.1 (h2.noDup hnd' i hi) _

/-! ### what the calls compute after any history -/

/-- **C60, products.**  After any history that left no null pointer in the list of copies, a product fails and leaves
`y` alone or computes `alpha * op(A) * x + beta * y` with the user's current arrays; supported requests succeed. -/
theorem C60_mv (h : Life ta A H) (hn : H.nulls = 0) (hE : StdSort E.srt) (hk : E.k.Ok) (t : MType) (f : Fill)
    (D : Diag) (op : Op) (alpha beta : R) (x y : List R) (hc : MvCall E.k ta A t f D op x y) :
    ∃ st y' H', mv E.isa E.k E.srt E.g true op.code (some alpha) (some H)
        (some ⟨t.code, f.code, D.code, A.base⟩) (some x) (some beta) (some y) = some (st, some y', some H') ∧
      Life ta A H' ∧ (st ≠ .success → y' = y) ∧
      (st = .success → IsMv alpha beta (operator t f D op (userMat ta A)) (opRows op ta A)
        (opCols op ta A) x y y') ∧
      (MvSupported E.isa E.k ta A t D op → st = .success) := by
  obtain ⟨hA, hd, hnd, hH⟩ := C60_invariant h
  obtain ⟨st, y', H', e, -, k1, k2, k3⟩ := C21_mv (isa := E.isa) (alpha := alpha) (beta := beta) hE E.g hk hc hH hn
  exact ⟨st, y', H', e, .mv E hE _ _ _ _ _ _ _ _ h e, k1, k2, k3⟩

/-- **C60, products followed by a dot product.** -/
theorem C60_dotmv (h : Life ta A H) (hn : H.nulls = 0) (hE : StdSort E.srt) (hk : E.k.Ok) {dot : Option (DotKer R)}
    (hdot : ∀ ker, dot = some ker → ker.Ok) (d0 : R) (t : MType) (f : Fill) (D : Diag) (op : Op) (alpha beta : R)
    (x y : List R) (hc : MvCall E.k ta A t f D op x y) :
    ∃ st y' d H', dotmv E.isa E.k dot E.srt E.g true op.code alpha (some H)
        (some ⟨t.code, f.code, D.code, A.base⟩) (some x) beta (some y) (some d0)
        = some (st, some y', some d, some H') ∧
      Life ta A H' ∧ (st ≠ .success → d = d0 ∧ (dot ≠ none → y' = y)) ∧
      (st = .success → IsMv alpha beta (operator t f D op (userMat ta A)) (opRows op ta A)
        (opCols op ta A) x y y' ∧
        d = ∑ i ∈ range (min A.m A.n), star (x.getD i 0) * y'.getD i 0) ∧
      (MvSupported E.isa E.k ta A t D op → dot ≠ none → st = .success) := by
  obtain ⟨hA, hd, hnd, hH⟩ := C60_invariant h
  obtain ⟨st, y', d, H', e, -, k1, k2, k3⟩ := C46_dotmv (isa := E.isa) (alpha := alpha) (beta := beta) hE E.g hk hdot d0
    hc hH hn
  exact ⟨st, y', d, H', e, .dotmv E hE _ _ _ _ _ _ _ _ _ _ _ h e, k1, k2, k3⟩

/-- **C60, products with a dense matrix.**  They succeed after any history, null pointers in the list included. -/
theorem C60_csrmm (h : Life ta A H) (hw : 2 ≤ E.w) {ker : MmKernel R} (hker : ker.Ok) {tm : MmTeam} {t : MType} {f : Fill}
    {D : Diag} {op : Op} {col : Bool} {B C : List R} {n ldb ldc : Nat} (ht : t ≠ .triangular)
    (hc : MmOk E.w tm col ta op t A B C n ldb ldc) (hreal : E.k.real = true → ∀ x : R, star x = x)
    (hherm : t = .hermitian → RealDiag A.mat) (alpha beta : R) :
    ∃ C' H', csrmmH E.w E.k.real tm ker E.g star true op.code alpha (some H)
        (some ⟨t.code, f.code, D.code, A.base⟩) (if col then 1 else 0) (some B) n ldb beta (some C) ldc
        = some (.success, some C', some H') ∧ Life ta A H' ∧
      IsMm col alpha beta (operator t f D op (userMat ta A)) (opRows op ta A) (opCols op ta A)
        n ldb ldc B C C' := by
  obtain ⟨hA, hd, hnd, hH⟩ := C60_invariant h
  obtain ⟨s, rest, hf⟩ : ∃ s rest, H.mats = s :: rest := by
    obtain ⟨_, _, _, rest, hf⟩ := hH.first
    exact ⟨_, rest, hf⟩
  have hcp : CopiesOk ta A (rest.filterMap Stored.csr?) := fun c hc => by
    obtain ⟨o, iu, hs⟩ := filterMap_csr hH hf c hc
    exact hs.1
  obtain ⟨C', copies', e, k, -, -⟩ := C31_csrmm (f := f) (D := D) (isReal := E.k.real) hw hker E.g ht hc hreal hherm _ hcp
    alpha beta
  have e' : csrmmH E.w E.k.real tm ker E.g star true op.code alpha (some H)
        (some ⟨t.code, f.code, D.code, A.base⟩) (if col then 1 else 0) (some B) n ldb beta (some C) ldc
        = some (.success, some C', some { H with mats := s :: putCopies rest copies' }) := by
    unfold csrmmH
    dsimp only
    rw [if_neg (by simp), hf]
    dsimp only
    rw [hH.raw, e]
    rfl
  exact ⟨C', _, e', .csrmm E tm ker star _ _ _ _ _ _ _ _ _ _ _ _ h e', k⟩

/-- **C60, triangular solves.**  They succeed after any history and solve with the user's current arrays. -/
theorem C60_trsv (h : Life ta A H) (hE : StdSort E.srt) (hk : E.k.Ok) (op : Op) (alpha : R) (t : MType) (f : Fill)
    (Dg : Diag) (b x : List R) (incb incx : Nat) (hm : 0 < A.m) (hnz : 0 < A.nnz) (hsq : A.m = A.n)
    (ht : t = .symmetric ∨ t = .triangular) (hdz : Dg ≠ .zero)
    (hinv : Dg = .nonUnit → A.FullDiag ∧ ∀ i, i < A.m → A.mat i i ≠ 0) (him : SolveOk E.im A alpha) (hincb : 0 < incb)
    (hincx : 0 < incx) (hov : prodOvf E.w ((A.m : Int) - 1) incx = false)
    (hovb : prodOvf E.w ((A.m : Int) - 1) incb = false)
    (hb : ∀ i, i < A.m → i * incb < b.length) (hx : ∀ i, i < A.m → i * incx < x.length) :
    ∃ x' H', trsvH E.k.real E.w E.k.cj E.srt E.g E.im true op.code alpha (some H)
        (some ⟨t.code, f.code, Dg.code, A.base⟩) (some b) incb (some x) incx
        = some (.success, some x', some H') ∧ Life ta A H' ∧
      IsSolve (operator .triangular f Dg op (userMat ta A)) A.m alpha b incb x incx x' := by
  obtain ⟨hA, hd, hnd, hH⟩ := C60_invariant h
  obtain ⟨x', H', e, -, hs⟩ := C27_handle (isReal := E.k.real) (w := E.w) (im := E.im) (op := op)
    (alpha := alpha) (t := t) (f := f) (Dg := Dg) (b := b) (x := x) (incb := incb) (incx := incx)
    hE E.g hk.real hA hd hnd hm hnz hsq ht hdz hinv him hincb hincx hov hovb hb hx hH
  rw [← hk.cj] at e
  exact ⟨x', H', e, .trsv E hE _ _ _ _ _ _ _ _ _ h e, hs⟩

/-- **C60, triangular solves with several right-hand sides.** -/
theorem C60_trsm (h : Life ta A H) (hE : StdSort E.srt) (hk : E.k.Ok) (op : Op) (alpha : R) (t : MType) (f : Fill)
    (Dg : Diag) {col : Bool} {B X : List R} {n ldb ldx : Nat} {sched : List Nat} (hm : 0 < A.m) (hnz : 0 < A.nnz)
    (hsq : A.m = A.n) (ht : t = .symmetric ∨ t = .triangular) (hdz : Dg ≠ .zero)
    (hinv : Dg = .nonUnit → A.FullDiag ∧ ∀ i, i < A.m → A.mat i i ≠ 0) (him : SolveOk E.im A alpha)
    (hz : TrsmSizes E.w col A.m n ldb ldx B X) (hsched : sched.Perm (List.range n)) :
    ∃ X' H', trsmH E.k.real E.w E.k.cj E.srt E.g E.im true sched op.code alpha (some H)
        (some ⟨t.code, f.code, Dg.code, A.base⟩) (if col then 1 else 0) (some B) n ldb (some X) ldx
        = some (.success, some X', some H') ∧ Life ta A H' ∧
      IsSolveMm col (operator .triangular f Dg op (userMat ta A)) A.m n alpha B ldb X ldx X' := by
  obtain ⟨hA, hd, hnd, hH⟩ := C60_invariant h
  obtain ⟨X', H', e, -, hs⟩ := C51_trsm (isReal := E.k.real) (w := E.w) (im := E.im) (op := op)
    (alpha := alpha) (t := t) (f := f) (Dg := Dg) hE E.g hk.real hA hd hnd hm hnz hsq ht hdz hinv him hz hH hsched
  rw [← hk.cj] at e
  exact ⟨X', H', e, .trsm E hE _ _ _ _ _ _ _ _ _ _ _ _ h e, hs⟩

/-- **C60, symmetric Gauss-Seidel.** -/
theorem C60_symgs (h : Life ta A H) (hn : H.nulls = 0) (hE : GsEnvOk E A) (hA : GsMat A) {t : MType} {f : Fill}
    {op : Op} {alpha : R} {b x : List R} {y : Option (List R)} {fuse : Bool} (hc : GsCall E ta A t op b x y fuse) :
    ∃ x' y' H', symgs E true op.code (some H) (some ⟨t.code, f.code, 0, A.base⟩) alpha (some b) (some x) y
        fuse = some (.success, some x', y', some H') ∧ Life ta A H' ∧
      (t = .triangular → IsSolve (operator t f .nonUnit op (userMat ta A)) A.m 1 b 1 x 1 x') ∧
      (t ≠ .triangular → IsSymgs (operator t f .nonUnit op (userMat ta A)) A.m alpha b x x') ∧
      (fuse = false → y' = y) ∧
      (fuse = true → ∃ yl yl', y = some yl ∧ y' = some yl' ∧
        IsMv 1 0 (operator t f .nonUnit op (userMat ta A)) A.m A.m x' yl yl') := by
  obtain ⟨-, -, -, hH⟩ := C60_invariant h
  obtain ⟨x', y', H', e, -, k⟩ := C35_symgs (f := f) (alpha := alpha) hE hA hH hn hc
  exact ⟨x', y', H', e, .symgs E hE.srt _ _ _ _ _ _ _ _ _ _ h e, k⟩

/-- **C60, successive over-relaxation** of a CSR handle. -/
theorem C60_sorv (h : Life false A H) (hsq : A.m = A.n) (hm : 0 < A.m)
    (hd : ∀ i, i < A.m → (A.cols i).count (i : Int) = 1 ∧ A.mat i i ≠ 0)
    {f : Fill} {D : Diag} {omega alpha : R} {b x : List R} (hx : A.m ≤ x.length) (hb : A.m ≤ b.length) :
    ∃ x' H', sorv true true 0 (some ⟨0, f.code, D.code, A.base⟩) (some H) omega alpha (some x) (some b)
        = some (.success, some x', some H') ∧ Life false A H' ∧ IsSor (userMat false A) A.m omega alpha b x x' := by
  obtain ⟨hA, -, -, hH⟩ := C60_invariant h
  obtain ⟨x', H', e, -, k⟩ := C35_sorv (f := f) (D := D) (omega := omega) (alpha := alpha) hA hsq hm hH hd hx hb
  exact ⟨x', H', e, .sorv _ _ _ _ _ _ _ _ _ h e, k⟩

/-- **C60, ordering.**  Ordering a CSR handle that stores no coordinate twice, or a CSC handle of a square matrix,
succeeds after any history; while the handle holds only CSR objects, it goes on to be a correct handle, now of the
ordered arrays. -/
theorem C60_order (h : Life ta A H) (hE : StdSort E.srt) (hnd : A.NoDup) (hsq : ta = true → A.m = A.n) :
    ∃ A' H', orderMat E.srt (some H) = some (.success, some H') ∧ IsOrdered A A' ∧ H'.raw = A'.raw ta ∧
      H'.nulls = H.nulls ∧ ((∀ s ∈ H.mats, s.isCsr) → Life ta A' H') := by
  obtain ⟨hA, -, -, hH⟩ := C60_invariant h
  obtain ⟨A', H', e, -, k1, k2, k3, -⟩ := C26_order hE hA hnd hsq hH
  exact ⟨A', H', e, k1, k2, k3, fun hcsr => .order E.srt hE hnd hsq hcsr h e k2⟩

/-- **C60, changes of values** succeed after any history: one stored value, or all. -/
theorem C60_change (h : Life ta A H) :
    (∀ {i j : Nat}, i < userRows ta A → j < userCols ta A → userStored ta A i j → ∀ v, ∃ A' H',
      setValue true (some H) (i + A.base) (j + A.base) v = some (.success, some H') ∧
      IsSet A A' (if ta then j else i) (if ta then i else j) v ∧ Life ta A' H') ∧
    (∀ v : List R, v.length = A.nnz → ∃ H',
      updateValues true (some H) v.length (some v) = some (.success, some H') ∧ Life ta { A with val := v } H') := by
  obtain ⟨hA, -, -, hH⟩ := C60_invariant h
  refine ⟨fun {i j} hi hj hst v => ?_, fun v hv => ?_⟩
  · obtain ⟨A', H', e, s, -, -, -⟩ := (C45_set hA hH hi hj v).2 hst
    refine ⟨A', H', e, s, .set true _ _ v h e ?_⟩
    have h1 : ((i : Int) + A.base - A.base).toNat = i := by omega
    have h2 : ((j : Int) + A.base - A.base).toNat = j := by omega
    cases ta
    · simpa [h1, h2] using s
    · simpa [h1, h2] using s
  · obtain ⟨H', e, -, -, -⟩ := (C22_update hA hH v).1 hv
    refine ⟨H', e, ?_⟩
    have := Life.update true v.length v h e
    rwa [Int.toNat_natCast, List.take_length] at this

end

/-! ### concrete cases -/

set_option synthInstance.maxSize 1000

/-- calls that fail are part of a history: a null pointer, another value type, an operation that does not exist -/
example (E : GsEnv Rat) (hE : StdSort E.srt) {H : MvHandle Rat} (h : Life false gsExA H) : Life false gsExA H :=
  .setFails false 2 1 7 (.sorv true true 0 none 1 1 none none none (.mv E hE true 111 none (some 0) none none none none h
    rfl) rfl) (st := .wrongType) (by simp) (by
      obtain ⟨-, -, -, hH⟩ := C60_invariant h
      obtain ⟨idl, o, iu, rest, hf⟩ := hH.first
      unfold setValue
      simp only [hf]
      rw [hH.raw]
      rfl)

/-- A solve, then a change of one value: the history goes on with the changed arrays. -/
example : ∃ H, Life false upA' H := by
  have h0 : Life false gsExA (.fresh (gsExA.raw false) false) :=
    .create gsExA_ok.wf gsExA_ok.one gsExA_ok.nodup false (by simp)
  obtain ⟨x', H', -, h1, -⟩ := C60_trsv (E := gsExE) h0 gsExE_ok.srt gsExE_ok.sel .none 1 .triangular .lower .nonUnit
    [4, 10, 6] [0, 0, 0] 1 1 (by decide) (by decide) rfl (.inr rfl) (by simp) (fun _ => ⟨gsExA_ok.full, gsExA_ok.diag⟩)
    trivial (by decide) (by decide) (by decide) (by decide) (by decide) (by decide)
  obtain ⟨A', H'', -, s, h2⟩ := (C60_change h1).1 (i := 1) (j := 0) (by decide) (by decide)
    (by unfold userStored; decide +kernel) 7
  have s' : IsSet gsExA upA' 1 0 7 := by
    refine ⟨rfl, rfl, rfl, rfl, rfl, rfl, by decide +kernel, [(2, -1), (1, 5)], 2, [], by decide +kernel, by decide +kernel,
      by decide +kernel⟩
  have := s.unique gsExA_ok.wf (by decide) s'
  exact ⟨H'', this ▸ h2⟩

/-- the statuses and results of a history: a product with the wrong base fails, all values are replaced from a longer
array, the arrays are ordered, a triangular solve, an unknown coordinate, a symmetric product with a dense matrix, a
solve with two right-hand sides -/
def lifeRun : Option (List Status × List (List Rat)) := do
  let H0 := MvHandle.fresh (gsExA.raw false) false
  let a ← mv gsExE.isa gsExSel insertionSortB gsExG true 111 (some 1) (some H0) (some ⟨0, 0, 0, 0⟩) (some [1, 1, 1])
    (some 0) (some [0, 0, 0])
  let b ← updateValues true a.2.2 7 (some [1, 4, 6, 2, 1, 3, 5, 99, 98])
  let c ← orderMat insertionSortB b.2
  let d ← trsvH true 64 star insertionSortB gsExG .ref true 111 1 c.2 (some ⟨3, 0, 0, 1⟩) (some [4, 3, 16]) 1
    (some [0, 0, 0]) 1
  let e ← setValue true d.2.2 1 3 7
  let f ← csrmmH 64 true ⟨1, [0]⟩ .ref gsExG star true 111 1 e.2 (some ⟨1, 0, 0, 1⟩) 1 (some [1, 1, 1]) 1 3 0
    (some [0, 0, 0]) 3
  let g ← trsmH true 64 star insertionSortB gsExG .ref true [1, 0] 111 1 f.2.2 (some ⟨3, 0, 0, 1⟩) 1
    (some [4, 3, 16, 8, 6, 32]) 2 3 (some [0, 0, 0, 0, 0, 0]) 3
  some ([a.1, b.1, c.1, d.1, e.1, f.1, g.1], [a.2.1.getD [], d.2.1.getD [], f.2.1.getD [], g.2.1.getD []])

example : lifeRun = some ([.invalidValue, .success, .success, .success, .invalidIndexValue, .success, .success],
    [[0, 0, 0], [1, 1, 11 / 3], [5, 8, 8], [1, 1, 11 / 3, 2, 2, 22 / 3]]) := by decide +kernel

end Verif
