/-
C63: running out of memory.
-/
import Verif.Proofs.Oom4
import Verif.Props.Life

namespace Verif
open Model Finset

variable {R : Type} [Field R] [StarRing R] [DecidableEq R]

/-- The handles a program can reach when memory may run out during any call: the calls of `Life` (C60), where during
each of `optimize`, `mv`, `dotmv`, `csrmm`, `trsv`, `trsm`, `symgs` and `order_mat` any allocations may fail that the
library notices (`Noticed`: see F97 and F98 for the two it does not).  The other calls have enough memory. -/
inductive LifeM (ta : Bool) : Csr R → MvHandle R → Prop
  | create {A : Csr R} (hA : A.WF) (hd : A.OneDiag) (hnd : A.Grouped ∨ A.NoDup) (sorted : Bool)
      (hs : sorted = true → A.Sorted) : LifeM ta A (.fresh (A.raw ta) sorted)
  | optimize {A : Csr R} {H H' : MvHandle R} {st : Status} {hs hs' : List MvHint} (o : Oom) (hno : Noticed o A) (E : GsEnv R) (hE : StdSort E.srt)
      (hk : E.k.Ok) (unrestricted : Bool) (ch : MvChoice) (g : Garb R) (g' : MvGarb R) (re : R → R)
      (hre : ∀ y, star y = y → re y = y) (hH : LifeM ta A H) (hf : ta = false → FmtOk E.isa ch A)
      (hh : ∀ x ∈ hs, ∃ t f op, IsHint E.k.real t f op x.h ∧ HintOk E.k.real ta A t f op)
      (e : optimizeM o E.isa E.k.dbl unrestricted E.srt ch g g' star re H hs = some (st, H', hs')) : LifeM ta A H'
  | mv {A : Csr R} {H H' : MvHandle R} {st : Status} (o : Oom) (hno : o.sort = true → A.Grouped) (E : GsEnv R) (hE : StdSort E.srt) (same : Bool) (op : Int)
      (alpha beta : Option R) (d : Option Descr) (x y y' : Option (List R)) (hH : LifeM ta A H)
      (e : mvM o E.isa E.k E.srt E.g same op alpha (some H) d x beta y = some (st, y', some H')) : LifeM ta A H'
  | dotmv {A : Csr R} {H H' : MvHandle R} {st : Status} (o : Oom) (hno : o.sort = true → A.Grouped) (E : GsEnv R) (hE : StdSort E.srt) (dot : Option (DotKer R))
      (same : Bool) (op : Int) (alpha beta : R) (d : Option Descr) (x y y' : Option (List R)) (out out' : Option R)
      (hH : LifeM ta A H)
      (e : dotmvM o E.isa E.k dot E.srt E.g same op alpha (some H) d x beta y out
        = some (st, y', out', some H')) : LifeM ta A H'
  | csrmm {A : Csr R} {H H' : MvHandle R} {st : Status} (o : Oom) (E : GsEnv R) (tm : MmTeam) (ker : MmKernel R) (cj : R → R)
      (same : Bool) (op : Int) (alpha beta : R) (d : Option Descr) (order : Int) (B C C' : Option (List R))
      (n ldb ldc : Int) (hH : LifeM ta A H)
      (e : csrmmHM o E.w E.k.real tm ker E.g cj same op alpha (some H) d order B n ldb beta C ldc
        = some (st, C', some H')) : LifeM ta A H'
  | trsv {A : Csr R} {H H' : MvHandle R} {st : Status} (o : Oom) (hno : o.sort = true → A.Grouped) (E : GsEnv R) (hE : StdSort E.srt) (same : Bool) (op : Int)
      (alpha : R) (d : Option Descr) (b x x' : Option (List R)) (incb incx : Int) (hH : LifeM ta A H)
      (e : trsvHM o E.k.real E.w E.k.cj E.srt E.g E.im same op alpha (some H) d b incb x incx = some (st, x', some H')) :
      LifeM ta A H'
  | trsm {A : Csr R} {H H' : MvHandle R} {st : Status} (o : Oom) (hno : o.sort = true → A.Grouped) (E : GsEnv R) (hE : StdSort E.srt) (same : Bool)
      (sched : List Nat) (op : Int) (alpha : R) (d : Option Descr) (order : Int) (B X X' : Option (List R))
      (n ldb ldx : Int) (hH : LifeM ta A H)
      (e : trsmHM o E.k.real E.w E.k.cj E.srt E.g E.im same sched op alpha (some H) d order B n ldb X ldx
        = some (st, X', some H')) : LifeM ta A H'
  | symgs {A : Csr R} {H H' : MvHandle R} {st : Status} (o : Oom) (hno : o.sort = true → A.Grouped) (E : GsEnv R) (hE : StdSort E.srt) (same : Bool) (op : Int)
      (d : Option Descr) (alpha : R) (b x y x' y' : Option (List R)) (fuse : Bool) (hH : LifeM ta A H)
      (e : symgsM o E same op (some H) d alpha b x y fuse = some (st, x', y', some H')) : LifeM ta A H'
  | sorv {A : Csr R} {H H' : MvHandle R} {st : Status} (re same : Bool) (ty : Nat) (d : Option Descr)
      (omega alpha : R) (x b x' : Option (List R)) (hH : LifeM ta A H)
      (e : Model.sorv re same ty d (some H) omega alpha x b = some (st, x', some H')) : LifeM ta A H'
  | cg {A : Csr R} {Q τ : Type} [LinearOrder Q] (E : GsEnv R) (hE : StdSort E.srt) (num : Num R Q) (gnum : GNum R Q)
      (g : Nat → R) (gq : Q) (w : Int) (fuel : Nat) (d : Descr)
      (precond : Option (τ → Int → List R → List R → Option (Int × List R × τ)))
      (monit : Option (τ → Int → Option (List R) → Option (List R) → List Q → Option (Int × List Q × τ)))
      (gmres : DirSt R Q (SgsSt R τ) → Option (Status × DirSt R Q (SgsSt R τ)))
      (hgm : ∀ D z, gmres D = some z → z.2.t.H = D.t.H) (n : Int) (b : Option (List R)) (D : DirSt R Q (SgsSt R τ))
      (r : Status × DirSt R Q (SgsSt R τ)) (hH : LifeM ta A D.t.H)
      (e : cgDirect num gnum E g gq w fuel d precond monit gmres n b D = some r) : LifeM ta A r.2.t.H
  | gmres {A : Csr R} {Q τ : Type} [LinearOrder Q] (E : GsEnv R) (hE : StdSort E.srt) (num : Num R Q) (gnum : GNum R Q)
      (nz : R → Bool) (gd : Nat → Int) (g : Nat → R) (gq : Q) (w : Int) (fuel : Nat) (d : Descr)
      (precond : Option (τ → Int → List R → List R → Option (Int × List R × τ)))
      (monit : Option (τ → Int → Option (List R) → Option (List R) → List Q → Option (Int × List Q × τ)))
      (n : Int) (b : Option (List R)) (D : DirSt R Q (GmiSt R τ)) (r : Status × DirSt R Q (GmiSt R τ))
      (hH : LifeM ta A D.t.H)
      (e : gmDirect num gnum E nz gd g gq w fuel d precond monit n b D = some r) : LifeM ta A r.2.t.H
  | set {A A' : Csr R} {H H' : MvHandle R} (same : Bool) (row col : Int) (v : R) (hH : LifeM ta A H)
      (e : setValue same (some H) row col v = some (.success, some H'))
      (hA' : IsSet A A' ((if ta then col else row) - A.base).toNat ((if ta then row else col) - A.base).toNat v) :
      LifeM ta A' H'
  | setFails {A : Csr R} {H H' : MvHandle R} {st : Status} (same : Bool) (row col : Int) (v : R) (hH : LifeM ta A H)
      (hst : st ≠ .success) (e : setValue same (some H) row col v = some (st, some H')) : LifeM ta A H'
  | update {A : Csr R} {H H' : MvHandle R} (same : Bool) (len : Int) (v : List R) (hH : LifeM ta A H)
      (e : updateValues same (some H) len (some v) = some (.success, some H')) :
      LifeM ta { A with val := v.take len.toNat } H'
  | updateFails {A : Csr R} {H H' : MvHandle R} {st : Status} (same : Bool) (len : Int) (v : Option (List R))
      (hH : LifeM ta A H) (hst : st ≠ .success) (e : updateValues same (some H) len v = some (st, some H')) :
      LifeM ta A H'
  | order {A A' : Csr R} {H H' : MvHandle R} {st : Status} (o : Oom) (srt : (Int → Int → Bool) → List Int → List Int)
      (hsrt : StdSort srt) (hnd : A.NoDup) (hsq : ta = true → A.m = A.n) (hcsr : ∀ s ∈ H.mats, s.isCsr)
      (hH : LifeM ta A H) (e : orderMatM o srt (some H) = some (st, some H')) (hA' : H'.raw = A'.raw ta) : LifeM ta A' H'

section
variable {E : GsEnv R} {A : Csr R} {ta : Bool} {H : MvHandle R} {o : Oom}

/-- **C63.**  After every history in which memory ran out any number of times, the user's arrays are well formed and the
handle is a correct handle of them. -/
theorem C63_invariant (h : LifeM ta A H) : A.WF ∧ A.OneDiag ∧ (A.Grouped ∨ A.NoDup) ∧ HandleOk ta A H := by
  induction h with
  | create hA hd hnd sorted hs =>
    exact ⟨hA, hd, hnd, fresh_ok hA hs⟩
  | optimize o hno E hE hk un ch g g' re hre _ hf hh e ih =>
    obtain ⟨hA, hd, hnd, hH⟩ := ih
    rcases optimizeM_cases (o := o) (isa := E.isa) (dbl := E.k.dbl) (unres := un) (srt := E.srt) (ch := ch) (g := g)
      (g' := g') hre hk.real hA hd hno hf hH _ hh with k | ⟨H1, hs1, k, h1⟩
    · obtain ⟨H1, hs1, e1, h1⟩ := optimize_ok (isa := E.isa) (dbl := E.k.dbl) (unres := un) (ch := ch) (g := g)
        (g' := g') hE hre hk.real hA hd hnd hf hH _ hh
      rw [k, e1] at e
      cases e
      exact ⟨hA, hd, hnd, h1⟩
    · rw [k] at e
      cases e
      exact ⟨hA, hd, hnd, h1⟩
  | mv o hno E hE same op alpha beta d x y y' _ e ih =>
    obtain ⟨hA, hd, hnd, hH⟩ := ih
    rcases mvM_cases (o := o) (g := E.g) (isa := E.isa) (k := E.k) (same := same) (op := op) (alpha := alpha)
      (beta := beta) (d := d) (x := x) (y := y) hE hA hd hnd hno hH with k | ⟨y0, r, -, k, hr⟩
    · rw [k] at e
      exact ⟨hA, hd, hnd, mv_keeps hE hA hd hnd hH e⟩
    · rw [k] at e
      cases e
      exact ⟨hA, hd, hnd, hr.2.1⟩
  | dotmv o hno E hE dot same op alpha beta d x y y' out out' _ e ih =>
    obtain ⟨hA, hd, hnd, hH⟩ := ih
    rcases dotmvM_cases (o := o) (g := E.g) (isa := E.isa) (k := E.k) (dot := dot) (same := same) (op := op)
      (alpha := alpha) (beta := beta) (d := d) (x := x) (y := y) (out := out) hE hA hd hnd hno hH with
      k | ⟨y0, r, -, k, hr⟩
    · rw [k] at e
      exact ⟨hA, hd, hnd, dotmv_keeps hE hA hd hnd hH e⟩
    · rw [k] at e
      cases e
      exact ⟨hA, hd, hnd, hr.2.1⟩
  | @csrmm A H H' st o E tm ker cj same op alpha beta d order B C C' n ldb ldc _ e ih =>
    obtain ⟨hA, hd, hnd, hH⟩ := ih
    rcases csrmmHM_cases (o := o) (w := E.w) (isReal := E.k.real) (tm := tm) (ker := ker) (g := E.g) (cj := cj)
      (same := same) (op := op) (alpha := alpha) (H := H) (d := d) (order := order) (B := B) (n := n) (ldb := ldb)
      (beta := beta) (C := C) (ldc := ldc) with k | k
    · rw [k] at e
      exact ⟨hA, hd, hnd, csrmm_keeps hH e⟩
    · rw [k] at e
      cases e
      exact ⟨hA, hd, hnd, hH⟩
  | trsv o hno E hE same op alpha d b x x' incb incx _ e ih =>
    obtain ⟨hA, hd, hnd, hH⟩ := ih
    rcases trsvHM_cases (o := o) (srt := E.srt) (g := E.g) (isReal := E.k.real) (w := E.w) (cjg := E.k.cj) (im := E.im)
      (same := same) (op := op) (alpha := alpha) (d := d) (b := b) (incb := incb) (x := x) (incx := incx)
      hA hd hno hH with k | ⟨H1, k, h1⟩
    · rw [k] at e
      exact ⟨hA, hd, hnd, C27_handle_keeps hE E.g hA hd hnd hH e⟩
    · rw [k] at e
      cases e
      exact ⟨hA, hd, hnd, h1⟩
  | trsm o hno E hE same sched op alpha d order B X X' n ldb ldx _ e ih =>
    obtain ⟨hA, hd, hnd, hH⟩ := ih
    rcases trsmHM_cases (o := o) (srt := E.srt) (g := E.g) (isReal := E.k.real) (w := E.w) (cjg := E.k.cj) (im := E.im)
      (same := same) (sched := sched) (op := op) (alpha := alpha) (d := d) (order := order) (B := B) (X := X) (n := n)
      (ldb := ldb) (ldx := ldx) hA hd hno hH with k | ⟨H1, k, h1⟩
    · rw [k] at e
      exact ⟨hA, hd, hnd, trsm_keeps hE hA hd hnd hH e⟩
    · rw [k] at e
      cases e
      exact ⟨hA, hd, hnd, h1⟩
  | symgs o hno E hE same op d alpha b x y x' y' fuse _ e ih =>
    obtain ⟨hA, hd, hnd, hH⟩ := ih
    rcases symgsM_cases (o := o) (E := E) (same := same) (op := op) (d := d) (alpha := alpha) (b := b) (x := x) (y := y)
      (fuse := fuse) hE hA hd hnd hno hH with k | ⟨x1, y1, H1, k, h1, -⟩
    · rw [k] at e
      exact ⟨hA, hd, hnd, symgs_keeps hE hA hd hnd hH e⟩
    · rw [k] at e
      cases e
      exact ⟨hA, hd, hnd, h1⟩
  | sorv re same ty d omega alpha x b x' _ e ih =>
    obtain ⟨hA, hd, hnd, hH⟩ := ih
    exact ⟨hA, hd, hnd, C35_sorv_keeps hA hH e⟩
  | cg E hE num gnum g gq w fuel d precond monit gmres hgm n b D r _ e ih =>
    obtain ⟨hA, hd, hnd, hH⟩ := ih
    exact ⟨hA, hd, hnd, cgDirect_keeps hE hA hd hnd (fun hI ez => (hgm _ _ ez).symm ▸ hI) hH e⟩
  | gmres E hE num gnum nz gd g gq w fuel d precond monit n b D r _ e ih =>
    obtain ⟨hA, hd, hnd, hH⟩ := ih
    exact ⟨hA, hd, hnd, gmDirect_keeps hE hA hd hnd hH e⟩
  | @set A A' H H' same row col v _ e hset ih =>
    obtain ⟨hA, hd, hnd, hH⟩ := ih
    obtain ⟨rfl, i, j, hi, hj, rfl, rfl⟩ := setValue_inside hH e
    have h1 : ((i : Int) + A.base - A.base).toNat = i := by omega
    have h2 : ((j : Int) + A.base - A.base).toNat = j := by omega
    have hset' : IsSet A A' (if ta then j else i) (if ta then i else j) v := by
      cases ta
      · simpa [h1, h2] using hset
      · simpa [h1, h2] using hset
    have hst : userStored ta A i j := by
      by_contra hc
      rw [(C45_set hA hH hi hj v).1 hc] at e
      cases e
    obtain ⟨A1, H1, e1, s1, w1, k1, -⟩ := (C45_set hA hH hi hj v).2 hst
    rw [e] at e1
    cases e1
    have hi' : (if ta then j else i) < A.m := by cases ta <;> assumption
    have := hset'.unique hA hi' s1
    subst this
    have hv : A'.val.length = A.ind.length := s1.len.trans hA.val_len
    have heq : A' = A.withVals A'.val := by
      rcases A' with ⟨m, n, base, ptr, ind, val⟩
      obtain ⟨rfl, rfl, rfl, rfl, rfl, -, -, -⟩ := s1
      rfl
    refine ⟨w1, ?_, ?_, k1⟩
    · rw [heq]; exact (withVals_oneDiag hA hv).2 hd
    · rw [heq]
      exact hnd.imp (withVals_grouped hA hv).2 (withVals_noDup hA hv).2
  | setFails same row col v _ hst e ih => rw [setValue_fails hst e]; exact ih
  | @update A H H' same len v _ e ih =>
    obtain ⟨hA, hd, hnd, hH⟩ := ih
    obtain ⟨v', hv', hl, rfl, rfl, e'⟩ := updateValues_front hH hA e
    cases hv'
    rw [Int.toNat_natCast]
    have hv : (v.take A.nnz).length = A.nnz := by rw [List.length_take]; omega
    obtain ⟨H1, e1, w1, h1, -⟩ := (C22_update hA hH (v.take A.nnz)).1 hv
    rw [e'] at e1
    cases e1
    exact ⟨w1, (withVals_oneDiag hA hv).2 hd, hnd.imp (withVals_grouped hA hv).2 (withVals_noDup hA hv).2, h1⟩
  | updateFails same len v _ hst e ih => rw [updateValues_fails hst e]; exact ih
  | @order A A' H H' st o srt hsrt hnd' hsq hcsr _ e hA' ih =>
    obtain ⟨hA, hd, hnd, hH⟩ := ih
    rcases orderMatM_cases (o := o) (srt := srt) (H := H) with k | k
    · rw [k] at e
      obtain ⟨-, h1, h2, h3, -⟩ := ordered_keeps hsrt hA hnd' hsq hH hcsr e hA'
      refine ⟨h1, ?_, .inr (h2.noDup hnd'), h3⟩
      intro i hi
      exact List.nodup_iff_count_le_one.1 (h2.noDup hnd' i hi) _
    · rw [k] at e
      cases e
      have := raw_inj (hH.raw.symm.trans hA')
      subst this
      exact ⟨hA, hd, hnd, hH⟩

/-- every history with enough memory is one of these -/
theorem C63_life (h : Life ta A H) : LifeM ta A H := by
  have hn : ∀ A : Csr R, Oom.plenty.sort = true → A.Grouped := fun A h => by cases h
  induction h with
  | create hA hd hnd sorted hs => exact .create hA hd hnd sorted hs
  | optimize E hE hk un ch g g' re hre _ hf hh e ih =>
    exact .optimize .plenty ⟨hn _, rfl⟩ E hE hk un ch g g' re hre ih hf hh (by rw [optimizeM_plenty]; exact e)
  | mv E hE same op alpha beta d x y y' _ e ih =>
    exact .mv .plenty (hn _) E hE same op alpha beta d x y y' ih (by rw [mvM_plenty]; exact e)
  | dotmv E hE dot same op alpha beta d x y y' out out' _ e ih =>
    exact .dotmv .plenty (hn _) E hE dot same op alpha beta d x y y' out out' ih (by rw [dotmvM_plenty]; exact e)
  | csrmm E tm ker cj same op alpha beta d order B C C' n ldb ldc _ e ih =>
    exact .csrmm .plenty E tm ker cj same op alpha beta d order B C C' n ldb ldc ih (by rw [csrmmHM_plenty]; exact e)
  | trsv E hE same op alpha d b x x' incb incx _ e ih =>
    exact .trsv .plenty (hn _) E hE same op alpha d b x x' incb incx ih (by rw [trsvHM_plenty]; exact e)
  | trsm E hE same sched op alpha d order B X X' n ldb ldx _ e ih =>
    exact .trsm .plenty (hn _) E hE same sched op alpha d order B X X' n ldb ldx ih (by rw [trsmHM_plenty]; exact e)
  | symgs E hE same op d alpha b x y x' y' fuse _ e ih =>
    exact .symgs .plenty (hn _) E hE same op d alpha b x y x' y' fuse ih (by rw [symgsM_plenty]; exact e)
  | sorv re same ty d omega alpha x b x' _ e ih => exact .sorv re same ty d omega alpha x b x' ih e
  | cg E hE num gnum g gq w fuel d precond monit gmres hgm n b D r _ e ih =>
    exact .cg E hE num gnum g gq w fuel d precond monit gmres hgm n b D r ih e
  | gmres E hE num gnum nz gd g gq w fuel d precond monit n b D r _ e ih =>
    exact .gmres E hE num gnum nz gd g gq w fuel d precond monit n b D r ih e
  | set same row col v _ e hset ih => exact .set same row col v ih e hset
  | setFails same row col v _ hst e ih => exact .setFails same row col v ih hst e
  | update same len v _ e ih => exact .update same len v ih e
  | updateFails same len v _ hst e ih => exact .updateFails same len v ih hst e
  | order srt hsrt hnd' hsq hcsr _ e hA' ih =>
    exact .order .plenty srt hsrt hnd' hsq hcsr ih (by rw [orderMatM_plenty]; exact e) hA'

/-! ### any call, any arguments -/

/-- **C63, any call.**  After any history, a call with any arguments in which any noticed allocations fail does what it
does with enough memory, or returns memory_error.  In the second case the handle goes on being a correct handle of the
same arrays, and the vectors and matrices of the caller are as they were, except: the result of a product when a thread
has no buffer for it, and `x` and `y` of a Gauss-Seidel call with the fused product. -/
theorem C63_any (h : LifeM ta A H) (hno : Noticed o A) (hE : StdSort E.srt) :
    (∀ same op alpha beta d x y,
      mvM o E.isa E.k E.srt E.g same op alpha (some H) d x beta y
        = mv E.isa E.k E.srt E.g same op alpha (some H) d x beta y ∨
      ∃ y' H', mvM o E.isa E.k E.srt E.g same op alpha (some H) d x beta y = some (.memoryError, y', some H') ∧
        LifeM ta A H' ∧ (E.k.ord.any o.buf = false → y' = y)) ∧
    (∀ dot same op alpha beta d x y out,
      dotmvM o E.isa E.k dot E.srt E.g same op alpha (some H) d x beta y out
        = dotmv E.isa E.k dot E.srt E.g same op alpha (some H) d x beta y out ∨
      ∃ y' H', dotmvM o E.isa E.k dot E.srt E.g same op alpha (some H) d x beta y out
          = some (.memoryError, y', out, some H') ∧
        LifeM ta A H' ∧ (E.k.ord.any o.buf = false → y' = y)) ∧
    (∀ tm ker cj same op alpha d order B n ldb beta C ldc,
      csrmmHM o E.w E.k.real tm ker E.g cj same op alpha (some H) d order B n ldb beta C ldc
        = csrmmH E.w E.k.real tm ker E.g cj same op alpha (some H) d order B n ldb beta C ldc ∨
      csrmmHM o E.w E.k.real tm ker E.g cj same op alpha (some H) d order B n ldb beta C ldc
        = some (.memoryError, C, some H)) ∧
    (∀ same op alpha d b incb x incx,
      trsvHM o E.k.real E.w E.k.cj E.srt E.g E.im same op alpha (some H) d b incb x incx
        = trsvH E.k.real E.w E.k.cj E.srt E.g E.im same op alpha (some H) d b incb x incx ∨
      ∃ H', trsvHM o E.k.real E.w E.k.cj E.srt E.g E.im same op alpha (some H) d b incb x incx
          = some (.memoryError, x, some H') ∧ LifeM ta A H') ∧
    (∀ same sched op alpha d order B n ldb X ldx,
      trsmHM o E.k.real E.w E.k.cj E.srt E.g E.im same sched op alpha (some H) d order B n ldb X ldx
        = trsmH E.k.real E.w E.k.cj E.srt E.g E.im same sched op alpha (some H) d order B n ldb X ldx ∨
      ∃ H', trsmHM o E.k.real E.w E.k.cj E.srt E.g E.im same sched op alpha (some H) d order B n ldb X ldx
          = some (.memoryError, X, some H') ∧ LifeM ta A H') ∧
    (∀ same op d alpha b x y fuse,
      symgsM o E same op (some H) d alpha b x y fuse = symgs E same op (some H) d alpha b x y fuse ∨
      ∃ x' y' H', symgsM o E same op (some H) d alpha b x y fuse = some (.memoryError, x', y', some H') ∧
        LifeM ta A H' ∧ (fuse = false → x' = x ∧ y' = y)) ∧
    (∀ srt, orderMatM o srt (some H) = orderMat srt (some H) ∨
      orderMatM o srt (some H) = some (.memoryError, some H)) := by
  obtain ⟨hA, hd, hnd, hH⟩ := C63_invariant h
  refine ⟨?_, ?_, ?_, ?_, ?_, ?_, fun srt => orderMatM_cases⟩
  · intro same op alpha beta d x y
    rcases mvM_cases (o := o) (g := E.g) (isa := E.isa) (k := E.k) (same := same) (op := op) (alpha := alpha)
      (beta := beta) (d := d) (x := x) (y := y) hE hA hd hnd hno.sort hH with k | ⟨y0, r, rfl, k, hr⟩
    · exact .inl k
    · have k' := k
      rw [hr.1] at k
      exact .inr ⟨_, _, k, .mv o hno.sort E hE _ _ _ _ _ _ _ _ h k', fun hb => by rw [hr.2.2.2 hb]⟩
  · intro dot same op alpha beta d x y out
    rcases dotmvM_cases (o := o) (g := E.g) (isa := E.isa) (k := E.k) (dot := dot) (same := same) (op := op)
      (alpha := alpha) (beta := beta) (d := d) (x := x) (y := y) (out := out) hE hA hd hnd hno.sort hH with
      k | ⟨y0, r, rfl, k, hr⟩
    · exact .inl k
    · have k' := k
      rw [hr.1] at k
      exact .inr ⟨_, _, k, .dotmv o hno.sort E hE _ _ _ _ _ _ _ _ _ _ _ h k', fun hb => by rw [hr.2.2.2 hb]⟩
  · intro tm ker cj same op alpha d order B n ldb beta C ldc
    exact csrmmHM_cases
  · intro same op alpha d b incb x incx
    rcases trsvHM_cases (o := o) (srt := E.srt) (g := E.g) (isReal := E.k.real) (w := E.w) (cjg := E.k.cj) (im := E.im)
      (same := same) (op := op) (alpha := alpha) (d := d) (b := b) (incb := incb) (x := x) (incx := incx)
      hA hd hno.sort hH with k | ⟨H1, k, -⟩
    · exact .inl k
    · exact .inr ⟨H1, k, .trsv o hno.sort E hE _ _ _ _ _ _ _ _ _ h k⟩
  · intro same sched op alpha d order B n ldb X ldx
    rcases trsmHM_cases (o := o) (srt := E.srt) (g := E.g) (isReal := E.k.real) (w := E.w) (cjg := E.k.cj) (im := E.im)
      (same := same) (sched := sched) (op := op) (alpha := alpha) (d := d) (order := order) (B := B) (X := X) (n := n)
      (ldb := ldb) (ldx := ldx) hA hd hno.sort hH with k | ⟨H1, k, -⟩
    · exact .inl k
    · exact .inr ⟨H1, k, .trsm o hno.sort E hE _ _ _ _ _ _ _ _ _ _ _ _ h k⟩
  · intro same op d alpha b x y fuse
    rcases symgsM_cases (o := o) (E := E) (same := same) (op := op) (d := d) (alpha := alpha) (b := b) (x := x) (y := y)
      (fuse := fuse) hE hA hd hnd hno.sort hH with k | ⟨x1, y1, H1, k, -, hf⟩
    · exact .inl k
    · exact .inr ⟨x1, y1, H1, k, .symgs o hno.sort E hE _ _ _ _ _ _ _ _ _ _ h k, hf⟩

/-- **C63, optimize.**  It succeeds or returns memory_error, and the handle goes on being a correct handle of the same
arrays; with enough memory it succeeds. -/
theorem C63_optimize (h : LifeM ta A H) (hno : Noticed o A) (hE : StdSort E.srt) (hk : E.k.Ok) (unrestricted : Bool)
    (ch : MvChoice) (g : Garb R) (g' : MvGarb R) {re : R → R} (hre : ∀ y, star y = y → re y = y)
    (hf : ta = false → FmtOk E.isa ch A) {hs : List MvHint}
    (hh : ∀ x ∈ hs, ∃ t f op, IsHint E.k.real t f op x.h ∧ HintOk E.k.real ta A t f op) :
    ∃ st H' hs', optimizeM o E.isa E.k.dbl unrestricted E.srt ch g g' star re H hs = some (st, H', hs') ∧
      LifeM ta A H' ∧ (st = .success ∨ st = .memoryError) ∧ (o = .plenty → st = .success) := by
  obtain ⟨hA, hd, hnd, hH⟩ := C63_invariant h
  obtain ⟨H1, hs1, e1, h1⟩ := optimize_ok (isa := E.isa) (dbl := E.k.dbl) (unres := unrestricted) (ch := ch) (g := g)
    (g' := g') hE hre hk.real hA hd hnd hf hH _ hh
  rcases optimizeM_cases (o := o) (isa := E.isa) (dbl := E.k.dbl) (unres := unrestricted) (srt := E.srt) (ch := ch)
    (g := g) (g' := g') hre hk.real hA hd hno hf hH _ hh with k | ⟨H2, hs2, k, h2⟩
  · rw [e1] at k
    exact ⟨_, _, _, k, .optimize o hno E hE hk _ _ _ _ _ hre h hf hh k, .inl rfl, fun _ => rfl⟩
  · refine ⟨_, _, _, k, .optimize o hno E hE hk _ _ _ _ _ hre h hf hh k, .inr rfl, fun hp => ?_⟩
    subst hp
    rw [optimizeM_plenty, e1] at k
    cases k

/-! ### what the calls compute -/

/-- **C63, products.**  After any history a product fails or is the product with the user's current arrays, whatever
allocations fail; when it fails and every thread had its buffer, `y` is as it was; a supported request can only fail
with memory_error, and with enough memory succeeds. -/
theorem C63_mv (h : LifeM ta A H) (hn : H.nulls = 0) (hno : o.sort = true → A.Grouped) (hE : StdSort E.srt)
    (hk : E.k.Ok) (t : MType) (f : Fill)
    (D : Diag) (op : Op) (alpha beta : R) (x y : List R) (hc : MvCall E.k ta A t f D op x y) :
    ∃ st y' H', mvM o E.isa E.k E.srt E.g true op.code (some alpha) (some H)
        (some ⟨t.code, f.code, D.code, A.base⟩) (some x) (some beta) (some y) = some (st, some y', some H') ∧
      LifeM ta A H' ∧ y'.length = y.length ∧ (st ≠ .success → E.k.ord.any o.buf = false → y' = y) ∧
      (st = .success → IsMv alpha beta (operator t f D op (userMat ta A)) (opRows op ta A)
        (opCols op ta A) x y y') ∧
      (MvSupported E.isa E.k ta A t D op → (st = .success ∨ st = .memoryError) ∧ (o = .plenty → st = .success)) := by
  obtain ⟨hA, hd, hnd, hH⟩ := C63_invariant h
  obtain ⟨st, y', H', e, -, k1, k2, k3⟩ := C21_mv (isa := E.isa) (alpha := alpha) (beta := beta) hE E.g hk hc hH hn
  rcases mvM_cases (o := o) (g := E.g) (isa := E.isa) (k := E.k) (same := true) (op := op.code) (alpha := some alpha)
    (beta := some beta) (d := some ⟨t.code, f.code, D.code, A.base⟩) (x := some x) (y := some y) hE hA hd hnd hno hH with
    k | ⟨y0, r, hy, k, hr⟩
  · rw [e] at k
    refine ⟨st, y', H', k, .mv o hno E hE _ _ _ _ _ _ _ _ h k, ?_, fun hs _ => k1 hs, k2,
      fun hs => ⟨.inl (k3 hs), fun _ => k3 hs⟩⟩
    by_cases hst : st = .success
    · exact (k2 hst).length
    · rw [k1 hst]
  · cases hy
    refine ⟨r.1, r.2.1, r.2.2, k, .mv o hno E hE _ _ _ _ _ _ _ _ h k, hr.2.2.1, fun _ => hr.2.2.2, ?_, fun hs =>
      ⟨.inr hr.1, fun hp => ?_⟩⟩
    · intro hst
      rw [hr.1] at hst
      cases hst
    · subst hp
      rw [mvM_plenty, e] at k
      cases k
      exact k3 hs

/-- **C63, products with a dense matrix.** -/
theorem C63_csrmm (h : LifeM ta A H) (hw : 2 ≤ E.w) {ker : MmKernel R} (hker : ker.Ok) {tm : MmTeam} {t : MType}
    {f : Fill} {D : Diag} {op : Op} {col : Bool} {B C : List R} {n ldb ldc : Nat} (ht : t ≠ .triangular)
    (hc : MmOk E.w tm col ta op t A B C n ldb ldc) (hreal : E.k.real = true → ∀ x : R, star x = x)
    (hherm : t = .hermitian → RealDiag A.mat) (alpha beta : R) :
    ∃ st C' H', csrmmHM o E.w E.k.real tm ker E.g star true op.code alpha (some H)
        (some ⟨t.code, f.code, D.code, A.base⟩) (if col then 1 else 0) (some B) n ldb beta (some C) ldc
        = some (st, some C', some H') ∧ LifeM ta A H' ∧
      (st = .success ∧ IsMm col alpha beta (operator t f D op (userMat ta A)) (opRows op ta A) (opCols op ta A)
        n ldb ldc B C C' ∨ st = .memoryError ∧ C' = C ∧ H' = H) ∧ (o = .plenty → st = .success) := by
  obtain ⟨hA, hd, hnd, hH⟩ := C63_invariant h
  obtain ⟨s, rest, hf⟩ : ∃ s rest, H.mats = s :: rest := by
    obtain ⟨_, _, _, rest, hf⟩ := hH.first
    exact ⟨_, rest, hf⟩
  have hcp : CopiesOk ta A (rest.filterMap Stored.csr?) := fun c hc => by
    obtain ⟨o, iu, hs⟩ := filterMap_csr hH hf c hc
    exact hs.1
  obtain ⟨C', copies', e0, k1, -, -⟩ := C31_csrmm (f := f) (D := D) (isReal := E.k.real) hw hker E.g ht hc hreal hherm _ hcp
    alpha beta
  have e : csrmmH E.w E.k.real tm ker E.g star true op.code alpha (some H)
        (some ⟨t.code, f.code, D.code, A.base⟩) (if col then 1 else 0) (some B) n ldb beta (some C) ldc
        = some (.success, some C', some { H with mats := s :: putCopies rest copies' }) := by
    unfold csrmmH
    dsimp only
    rw [if_neg (by simp), hf]
    dsimp only
    rw [hH.raw, e0]
    rfl
  rcases csrmmHM_cases (o := o) (w := E.w) (isReal := E.k.real) (tm := tm) (ker := ker) (g := E.g) (cj := star)
    (same := true) (op := op.code) (alpha := alpha) (H := H) (d := some ⟨t.code, f.code, D.code, A.base⟩)
    (order := if col then 1 else 0) (B := some B) (n := n) (ldb := ldb) (beta := beta) (C := some C) (ldc := ldc) with
    k | k
  · rw [e] at k
    exact ⟨_, _, _, k, .csrmm o E tm ker star _ _ _ _ _ _ _ _ _ _ _ _ h k, .inl ⟨rfl, k1⟩, fun _ => rfl⟩
  · refine ⟨_, _, _, k, h, .inr ⟨rfl, rfl, rfl⟩, fun hp => ?_⟩
    subst hp
    rw [csrmmHM_plenty, e] at k
    cases k

/-- **C63, triangular solves.**  After any history a solve with the user's current arrays succeeds, or returns
memory_error and leaves `x` alone. -/
theorem C63_trsv (h : LifeM ta A H) (hno : o.sort = true → A.Grouped) (hE : StdSort E.srt) (hk : E.k.Ok) (op : Op)
    (alpha : R) (t : MType) (f : Fill)
    (Dg : Diag) (b x : List R) (incb incx : Nat) (hm : 0 < A.m) (hnz : 0 < A.nnz) (hsq : A.m = A.n)
    (ht : t = .symmetric ∨ t = .triangular) (hdz : Dg ≠ .zero)
    (hinv : Dg = .nonUnit → A.FullDiag ∧ ∀ i, i < A.m → A.mat i i ≠ 0) (him : SolveOk E.im A alpha) (hincb : 0 < incb)
    (hincx : 0 < incx) (hov : prodOvf E.w ((A.m : Int) - 1) incx = false)
    (hovb : prodOvf E.w ((A.m : Int) - 1) incb = false)
    (hb : ∀ i, i < A.m → i * incb < b.length) (hx : ∀ i, i < A.m → i * incx < x.length) :
    ∃ st x' H', trsvHM o E.k.real E.w E.k.cj E.srt E.g E.im true op.code alpha (some H)
        (some ⟨t.code, f.code, Dg.code, A.base⟩) (some b) incb (some x) incx
        = some (st, some x', some H') ∧ LifeM ta A H' ∧
      (st = .success ∧ IsSolve (operator .triangular f Dg op (userMat ta A)) A.m alpha b incb x incx x' ∨
        st = .memoryError ∧ x' = x) ∧ (o = .plenty → st = .success) := by
  obtain ⟨hA, hd, hnd, hH⟩ := C63_invariant h
  obtain ⟨x', H', e, -, hs⟩ := C27_handle (isReal := E.k.real) (w := E.w) (im := E.im) (op := op)
    (alpha := alpha) (t := t) (f := f) (Dg := Dg) (b := b) (x := x) (incb := incb) (incx := incx)
    hE E.g hk.real hA hd hnd hm hnz hsq ht hdz hinv him hincb hincx hov hovb hb hx hH
  rw [← hk.cj] at e
  rcases trsvHM_cases (o := o) (srt := E.srt) (g := E.g) (isReal := E.k.real) (w := E.w) (cjg := E.k.cj) (im := E.im)
    (same := true) (op := op.code) (alpha := alpha) (d := some ⟨t.code, f.code, Dg.code, A.base⟩) (b := some b)
    (incb := incb) (x := some x) (incx := incx) hA hd hno hH with k | ⟨H1, k, -⟩
  · rw [e] at k
    exact ⟨_, _, _, k, .trsv o hno E hE _ _ _ _ _ _ _ _ _ h k, .inl ⟨rfl, hs⟩, fun _ => rfl⟩
  · refine ⟨_, _, _, k, .trsv o hno E hE _ _ _ _ _ _ _ _ _ h k, .inr ⟨rfl, rfl⟩, fun hp => ?_⟩
    subst hp
    rw [trsvHM_plenty, e] at k
    cases k

/-- **C63, triangular solves with several right-hand sides.** -/
theorem C63_trsm (h : LifeM ta A H) (hno : o.sort = true → A.Grouped) (hE : StdSort E.srt) (hk : E.k.Ok) (op : Op)
    (alpha : R) (t : MType) (f : Fill)
    (Dg : Diag) {col : Bool} {B X : List R} {n ldb ldx : Nat} {sched : List Nat} (hm : 0 < A.m) (hnz : 0 < A.nnz)
    (hsq : A.m = A.n) (ht : t = .symmetric ∨ t = .triangular) (hdz : Dg ≠ .zero)
    (hinv : Dg = .nonUnit → A.FullDiag ∧ ∀ i, i < A.m → A.mat i i ≠ 0) (him : SolveOk E.im A alpha)
    (hz : TrsmSizes E.w col A.m n ldb ldx B X) (hsched : sched.Perm (List.range n)) :
    ∃ st X' H', trsmHM o E.k.real E.w E.k.cj E.srt E.g E.im true sched op.code alpha (some H)
        (some ⟨t.code, f.code, Dg.code, A.base⟩) (if col then 1 else 0) (some B) n ldb (some X) ldx
        = some (st, some X', some H') ∧ LifeM ta A H' ∧
      (st = .success ∧ IsSolveMm col (operator .triangular f Dg op (userMat ta A)) A.m n alpha B ldb X ldx X' ∨
        st = .memoryError ∧ X' = X) ∧ (o = .plenty → st = .success) := by
  obtain ⟨hA, hd, hnd, hH⟩ := C63_invariant h
  obtain ⟨X', H', e, -, hs⟩ := C51_trsm (isReal := E.k.real) (w := E.w) (im := E.im) (op := op)
    (alpha := alpha) (t := t) (f := f) (Dg := Dg) hE E.g hk.real hA hd hnd hm hnz hsq ht hdz hinv him hz hH hsched
  rw [← hk.cj] at e
  rcases trsmHM_cases (o := o) (srt := E.srt) (g := E.g) (isReal := E.k.real) (w := E.w) (cjg := E.k.cj) (im := E.im)
    (same := true) (sched := sched) (op := op.code) (alpha := alpha) (d := some ⟨t.code, f.code, Dg.code, A.base⟩)
    (order := if col then 1 else 0) (B := some B) (X := some X) (n := n) (ldb := ldb) (ldx := ldx) hA hd hno hH with
    k | ⟨H1, k, -⟩
  · rw [e] at k
    exact ⟨_, _, _, k, .trsm o hno E hE _ _ _ _ _ _ _ _ _ _ _ _ h k, .inl ⟨rfl, hs⟩, fun _ => rfl⟩
  · refine ⟨_, _, _, k, .trsm o hno E hE _ _ _ _ _ _ _ _ _ _ _ _ h k, .inr ⟨rfl, rfl⟩, fun hp => ?_⟩
    subst hp
    rw [trsmHM_plenty, e] at k
    cases k

/-- **C63, symmetric Gauss-Seidel.** -/
theorem C63_symgs (h : LifeM ta A H) (hno : o.sort = true → A.Grouped) (hn : H.nulls = 0) (hE : GsEnvOk E A)
    (hA : GsMat A) {t : MType} {f : Fill}
    {op : Op} {alpha : R} {b x : List R} {y : Option (List R)} {fuse : Bool} (hc : GsCall E ta A t op b x y fuse) :
    ∃ st x' y' H', symgsM o E true op.code (some H) (some ⟨t.code, f.code, 0, A.base⟩) alpha (some b) (some x) y
        fuse = some (st, x', y', some H') ∧ LifeM ta A H' ∧
      (st = .success ∧ (∃ xl, x' = some xl ∧
        (t = .triangular → IsSolve (operator t f .nonUnit op (userMat ta A)) A.m 1 b 1 x 1 xl) ∧
        (t ≠ .triangular → IsSymgs (operator t f .nonUnit op (userMat ta A)) A.m alpha b x xl) ∧
        (fuse = true → ∃ yl yl', y = some yl ∧ y' = some yl' ∧
          IsMv 1 0 (operator t f .nonUnit op (userMat ta A)) A.m A.m xl yl yl')) ∧ (fuse = false → y' = y) ∨
       st = .memoryError ∧ (fuse = false → x' = some x ∧ y' = y)) ∧ (o = .plenty → st = .success) := by
  obtain ⟨hA', hd, hnd, hH⟩ := C63_invariant h
  obtain ⟨x', y', H', e, -, k1, k2, k3, k4⟩ := C35_symgs (f := f) (alpha := alpha) hE hA hH hn hc
  rcases symgsM_cases (o := o) (E := E) (same := true) (op := op.code) (d := some ⟨t.code, f.code, 0, A.base⟩)
    (alpha := alpha) (b := some b) (x := some x) (y := y) (fuse := fuse) hE.srt hA' hd hnd hno hH with
    k | ⟨x1, y1, H1, k, -, hf⟩
  · rw [e] at k
    exact ⟨_, _, _, _, k, .symgs o hno E hE.srt _ _ _ _ _ _ _ _ _ _ h k,
      .inl ⟨rfl, ⟨x', rfl, k1, k2, k4⟩, k3⟩, fun _ => rfl⟩
  · refine ⟨_, _, _, _, k, .symgs o hno E hE.srt _ _ _ _ _ _ _ _ _ _ h k, .inr ⟨rfl, hf⟩, fun hp => ?_⟩
    subst hp
    rw [symgsM_plenty, e] at k
    cases k

end

/-! ### where memory runs out unnoticed -/

set_option synthInstance.maxSize 1000

/-- the permutation for the sort cannot be stored -/
def oomSort : Oom := { Oom.plenty with sort := true }
/-- the row pointers used to form blocks cannot be stored -/
def oomBlk : Oom := { Oom.plenty with blkTmp := true }
/-- the second thread gets no buffer -/
def oomBuf : Oom := { Oom.plenty with buf := fun t => t == 1 }

/-- a solve with the unit lower triangle in which the given allocations fail, then the same with enough memory -/
def oomSolves (o : Oom) : Option (List (Status × Option (List Rat))) := do
  let a ← trsvHM o true 64 star insertionSortB gsExG .ref true 111 1 (some (.fresh (gsExA.raw false) false))
    (some ⟨3, 0, 1, 1⟩) (some [4, 10, 6]) 1 (some [0, 0, 0]) 1
  let b ← trsvHM .plenty true 64 star insertionSortB gsExG .ref true 111 1 a.2.2 (some ⟨3, 0, 1, 1⟩) (some [4, 10, 6]) 1
    (some [0, 0, 0]) 1
  some [(a.1, a.2.1), (b.1, b.2.1)]

/-- F97: the rows stay unsorted and the call reports success.  The solve is wrong, and so is every later one, although
there is enough memory again. -/
theorem C63_sort_counterexample :
    oomSolves .plenty = some [(.success, some [4, 2, 4]), (.success, some [4, 2, 4])] ∧
    oomSolves oomSort = some [(.success, some [4, 10, 6]), (.success, some [4, 10, 6])] ∧
    ¬ IsSolve (operator .triangular .lower .unit .none (userMat false gsExA)) 3 1 [4, 10, 6] 1 [0, 0, 0] 1
      [4, 10, 6] := by
  refine ⟨by decide +kernel, by decide +kernel, fun h => ?_⟩
  have := h.solves 1 (by decide)
  revert this
  decide +kernel

/-- 2 x 10, all entries -/
def oomF : Csr Rat := ⟨2, 10, 0, [0, 10, 20], [0, 1, 2, 3, 4, 5, 6, 7, 8, 9, 0, 1, 2, 3, 4, 5, 6, 7, 8, 9],
  [1, 2, 3, 4, 5, 6, 7, 8, 9, 10, 1, 1, 1, 1, 1, 1, 1, 1, 1, 1]⟩

/-- create, optimize for products, multiply with a vector of ones with enough memory; fresh memory happens to
hold increasing row pointers, 0 or 7 -/
def oomBlocks (o : Oom) (v : Int) : Option (Status × Status × Option (List Rat)) := do
  let a ← optimizeM o ⟨true, true, true⟩ true true insertionSortB ⟨fun _ => false, true, true, 0⟩ gsExG
    ⟨fun k => v * k, fun _ => 0, fun _ => 0, fun _ => 1, fun _ => 7⟩ star id (.fresh (oomF.raw false) true)
    [⟨⟨0, 0, false⟩, 1, 111, 0, 10⟩]
  let b ← mvM .plenty ⟨true, true, true⟩ gsExSel insertionSortB gsExG true 111 (some 1) (some a.2.1) (some ⟨0, 0, 0, 0⟩)
    (some (List.replicate 10 1)) (some 0) (some [5, 5])
  some (a.1, b.1, b.2.1)

/-- F98: `optimize` reports success, and products multiply with whatever the fresh memory held, or read outside their
arrays. -/
theorem C63_block_counterexample :
    oomBlocks .plenty 1 = some (.success, .success, some [55, 10]) ∧
    oomBlocks oomBlk 0 = some (.success, .success, some [0, 0]) ∧
    oomBlocks oomBlk 1 = some (.success, .success, some [7, 7]) ∧
    oomBlocks oomBlk 99 = none := by decide +kernel

/-- F99: a transposed product that returns memory_error has changed `y` all the same: it is scaled, and the threads with
a buffer have added their part. -/
theorem C63_transposed_counterexample :
    (mvM oomBuf gsExE.isa gsExSel insertionSortB gsExG true 112 (some 1) (some (.fresh (gsExA.raw false) false))
      (some ⟨0, 0, 0, 1⟩) (some [1, 1, 1]) (some 2) (some [1, 1, 1])).map (fun r => (r.1, r.2.1))
        = some (.memoryError, some [6, 3, 2]) ∧
    (mvM .plenty gsExE.isa gsExSel insertionSortB gsExG true 112 (some 1) (some (.fresh (gsExA.raw false) false))
      (some ⟨0, 0, 0, 1⟩) (some [1, 1, 1]) (some 2) (some [1, 1, 1])).map (fun r => (r.1, r.2.1))
        = some (.success, some [8, 9, 7]) := by decide +kernel

/-! ### concrete cases -/

/-- everything is asked for in vain that the library notices -/
def oomAll : Oom := ⟨true, false, true, true, true, fun _ => true, true, false, true, true, fun _ => true, true, true⟩

example : Noticed oomAll gsExA := ⟨fun h => by simp [oomAll] at h, rfl⟩

/-- statuses and results of a history: a solve, a Gauss-Seidel sweep, an optimization for transposed products, an
ordering and a product with a dense matrix without memory; then the same calls with enough -/
def oomRun : Option (List Status × List (List Rat)) := do
  let calls := fun (o : Oom) (H : Option (MvHandle Rat)) => do
    let a ← trsvHM o true 64 star insertionSortB gsExG .ref true 111 1 H (some ⟨3, 0, 0, 1⟩) (some [4, 10, 6]) 1
      (some [0, 0, 0]) 1
    let b ← symgsM o gsExE true 111 a.2.2 (some ⟨0, 0, 0, 1⟩) 1 (some [4, 10, 6]) (some [1, 1, 1]) (some [0, 0, 0]) true
    let H ← b.2.2.2
    let c ← optimizeM o gsExE.isa true true insertionSortB ⟨fun _ => false, true, true, 0⟩ gsExG
      ⟨fun _ => 5, fun _ => 6, fun _ => 7, fun _ => 8, fun _ => 9⟩ star id H [⟨⟨2, 0, false⟩, 1, 112, 0, 10⟩]
    let d ← orderMatM o insertionSortB (some c.2.1)
    let e ← csrmmHM o 64 true ⟨1, [0]⟩ .ref gsExG star true 112 1 d.2 (some ⟨0, 0, 0, 1⟩) 1 (some [1, 1, 1]) 1 3 0
      (some [0, 0, 0]) 3
    some ([a.1, b.1, c.1, d.1, e.1], [a.2.1.getD [], b.2.1.getD [], b.2.2.1.getD [], e.2.1.getD []], e.2.2)
  let r ← calls oomAll (some (.fresh (gsExA.raw false) false))
  let s ← calls .plenty r.2.2
  some (r.1 ++ s.1, r.2.1 ++ s.2.1)

example : oomRun = some ([.memoryError, .memoryError, .memoryError, .memoryError, .memoryError,
      .success, .success, .success, .success, .success],
    [[0, 0, 0], [1, 1, 1], [0, 0, 0], [0, 0, 0],
     [1, 8 / 5, 11 / 15], [649 / 1200, 551 / 300, 41 / 60], [4, 5749 / 600, 1781 / 300], [6, 7, 5]]) := by
  decide +kernel

/-- a solve that runs out of memory, then the same with enough -/
example : ∃ x' H H', LifeM false gsExA H ∧
    trsvHM oomAll true 64 star insertionSortB gsExG .ref true 111 1 (some (.fresh (gsExA.raw false) false))
      (some ⟨3, 0, 0, 1⟩) (some [4, 10, 6]) 1 (some [0, 0, 0]) 1 = some (.memoryError, some [0, 0, 0], some H) ∧
    trsvHM .plenty true 64 star insertionSortB gsExG .ref true 111 1 (some H)
      (some ⟨3, 0, 0, 1⟩) (some [4, 10, 6]) 1 (some [0, 0, 0]) 1 = some (.success, some x', some H') ∧
    IsSolve (operator .triangular .lower .nonUnit .none (userMat false gsExA)) 3 1 [4, 10, 6] 1 [0, 0, 0] 1 x' := by
  have h0 : LifeM false gsExA (.fresh (gsExA.raw false) false) :=
    .create gsExA_ok.wf gsExA_ok.one gsExA_ok.nodup false (by simp)
  have hs : ∀ (o : Oom) (ho : o.sort = false) (H : MvHandle Rat), LifeM false gsExA H → _ := fun o ho H h =>
    C63_trsv (E := gsExE) (o := o) h (fun hh => by rw [ho] at hh; cases hh) gsExE_ok.srt gsExE_ok.sel .none 1 .triangular
      .lower .nonUnit [4, 10, 6] [0, 0, 0] 1 1 (by decide) (by decide) rfl (.inr rfl) (by simp)
      (fun _ => ⟨gsExA_ok.full, gsExA_ok.diag⟩) trivial (by decide) (by decide) (by decide) (by decide) (by decide)
      (by decide)
  obtain ⟨st, x1, H1, e1, h1, k1, -⟩ := hs oomAll rfl _ h0
  have hst : (trsvHM oomAll true 64 star insertionSortB gsExG .ref true 111 1 (some (.fresh (gsExA.raw false) false))
      (some ⟨3, 0, 0, 1⟩) (some [4, 10, 6]) 1 (some [0, 0, 0]) 1).map (fun r => r.1) = some .memoryError := by
    decide +kernel
  have e1' := e1
  change trsvHM oomAll true 64 star insertionSortB gsExG .ref true 111 1 (some (.fresh (gsExA.raw false) false))
      (some ⟨3, 0, 0, 1⟩) (some [4, 10, 6]) 1 (some [0, 0, 0]) 1 = _ at e1'
  rw [e1'] at hst
  cases hst
  rcases k1 with ⟨hc, -⟩ | ⟨-, rfl⟩
  · cases hc
  obtain ⟨st, x2, H2, e2, h2, k2, k3⟩ := hs .plenty rfl _ h1
  cases k3 rfl
  rcases k2 with ⟨-, k2⟩ | ⟨hc, -⟩
  · exact ⟨x2, H1, H2, h1, e1', e2, k2⟩
  · cases hc

end Verif
