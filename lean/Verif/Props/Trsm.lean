/-
C51  Triangular solve with several right-hand sides.
-/
import Verif.Proofs.Trsm
import Verif.Props.TrsvH
import Verif.Props.Tcsr
import Verif.Props.Syrkd
import Verif.Props.History
import Verif.Proofs.Conc

namespace Verif
open Model Finset

variable {R : Type} [Field R] [DecidableEq R] [StarRing R]

/-! ### auxiliary statements -/

/-- the sizes of a call: both leading dimensions at least what the layout asks, everything in the range of the
integers, and the arrays long enough -/
structure TrsmSizes (w : Nat) (col : Bool) (m n ldb ldx : Nat) (B X : List R) : Prop where
  width : 2 ≤ w
  minb : (if col then m else n) ≤ ldb
  minx : (if col then m else n) ≤ ldx
  fitb : ((if col then n else m : Nat) : Int) * ldb ≤ intMax w
  fitx : ((if col then n else m : Nat) : Int) * ldx ≤ intMax w
  lenb : ∀ i j, i < m → j < n → denseOff col ldb i j < B.length
  lenx : ∀ i j, i < m → j < n → denseOff col ldx i j < X.length

theorem fits_layout {w : Nat} {col : Bool} {m n ld : Nat} (hw : 2 ≤ w) (hm : 0 < m) (hn : 0 < n)
    (hld : (if col then m else n) ≤ ld) (hf : ((if col then n else m : Nat) : Int) * ld ≤ intMax w) :
    prodOvf w n (colOff col ld : Int) = false ∧ prodOvf w ((m : Int) - 1) (colInc col ld : Int) = false ∧
      0 < colInc col ld := by
  have q : ((m : Int) - 1) = ((m - 1 : Nat) : Int) := by omega
  rw [q]
  cases col
  · simp only [Bool.false_eq_true, if_false] at hld hf
    have h1 : (n : Int) * 1 ≤ intMax w := by nlinarith
    have h2 : ((m - 1 : Nat) : Int) * ld ≤ intMax w := by
      have : ((m - 1 : Nat) : Int) ≤ m := by omega
      nlinarith
    exact ⟨fits_or_zero hw h1, fits_or_zero hw h2, by show 0 < ld; omega⟩
  · simp only [if_true] at hld hf
    have h1 : ((m - 1 : Nat) : Int) * 1 ≤ intMax w := by
      have : ((m - 1 : Nat) : Int) ≤ ld := by omega
      nlinarith
    exact ⟨fits_or_zero hw hf, fits_or_zero hw h1, by show 0 < 1; omega⟩

theorem layout_ok {w : Nat} {col : Bool} {m n ldb ldx : Nat} {B X : List R} (h : TrsmSizes w col m n ldb ldx B X)
    (hm : 0 < m) (hn : 0 < n) :
    trsmLayout w (if col then 1 else 0) n ldb ldx
      = .ok ((colInc col ldb : Int), (colInc col ldx : Int), (colOff col ldb : Int), (colOff col ldx : Int)) := by
  obtain ⟨b1, -, -⟩ := fits_layout h.width hm hn h.minb h.fitb
  obtain ⟨x1, -, -⟩ := fits_layout h.width hm hn h.minx h.fitx
  unfold trsmLayout
  cases col
  · simp only [Bool.false_eq_true, if_false, if_true]
    rw [if_neg]
    · rfl
    · simp only [colOff, Bool.false_eq_true, if_false] at b1 x1
      have b1' : prodOvf w n (1 : Int) = false := b1
      simp [b1']
  · simp only [if_true, show ¬ ((1 : Int) = 0) by decide, if_false]
    rw [if_neg]
    · rfl
    · simp only [colOff, if_true] at b1 x1
      simp [b1, x1]

theorem minor_lt {col : Bool} {m n ld : Nat} (h : (if col then m else n) ≤ ld) :
    ∀ i j, i < m → j < n → mnr col i j < ld := by
  intro i j hi hj
  cases col
  · simp only [Bool.false_eq_true, if_false] at h
    show j < ld; omega
  · simp only [if_true] at h
    show i < ld; omega

theorem IsSolveMm.none {col : Bool} {M : Mat R} {m : Nat} {alpha : R} {B X : List R} {ldb ldx : Nat} :
    IsSolveMm col M m 0 alpha B ldb X ldx X :=
  ⟨rfl, fun _ _ _ h => absurd h (by omega), fun _ _ => rfl⟩

section csr
variable {srt : (Int → Int → Bool) → List Int → List Int} {isReal : Bool} {w : Nat} {im : TrsvImpl R}
  {op : Op} {alpha : R} {ta : Bool} {A : Csr R} {H : MvHandle R} {t : MType} {f : Fill} {Dg : Diag}
  {col : Bool} {B X : List R} {n ldb ldx : Nat} {sched : List Nat}

theorem check_none (hA : A.WF) (hnz : 0 < A.nnz) (hm : 0 < A.m) (hsq : A.m = A.n) (hn : 0 < n)
    (ht : t = .symmetric ∨ t = .triangular) (hH : HandleOk ta A H) :
    trsmCheck H.raw.fmt H.raw.um H.raw.un H.raw.nnz H.raw.base ⟨t.code, f.code, Dg.code, A.base⟩ op.code n ldb ldx
      = none := by
  have hum : H.raw.um = A.m := by rw [hH.raw]; cases ta <;> simp [RawMat.um, Csr.raw, hsq]
  have hun : H.raw.un = A.n := by rw [hH.raw]; cases ta <;> simp [RawMat.un, Csr.raw, hsq]
  have hnz' : H.raw.nnz = A.nnz := by rw [hH.raw]; rfl
  have hbs : H.raw.base = A.base := by rw [hH.raw]; rfl
  have hfm : H.raw.fmt = 0 := by rw [hH.raw]; rfl
  have c3 : ¬ (A.base ≠ 0 ∧ A.base ≠ 1) := by
    have := hA.base01; omega
  have c4 : ¬ (op.code ≠ 111 ∧ op.code ≠ 112 ∧ op.code ≠ 113) := by cases op <;> simp [Op.code]
  have c5 : ¬ (t.code ≠ 1 ∧ t.code ≠ 3) := by rcases ht with rfl | rfl <;> simp [MType.code]
  have c7 : ¬ (f.code ≠ 0 ∧ f.code ≠ 1) := by cases f <;> simp [Fill.code]
  unfold trsmCheck
  rw [hum, hun, hnz', hbs, hfm, if_neg (by simp), if_neg (by simp), if_neg (by omega), if_neg (by omega),
    if_neg (by omega), if_neg (by omega), if_neg c3, if_neg c4, if_neg c5, if_neg c7]

/-- **C51, triangular solve with several right-hand sides.**  For every handle of a CSR or CSC matrix, whatever
copies it holds, every triangle, diagonal type, operation, layout, number of columns, leading dimensions that
hold the dense matrices and sizes in the range of the integers, and every order in which the columns are
solved: the call succeeds, X holds the solution of op(T)·X = alpha·B, nothing else in its array changed, and
the handle stays correct. -/
theorem C51_trsm (hsrt : StdSort srt) (g : Garb R) (hreal : isReal = true → ∀ v : R, star v = v)
    (hA : A.WF) (hd1 : A.OneDiag) (hnd : A.Grouped ∨ A.NoDup) (hm : 0 < A.m) (hnz : 0 < A.nnz)
    (hsq : A.m = A.n) (ht : t = .symmetric ∨ t = .triangular)
    (hdz : Dg ≠ .zero) (hinv : Dg = .nonUnit → A.FullDiag ∧ ∀ i, i < A.m → A.mat i i ≠ 0)
    (him : SolveOk im A alpha) (hz : TrsmSizes w col A.m n ldb ldx B X) (hH : HandleOk ta A H)
    (hsched : sched.Perm (List.range n)) :
    ∃ X' H', trsmH isReal w star srt g im true sched op.code alpha (some H)
        (some ⟨t.code, f.code, Dg.code, A.base⟩) (if col then 1 else 0) (some B) n ldb (some X) ldx
        = some (.success, some X', some H') ∧ HandleOk ta A H' ∧
      IsSolveMm col (operator .triangular f Dg op (userMat ta A)) A.m n alpha B ldb X ldx X' := by
  rcases Nat.eq_zero_or_pos n with rfl | hn
  · refine ⟨X, H, ?_, hH, .none⟩
    have hum : H.raw.um = A.m := by rw [hH.raw]; cases ta <;> simp [RawMat.um, Csr.raw, hsq]
    have hnz' : H.raw.nnz = A.nnz := by rw [hH.raw]; rfl
    have hbs : H.raw.base = A.base := by rw [hH.raw]; rfl
    have hfm : H.raw.fmt = 0 := by rw [hH.raw]; rfl
    unfold trsmH trsmCheck
    dsimp only
    rw [hum, hnz', hbs, hfm, if_neg (by simp), if_neg (by simp), if_neg (by omega), if_pos (by omega)]
  obtain ⟨i, H1, c, iu, e1, h1, h2⟩ := csrCscOptimize_spec hsrt g.i g.v hA hd1 hnd hH
  obtain ⟨-, b2, b3⟩ := fits_layout hz.width hm hn hz.minb hz.fitb
  obtain ⟨-, x2, x3⟩ := fits_layout hz.width hm hn hz.minx hz.fitx
  have hs : ∀ (h : MvHandle R) (b x : List R), HandleOk ta A h → (∀ i, i < A.m → i * colInc col ldb < b.length) →
      (∀ i, i < A.m → i * colInc col ldx < x.length) →
      ∃ x' h', ((trsvH isReal w star srt g im true op.code alpha (some h)
          (some ⟨t.code, f.code, Dg.code, A.base⟩) (some b) (colInc col ldb : Int) (some x)
          (colInc col ldx : Int)).bind trsvOut) = some (.success, x', h') ∧ HandleOk ta A h' ∧
        IsSolve (operator .triangular f Dg op (userMat ta A)) A.m alpha b (colInc col ldb) x (colInc col ldx) x' := by
    intro h b x hh hb hx
    obtain ⟨x', H', e, k1, k2⟩ := C27_handle (op := op) (f := f) hsrt g hreal hA hd1 hnd hm hnz hsq ht hdz hinv him b3 x3 x2 b2
      hb hx hh
    exact ⟨x', H', by rw [e]; rfl, k1, k2⟩
  obtain ⟨st, X', H', e, -, k1, k2, k3, k4, k5⟩ := trsmLoop_ok hm hs hz.lenb (minor_lt hz.minx) sched
    (hsched.nodup_iff.mpr List.nodup_range) (fun j hj => List.mem_range.mp (hsched.mem_iff.mp hj)) X H1
    .success h1 hz.lenx
  have hne : sched ≠ [] := by
    intro h
    have := hsched.length_eq
    rw [h] at this
    simp at this
    omega
  rw [k1 hne] at e
  refine ⟨X', H', ?_, k2, k3, fun i j hi hj => k4 j (hsched.mem_iff.mpr (List.mem_range.mpr hj)) i hi, ?_⟩
  · unfold trsmH
    dsimp only
    rw [check_none hA hnz hm hsq hn ht hH]
    simp only [e1, Option.bind_eq_bind, Option.bind_some, Bool.true_eq_false, if_false]
    rw [layout_ok hz hm hn]
    dsimp only
    unfold trsmLoop
    rw [e]
    rfl
  · intro p hp
    exact k5 p (fun j hj i hi => hp i j hi (List.mem_range.mp (hsched.mem_iff.mp hj)))

/-- **C51, independence of the schedule.**  Two calls that solve the columns in different orders leave the same
status and the same array X. -/
theorem C51_schedule (hsrt : StdSort srt) (g : Garb R) (hreal : isReal = true → ∀ v : R, star v = v)
    (hA : A.WF) (hd1 : A.OneDiag) (hnd : A.Grouped ∨ A.NoDup) (hm : 0 < A.m) (hnz : 0 < A.nnz)
    (hsq : A.m = A.n) (ht : t = .symmetric ∨ t = .triangular)
    (hdz : Dg ≠ .zero) (hinv : Dg = .nonUnit → A.FullDiag ∧ ∀ i, i < A.m → A.mat i i ≠ 0)
    (him : SolveOk im A alpha) (hz : TrsmSizes w col A.m n ldb ldx B X) (hH : HandleOk ta A H)
    {sched' : List Nat} (hsched : sched.Perm (List.range n)) (hsched' : sched'.Perm (List.range n)) :
    (trsmH isReal w star srt g im true sched op.code alpha (some H)
        (some ⟨t.code, f.code, Dg.code, A.base⟩) (if col then 1 else 0) (some B) n ldb (some X) ldx).map
        (fun r => (r.1, r.2.1)) =
      (trsmH isReal w star srt g im true sched' op.code alpha (some H)
        (some ⟨t.code, f.code, Dg.code, A.base⟩) (if col then 1 else 0) (some B) n ldb (some X) ldx).map
        (fun r => (r.1, r.2.1)) := by
  obtain ⟨X1, H1, e1, -, s1⟩ := C51_trsm (op := op) (f := f) hsrt g hreal hA hd1 hnd hm hnz hsq ht hdz hinv him hz hH hsched
  obtain ⟨X2, H2, e2, -, s2⟩ := C51_trsm (op := op) (f := f) hsrt g hreal hA hd1 hnd hm hnz hsq ht hdz hinv him hz hH hsched'
  have hd : Dg = .nonUnit → ∀ i, i < A.m → userMat ta A i i ≠ 0 := by
    intro h i hi
    have := (hinv h).2 i hi
    cases ta <;> simpa [userMat, transM] using this
  rw [e1, e2, s1.unique hdz hd hz.lenx s2]
  rfl

/-- **C51, singular systems.**  Without a stored diagonal entry of an ordinary diagonal, and with a zero diagonal
type, the call reports an invalid value in every order of the columns and does not write X. -/
theorem C51_singular (hsrt : StdSort srt) (g : Garb R) {cjg : R → R}
    (hA : A.WF) (hd1 : A.OneDiag) (hnd : A.Grouped ∨ A.NoDup) (hm : 0 < A.m) (hnz : 0 < A.nnz)
    (hsq : A.m = A.n) (ht : t = .symmetric ∨ t = .triangular)
    (hbad : Dg = .zero ∨ Dg = .nonUnit ∧ ¬ A.FullDiag) (hn : 0 < n)
    (hz : TrsmSizes w col A.m n ldb ldx B X) (hH : HandleOk ta A H) (hsched : sched.Perm (List.range n)) :
    ∃ H', trsmH isReal w cjg srt g im true sched op.code alpha (some H)
        (some ⟨t.code, f.code, Dg.code, A.base⟩) (if col then 1 else 0) (some B) n ldb (some X) ldx
        = some (.invalidValue, some X, some H') ∧ HandleOk ta A H' := by
  obtain ⟨i, H1, c, iu, e1, h1, h2⟩ := csrCscOptimize_spec hsrt g.i g.v hA hd1 hnd hH
  obtain ⟨-, b2, b3⟩ := fits_layout hz.width hm hn hz.minb hz.fitb
  obtain ⟨-, x2, x3⟩ := fits_layout hz.width hm hn hz.minx hz.fitx
  have hs : ∀ (h : MvHandle R) (b x : List R), HandleOk ta A h →
      ∃ h', ((trsvH isReal w cjg srt g im true op.code alpha (some h)
          (some ⟨t.code, f.code, Dg.code, A.base⟩) (some b) (colInc col ldb : Int) (some x)
          (colInc col ldx : Int)).bind trsvOut) = some (.invalidValue, x, h') ∧ HandleOk ta A h' := by
    intro h b x hh
    rcases hbad with rfl | ⟨rfl, hfd⟩
    · have hum : h.raw.um = A.m := by rw [hh.raw]; cases ta <;> simp [RawMat.um, Csr.raw, hsq]
      have hun : h.raw.un = A.n := by rw [hh.raw]; cases ta <;> simp [RawMat.un, Csr.raw, hsq]
      have hnz' : h.raw.nnz = A.nnz := by rw [hh.raw]; rfl
      have hbs : h.raw.base = A.base := by rw [hh.raw]; rfl
      have hfm : h.raw.fmt = 0 := by rw [hh.raw]; rfl
      have c1 : ¬ (h.raw.um ≤ 0 ∨ h.raw.nnz ≤ 0) := by omega
      have c2 : ¬ (h.raw.um ≠ h.raw.un ∨ (colInc col ldb : Int) ≤ 0 ∨ (colInc col ldx : Int) ≤ 0) := by omega
      have c3 : ¬ (A.base ≠ 0 ∧ A.base ≠ 1) := by
        have := hA.base01; omega
      have c4 : ¬ (op.code ≠ 111 ∧ op.code ≠ 112 ∧ op.code ≠ 113) := by cases op <;> simp [Op.code]
      have c5 : ¬ (t.code ≠ 1 ∧ t.code ≠ 3) := by rcases ht with rfl | rfl <;> simp [MType.code]
      refine ⟨h, ?_, hh⟩
      unfold trsvH
      dsimp only
      rw [if_neg (by simp [hfm]), if_neg c1, if_neg c2, if_neg (by simp [hbs]), if_neg c3, if_neg c4,
        if_neg c5, if_pos (show Diag.zero.code = 2 from rfl)]
      rfl
    · obtain ⟨H', e, k⟩ := C27_handle_missing_diagonal (isReal := isReal) (w := w) (im := im) (op := op)
        (alpha := alpha) (f := f) (b := b) (x := x) (cjg := cjg) hsrt g hA hd1 hnd hm hnz hsq ht hfd b3 x3 hh
      exact ⟨H', by rw [e]; rfl, k⟩
  obtain ⟨st, H', e, -, k1, k2⟩ := trsmLoop_err (n := n) (ob := colOff col ldb) (ox := colOff col ldx) (B := B)
    (X := X) hs (by
      intro j hj
      have := hz.lenb 0 j hm hj
      rw [denseOff_col] at this
      omega) (by
      intro j hj
      have := hz.lenx 0 j hm hj
      rw [denseOff_col] at this
      omega) sched (fun j hj => List.mem_range.mp (hsched.mem_iff.mp hj)) H1 .success h1
  have hne : sched ≠ [] := by
    intro h
    have := hsched.length_eq
    rw [h] at this
    simp at this
    omega
  rw [k1 hne] at e
  refine ⟨H', ?_, k2⟩
  unfold trsmH
  dsimp only
  rw [check_none hA hnz hm hsq hn ht hH]
  simp only [e1, Option.bind_eq_bind, Option.bind_some, Bool.true_eq_false, if_false]
  rw [layout_ok hz hm hn]
  dsimp only
  unfold trsmLoop
  rw [e]
  rfl

end csr

/-- **C51, refusals.**  A null pointer, another base in the descriptor, a format other than CSR, CSC and TCSR, a
negative number of columns, a matrix that is not square, a negative leading dimension, an unknown operation, a
matrix type that is neither triangular nor symmetric, an unknown triangle, a matrix of another type and an
unknown layout: a fixed status in every order of the columns, and X is not written. -/
theorem C51_refused (isReal : Bool) (w : Nat) (cjg : R → R) (srt : (Int → Int → Bool) → List Int → List Int)
    (g : Garb R) (im : TrsvImpl R) (sched : List Nat) (alpha : R) {ta : Bool} {A : Csr R} {H : MvHandle R}
    (hA : A.WF) (hH : HandleOk ta A H) (hm : 0 < A.m) (hn' : 0 < A.n) (hnz : 0 < A.nnz) (d : Descr)
    (op order n ldb ldx : Int) (B X : List R) :
    let call := fun (same : Bool) (op : Int) (d : Option Descr) (order : Int) (B : Option (List R)) (n ldb : Int)
        (X : Option (List R)) (ldx : Int) =>
      trsmH isReal w cjg srt g im same sched op alpha (some H) d order B n ldb X ldx
    trsmH isReal w cjg srt g im true sched op alpha none (some d) order (some B) n ldb (some X) ldx
      = some (.invalidPointer, some X, none) ∧
    call true op none order (some B) n ldb (some X) ldx = some (.invalidPointer, some X, some H) ∧
    call true op (some d) order none n ldb (some X) ldx = some (.invalidPointer, some X, some H) ∧
    call true op (some d) order (some B) n ldb none ldx = some (.invalidPointer, none, some H) ∧
    (d.base ≠ A.base →
      call true op (some d) order (some B) n ldb (some X) ldx = some (.invalidValue, some X, some H)) ∧
    (d.base = A.base → n < 0 →
      call true op (some d) order (some B) n ldb (some X) ldx = some (.invalidSize, some X, some H)) ∧
    (d.base = A.base → 0 < n → A.m ≠ A.n →
      call true op (some d) order (some B) n ldb (some X) ldx = some (.invalidSize, some X, some H)) ∧
    (d.base = A.base → 0 < n → A.m = A.n → (ldb < 0 ∨ ldx < 0) →
      call true op (some d) order (some B) n ldb (some X) ldx = some (.invalidSize, some X, some H)) ∧
    (d.base = A.base → 0 < n → A.m = A.n → 0 ≤ ldb → 0 ≤ ldx → (∀ o : Op, op ≠ o.code) →
      call true op (some d) order (some B) n ldb (some X) ldx = some (.invalidValue, some X, some H)) ∧
    (d.base = A.base → 0 < n → A.m = A.n → 0 ≤ ldb → 0 ≤ ldx → d.type ≠ MType.symmetric.code →
      d.type ≠ MType.triangular.code →
      call true op (some d) order (some B) n ldb (some X) ldx = some (.invalidValue, some X, some H)) ∧
    (∀ (o : Op) (t : MType), t = .symmetric ∨ t = .triangular → d.base = A.base → 0 < n → A.m = A.n → 0 ≤ ldb →
      0 ≤ ldx → d.type = t.code → (∀ f : Fill, d.fill ≠ f.code) →
      call true o.code (some d) order (some B) n ldb (some X) ldx = some (.notImplemented, some X, some H)) ∧
    (∀ (o : Op) (t : MType) (f : Fill), t = .symmetric ∨ t = .triangular → d.base = A.base → 0 < n → A.m = A.n →
      0 ≤ ldb → 0 ≤ ldx → d.type = t.code → d.fill = f.code →
      call false o.code (some d) order (some B) n ldb (some X) ldx = some (.wrongType, some X, some H)) ∧
    (∀ (o : Op) (t : MType) (f : Fill), StdSort srt → A.OneDiag → (A.Grouped ∨ A.NoDup) →
      t = .symmetric ∨ t = .triangular → d.base = A.base → 0 < n → A.m = A.n →
      0 ≤ ldb → 0 ≤ ldx → d.type = t.code → d.fill = f.code → order ≠ 0 → order ≠ 1 →
      ∃ H', call true o.code (some d) order (some B) n ldb (some X) ldx = some (.invalidValue, some X, some H')) := by
  have hu : (H.raw.um = A.m ∧ H.raw.un = A.n) ∨ (H.raw.um = A.n ∧ H.raw.un = A.m) := by
    rw [hH.raw]
    cases ta
    · left; simp [RawMat.um, RawMat.un, Csr.raw]
    · right; simp [RawMat.um, RawMat.un, Csr.raw]
  have hnz' : H.raw.nnz = A.nnz := by rw [hH.raw]; rfl
  have hbs : H.raw.base = A.base := by rw [hH.raw]; rfl
  have hfm : H.raw.fmt = 0 := by rw [hH.raw]; rfl
  have c3 : ¬ (A.base ≠ 0 ∧ A.base ≠ 1) := by
    have := hA.base01; omega
  have c4 : ∀ o : Op, ¬ (o.code ≠ 111 ∧ o.code ≠ 112 ∧ o.code ≠ 113) := by intro o; cases o <;> simp [Op.code]
  intro call
  have hcall : ∀ same op order st, trsmCheck H.raw.fmt H.raw.um H.raw.un H.raw.nnz H.raw.base d op n ldb ldx = some st →
      call same op (some d) order (some B) n ldb (some X) ldx = some (st, some X, some H) := by
    intro same op order st h
    show trsmH isReal w cjg srt g im same sched op alpha (some H) (some d) order (some B) n ldb (some X) ldx = _
    unfold trsmH
    dsimp only
    rw [h]
  refine ⟨rfl, rfl, rfl, rfl, ?_, ?_, ?_, ?_, ?_, ?_, ?_, ?_, ?_⟩
  · intro h
    apply hcall
    unfold trsmCheck
    rw [if_pos (by rw [hbs]; exact fun e => h e.symm)]
  · intro h1 h2
    apply hcall
    unfold trsmCheck
    rw [if_neg (by rw [hbs, h1]; simp), if_neg (by rw [hfm]; simp), if_pos (by omega)]
  · intro h1 h2 h3
    apply hcall
    unfold trsmCheck
    rw [if_neg (by rw [hbs, h1]; simp), if_neg (by rw [hfm]; simp), if_neg (by omega), if_neg (by omega),
      if_pos (by omega)]
  · intro h1 h2 h3 h4
    apply hcall
    unfold trsmCheck
    rw [if_neg (by rw [hbs, h1]; simp), if_neg (by rw [hfm]; simp), if_neg (by omega), if_neg (by omega),
      if_neg (by omega), if_pos h4]
  · intro h1 h2 h3 h4 h5 h6
    apply hcall
    unfold trsmCheck
    rw [if_neg (by rw [hbs, h1]; simp), if_neg (by rw [hfm]; simp), if_neg (by omega), if_neg (by omega),
      if_neg (by omega), if_neg (by omega), if_neg (by rw [h1]; exact c3), if_pos]
    exact ⟨h6 .none, h6 .trans, h6 .conjTrans⟩
  · intro h1 h2 h3 h4 h5 h6 h7
    apply hcall
    unfold trsmCheck
    rw [if_neg (by rw [hbs, h1]; simp), if_neg (by rw [hfm]; simp), if_neg (by omega), if_neg (by omega),
      if_neg (by omega), if_neg (by omega), if_neg (by rw [h1]; exact c3)]
    split
    · rfl
    · rw [if_pos ⟨h6, h7⟩]
  · intro o t ht h1 h2 h3 h4 h5 h6 h7
    have c5 : ¬ (d.type ≠ 1 ∧ d.type ≠ 3) := by rw [h6]; rcases ht with rfl | rfl <;> simp [MType.code]
    apply hcall
    unfold trsmCheck
    rw [if_neg (by rw [hbs, h1]; simp), if_neg (by rw [hfm]; simp), if_neg (by omega), if_neg (by omega),
      if_neg (by omega), if_neg (by omega), if_neg (by rw [h1]; exact c3), if_neg (c4 o), if_neg c5, if_pos]
    exact ⟨h7 .lower, h7 .upper⟩
  all_goals
    intro o t f
  · intro ht h1 h2 h3 h4 h5 h6 h7
    have c5 : ¬ (d.type ≠ 1 ∧ d.type ≠ 3) := by rw [h6]; rcases ht with rfl | rfl <;> simp [MType.code]
    have c7 : ¬ (d.fill ≠ 0 ∧ d.fill ≠ 1) := by rw [h7]; cases f <;> simp [Fill.code]
    show trsmH isReal w cjg srt g im false sched o.code alpha (some H) (some d) order (some B) n ldb (some X) ldx = _
    unfold trsmH trsmCheck
    dsimp only
    rw [if_neg (by rw [hbs, h1]; simp), if_neg (by rw [hfm]; simp), if_neg (by omega), if_neg (by omega),
      if_neg (by omega), if_neg (by omega), if_neg (by rw [h1]; exact c3), if_neg (c4 o), if_neg c5, if_neg c7]
    rfl
  · intro hsrt hd1 hnd ht h1 h2 h3 h4 h5 h6 h7 h8 h9
    have c5 : ¬ (d.type ≠ 1 ∧ d.type ≠ 3) := by rw [h6]; rcases ht with rfl | rfl <;> simp [MType.code]
    have c7 : ¬ (d.fill ≠ 0 ∧ d.fill ≠ 1) := by rw [h7]; cases f <;> simp [Fill.code]
    obtain ⟨i, H1, c, iu, e1, k1, k2⟩ := csrCscOptimize_spec hsrt g.i g.v hA hd1 hnd hH
    refine ⟨H1, ?_⟩
    show trsmH isReal w cjg srt g im true sched o.code alpha (some H) (some d) order (some B) n ldb (some X) ldx = _
    unfold trsmH trsmCheck
    dsimp only
    rw [if_neg (by rw [hbs, h1]; simp), if_neg (by rw [hfm]; simp), if_neg (by omega), if_neg (by omega),
      if_neg (by omega), if_neg (by omega), if_neg (by rw [h1]; exact c3), if_neg (c4 o), if_neg c5, if_neg c7]
    simp only [e1, Option.bind_eq_bind, Option.bind_some, Bool.true_eq_false, if_false]
    unfold trsmLayout
    rw [if_neg h8, if_neg h9]

/-- **C51, offsets out of range.**  When the number of columns times the distance between two columns is not
representable, the call reports an invalid size and does not write X. -/
theorem C51_overflow (isReal : Bool) {w : Nat} (hw : 2 ≤ w) (cjg : R → R)
    {srt : (Int → Int → Bool) → List Int → List Int} (hsrt : StdSort srt)
    (g : Garb R) (im : TrsvImpl R) (sched : List Nat) (op : Op) (alpha : R) {ta : Bool} {A : Csr R} {H : MvHandle R}
    (hA : A.WF) (hd1 : A.OneDiag) (hnd : A.Grouped ∨ A.NoDup) (hH : HandleOk ta A H) (hm : 0 < A.m)
    (hsq : A.m = A.n) (hnz : 0 < A.nnz) {t : MType} (ht : t = .symmetric ∨ t = .triangular) (f : Fill) (Dg : Diag)
    (n ldb ldx : Nat) (hn : (n : Int) ≤ intMax w) (hn0 : 0 < n) (hb : (ldb : Int) ≤ intMax w)
    (hx : (ldx : Int) ≤ intMax w) (B X : List R)
    (hov : intMax w < (n : Int) * ldb ∨ intMax w < (n : Int) * ldx) :
    ∃ H', trsmH isReal w cjg srt g im true sched op.code alpha (some H)
        (some ⟨t.code, f.code, Dg.code, A.base⟩) 1 (some B) n ldb (some X) ldx
        = some (.invalidSize, some X, some H') ∧ HandleOk ta A H' := by
  obtain ⟨i, H1, c, iu, e1, h1, h2⟩ := csrCscOptimize_spec hsrt g.i g.v hA hd1 hnd hH
  refine ⟨H1, ?_, h1⟩
  unfold trsmH
  dsimp only
  rw [check_none hA hnz hm hsq hn0 ht hH]
  simp only [e1, Option.bind_eq_bind, Option.bind_some, Bool.true_eq_false, if_false]
  unfold trsmLayout
  simp only [if_true, show ¬ ((1 : Int) = 0) by decide, if_false]
  rw [if_pos]
  rcases hov with h | h
  · left; exact overflow_of hw hn hb h
  · right; exact overflow_of hw hn hx h

/-- **C51, leading dimension zero in row order.**  Every column is refused with an invalid value, whatever the
order of the columns, and X is not written. -/
theorem C51_row_zero (isReal : Bool) {w : Nat} (hw : 2 ≤ w) (cjg : R → R)
    {srt : (Int → Int → Bool) → List Int → List Int} (hsrt : StdSort srt)
    (g : Garb R) (im : TrsvImpl R) {sched : List Nat} (op : Op) (alpha : R) {ta : Bool} {A : Csr R} {H : MvHandle R}
    (hA : A.WF) (hd1 : A.OneDiag) (hnd : A.Grouped ∨ A.NoDup) (hH : HandleOk ta A H) (hm : 0 < A.m)
    (hsq : A.m = A.n) (hnz : 0 < A.nnz) {t : MType} (ht : t = .symmetric ∨ t = .triangular) (f : Fill) (Dg : Diag)
    {n : Nat} (ldb ldx : Nat) (hn : (n : Int) ≤ intMax w) (hn0 : 0 < n) {B X : List R}
    (hB : n ≤ B.length) (hX : n ≤ X.length) (hld : ldb = 0 ∨ ldx = 0) (hsched : sched.Perm (List.range n)) :
    ∃ H', trsmH isReal w cjg srt g im true sched op.code alpha (some H)
        (some ⟨t.code, f.code, Dg.code, A.base⟩) 0 (some B) n ldb (some X) ldx
        = some (.invalidValue, some X, some H') ∧ HandleOk ta A H' := by
  obtain ⟨i, H1, c, iu, e1, h1, h2⟩ := csrCscOptimize_spec hsrt g.i g.v hA hd1 hnd hH
  have hs : ∀ (h : MvHandle R) (b x : List R), HandleOk ta A h →
      ∃ h', ((trsvH isReal w cjg srt g im true op.code alpha (some h)
          (some ⟨t.code, f.code, Dg.code, A.base⟩) (some b) (ldb : Int) (some x)
          (ldx : Int)).bind trsvOut) = some (.invalidValue, x, h') ∧ HandleOk ta A h' := by
    intro h b x hh
    have hum : h.raw.um = A.m := by rw [hh.raw]; cases ta <;> simp [RawMat.um, Csr.raw, hsq]
    have hnz' : h.raw.nnz = A.nnz := by rw [hh.raw]; rfl
    have hfm : h.raw.fmt = 0 := by rw [hh.raw]; rfl
    have c1 : ¬ (h.raw.um ≤ 0 ∨ h.raw.nnz ≤ 0) := by omega
    have c2 : h.raw.um ≠ h.raw.un ∨ (ldb : Int) ≤ 0 ∨ (ldx : Int) ≤ 0 := by omega
    refine ⟨h, ?_, hh⟩
    unfold trsvH
    dsimp only
    rw [if_neg (by simp [hfm]), if_neg c1, if_pos c2]
    rfl
  obtain ⟨st, H', e, -, k1, k2⟩ := trsmLoop_err (n := n) (ob := 1) (ox := 1) (B := B)
    (X := X) hs (by intro j hj; omega) (by intro j hj; omega) sched
    (fun j hj => List.mem_range.mp (hsched.mem_iff.mp hj)) H1 .success h1
  have hne : sched ≠ [] := by
    intro h
    have := hsched.length_eq
    rw [h] at this
    simp at this
    omega
  rw [k1 hne] at e
  refine ⟨H', ?_, k2⟩
  have q : prodOvf w (n : Int) (1 : Int) = false := by
    have := fits_or_zero (a := n) (b := 1) hw (by push_cast; omega)
    exact this
  unfold trsmH
  dsimp only
  rw [check_none hA hnz hm hsq hn0 ht hH]
  simp only [e1, Option.bind_eq_bind, Option.bind_some, Bool.true_eq_false, if_false]
  have l : trsmLayout w 0 n ldb ldx = .ok ((ldb : Int), (ldx : Int), ((1 : Nat) : Int), ((1 : Nat) : Int)) := by
    unfold trsmLayout
    simp only [if_true]
    rw [if_neg (by simp [q])]
    rfl
  rw [l]
  dsimp only
  unfold trsmLoop
  rw [e]
  rfl

theorem trsvCopy_same {isReal : Bool} {w : Nat} {cjg : R → R} {im : TrsvImpl R} {op : Int} {alpha : R}
    {H : MvHandle R} {d : Descr} {i : Nat} {b x : List R} {incb incx : Int} {r : Status × List R × MvHandle R}
    (hr : trsvCopy isReal w cjg im op alpha H d i b incb x incx = some r) : r.2.2 = H := by
  unfold trsvCopy at hr
  split at hr
  · rw [Option.bind_eq_bind, Option.bind_eq_some_iff] at hr
    obtain ⟨_, _, hr⟩ := hr
    rw [Option.bind_eq_bind, Option.bind_eq_some_iff] at hr
    obtain ⟨q, _, hr⟩ := hr
    split at hr
    · injection hr with hr; rw [← hr]
    · injection hr with hr; rw [← hr]
  · exact absurd hr (by simp)

theorem trsvH_same {isReal : Bool} {w : Nat} {cjg : R → R} {srt : (Int → Int → Bool) → List Int → List Int}
    {g : Garb R} {im : TrsvImpl R} {same : Bool} {op : Int} {alpha : R} {H H' : MvHandle R} {i : Nat}
    (hc : csrCscOptimize srt g.i g.v H = some (.ok (i, H)))
    {d : Option Descr} {b : Option (List R)} {incb : Int} {x : Option (List R)} {incx : Int} {st : Status}
    {x' : Option (List R)}
    (e : trsvH isReal w cjg srt g im same op alpha (some H) d b incb x incx = some (st, x', some H')) : H' = H := by
  cases x with
  | none => injection e with e; injection e with _ e; injection e with _ e; injection e with e; exact e.symm
  | some x =>
  cases b with
  | none => injection e with e; injection e with _ e; injection e with _ e; injection e with e; exact e.symm
  | some b =>
  cases d with
  | none => injection e with e; injection e with _ e; injection e with _ e; injection e with e; exact e.symm
  | some d =>
  unfold trsvH at e
  dsimp only at e
  rw [hc] at e
  have out : ∀ {s : Status} {y : Option (List R)},
      (some (s, y, some H) : Option (Status × Option (List R) × Option (MvHandle R))) = some (st, x', some H') →
      H' = H := by
    intro s y e
    injection e with e; injection e with _ e; injection e with _ e; injection e with e; exact e.symm
  split at e
  · exact out e
  split at e
  · exact out e
  split at e
  · exact out e
  split at e
  · exact out e
  split at e
  · exact out e
  split at e
  · exact out e
  split at e
  · exact out e
  split at e
  · exact out e
  split at e
  · exact out e
  split at e
  · exact out e
  rw [Option.bind_eq_bind, Option.bind_some] at e
  dsimp only at e
  rw [Option.bind_eq_bind, Option.bind_eq_some_iff] at e
  obtain ⟨q, hq, e⟩ := e
  have := trsvCopy_same hq
  injection e with e; injection e with _ e; injection e with _ e; injection e with e
  rw [← e]; exact this

/-- **C51, the matrix is only read by the columns.**  A solve on a handle that holds a clean copy, with any
arguments, leaves the handle exactly as it was; and the handle of a solve with several right-hand sides holds a
clean copy before the first column starts. -/
theorem C51_shared (isReal : Bool) (w : Nat) (cjg : R → R) {srt : (Int → Int → Bool) → List Int → List Int}
    (g : Garb R) (im : TrsvImpl R) (same : Bool) (op : Int) (alpha : R) {H H' : MvHandle R}
    (d : Option Descr) (b : Option (List R)) (incb : Int) (x : Option (List R)) (incx : Int) {st : Status}
    {x' : Option (List R)} :
    ((∃ s ∈ H.mats, s.opt = true) →
      trsvH isReal w cjg srt g im same op alpha (some H) d b incb x incx = some (st, x', some H') → H' = H) ∧
    (∀ (ta : Bool) (A : Csr R), StdSort srt → A.WF → A.OneDiag → (A.Grouped ∨ A.NoDup) → HandleOk ta A H →
      ∃ i H1, csrCscOptimize srt g.i g.v H = some (.ok (i, H1)) ∧ ∃ s ∈ H1.mats, s.opt = true) := by
  constructor
  · rintro ⟨s, hs, ho⟩ e
    have hopt : ∃ i, optIdx H.mats = some i := by
      cases hi : optIdx H.mats with
      | some i => exact ⟨i, rfl⟩
      | none =>
        have := Conc.optIdx_none hi s hs
        rw [ho] at this
        cases this
    obtain ⟨i, hi⟩ := hopt
    have hc : csrCscOptimize srt g.i g.v H = some (.ok (i, H)) := by
      unfold csrCscOptimize
      rw [hi]
    exact trsvH_same hc e
  · intro ta A hsrt hA hd hnd hH
    obtain ⟨i, H1, c, iu, e1, h1, h2⟩ := csrCscOptimize_spec hsrt g.i g.v hA hd hnd hH
    exact ⟨i, H1, e1, _, List.mem_of_getElem? h2, rfl⟩

/-- **C51, nothing to solve.**  A matrix without rows, columns or entries, or no columns in B: success, and X is
not written. -/
theorem C51_empty (isReal : Bool) (w : Nat) (cjg : R → R) (srt : (Int → Int → Bool) → List Int → List Int)
    (g : Garb R) (im : TrsvImpl R) (same : Bool) (sched : List Nat) (op : Int) (alpha : R) {ta : Bool} {A : Csr R}
    {H : MvHandle R} (hH : HandleOk ta A H) (d : Descr) (hb : d.base = A.base) (order ldb ldx : Int) (n : Nat)
    (B X : List R) (h : A.m = 0 ∨ A.n = 0 ∨ A.nnz = 0 ∨ n = 0) :
    trsmH isReal w cjg srt g im same sched op alpha (some H) (some d) order (some B) n ldb (some X) ldx
      = some (.success, some X, some H) := by
  have hu : (H.raw.um = A.m ∧ H.raw.un = A.n) ∨ (H.raw.um = A.n ∧ H.raw.un = A.m) := by
    rw [hH.raw]
    cases ta
    · left; simp [RawMat.um, RawMat.un, Csr.raw]
    · right; simp [RawMat.um, RawMat.un, Csr.raw]
  have hnz' : H.raw.nnz = A.nnz := by rw [hH.raw]; rfl
  have hbs : H.raw.base = A.base := by rw [hH.raw]; rfl
  have hfm : H.raw.fmt = 0 := by rw [hH.raw]; rfl
  unfold trsmH trsmCheck
  dsimp only
  rw [if_neg (by rw [hbs, hb]; simp), if_neg (by rw [hfm]; simp), if_neg (by omega), if_pos (by omega)]

/-- **C51, TCSR matrices.**  The same for a matrix given as a lower and an upper part: the solve uses the part of
the descriptor's triangle. -/
theorem C51_tcsr {gd gu : Nat → Int} {L U : Csr R} (hL : Sized L) (hU : Sized U) (hm : U.m = L.m)
    (hn : U.n = L.n) (hb : U.base = L.base) {nnz : Int} {T : Tcsr R} {so : MatSort}
    (hT : callCreate gd gu L U nnz = some (.ok (T, so)))
    (isReal : Bool) (hreal : isReal = true → ∀ v : R, star v = v)
    (w : Nat) (im : TrsvImpl R) (op : Op) (alpha : R) (hm0 : 0 < L.m) (t : MType)
    (ht : t = .symmetric ∨ t = .triangular) (f : Fill) (Dg : Diag) (hdz : Dg ≠ .zero)
    (hinv : Dg = .nonUnit → ∀ i, i < L.m → readMat .triangular f L U i i ≠ 0)
    (him : SolveOk im (match f with | .lower => L | .upper => U) alpha)
    {col : Bool} {B X : List R} {n ldb ldx : Nat} (hz : TrsmSizes w col L.m n ldb ldx B X)
    {sched : List Nat} (hsched : sched.Perm (List.range n)) :
    ∃ X', trsmTcsr isReal w star im true sched op.code alpha (some T)
        (some ⟨t.code, f.code, Dg.code, L.base⟩) (if col then 1 else 0) (some B) n ldb (some X) ldx
        = some (.success, some X') ∧
      IsSolveMm col (operator .triangular f Dg op (readMat .triangular f L U)) L.m n alpha B ldb X ldx X' := by
  have h := created_ok hL hU hm hn hb hT
  have hsq := h.sq
  have hlenL : (L.m : Int) ≤ L.ind.length := part_len h.wfL (fun i hi hr => by
    obtain ⟨S, v, e, -⟩ := lower_row h.lower hi
    rw [e] at hr; simp at hr)
  have hlenU : (U.m : Int) ≤ U.ind.length := part_len h.wfU (fun i hi hr => by
    obtain ⟨S, v, e, -⟩ := upper_row h.upper hi
    rw [e] at hr; simp at hr)
  have hTm := h.m
  have hTn := h.n
  have hTz := h.nnz
  have hTb := h.base
  rcases Nat.eq_zero_or_pos n with rfl | hn0
  · refine ⟨X, ?_, .none⟩
    unfold trsmTcsr trsmCheck
    dsimp only
    rw [if_neg (by rw [hTb]; simp), if_neg (by simp), if_neg (by omega), if_pos (by omega)]
  obtain ⟨-, b2, b3⟩ := fits_layout hz.width hm0 hn0 hz.minb hz.fitb
  obtain ⟨-, x2, x3⟩ := fits_layout hz.width hm0 hn0 hz.minx hz.fitx
  have hs : ∀ (h : Unit) (b x : List R), True → (∀ i, i < L.m → i * colInc col ldb < b.length) →
      (∀ i, i < L.m → i * colInc col ldx < x.length) →
      ∃ x' h', (trsvTcsr isReal w star im true op.code alpha (some T)
          (some ⟨t.code, f.code, Dg.code, L.base⟩) (some b) (colInc col ldb : Int) (some x)
          (colInc col ldx : Int)).map (trsvTOut x) = some (.success, x', h') ∧ True ∧
        IsSolve (operator .triangular f Dg op (readMat .triangular f L U)) L.m alpha b (colInc col ldb) x
          (colInc col ldx) x' := by
    intro _ b x _ hbl hxl
    obtain ⟨x', e, k⟩ := C44_trsv hL hU hm hn hb hT isReal hreal w im op alpha hm0 t ht f Dg hdz hinv him b x _ _
      b3 x3 x2 b2 hbl hxl
    exact ⟨x', (), by rw [e]; rfl, trivial, k⟩
  obtain ⟨st, X', H', e, -, k1, -, k3, k4, k5⟩ := trsmLoop_ok hm0 hs hz.lenb (minor_lt hz.minx) sched
    (hsched.nodup_iff.mpr List.nodup_range) (fun j hj => List.mem_range.mp (hsched.mem_iff.mp hj)) X ()
    .success trivial hz.lenx
  have hne : sched ≠ [] := by
    intro h
    have := hsched.length_eq
    rw [h] at this
    simp at this
    omega
  rw [k1 hne] at e
  have c3 : ¬ (L.base ≠ 0 ∧ L.base ≠ 1) := by
    have := h.wfL.base01; omega
  have c4 : ¬ (op.code ≠ 111 ∧ op.code ≠ 112 ∧ op.code ≠ 113) := by cases op <;> simp [Op.code]
  have c5 : ¬ (t.code ≠ 1 ∧ t.code ≠ 3) := by rcases ht with rfl | rfl <;> simp [MType.code]
  have c7 : ¬ (f.code ≠ 0 ∧ f.code ≠ 1) := by cases f <;> simp [Fill.code]
  refine ⟨X', ?_, k3, fun i j hi hj => k4 j (hsched.mem_iff.mpr (List.mem_range.mpr hj)) i hi, ?_⟩
  · unfold trsmTcsr trsmCheck
    dsimp only
    rw [if_neg (by rw [hTb]; simp), if_neg (by simp), if_neg (by omega), if_neg (by omega),
      if_neg (by omega), if_neg (by omega), if_neg c3, if_neg c4, if_neg c5, if_neg c7]
    dsimp only
    rw [layout_ok hz hm0 hn0]
    dsimp only
    unfold trsmLoop
    rw [e]
    rfl
  · intro p hp
    exact k5 p (fun j hj i hi => hp i j hi (List.mem_range.mp (hsched.mem_iff.mp hj)))

/-- **C51, TCSR refusals.**  A zero diagonal type, and a matrix of another type, are refused in every order of the
columns, and X is not written. -/
theorem C51_tcsr_refused {gd gu : Nat → Int} {L U : Csr R} (hL : Sized L) (hU : Sized U) (hm : U.m = L.m)
    (hn : U.n = L.n) (hb : U.base = L.base) {nnz : Int} {T : Tcsr R} {so : MatSort}
    (hT : callCreate gd gu L U nnz = some (.ok (T, so)))
    (isReal : Bool) (cjg : R → R) (w : Nat) (im : TrsvImpl R) (op : Op) (alpha : R) (hm0 : 0 < L.m) (t : MType)
    (ht : t = .symmetric ∨ t = .triangular) (f : Fill) (Dg : Diag) (same : Bool)
    (hbad : Dg = .zero ∨ same = false)
    {col : Bool} {B X : List R} {n ldb ldx : Nat} (hn0 : 0 < n) (hz : TrsmSizes w col L.m n ldb ldx B X)
    {sched : List Nat} (hsched : sched.Perm (List.range n)) :
    trsmTcsr isReal w cjg im same sched op.code alpha (some T)
        (some ⟨t.code, f.code, Dg.code, L.base⟩) (if col then 1 else 0) (some B) n ldb (some X) ldx
        = some (if Dg = .zero then .invalidValue else .wrongType, some X) := by
  have h := created_ok hL hU hm hn hb hT
  have hsq := h.sq
  have hlenL : (L.m : Int) ≤ L.ind.length := part_len h.wfL (fun i hi hr => by
    obtain ⟨S, v, e, -⟩ := lower_row h.lower hi
    rw [e] at hr; simp at hr)
  have hlenU : (U.m : Int) ≤ U.ind.length := part_len h.wfU (fun i hi hr => by
    obtain ⟨S, v, e, -⟩ := upper_row h.upper hi
    rw [e] at hr; simp at hr)
  have hTm := h.m
  have hTn := h.n
  have hTz := h.nnz
  have hTb := h.base
  obtain ⟨-, b2, b3⟩ := fits_layout hz.width hm0 hn0 hz.minb hz.fitb
  obtain ⟨-, x2, x3⟩ := fits_layout hz.width hm0 hn0 hz.minx hz.fitx
  have c1 : ¬ (T.m ≤ 0 ∨ T.nnz ≤ 0) := by omega
  have c2 : ¬ (T.m ≠ T.n ∨ (colInc col ldb : Int) ≤ 0 ∨ (colInc col ldx : Int) ≤ 0) := by omega
  have c3 : ¬ (L.base ≠ 0 ∧ L.base ≠ 1) := by
    have := h.wfL.base01; omega
  have c4 : ¬ (op.code ≠ 111 ∧ op.code ≠ 112 ∧ op.code ≠ 113) := by cases op <;> simp [Op.code]
  have c5 : ¬ (t.code ≠ 1 ∧ t.code ≠ 3) := by rcases ht with rfl | rfl <;> simp [MType.code]
  have c7 : ¬ (f.code ≠ 0 ∧ f.code ≠ 1) := by cases f <;> simp [Fill.code]
  have hs : ∀ (h : Unit) (b x : List R), True →
      ∃ h', (trsvTcsr isReal w cjg im same op.code alpha (some T)
          (some ⟨t.code, f.code, Dg.code, L.base⟩) (some b) (colInc col ldb : Int) (some x)
          (colInc col ldx : Int)).map (trsvTOut x)
          = some ((if Dg = .zero then Status.invalidValue else .wrongType), x, h') ∧ True := by
    intro _ b x _
    refine ⟨(), ?_, trivial⟩
    unfold trsvTcsr
    dsimp only
    rw [if_neg c1, if_neg c2, if_neg (by simp [h.base]), if_neg c3, if_neg c4, if_neg c5]
    by_cases hd : Dg = .zero
    · rw [if_pos (by rw [hd]; rfl), if_pos hd]
      rfl
    · rw [if_neg (by cases Dg <;> simp_all [Diag.code]), if_neg c7,
        if_pos (by rcases hbad with h | h; exact absurd h hd; exact h), if_neg hd]
      rfl
  obtain ⟨st, H', e, -, k1, k2⟩ := trsmLoop_err (n := n) (ob := colOff col ldb) (ox := colOff col ldx) (B := B)
    (X := X) hs (by
      intro j hj
      have := hz.lenb 0 j hm0 hj
      rw [denseOff_col] at this
      omega) (by
      intro j hj
      have := hz.lenx 0 j hm0 hj
      rw [denseOff_col] at this
      omega) sched (fun j hj => List.mem_range.mp (hsched.mem_iff.mp hj)) () .success trivial
  have hne : sched ≠ [] := by
    intro h
    have := hsched.length_eq
    rw [h] at this
    simp at this
    omega
  rw [k1 hne] at e
  unfold trsmTcsr trsmCheck
  dsimp only
  rw [if_neg (by rw [hTb]; simp), if_neg (by simp), if_neg (by omega), if_neg (by omega),
    if_neg (by omega), if_neg (by omega), if_neg c3, if_neg c4, if_neg c5, if_neg c7]
  dsimp only
  rw [layout_ok hz hm0 hn0]
  dsimp only
  unfold trsmLoop
  rw [e]
  rfl

/-! ### concrete cases -/

set_option synthInstance.maxSize 1000

theorem all_cells {m n : Nat} {p : Nat → Nat → Prop} (h : ∀ i, i < m → ∀ j, j < n → p i j) :
    ∀ i j, i < m → j < n → p i j := fun i j hi hj => h i hi j hj

/-- a solve with the lower triangle of [[2,3,0],[1,4,0],[6,7,5]], rows out of order -/
def trsmEx (sched : List Nat) (d : Descr) (opc order : Int) (B : List ℚ) (n ldb : Int) (X : List ℚ) (ldx : Int) :
    Option (Status × Option (List ℚ)) :=
  (trsmH true 32 star insertionSortB gsExG .ref true sched opc 1 (some (.fresh (exTri.raw false) false)) (some d)
    order (some B) n ldb (some X) ldx).map fun r => (r.1, r.2.1)

/-- the hypotheses are met, and two orders of two columns give the solution in both layouts; the cells between
the columns keep their values -/
example : TrsmSizes 32 true exTri.m 2 4 3 ([2, 5, 25, 0, 4, 10, 50, 0] : List ℚ) [9, 9, 9, 9, 9, 9] ∧
    TrsmSizes 32 false exTri.m 2 2 3 ([2, 4, 5, 10, 25, 50] : List ℚ) [9, 9, 9, 9, 9, 9, 9, 9, 9] ∧
    [1, 0].Perm (List.range 2) ∧
    trsmEx [0, 1] ⟨3, 0, 0, 1⟩ 111 1 [2, 5, 25, 0, 4, 10, 50, 0] 2 4 [9, 9, 9, 9, 9, 9] 3
      = some (.success, some [1, 1, 12 / 5, 2, 2, 24 / 5]) ∧
    trsmEx [1, 0] ⟨3, 0, 0, 1⟩ 111 1 [2, 5, 25, 0, 4, 10, 50, 0] 2 4 [9, 9, 9, 9, 9, 9] 3
      = some (.success, some [1, 1, 12 / 5, 2, 2, 24 / 5]) ∧
    trsmEx [1, 0] ⟨3, 0, 0, 1⟩ 111 0 [2, 4, 5, 10, 25, 50] 2 2 [9, 9, 9, 9, 9, 9, 9, 9, 9] 3
      = some (.success, some [1, 2, 9, 1, 2, 9, 12 / 5, 24 / 5, 9]) := by
  refine ⟨⟨by decide, by decide, by decide, by decide, by decide, all_cells (by decide), all_cells (by decide)⟩,
    ⟨by decide, by decide, by decide, by decide, by decide, all_cells (by decide), all_cells (by decide)⟩, by decide, ?_, ?_, ?_⟩ <;>
    decide +kernel

/-- a TCSR matrix, one column -/
example : (∃ T so, callCreate (fun _ => 9) (fun _ => 8) tcExLq tcExUq 6 = some (.ok (T, so)) ∧
    trsmTcsr true 32 star .ref true [1, 0] 111 1 (some T) (some ⟨3, 0, 0, 1⟩) 1 (some [2, 11, 28, 4, 22, 56]) 2 3
        (some [0, 0, 0, 0, 0, 0]) 3 = some (.success, some [1, 2, 3, 2, 4, 6])) ∧
    TrsmSizes 32 true tcExLq.m 2 3 3 ([2, 11, 28, 4, 22, 56] : List ℚ) [0, 0, 0, 0, 0, 0] := by
  refine ⟨⟨⟨3, 3, 6, 1, tcExLq.ptr, tcExUq.ptr, tcExLq.ind, tcExUq.ind, tcExLq.val, tcExUq.val, [1, 3, 5],
    [2, 4, 5]⟩, .fully, by decide +kernel, by decide +kernel⟩,
    ⟨by decide, by decide, by decide, by decide, by decide, all_cells (by decide), all_cells (by decide)⟩⟩

/-- **C51 (counterexample)** The leading dimension of X is not compared with the size of a column: with a value
that is too small the columns overlap, the call succeeds, and what X holds depends on which column was solved
last. -/
theorem C51_overlap :
    trsmEx [0, 1] ⟨3, 0, 0, 1⟩ 111 1 [2, 5, 25, 0, 4, 10, 50, 0] 2 4 [9, 9, 9, 9] 1
      = some (.success, some [1, 2, 2, 24 / 5]) ∧
    trsmEx [1, 0] ⟨3, 0, 0, 1⟩ 111 1 [2, 5, 25, 0, 4, 10, 50, 0] 2 4 [9, 9, 9, 9] 1
      = some (.success, some [1, 1, 12 / 5, 24 / 5]) := by
  constructor <;> decide +kernel

/-- a 2×2 matrix without entries -/
def trsmZero : Csr ℚ := ⟨2, 2, 0, [0, 0, 0], [], []⟩

/-- **C51 (counterexample)** A matrix without stored entries and a unit diagonal is the identity: the call succeeds
and does not write X. -/
theorem C51_unit_empty : trsmZero.WF ∧
    (∀ i j, i < 2 → j < 2 → operator .triangular .lower .unit .none trsmZero.mat i j = if i = j then 1 else 0) ∧
    (trsmH true 32 star insertionSortB gsExG .ref true [0] 111 1 (some (.fresh (trsmZero.raw false) false))
      (some ⟨3, 0, 1, 0⟩) 1 (some [3, 4]) 1 2 (some [0, 0]) 2).map (fun r => (r.1, r.2.1))
      = some (.success, some [0, 0]) := by
  refine ⟨by constructor <;> decide +kernel, all_cells (by decide +kernel), by decide +kernel⟩

end Verif
