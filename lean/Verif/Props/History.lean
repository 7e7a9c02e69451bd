/-
C22: changes of the values are seen by every later call.
-/
import Verif.Props.Update

namespace Verif
open Model Finset

variable {R : Type} [Field R] [StarRing R] [DecidableEq R]

/-- The handles a program can reach, together with the arrays the user believes the matrix to have: by
creation, optimisation, products, triangular solves, smoothing steps, and by changes of one value or of
all values.  Calls may fail unless it says so. -/
inductive UReached (E : GsEnv R) (ta : Bool) : Csr R → MvHandle R → Prop
  | create {A : Csr R} (hA : A.WF) (hd : A.OneDiag) (hnd : A.Grouped ∨ A.NoDup) (sorted : Bool)
      (hs : sorted = true → A.Sorted) : UReached E ta A (.fresh (A.raw ta) sorted)
  | optimize {A : Csr R} {H H' : MvHandle R} {st : Status} {hs hs' : List MvHint} (unrestricted : Bool)
      (ch : MvChoice) (g : Garb R) (g' : MvGarb R) (re : R → R) (hre : ∀ y, star y = y → re y = y)
      (hH : UReached E ta A H) (hf : ta = false → FmtOk E.isa ch A)
      (hh : ∀ x ∈ hs, ∃ t f op, IsHint E.k.real t f op x.h ∧ HintOk E.k.real ta A t f op)
      (e : Model.optimize E.isa E.k.dbl unrestricted E.srt ch g g' star re H hs = some (st, H', hs')) :
      UReached E ta A H'
  | mv {A : Csr R} {H H' : MvHandle R} {st : Status} (g : Garb R) (t : MType) (f : Fill) (D : Diag) (op : Op)
      (alpha beta : R) (x y y' : List R) (hH : UReached E ta A H) (hc : MvCall E.k ta A t f D op x y)
      (e : Model.mv E.isa E.k E.srt g true op.code (some alpha) (some H)
        (some ⟨t.code, f.code, D.code, A.base⟩) (some x) (some beta) (some y) = some (st, some y', some H')) :
      UReached E ta A H'
  | trsv {A : Csr R} {H H' : MvHandle R} {st : Status} (g : Garb R) (im : TrsvImpl R) (same : Bool) (opc : Int)
      (alpha : R) (d : Option Descr) (b x x' : Option (List R)) (incb incx : Int) (hH : UReached E ta A H)
      (e : trsvH E.k.real E.w E.k.cj E.srt g im same opc alpha (some H) d b incb x incx
        = some (st, x', some H')) :
      UReached E ta A H'
  | symgs {A : Csr R} {H H' : MvHandle R} {st : Status} (t : MType) (f : Fill) (op : Op) (alpha : R)
      (b x : List R) (y : Option (List R)) (fuse : Bool) (x' y' : Option (List R)) (hH : UReached E ta A H)
      (hE : GsEnvOk E A) (hA : GsMat A) (hn : H.nulls = 0) (hc : GsCall E ta A t op b x y fuse)
      (e : Model.symgs E true op.code (some H) (some ⟨t.code, f.code, 0, A.base⟩) alpha (some b) (some x) y
        fuse = some (st, x', y', some H')) :
      UReached E ta A H'
  | sorv {A : Csr R} {H H' : MvHandle R} {st : Status} (re same : Bool) (ty : Nat) (d : Option Descr)
      (omega alpha : R) (x b x' : Option (List R)) (hH : UReached E ta A H)
      (e : Model.sorv re same ty d (some H) omega alpha x b = some (st, x', some H')) :
      UReached E ta A H'
  | set {A A' : Csr R} {H H' : MvHandle R} (i j : Nat) (v : R) (hH : UReached E ta A H)
      (hi : i < userRows ta A) (hj : j < userCols ta A)
      (e : setValue true (some H) (i + A.base) (j + A.base) v = some (.success, some H'))
      (hA' : IsSet A A' (if ta then j else i) (if ta then i else j) v) :
      UReached E ta A' H'
  | update {A : Csr R} {H H' : MvHandle R} (v : List R) (hH : UReached E ta A H) (hv : v.length = A.nnz)
      (e : updateValues true (some H) v.length (some v) = some (.success, some H')) :
      UReached E ta { A with val := v } H'

/-- a product that ends leaves the handle alone, or the list had no null pointer -/
theorem mv_nulls_or {isa : Isa} {k : MvSel R} {srt : (Int → Int → Bool) → List Int → List Int} {g : Garb R} {same : Bool} {op : Int}
    {alpha beta : Option R} {H H' : MvHandle R} {d : Option Descr}
    {x y y' : Option (List R)} {st : Status}
    (e : mv isa k srt g same op alpha (some H) d x beta y = some (st, y', some H')) :
    H.nulls = 0 ∨ H' = H := by
  unfold mv at e
  rcases alpha with _ | alpha <;> rcases beta with _ | beta <;> rcases d with _ | d <;>
    rcases x with _ | x <;> rcases y with _ | y <;> try (cases e; exact .inr rfl)
  dsimp only at e
  iterate 6
    (rcases ite_or e with ⟨-, e'⟩ | ⟨-, e'⟩
     · cases e'; exact .inr rfl
     replace e := e'; clear e')
  rcases ite_or e with ⟨-, e⟩ | ⟨-, e⟩
  · simp only [Option.bind_eq_bind, Option.bind_eq_some_iff] at e
    obtain ⟨r, -, e⟩ := e
    cases e; exact .inr rfl
  · simp only [Option.bind_eq_bind, Option.bind_eq_some_iff] at e
    obtain ⟨⟨a, b, c⟩, e1, e⟩ := e
    cases e
    exact .inl (mvRun_nulls e1).1

section
variable {E : GsEnv R} {A : Csr R} {ta : Bool} {H : MvHandle R}

omit [DecidableEq R] in
/-- **C22, all values.**  Replacing all values of a handle succeeds if their number is right (otherwise
the call reports a size and changes nothing), and gives a correct handle of the changed matrix. -/
theorem C22_update (hA : A.WF) (hH : HandleOk ta A H) (v : List R) :
    (v.length = A.nnz → ∃ H', updateValues true (some H) v.length (some v) = some (.success, some H') ∧
      ({ A with val := v } : Csr R).WF ∧ HandleOk ta { A with val := v } H' ∧
      (H.mats.length = 1 → H'.nulls = H.nulls)) ∧
    (v.length ≠ A.nnz → updateValues true (some H) v.length (some v) = some (.invalidSize, some H)) := by
  obtain ⟨idl, o, iu, rest, hf⟩ := hH.first
  have hnz : H.raw.nnz = (A.nnz : Int) := by rw [hH.raw]; rfl
  refine ⟨?_, ?_⟩
  · intro hv
    have hl : (v.length : Int) = H.raw.nnz := by rw [hnz, hv]
    have hcp : copyVals (v.length : Int) v ({ (A.raw ta).copy0 with idiag := idl } : MCopy R).val = some v := by
      have hvl : A.val.length = v.length := by rw [hA.val_len, hv]; rfl
      show copyVals (v.length : Int) v A.val = some v
      unfold copyVals
      rw [if_pos (by omega), Int.toNat_natCast, List.take_length, ← hvl, List.drop_length, List.append_nil]
    refine ⟨H.newVals v, ?_, withVals_wf (v := v) hA hv, hH.newVals hA hv, ?_⟩
    · unfold updateValues
      simp only [hf]
      rw [if_neg (by simp [hl]), if_neg (by simp)]
      simp only [hcp, Option.bind_eq_bind, Option.bind_some]
    · intro hl
      unfold MvHandle.newVals
      rw [hf] at hl ⊢
      simp only [List.length_cons] at hl
      have : rest.length = 0 := by omega
      simp [this]
  · intro hv
    unfold updateValues
    simp only [hf]
    rw [if_pos (by rw [hnz]; omega)]

omit [Field R] [StarRing R] [DecidableEq R] in
/-- **C22, all values, coordinate storage.** -/
theorem C22_update_coo {C : Coo R} (hC : C.WF) (v : List R) :
    (v.length = C.row.length → updateValuesCoo true (some C) v.length (some v)
      = some (.success, some { C with val := v }) ∧ ({ C with val := v } : Coo R).WF) ∧
    (v.length ≠ C.row.length → updateValuesCoo true (some C) v.length (some v) = some (.invalidSize, some C)) := by
  refine ⟨fun hv => ⟨?_, hC.base01, hC.col_len, hv, hC.row_range, hC.col_range⟩, fun hv => ?_⟩
  · have hcp : copyVals (v.length : Int) v C.val = some v := by
      have hvl : C.val.length = v.length := by rw [hC.val_len, hv]
      unfold copyVals
      rw [if_pos (by omega), Int.toNat_natCast, List.take_length, ← hvl, List.drop_length, List.append_nil]
    unfold updateValuesCoo
    dsimp only
    rw [if_neg (by omega), if_neg (by simp)]
    simp only [hcp, Option.bind_eq_bind, Option.bind_some]
  · unfold updateValuesCoo
    dsimp only
    rw [if_pos (by omega)]

/-- after every history the handle is a correct handle of the current matrix -/
theorem C22_invariant (hsrt : StdSort E.srt) (hk : E.k.Ok)
    (h : UReached E ta A H) :
    A.WF ∧ A.OneDiag ∧ (A.Grouped ∨ A.NoDup) ∧ HandleOk ta A H := by
  induction h with
  | create hA hd hnd sorted hs =>
    exact ⟨hA, hd, hnd, C21_invariant (isa := E.isa) (k := E.k) hsrt hk hA hd hnd (.create sorted hs)⟩
  | optimize un ch g g' re hre _ hf hh e ih =>
    obtain ⟨hA, hd, hnd, hH⟩ := ih
    obtain ⟨H1, hs1, e1, h1⟩ := optimize_ok (isa := E.isa) (dbl := E.k.dbl) (unres := un) (ch := ch) (g := g)
      (g' := g') hsrt hre hk.real hA hd hnd hf hH _ hh
    rw [e] at e1
    cases e1
    exact ⟨hA, hd, hnd, h1⟩
  | mv g t f D op alpha beta x y y' hr hc e ih =>
    obtain ⟨hA, hd, hnd, hH⟩ := ih
    rcases mv_nulls_or e with hn | rfl
    rotate_left
    · exact ⟨hA, hd, hnd, hH⟩
    obtain ⟨st', y'', H'', e', h1, -⟩ := C21_mv (isa := E.isa) (alpha := alpha) (beta := beta) hsrt g hk hc hH hn
    rw [e] at e'
    cases e'
    exact ⟨hA, hd, hnd, h1⟩
  | trsv g im same opc alpha d b x x' incb incx _ e ih =>
    obtain ⟨hA, hd, hnd, hH⟩ := ih
    exact ⟨hA, hd, hnd, C27_handle_keeps hsrt g hA hd hnd hH e⟩
  | symgs t f op alpha b x y fuse x' y' hr hE hM hn hc e ih =>
    obtain ⟨hA, hd, hnd, hH⟩ := ih
    obtain ⟨x1, y1, H1, e', h1, -⟩ := C35_symgs (f := f) (alpha := alpha) hE hM hH hn hc
    rw [e] at e'
    cases e'
    exact ⟨hA, hd, hnd, h1⟩
  | sorv re same ty d omega alpha x b x' _ e ih =>
    obtain ⟨hA, hd, hnd, hH⟩ := ih
    exact ⟨hA, hd, hnd, C35_sorv_keeps hA hH e⟩
  | @set A A' H H' i j v _ hi hj e hset ih =>
    obtain ⟨hA, hd, hnd, hH⟩ := ih
    have hst : userStored ta A i j := by
      by_contra hc
      rw [(C45_set hA hH hi hj v).1 hc] at e
      cases e
    obtain ⟨A1, H1, e1, s1, w1, h1, -⟩ := (C45_set hA hH hi hj v).2 hst
    rw [e] at e1
    cases e1
    have hi' : (if ta then j else i) < A.m := by cases ta <;> assumption
    have := hset.unique hA hi' s1
    subst this
    have hv : A'.val.length = A.ind.length := s1.len.trans hA.val_len
    have heq : A' = A.withVals A'.val := by
      rcases A' with ⟨m, n, base, ptr, ind, val⟩
      obtain ⟨rfl, rfl, rfl, rfl, rfl, -, -, -⟩ := s1
      rfl
    refine ⟨w1, ?_, ?_, h1⟩
    · rw [heq]; exact (withVals_oneDiag hA hv).2 hd
    · rw [heq]
      exact hnd.imp (withVals_grouped hA hv).2 (withVals_noDup hA hv).2
  | update v _ hv e ih =>
    obtain ⟨hA, hd, hnd, hH⟩ := ih
    obtain ⟨H1, e1, w1, h1, -⟩ := (C22_update hA hH v).1 hv
    rw [e] at e1
    cases e1
    exact ⟨w1, (withVals_oneDiag hA hv).2 hd, hnd.imp (withVals_grouped hA hv).2 (withVals_noDup hA hv).2, h1⟩

/-- **C22, triangular solves.**  After any history, changes of values included, a solve succeeds and solves
with the current values. -/
theorem C22_trsv (hsrt : StdSort E.srt) (hk : E.k.Ok) (h : UReached E ta A H) (g : Garb R) (im : TrsvImpl R)
    (op : Op) (alpha : R) (t : MType) (f : Fill) (Dg : Diag) (b x : List R) (incb incx : Nat)
    (hm : 0 < A.m) (hnz : 0 < A.nnz) (hsq : A.m = A.n) (ht : t = .symmetric ∨ t = .triangular)
    (hdz : Dg ≠ .zero) (hinv : Dg = .nonUnit → A.FullDiag ∧ ∀ i, i < A.m → A.mat i i ≠ 0)
    (him : SolveOk im A alpha) (hincb : 0 < incb)
    (hincx : 0 < incx) (hov : prodOvf E.w ((A.m : Int) - 1) incx = false)
    (hovb : prodOvf E.w ((A.m : Int) - 1) incb = false)
    (hb : ∀ i, i < A.m → i * incb < b.length) (hx : ∀ i, i < A.m → i * incx < x.length) :
    ∃ x' H', trsvH E.k.real E.w E.k.cj E.srt g im true op.code alpha (some H)
        (some ⟨t.code, f.code, Dg.code, A.base⟩) (some b) incb (some x) incx
        = some (.success, some x', some H') ∧ UReached E ta A H' ∧
      IsSolve (operator .triangular f Dg op (userMat ta A)) A.m alpha b incb x incx x' := by
  obtain ⟨hA, hd, hnd, hH⟩ := C22_invariant hsrt hk h
  obtain ⟨x', H', e, -, hs⟩ := C27_handle (isReal := E.k.real) (w := E.w) (im := im) (op := op)
    (alpha := alpha) (t := t) (f := f) (Dg := Dg) (b := b) (x := x) (incb := incb) (incx := incx)
    hsrt g hk.real hA hd hnd hm hnz hsq ht hdz hinv him hincb hincx hov hovb hb hx hH
  have e' : trsvH E.k.real E.w E.k.cj E.srt g im true op.code alpha (some H)
        (some ⟨t.code, f.code, Dg.code, A.base⟩) (some b) incb (some x) incx
        = some (.success, some x', some H') := by
    rw [hk.cj]; exact e
  exact ⟨x', H', e', .trsv g im true op.code alpha _ _ _ _ _ _ h e', hs⟩

/-- **C22, relaxation.**  The same for successive over-relaxation with a CSR handle, if the diagonal now
stored has no zero. -/
theorem C22_sorv (hsrt : StdSort E.srt) (hk : E.k.Ok) (h : UReached E false A H) (hsq : A.m = A.n)
    (hm : 0 < A.m) (hd : ∀ i, i < A.m → (A.cols i).count (i : Int) = 1 ∧ A.mat i i ≠ 0)
    {f : Fill} {D : Diag} {omega alpha : R} {b x : List R} (hx : A.m ≤ x.length) (hb : A.m ≤ b.length) :
    ∃ x' H', sorv true true 0 (some ⟨0, f.code, D.code, A.base⟩) (some H) omega alpha (some x) (some b)
        = some (.success, some x', some H') ∧ UReached E false A H' ∧
      IsSor (userMat false A) A.m omega alpha b x x' := by
  obtain ⟨hA, -, -, hH⟩ := C22_invariant hsrt hk h
  obtain ⟨x', H', e, -, k⟩ := C35_sorv (f := f) (D := D) (omega := omega) (alpha := alpha) hA hsq hm hH hd hx hb
  exact ⟨x', H', e, .sorv _ _ _ _ _ _ _ _ _ h e, k⟩

/-- **C22, products.**  After any history in which no value was changed while the handle held a copy (so
that no null pointer is left in its list), a product fails and leaves `y` alone or uses the current
values; supported requests succeed. -/
theorem C22_mv (hsrt : StdSort E.srt) (hk : E.k.Ok) (h : UReached E ta A H) (hn : H.nulls = 0) (g : Garb R)
    (t : MType) (f : Fill) (D : Diag) (op : Op) (alpha beta : R) (x y : List R)
    (hc : MvCall E.k ta A t f D op x y) :
    ∃ st y' H', mv E.isa E.k E.srt g true op.code (some alpha) (some H)
        (some ⟨t.code, f.code, D.code, A.base⟩) (some x) (some beta) (some y) = some (st, some y', some H') ∧
      UReached E ta A H' ∧ (st ≠ .success → y' = y) ∧
      (st = .success → IsMv alpha beta (operator t f D op (userMat ta A)) (opRows op ta A)
        (opCols op ta A) x y y') ∧
      (MvSupported E.isa E.k ta A t D op → st = .success) := by
  obtain ⟨hA, hd, hnd, hH⟩ := C22_invariant hsrt hk h
  obtain ⟨st, y', H', e, -, k1, k2, k3⟩ := C21_mv (isa := E.isa) (alpha := alpha) (beta := beta) hsrt g hk hc hH hn
  exact ⟨st, y', H', e, .mv g t f D op alpha beta x y y' h hc e, k1, k2, k3⟩

/-- **C22, smoothing.**  The same for symmetric Gauss-Seidel with the current values. -/
theorem C22_symgs (hsrt : StdSort E.srt) (hk : E.k.Ok) (h : UReached E ta A H) (hn : H.nulls = 0)
    (hE : GsEnvOk E A) (hA : GsMat A) {t : MType} {f : Fill} {op : Op} {alpha : R} {b x : List R}
    {y : Option (List R)} {fuse : Bool} (hc : GsCall E ta A t op b x y fuse) :
    ∃ x' y' H', symgs E true op.code (some H) (some ⟨t.code, f.code, 0, A.base⟩) alpha (some b) (some x) y
        fuse = some (.success, some x', y', some H') ∧ UReached E ta A H' ∧
      (t = .triangular → IsSolve (operator t f .nonUnit op (userMat ta A)) A.m 1 b 1 x 1 x') ∧
      (t ≠ .triangular → IsSymgs (operator t f .nonUnit op (userMat ta A)) A.m alpha b x x') ∧
      (fuse = false → y' = y) ∧
      (fuse = true → ∃ yl yl', y = some yl ∧ y' = some yl' ∧
        IsMv 1 0 (operator t f .nonUnit op (userMat ta A)) A.m A.m x' yl yl') := by
  obtain ⟨-, -, -, hH⟩ := C22_invariant hsrt hk h
  obtain ⟨x', y', H', e, -, k⟩ := C35_symgs (f := f) (alpha := alpha) hE hA hH hn hc
  exact ⟨x', y', H', e, .symgs t f op alpha b x y fuse _ _ h hE hA hn hc e, k⟩

/-- a change of one value of a reached handle succeeds whenever the coordinate is stored -/
theorem C22_set (hsrt : StdSort E.srt) (hk : E.k.Ok) (h : UReached E ta A H) {i j : Nat}
    (hi : i < userRows ta A) (hj : j < userCols ta A) (hst : userStored ta A i j) (v : R) :
    ∃ A' H', setValue true (some H) (i + A.base) (j + A.base) v = some (.success, some H') ∧
      IsSet A A' (if ta then j else i) (if ta then i else j) v ∧ UReached E ta A' H' ∧
      (H.mats.length = 1 → H'.nulls = H.nulls) := by
  obtain ⟨hA, -, -, hH⟩ := C22_invariant hsrt hk h
  obtain ⟨A', H', e, s, -, -, n⟩ := (C45_set hA hH hi hj v).2 hst
  exact ⟨A', H', e, s, .set i j v h hi hj e s, n⟩

/-- a change of all values of a reached handle succeeds -/
theorem C22_update_all (hsrt : StdSort E.srt) (hk : E.k.Ok) (h : UReached E ta A H) (v : List R)
    (hv : v.length = A.nnz) :
    ∃ H', updateValues true (some H) v.length (some v) = some (.success, some H') ∧
      UReached E ta { A with val := v } H' ∧ (H.mats.length = 1 → H'.nulls = H.nulls) := by
  obtain ⟨hA, -, -, hH⟩ := C22_invariant hsrt hk h
  obtain ⟨H', e, -, -, n⟩ := (C22_update hA hH v).1 hv
  exact ⟨H', e, .update v h hv e, n⟩

end

/-! ### concrete cases -/

set_option synthInstance.maxSize 1000

def upG' : MvGarb Rat := ⟨fun _ => 5, fun _ => 6, fun _ => 7, fun _ => 8, fun _ => 9⟩

/-- create and optimise with hints -/
def upOpt (ta : Bool) (A : Csr Rat) (hs : List MvHint) (fmt : Nat) : Option (MvHandle Rat) := do
  let o ← optimize gsExE.isa true true insertionSortB (mvExChoice fmt) gsExG upG' star id
    (.fresh (A.raw ta) false) hs
  some o.2.1

/-- lower triangular solve of `b`: status, result and handle -/
def upTrsv (H : MvHandle Rat) (base : Int) (b : List Rat) :
    Option (Status × Option (List Rat) × Option (MvHandle Rat)) :=
  trsvH true 64 star insertionSortB gsExG .ref true 111 1 (some H) (some ⟨3, 0, 0, base⟩) (some b) 1
    (some [0, 0, 0]) 1

/-- general product with `x`: status, result and handle -/
def upMv (H : MvHandle Rat) (base : Int) (x : List Rat) :
    Option (Status × Option (List Rat) × Option (MvHandle Rat)) :=
  mv gsExE.isa gsExSel insertionSortB gsExG true 111 (some 1) (some H) (some ⟨0, 0, 0, base⟩) (some x)
    (some 0) (some [0, 0, 0])

/-- status and result only -/
def upShow (r : Option (Status × Option (List Rat) × Option (MvHandle Rat))) :
    Option (Status × Option (List Rat)) := r.map fun r => (r.1, r.2.1)

/-- the changed arrays -/
def upA' : Csr Rat := { gsExA with val := [1, 4, -1, 5, 7, 6, 1] }

example : IsSet gsExA upA' 1 0 7 := by
  refine ⟨rfl, rfl, rfl, rfl, rfl, rfl, ?_, ?_⟩
  · decide +kernel
  · exact ⟨[(2, -1), (1, 5)], 2, [], by decide +kernel, by decide +kernel, by decide +kernel⟩

/-- a solve, a change of one value, a solve: the second one uses the new value -/
example : (do
    let r ← upTrsv (.fresh (gsExA.raw false) false) 1 [4, 10, 6]
    let H ← r.2.2
    let s ← setValue true (some H) 2 1 7
    let H' ← s.2
    let q ← upShow (upTrsv H' 1 [4, 10, 6])
    some (r.2.1, s.1, q))
    = some (some [1, 8 / 5, 11 / 15], .success, .success, some [1, 3 / 5, 9 / 10]) := by decide +kernel

/-- a product, a change of all values, a product -/
example : (do
    let r ← upMv (.fresh (gsExA.raw false) false) 1 [1, 1, 1]
    let H ← r.2.2
    let s ← updateValues true (some H) 7 (some [1, 1, 1, 1, 1, 1, 1])
    let H' ← s.2
    let q ← upShow (upMv H' 1 [1, 1, 1])
    some (r.2.1, s.1, q))
    = some (some [5, 6, 7], .success, .success, some [2, 3, 2]) := by decide +kernel

/-- A handle that holds a copy (here after a triangular solve) and gets a new value cannot be multiplied
any more: the list of copies keeps a null pointer, which the search for the best copy dereferences. -/
theorem C22_null_counterexample : (do
      let r ← upTrsv (.fresh (gsExA.raw false) false) 1 [4, 10, 6]
      let H ← r.2.2
      some (upShow (upMv H 1 [1, 1, 1]))) = some (some (.success, some [5, 6, 7])) ∧
    (do
      let r ← upTrsv (.fresh (gsExA.raw false) false) 1 [4, 10, 6]
      let H ← r.2.2
      let s ← setValue true (some H) 2 1 7
      let H' ← s.2
      some (s.1, upShow (upMv H' 1 [1, 1, 1]))) = some (.success, none) := by decide +kernel

/-- The incomplete factors survive a change of the values: the smoother goes on solving with the old
matrix. -/
theorem C22_ilu_counterexample : (do
      let r ← ilu iluNz (fun _ => 9) true 111 (some (.fresh (iluEx.raw false) .fully true)) (some ⟨0, 0, 0, 1⟩)
        true (some [0, 0, 0]) (some [1, 2, 3])
      let H ← r.2.2.2
      some (iluShow (ilu iluNz (fun _ => 9) true 111 (some (H.newVals [1, 0, 0, 0, 1, 0, 0, 1]))
        (some ⟨0, 0, 0, 1⟩) true (some [0, 0, 0]) (some [1, 2, 3]))))
      = some (some (.success, true, some [3/10, 0, 2/5], some [2, 1, 1, 2, 3, 1, 1, 5])) ∧
    iluShow (ilu iluNz (fun _ => 9) true 111
        (some ((IluHandle.fresh (iluEx.raw false) .fully true).newVals [1, 0, 0, 0, 1, 0, 0, 1]))
        (some ⟨0, 0, 0, 1⟩) true (some [0, 0, 0]) (some [1, 2, 3]))
      = some (.success, true, some [1, 2, 3], some [1, 0, 0, 0, 1, 0, 0, 1]) := by decide +kernel

/-- The mark of a full diagonal survives too: after a diagonal entry was set to zero, a relaxation that
ran before the change runs again and divides by zero, instead of reporting it. -/
theorem C22_sorv_counterexample : (do
      let r ← sorv true true 0 (some ⟨0, 0, 0, 1⟩) (some (.fresh (gsExA.raw false) false)) 1 1 (some [1, 1, 1])
        (some [4, 10, 6])
      let H ← r.2.2
      let s ← setValue true (some H) 1 1 0
      let H' ← s.2
      let q ← sorv true true 0 (some ⟨0, 0, 0, 1⟩) (some H') 1 1 (some [1, 1, 1]) (some [4, 10, 6])
      some (r.1, s.1, q.1)) = some (.success, .success, .success) ∧
    (do
      let s ← setValue true (some (.fresh (gsExA.raw false) false)) 1 1 (0 : Rat)
      let H' ← s.2
      let q ← sorv true true 0 (some ⟨0, 0, 0, 1⟩) (some H') 1 1 (some [1, 1, 1]) (some [4, 10, 6])
      some (s.1, q.1)) = some (.success, .invalidValue) := by decide +kernel

/-- C45: only the first of two entries at a coordinate changes -/
theorem C45_duplicate_counterexample :
    (setValue true (some (.fresh ((⟨1, 1, 0, [0, 2], [0, 0], [3, 4]⟩ : Csr Rat).raw false) false)) 0 0 5).map
      (fun r => (r.1, r.2.map (·.raw.val))) = some (.success, some [5, 4]) := by decide +kernel

/-- C45: coordinates outside, inside and not stored -/
example : (setValue true (some (.fresh (gsExA.raw false) false)) 0 1 7).map (·.1) = some .invalidValue ∧
    (setValue true (some (.fresh (gsExA.raw false) false)) 1 3 7).map (·.1) = some .invalidIndexValue := by
  decide +kernel

example : IsSetCoo (⟨2, 2, 1, [2, 1], [1, 2], [3, 4]⟩ : Coo Rat) ⟨2, 2, 1, [2, 1], [1, 2], [3, 5]⟩ 0 1 5 ∧
    setValueCoo true (some ⟨2, 2, 1, [2, 1], [1, 2], [3, 4]⟩) 1 2 5
      = some (.success, some (⟨2, 2, 1, [2, 1], [1, 2], [3, 5]⟩ : Coo Rat)) := by
  refine ⟨⟨rfl, rfl, rfl, rfl, rfl, rfl, [(1, 0, 3)], 4, [], ?_, ?_, ?_⟩, ?_⟩
  · decide +kernel
  · decide +kernel
  · decide +kernel
  · refine congrArg some ?_
    rfl

/-! C26 -/

/-- 2 x 3 -/
def upB : Csr Rat := ⟨2, 3, 0, [0, 3, 5], [2, 0, 1, 1, 0], [1, 2, 3, 4, 5]⟩
/-- the columns of the same matrix -/
def upBt : Csr Rat := ⟨3, 2, 0, [0, 2, 4, 5], [1, 0, 1, 0, 0], [5, 2, 4, 3, 1]⟩

def upOrder (ta : Bool) (A : Csr Rat) : Option (Status × List Int × List Rat) := do
  let r ← orderMat insertionSortB (some (.fresh (A.raw ta) false))
  let H ← r.2
  some (r.1, H.raw.ind, H.raw.val)

example : upB.WF ∧ upB.NoDup ∧ upOrder false upB = some (.success, [0, 1, 2, 0, 1], [2, 3, 1, 5, 4]) := by
  decide +kernel

/-- rectangular CSC arrays: with fewer rows than columns the last columns are not sorted, with more rows
than columns the call reads past the array of column pointers -/
theorem C26_csc_counterexample : upBt.WF ∧ upBt.NoDup ∧
    (∀ i < 2, ∀ j < 3, upBt.get j i = upB.get i j) ∧
    upOrder true ⟨3, 2, 0, [0, 1, 2, 4], [1, 0, 1, 0], [5, 2, 4, 3]⟩ = some (.success, [1, 0, 1, 0], [5, 2, 4, 3]) ∧
    upOrder true upB = none := by decide +kernel

/-! C24 -/

def upExport (ta : Bool) (A : Csr Rat) (hs : List MvHint) (fmt : Nat) :
    Option (Status × Option (List Int × List Int × List Rat)) := do
  let H ← upOpt ta A hs fmt
  let r ← exportCsr true true (some H)
  some (r.1, r.2.map fun e => (e.ptr, e.ind, e.val))

/-- no hint, and a hint for a solve, which sorts a copy: the matrix is the same -/
example : upExport false gsExA [] 0
      = some (.success, some ([1, 3, 6, 8], [2, 1, 3, 2, 1, 3, 2], [1, 4, -1, 5, 2, 6, 1])) ∧
    upExport false gsExA [⟨⟨0, 0, false⟩, 2, 111, 0, 10⟩] 0
      = some (.success, some ([0, 2, 5, 7], [0, 1, 0, 1, 2, 1, 2], [4, 1, 2, 5, -1, 1, 6])) ∧
    upExport true gsExA [] 0 = some (.invalidValue, none) ∧
    upExport true gsExA [⟨⟨0, 0, false⟩, 1, 111, 0, 10⟩] 0
      = some (.success, some ([0, 2, 5, 7], [0, 1, 0, 1, 2, 1, 2], [4, 2, 1, 5, 1, -1, 6])) := by decide +kernel

/-- After a hint for products with the symmetric matrix of the lower triangle, the export returns that
symmetric matrix instead of the user's. -/
theorem C24_symmetric_counterexample :
    upExport false gsExA [⟨⟨4, 0, false⟩, 1, 111, 1, 10⟩] 0
      = some (.success, some ([0, 2, 5, 7], [0, 1, 0, 1, 2, 1, 2], [4, 2, 2, 5, 1, 1, 6])) ∧
    gsExA.get 0 1 = 1 := by decide +kernel

/-! C25 -/

example : (do
    let H ← upOpt false gsExA [⟨⟨4, 0, false⟩, 1, 111, 1, 10⟩] 0
    let r ← copyH false (some H)
    let C ← r.2
    some (H.mats.length, r.1, C.mats.length, upShow (upMv C 1 [1, 1, 1])))
    = some (2, .success, 1, some (.success, some [5, 6, 7])) := by decide +kernel

end Verif
