/-
C21: the result of the matrix-vector product does not depend on the copies a handle holds.
-/
import Verif.Proofs.Nulls
import Verif.Proofs.Mv4

namespace Verif
open Model Finset

variable {R : Type} [CommRing R] [StarRing R] [DecidableEq R]

theorem IsMv.unique {alpha beta : R} {M : Mat R} {m n : Nat} {x y y1 y2 : List R}
    (h1 : IsMv alpha beta M m n x y y1) (h2 : IsMv alpha beta M m n x y y2) : y1 = y2 := by
  apply List.ext_getElem?
  intro i
  by_cases hi : i < m
  · rw [h1.rows i hi, h2.rows i hi]
  · rw [h1.rest i (by omega), h2.rest i (by omega)]

/-- The requests the library serves for every handle: the kernels are there, the matrix is square where
its type asks for it, a general matrix comes with an ordinary diagonal, real matrices are not declared
Hermitian, and complex CSC matrices are not multiplied as conjugate transposes of general or triangular
matrices. -/
structure MvSupported (isa : Isa) (k : MvSel R) (ta : Bool) (A : Csr R) (t : MType) (D : Diag) (op : Op) :
    Prop where
  served : MvServed isa k t D
  square : t = .symmetric ∨ t = .hermitian → A.m = A.n
  herm : t = .hermitian → k.real = false
  conj : ¬ (k.real = false ∧ ta = true ∧ op = .conjTrans ∧ (t = .general ∨ t = .triangular))

theorem arch_supported {isa : Isa} {k : MvSel R} {ta : Bool} {A : Csr R} {t : MType} {f : Fill} {op : Op}
    (hc : ¬ (k.real = false ∧ ta = true ∧ op = .conjTrans ∧ (t = .general ∨ t = .triangular))) :
    archScore isa k.real k.dbl 0 (effDoid (A.raw ta).doid (getDoid k.real t.code f.code op.code)) ≠ 0 := by
  rw [raw_doid]
  revert hc
  generalize k.real = re
  generalize k.dbl = db
  obtain ⟨a2, a5, vl⟩ := isa
  cases re <;> cases ta <;> cases t <;> cases f <;> cases op <;> cases a2 <;> cases a5 <;>
    first
    | (intro hc; exact absurd ⟨rfl, rfl, rfl, .inl rfl⟩ hc)
    | (intro hc; exact absurd ⟨rfl, rfl, rfl, .inr rfl⟩ hc)
    | (intro _; cases db <;> cases vl <;> decide)

section
variable {isa : Isa} {k : MvSel R} {ta : Bool} {A : Csr R} {t : MType} {f : Fill} {D : Diag} {op : Op}
  {alpha beta : R} {x y : List R} {H : MvHandle R}

/-- **C21, one call.**  Whatever copies a correct handle holds (no null pointers), in whatever order
and with whatever marks, on any processor: a call either fails and leaves `y` alone, or computes
`alpha * op(A) * x + beta * y` for the matrix the user described; the handle stays correct; and every
supported request succeeds. -/
theorem C21_mv {srt : (Int → Int → Bool) → List Int → List Int} (hsrt : StdSort srt) (g : Garb R)
    (hk : k.Ok) (h : MvCall k ta A t f D op x y) (hH : HandleOk ta A H) (hn : H.nulls = 0) :
    ∃ st y' H', mv isa k srt g true op.code (some alpha) (some H) (some ⟨t.code, f.code, D.code, A.base⟩)
        (some x) (some beta) (some y) = some (st, some y', some H') ∧
      HandleOk ta A H' ∧ (st ≠ .success → y' = y) ∧
      (st = .success → IsMv alpha beta (operator t f D op (userMat ta A)) (opRows op ta A)
        (opCols op ta A) x y y') ∧
      (MvSupported isa k ta A t D op → st = .success) := by
  have hbase : H.raw.base = A.base := by rw [hH.raw]; rfl
  have hum : H.raw.um = (userRows ta A : Int) := by rw [hH.raw]; cases ta <;> rfl
  have hun : H.raw.un = (userCols ta A : Int) := by rw [hH.raw]; cases ta <;> rfl
  have hnz : H.raw.nnz = (A.nnz : Int) := by rw [hH.raw]; rfl
  unfold mv
  dsimp only
  rw [if_neg (by simpa using hbase), if_neg (by cases op <;> decide), if_neg (by simp),
    if_neg (by cases t <;> decide)]
  have hsymc : (t.code = 1 ∨ t.code = 2) ↔ (t = .symmetric ∨ t = .hermitian) := by
    cases t <;> simp [MType.code]
  have hsqc : H.raw.um ≠ H.raw.un ↔ A.m ≠ A.n := by
    rw [hum, hun]
    cases ta <;> simp [userRows, userCols, eq_comm]
  by_cases hq : (t.code = 1 ∨ t.code = 2) ∧ H.raw.um ≠ H.raw.un
  · rw [if_pos hq]
    exact ⟨_, y, H, rfl, hH, fun _ => rfl, by simp, fun hs => absurd (hs.square (hsymc.1 hq.1)) (hsqc.1 hq.2)⟩
  rw [if_neg hq]
  have hsq : t = .symmetric ∨ t = .hermitian → A.m = A.n := by
    intro ht
    by_contra hc
    exact hq ⟨hsymc.2 ht, hsqc.2 hc⟩
  by_cases hr : k.real = true ∧ t.code = 2
  · rw [if_pos hr]
    refine ⟨_, y, H, rfl, hH, fun _ => rfl, by simp, fun hs => ?_⟩
    have : t = .hermitian := by
      cases t <;> simp [MType.code] at hr ⊢
    have := hs.herm this
    rw [hr.1] at this
    cases this
  rw [if_neg hr]
  by_cases he : H.raw.um = 0 ∨ H.raw.un = 0 ∨ (H.raw.nnz = 0 ∧ t.code = 0)
  · rw [if_pos he]
    have hsz : (if op.code = 111 then H.raw.um else H.raw.un) = ((opRows op ta A : Nat) : Int) := by
      rw [hum, hun]
      cases op <;> simp [Op.code, opRows]
    obtain ⟨y', e1, e2, e3, e4⟩ := vscale_spec (beta := beta) h.ylen
    rw [hsz]
    simp only [e1, Option.bind_eq_bind, Option.bind_some]
    refine ⟨.success, y', H, rfl, hH, by simp, ?_, fun _ => rfl⟩
    intro _
    refine ⟨e2, ?_, e4⟩
    intro i hi
    rw [e3 i hi]
    have hz : matVec (operator t f D op (userMat ta A)) (opCols op ta A) x i = 0 := by
      rw [hum, hun, hnz] at he
      by_cases hc : opCols op ta A = 0
      · unfold matVec
        rw [hc]
        simp
      · have hrow : opRows op ta A ≠ 0 := by omega
        have hgen : A.nnz = 0 ∧ t = .general := by
          rcases he with h1 | h1 | ⟨h1, h2⟩
          · exfalso
            unfold opRows at hrow
            unfold opCols at hc
            split at hc <;> simp_all
          · exfalso
            unfold opRows at hrow
            unfold opCols at hc
            split at hc <;> simp_all
          · refine ⟨by omega, ?_⟩
            cases t <;> simp [MType.code] at h2 ⊢
        obtain ⟨h0, rfl⟩ := hgen
        have hmz : ∀ i j, A.mat i j = 0 := by
          intro i j
          unfold Csr.mat Csr.entry Csr.row
          have : A.ind = [] := List.length_eq_zero_iff.1 h0
          rw [this]
          simp
        unfold matVec
        apply sum_eq_zero
        intro j _
        have : operator .general f D op (userMat ta A) i j = 0 := by
          cases op <;> cases ta <;> simp [operator, applyOp, structured, userMat, transM, hmz]
        rw [this, zero_mul]
    rw [hz, mul_zero, zero_add]
  · rw [if_neg he]
    have hm0 : A.m ≠ 0 := by
      intro hc
      rw [hum, hun] at he
      cases ta <;> simp [userRows, userCols, hc] at he
    have hz : t = .general → A.nnz ≠ 0 := by
      rintro rfl hc
      exact he (.inr (.inr ⟨by rw [hnz, hc]; rfl, rfl⟩))
    -- the operation after folding
    obtain ⟨op', hop, hcall, hoper, hrows, hcols, hgood⟩ : ∃ op' : Op,
        (if k.real = true ∧ op.code = 113 then 112 else op.code) = op'.code ∧
        MvCall k ta A t f D op' x y ∧
        operator t f D op' (userMat ta A) = operator t f D op (userMat ta A) ∧
        opRows op' ta A = opRows op ta A ∧ opCols op' ta A = opCols op ta A ∧
        (¬ (k.real = false ∧ ta = true ∧ op = .conjTrans ∧ (t = .general ∨ t = .triangular)) →
          ¬ (k.real = false ∧ ta = true ∧ op' = .conjTrans ∧ (t = .general ∨ t = .triangular))) := by
      by_cases hf : k.real = true ∧ op.code = 113
      · have hoc : op = .conjTrans := by
          have := hf.2
          cases op <;> simp [Op.code] at this ⊢
        subst hoc
        refine ⟨.trans, by rw [if_pos hf]; rfl, ?_, ?_, rfl, rfl, fun _ => by simp⟩
        · refine ⟨h.wf, h.cleanable, h.herm, h.shape, ?_, h.xlen, h.ylen⟩
          intro a b c d e
          exact h.avx2 a b c d (by simpa using e)
        · funext i j
          simp [operator, applyOp, hk.real hf.1]
      · exact ⟨op, by rw [if_neg hf], h, rfl, rfl, rfl, id⟩
    rw [hop]
    obtain ⟨st, y', H', e1, e2, e3, e4, e5⟩ := mvRun_spec (isa := isa) (alpha := alpha) (beta := beta) hsrt g
      hk hcall hsq hH hn hm0 hz
    simp only [e1, Option.bind_eq_bind, Option.bind_some]
    refine ⟨st, y', H', rfl, e2, e3, ?_, ?_⟩
    · rw [hoper, hrows, hcols] at e4
      exact e4
    · intro hs
      exact e5 hs.served (arch_supported (hgood hs.conj))

/-- **C21, argument checks.**  A call with a null argument, a wrong base, an unknown operation, values
of another type or an unknown matrix type fails and changes nothing. -/
theorem C21_invalid (srt : (Int → Int → Bool) → List Int → List Int) (g : Garb R) (same : Bool)
    (opc : Int) (a : Option R) (Hd : Option (MvHandle R)) (d : Option Descr) (xo : Option (List R))
    (b : Option R) (yo : Option (List R))
    (hbad : a = none ∨ Hd = none ∨ d = none ∨ xo = none ∨ b = none ∨ yo = none ∨ same = false ∨
      (∀ op : Op, op.code ≠ opc) ∨ (∃ H dd, Hd = some H ∧ d = some dd ∧
        (H.raw.base ≠ dd.base ∨ ∀ t : MType, t.code ≠ dd.type))) :
    ∃ st, mv isa k srt g same opc a Hd d xo b yo = some (st, yo, Hd) ∧ st ≠ .success := by
  unfold mv
  split
  · rename_i a' b' H' d' x' y'
    simp only [reduceCtorEq, false_or, Option.some.injEq] at hbad
    by_cases h1 : H'.raw.base ≠ d'.base
    · rw [if_pos h1]; exact ⟨_, rfl, by simp⟩
    rw [if_neg h1]
    by_cases h2 : opc ≠ 111 ∧ opc ≠ 112 ∧ opc ≠ 113
    · rw [if_pos h2]; exact ⟨_, rfl, by simp⟩
    rw [if_neg h2]
    by_cases h3 : same = false
    · rw [if_pos h3]; exact ⟨_, rfl, by simp⟩
    rw [if_neg h3]
    rw [if_pos]
    · exact ⟨_, rfl, by simp⟩
    · rcases hbad with h | h | ⟨H2, d2, rfl, rfl, h | h⟩
      · exact absurd h h3
      · exfalso
        apply h2
        exact ⟨fun e => h .none e.symm, fun e => h .trans e.symm, fun e => h .conjTrans e.symm⟩
      · exact absurd h h1
      · exact ⟨fun e => h .general e.symm, fun e => h .symmetric e.symm, fun e => h .hermitian e.symm,
          fun e => h .triangular e.symm⟩
  · exact ⟨_, rfl, by simp⟩

end

/-! ### histories -/

/-- Handles of the matrix described by the arrays `A` that can be reached: by creation, by
`aoclsparse_optimize` with any list of hints the matrix allows (any of them already acted on, any memory
policy, any outcome of the tuning), and by products of any kind. -/
inductive MvReached (isa : Isa) (k : MvSel R) (srt : (Int → Int → Bool) → List Int → List Int) (ta : Bool)
    (A : Csr R) : MvHandle R → Prop
  | create (sorted : Bool) (hs : sorted = true → A.Sorted) :
      MvReached isa k srt ta A (.fresh (A.raw ta) sorted)
  | optimize {H H' : MvHandle R} {st : Status} {hs hs' : List MvHint} (unrestricted : Bool)
      (ch : MvChoice) (g : Garb R) (g' : MvGarb R) (re : R → R) (hre : ∀ y, star y = y → re y = y)
      (hH : MvReached isa k srt ta A H)
      (hf : ta = false → FmtOk isa ch A)
      (hh : ∀ x ∈ hs, ∃ t f op, IsHint k.real t f op x.h ∧ HintOk k.real ta A t f op)
      (e : Model.optimize isa k.dbl unrestricted srt ch g g' star re H hs = some (st, H', hs')) :
      MvReached isa k srt ta A H'
  | mv {H H' : MvHandle R} {st : Status} (g : Garb R) (t : MType) (f : Fill) (D : Diag) (op : Op)
      (alpha beta : R) (x y y' : List R) (hH : MvReached isa k srt ta A H) (hc : MvCall k ta A t f D op x y)
      (e : Model.mv isa k srt g true op.code (some alpha) (some H) (some ⟨t.code, f.code, D.code, A.base⟩)
        (some x) (some beta) (some y) = some (st, some y', some H')) :
      MvReached isa k srt ta A H'

section
variable {isa : Isa} {k : MvSel R} {srt : (Int → Int → Bool) → List Int → List Int} {ta : Bool}
  {A : Csr R}

/-- no null pointer in the list of copies -/
theorem C21_nulls {H : MvHandle R} (h : MvReached isa k srt ta A H) : H.nulls = 0 := by
  induction h with
  | create => rfl
  | optimize unres ch g g' re hre hH hf hh e ih => exact (optimize_nulls e).trans ih
  | mv g t f D op alpha beta x y y' hH hc e ih => exact (mv_nulls e).trans ih

/-- every reachable handle holds the user's arrays and correct objects -/
theorem C21_invariant (hsrt : StdSort srt) (hk : k.Ok) (hA : A.WF) (hd : A.OneDiag)
    (hnd : A.Grouped ∨ A.NoDup) {H : MvHandle R} (h : MvReached isa k srt ta A H) : HandleOk ta A H := by
  induction h with
  | create sorted hs =>
    refine ⟨rfl, ⟨none, false, none, [], rfl⟩, ?_, hs, fun s h ho => by
      rw [List.mem_singleton.1 h] at ho; cases ho⟩
    intro s h
    rw [List.mem_singleton.1 h]
    obtain ⟨k1, k2⟩ := copy0_idiag_ok hA ta none
    exact ⟨k1, by
      show _ = (((({ (A.raw ta).copy0 with idiag := none } : MCopy R).csr _ _)).n : Int)
      rw [k2]; rfl, fun _ => ⟨rfl, rfl⟩, fun h => by cases h⟩
  | optimize unres ch g g' re hre hH hf hh e ih =>
    obtain ⟨H1, hs1, e1, h1⟩ := optimize_ok (isa := isa) (dbl := k.dbl) (unres := unres) (ch := ch) (g := g) (g' := g')
      hsrt hre hk.real hA hd hnd hf ih _ hh
    rw [e] at e1
    cases e1
    exact h1
  | mv g t f D op alpha beta x y y' hH hc e ih =>
    obtain ⟨st1, y1, H1, e1, h1, -⟩ := C21_mv (isa := isa) (alpha := alpha) (beta := beta) hsrt g hk hc ih (C21_nulls hH)
    rw [e] at e1
    cases e1
    exact h1

/-- `aoclsparse_optimize` succeeds on every reachable handle -/
theorem C21_optimize (hsrt : StdSort srt) (hk : k.Ok) (hA : A.WF) (hd : A.OneDiag)
    (hnd : A.Grouped ∨ A.NoDup) {H : MvHandle R} (h : MvReached isa k srt ta A H) (unrestricted : Bool)
    (ch : MvChoice) (g : Garb R) (g' : MvGarb R) (re : R → R) (hre : ∀ y, star y = y → re y = y)
    (hf : ta = false → FmtOk isa ch A) (hs : List MvHint)
    (hh : ∀ x ∈ hs, ∃ t f op, IsHint k.real t f op x.h ∧ HintOk k.real ta A t f op) :
    ∃ H' hs', optimize isa k.dbl unrestricted srt ch g g' star re H hs = some (.success, H', hs') ∧
      MvReached isa k srt ta A H' := by
  obtain ⟨H1, hs1, e1, h1⟩ := optimize_ok (isa := isa) (dbl := k.dbl) (unres := unrestricted) (ch := ch) (g := g)
    (g' := g') hsrt hre hk.real hA hd hnd hf (C21_invariant hsrt hk hA hd hnd h) hs hh
  exact ⟨H1, hs1, e1, .optimize unrestricted ch g g' re hre h hf hh e1⟩

/-- **C21.**  After any history of creation, optimisation with any hints and products, a product either
fails and leaves `y` alone, or computes `alpha * op(A) * x + beta * y` for the user's matrix; supported
requests succeed. -/
theorem C21_history (hsrt : StdSort srt) (hk : k.Ok) (hA : A.WF) (hd : A.OneDiag)
    (hnd : A.Grouped ∨ A.NoDup) {H : MvHandle R} (h : MvReached isa k srt ta A H) (g : Garb R)
    (t : MType) (f : Fill) (D : Diag) (op : Op) (alpha beta : R) (x y : List R)
    (hc : MvCall k ta A t f D op x y) :
    ∃ st y' H', mv isa k srt g true op.code (some alpha) (some H) (some ⟨t.code, f.code, D.code, A.base⟩)
        (some x) (some beta) (some y) = some (st, some y', some H') ∧
      (st ≠ .success → y' = y) ∧
      (st = .success → IsMv alpha beta (operator t f D op (userMat ta A)) (opRows op ta A)
        (opCols op ta A) x y y') ∧
      (MvSupported isa k ta A t D op → st = .success) := by
  obtain ⟨st, y', H', e1, -, e2, e3, e4⟩ := C21_mv (isa := isa) (alpha := alpha) (beta := beta) hsrt g hk hc
    (C21_invariant hsrt hk hA hd hnd h) (C21_nulls h)
  exact ⟨st, y', H', e1, e2, e3, e4⟩

/-- **C21, independence.**  Two handles of the same matrix with different histories give the same result
(exactly, over a ring) for every supported request. -/
theorem C21_independent (hsrt : StdSort srt) (hk : k.Ok) (hA : A.WF) (hd : A.OneDiag)
    (hnd : A.Grouped ∨ A.NoDup) {H1 H2 : MvHandle R} (h1 : MvReached isa k srt ta A H1)
    (h2 : MvReached isa k srt ta A H2) (g1 g2 : Garb R)
    (t : MType) (f : Fill) (D : Diag) (op : Op) (alpha beta : R) (x y : List R)
    (hc : MvCall k ta A t f D op x y) (hs : MvSupported isa k ta A t D op) :
    ∃ y' H1' H2', mv isa k srt g1 true op.code (some alpha) (some H1)
        (some ⟨t.code, f.code, D.code, A.base⟩) (some x) (some beta) (some y)
        = some (.success, some y', some H1') ∧
      mv isa k srt g2 true op.code (some alpha) (some H2) (some ⟨t.code, f.code, D.code, A.base⟩)
        (some x) (some beta) (some y) = some (.success, some y', some H2') := by
  obtain ⟨st, y', H', e1, -, e3, e4⟩ := C21_history hsrt hk hA hd hnd h1 g1 t f D op alpha beta x y hc
  obtain ⟨st2, y2, H2', d1, -, d3, d4⟩ := C21_history hsrt hk hA hd hnd h2 g2 t f D op alpha beta x y hc
  have s1 := e4 hs
  have s2 := d4 hs
  subst s1
  subst s2
  have := (e3 rfl).unique (d3 rfl)
  subst this
  exact ⟨y', H', H2', e1, d1⟩

end
/-! ### concrete cases -/

/-- double precision, kernels of the AVX2 build, symmetric products by an unavailable kernel -/
def mvExSel : MvSel Int := ⟨true, true, id, some .avx2, some 4, 2, [1, 0], none⟩
/-- a complex type whose elements are all real -/
def mvExCplx : MvSel Int := ⟨false, false, id, some .ref, some 4, 2, [1, 0], none⟩

def mvExG : Garb Int := ⟨fun k => 7 + k, fun _ => 9, fun _ => 3⟩
def mvExG' : MvGarb Int := ⟨fun _ => 5, fun _ => 6, fun _ => 7, fun _ => 8, fun _ => 9⟩
/-- an mv hint for the plain product -/
def mvExHint : MvHint := ⟨⟨0, 0, false⟩, 1, 111, 0, 10⟩
def mvExChoice (fmt : Nat) : MvChoice := ⟨fun _ => false, true, true, fmt⟩

/-- 3 x 4, one-based -/
def mvExA : Csr Int := ⟨3, 4, 1, [1, 4, 4, 6], [4, 1, 2, 1, 3], [1, 2, 3, 4, 5]⟩
/-- the same with an empty first row -/
def mvExE : Csr Int := ⟨4, 4, 1, [1, 1, 4, 4, 6], [4, 1, 2, 1, 3], [1, 2, 3, 4, 5]⟩
/-- 2 x 10, all entries -/
def mvExF : Csr Int := ⟨2, 10, 0, [0, 10, 20], [0, 1, 2, 3, 4, 5, 6, 7, 8, 9, 0, 1, 2, 3, 4, 5, 6, 7, 8, 9],
  [1, 2, 3, 4, 5, 6, 7, 8, 9, 10, 1, 1, 1, 1, 1, 1, 1, 1, 1, 1]⟩
/-- 2 x 9, sorted, entry (0, 0) stored twice -/
def mvExD : Csr Int := ⟨2, 9, 0, [0, 10, 20], [0, 0, 1, 2, 3, 4, 5, 6, 7, 8, 0, 0, 1, 2, 3, 4, 5, 6, 7, 8],
  [1, 2, 3, 4, 5, 6, 7, 8, 9, 10, 1, 1, 1, 1, 1, 1, 1, 1, 1, 1]⟩

/-- create, optimize with one hint, multiply: status and result -/
def mvExRun (isa : Isa) (k : MvSel Int) (ta sorted : Bool) (A : Csr Int) (hs : List MvHint) (fmt : Nat)
    (opc : Int) (d : Descr) (x y : List Int) : Option (Status × Option (List Int)) := do
  let o ← optimize isa k.dbl true insertionSortB (mvExChoice fmt) mvExG mvExG' id id (.fresh (A.raw ta) sorted) hs
  let r ← mv isa k insertionSortB mvExG true opc (some 1) (some o.2.1) (some d) (some x) (some 0) (some y)
  some (r.1, r.2.1)

/-- 4 x 3, zero-based, first row empty, the others full -/
def mvExH : Csr Int := ⟨4, 3, 0, [0, 0, 3, 6, 9], [0, 1, 2, 0, 1, 2, 0, 1, 2], [1, 2, 3, 4, 5, 6, 7, 8, 9]⟩

theorem mvExSel_ok : mvExSel.Ok :=
  ⟨rfl, fun _ _ => rfl, fun _ => rfl, fun g h => by cases h; trivial, fun K h => by cases h; decide,
    by decide, by decide, fun K V h => by cases h⟩

example : mvExA.WF ∧ mvExA.OneDiag ∧ mvExA.NoDup ∧ mvExA.row 0 ≠ [] := by
  refine ⟨?_, ?_⟩
  · constructor <;> decide +kernel
  · decide +kernel

/-- the hypotheses of a call -/
example : MvCall mvExSel false mvExA .general .lower .nonUnit .none [1, 2, 3, 4] [0, 0, 0] :=
  ⟨by constructor <;> decide +kernel, by simp, by simp, by simp, fun _ h => by simp at h, by decide, by decide⟩

/-- the hypotheses on a hint and on the format -/
example : IsHint true .general .lower .none mvExHint.h ∧ HintOk true false mvExA .general .lower .none ∧
    FmtOk ⟨true, true, true⟩ (mvExChoice 1) mvExA :=
  ⟨⟨rfl, rfl⟩, ⟨by simp, by simp, by simp⟩, ⟨fun _ => by decide +kernel, fun _ => .inr (by decide +kernel),
    fun h => by cases h⟩⟩

/-- keeping CSR, the four-row copy and the hybrid copy -/
example : ∀ fmt ∈ [0, 1, 2], mvExRun ⟨true, false, false⟩ mvExSel false false mvExA [mvExHint] fmt 111
    ⟨0, 0, 0, 1⟩ [1, 2, 3, 4] [0, 0, 0] = some (.success, some [12, 0, 19]) := by decide +kernel

/-- the block copy -/
example : mvExRun ⟨true, true, true⟩ mvExSel false true mvExF [mvExHint] 0 111 ⟨0, 0, 0, 0⟩
    (List.replicate 10 1) [0, 0] = some (.success, some [55, 10]) := by decide +kernel

/-! ### where copies make a difference -/

/-- The statuses of a general matrix with a unit diagonal type differ: the CSR path reports a null
pointer, the four-row copy succeeds. -/
theorem C21_diag_status_counterexample :
    mvExRun ⟨true, false, false⟩ mvExSel false false mvExA [] 1 111 ⟨0, 0, 1, 1⟩ [1, 2, 3, 4] [0, 0, 0]
      = some (.invalidPointer, some [0, 0, 0]) ∧
    mvExRun ⟨true, false, false⟩ mvExSel false false mvExA [mvExHint] 1 111 ⟨0, 0, 1, 1⟩ [1, 2, 3, 4]
      [0, 0, 0] = some (.success, some [12, 0, 19]) := by decide +kernel

/-- With one-based indices and an empty first row the four-row copy is padded with column 0: the product
reads before the start of `x`. -/
theorem C21_br4_counterexample : mvExE.WF ∧ mvExE.NoDup ∧
    mvExRun ⟨true, false, false⟩ mvExSel false false mvExE [] 1 111 ⟨0, 0, 0, 1⟩ [1, 2, 3, 4]
      [0, 0, 0, 0] = some (.success, some [0, 12, 0, 19]) ∧
    mvExRun ⟨true, false, false⟩ mvExSel false false mvExE [mvExHint] 1 111 ⟨0, 0, 0, 1⟩ [1, 2, 3, 4]
      [0, 0, 0, 0] = none := by
  refine ⟨?_, ?_⟩
  · constructor <;> decide +kernel
  · decide +kernel

/-- With an empty first row `aoclsparse_optimize` reads before the start of the column indices when it
builds the hybrid copy. -/
theorem C21_hybrid_counterexample : mvExH.WF ∧ mvExH.NoDup ∧
    (optimize ⟨true, false, false⟩ true true insertionSortB (mvExChoice 2) mvExG mvExG' id id
      (.fresh (mvExH.raw false) true) [mvExHint]).isNone = true := by
  refine ⟨?_, ?_⟩
  · constructor <;> decide +kernel
  · decide +kernel

/-- A processor with AVX512F but without AVX512VL: after the hint the product is not implemented. -/
theorem C21_avx512vl_counterexample :
    mvExRun ⟨true, true, false⟩ mvExSel false true mvExF [] 0 111 ⟨0, 0, 0, 0⟩ (List.replicate 10 1) [0, 0]
      = some (.success, some [55, 10]) ∧
    mvExRun ⟨true, true, false⟩ mvExSel false true mvExF [mvExHint] 0 111 ⟨0, 0, 0, 0⟩
      (List.replicate 10 1) [0, 0] = some (.notImplemented, some [0, 0]) := by decide +kernel

/-- A sorted matrix with repeated entries: the product is wrong after the hint. -/
theorem C21_duplicates_counterexample : mvExD.WF ∧ mvExD.Sorted ∧
    mvExRun ⟨true, true, true⟩ mvExSel false true mvExD [] 0 111 ⟨0, 0, 0, 0⟩ (List.replicate 9 1) [0, 0]
      = some (.success, some [55, 10]) ∧
    mvExRun ⟨true, true, true⟩ mvExSel false true mvExD [mvExHint] 0 111 ⟨0, 0, 0, 0⟩
      (List.replicate 9 1) [0, 0] = some (.success, some [37, 17]) := by
  refine ⟨?_, ?_⟩
  · constructor <;> decide +kernel
  · decide +kernel

/-- A conjugate transposed product with a complex CSC matrix is not implemented, unless a copy for
another operation was asked for. -/
theorem C21_conj_counterexample :
    mvExRun ⟨true, false, false⟩ mvExCplx true false mvExA [] 0 113 ⟨0, 0, 0, 1⟩ [1, 2, 3, 4] [0, 0, 0]
      = some (.notImplemented, some [0, 0, 0]) ∧
    mvExRun ⟨true, false, false⟩ mvExCplx true false mvExA [mvExHint] 0 113 ⟨0, 0, 0, 1⟩ [1, 2, 3, 4]
      [0, 0, 0] = some (.success, some [12, 0, 19]) := by decide +kernel

end Verif
