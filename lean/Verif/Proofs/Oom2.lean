/-
Running out of memory: dot products, products with dense matrices, triangular solves.
-/
import Verif.Proofs.Oom

namespace Verif
open Model

section ring
variable {R : Type} [DecidableEq R] [CommRing R] [StarRing R] {ta : Bool} {A : Csr R} {o : Oom}

/-- **products followed by a dot product** -/
theorem dotmvM_cases {srt : (Int → Int → Bool) → List Int → List Int} (hsrt : StdSort srt) {g : Garb R} (hA : A.WF)
    (hd : A.OneDiag) (hnd : A.Grouped ∨ A.NoDup) (hn : o.sort = true → A.Grouped) {H : MvHandle R}
    (hH : HandleOk ta A H) {isa : Isa} {k : MvSel R} {dot : Option (DotKer R)} {same : Bool} {op : Int} {alpha beta : R}
    {d : Option Descr} {x y : Option (List R)} {out : Option R} :
    dotmvM o isa k dot srt g same op alpha (some H) d x beta y out
      = dotmv isa k dot srt g same op alpha (some H) d x beta y out ∨
    ∃ y0 r, y = some y0 ∧ dotmvM o isa k dot srt g same op alpha (some H) d x beta y out
        = some (r.1, some r.2.1, out, some r.2.2) ∧
      OutOfMem ta A (k.ord.any o.buf) y0 r := by
  unfold dotmvM dotmv
  rcases out with _ | out
  · exact .inl rfl
  dsimp only
  rcases mvM_cases (o := o) (g := g) (isa := isa) (k := k) (same := same) (op := op) (alpha := some alpha)
    (beta := some beta) (d := d) (x := x) (y := y) hsrt hA hd hnd hn hH with h | ⟨y0, r, hy, h, hr⟩
  · rw [h]; exact .inl rfl
  · rw [h]
    refine .inr ⟨y0, r, hy, ?_, hr⟩
    simp only [Option.bind_eq_bind, Option.bind_some]
    rw [if_pos (by rw [hr.1]; decide)]

omit [CommRing R] [StarRing R] [DecidableEq R] in
theorem putCopies_self : ∀ L : List (Stored R), putCopies L (L.filterMap Stored.csr?) = L
  | [] => rfl
  | .csr c o iu :: L => by
    show putCopies (.csr c o iu :: L) (c :: L.filterMap Stored.csr?) = _
    rw [putCopies, putCopies_self L]
  | .blk b nR p i m v :: L => by
    have e : ∀ cs, putCopies (.blk b nR p i m v :: L) cs = .blk b nR p i m v :: putCopies L cs := by
      intro cs; cases cs <;> rfl
    rw [e]
    show _ :: putCopies L (L.filterMap Stored.csr?) = _
    rw [putCopies_self L]
  | .hyb b w em ec ev map :: L => by
    have e : ∀ cs, putCopies (.hyb b w em ec ev map :: L) cs = .hyb b w em ec ev map :: putCopies L cs := by
      intro cs; cases cs <;> rfl
    rw [e]
    show _ :: putCopies L (L.filterMap Stored.csr?) = _
    rw [putCopies_self L]
  | .br4 b B :: L => by
    have e : ∀ cs, putCopies (.br4 b B :: L) cs = .br4 b B :: putCopies L cs := by
      intro cs; cases cs <;> rfl
    rw [e]
    show _ :: putCopies L (L.filterMap Stored.csr?) = _
    rw [putCopies_self L]

omit [StarRing R] in
theorem mmRunM_cases {w : Nat} {isReal : Bool} {tm : MmTeam} {ker : MmKernel R} {g : Garb R} {c : MmCall R} {op : Int}
    {M : RawMat R} {copies : List (MCopy R)} {d : Descr} {C : List R} :
    mmRunM o w isReal tm ker g c op M copies d C = mmRun w isReal tm ker g c op M copies d C ∨
    mmRunM o w isReal tm ker g c op M copies d C = some (.memoryError, C, copies) := by
  unfold mmRunM mmRun
  dsimp only
  iterate 4
    refine ite_step (S := fun u => u = some (Status.memoryError, C, copies)) ?_
  generalize (if M.isT = true then transDoid (getDoid isReal d.type d.fill op)
    else getDoid isReal d.type d.fill op) = eff
  cases findCopy (getDoid isReal d.type d.fill op) (M.copy0 :: copies) with
  | some q => exact .inl rfl
  | none =>
    dsimp only
    by_cases h : o.work = true ∧ (eff = gt ∨ eff = gh)
    · rw [if_pos h]; exact .inr rfl
    · rw [if_neg h]; exact .inl rfl

omit [StarRing R] in
theorem csrmmM_cases {w : Nat} {isReal : Bool} {tm : MmTeam} {ker : MmKernel R} {g : Garb R} {cj : R → R} {op : Int}
    {alpha : R} {M : Option (RawMat R)} {copies : List (MCopy R)} {d : Option Descr} {order : Int}
    {B : Option (List R)} {n ldb : Int} {beta : R} {C : Option (List R)} {ldc : Int} :
    csrmmM o w isReal tm ker g cj op alpha M copies d order B n ldb beta C ldc
      = csrmm w isReal tm ker g cj op alpha M copies d order B n ldb beta C ldc ∨
    csrmmM o w isReal tm ker g cj op alpha M copies d order B n ldb beta C ldc = some (.memoryError, C, copies) := by
  unfold csrmmM csrmm
  rcases M with _ | M <;> rcases d with _ | d <;> rcases B with _ | B <;> rcases C with _ | C <;> try exact .inl rfl
  dsimp only
  iterate 9
    refine ite_step (S := fun u => u = some (Status.memoryError, some C, copies)) ?_
  rcases mmRunM_cases (o := o) (w := w) (isReal := isReal) (tm := tm) (ker := ker) (g := g)
    (c := ⟨cj, alpha, beta, B, n, ldb, ldc, decide (order = 1)⟩) (op := op) (M := M) (copies := copies) (d := d)
    (C := C) with h | h
  · rw [h]; exact .inl rfl
  · rw [h]; exact .inr rfl

omit [StarRing R] in
/-- **products with a dense matrix**: as with enough memory, or memory_error and nothing changed -/
theorem csrmmHM_cases {w : Nat} {isReal : Bool} {tm : MmTeam} {ker : MmKernel R} {g : Garb R} {cj : R → R}
    {same : Bool} {op : Int} {alpha : R} {H : MvHandle R} {d : Option Descr} {order : Int}
    {B : Option (List R)} {n ldb : Int} {beta : R} {C : Option (List R)} {ldc : Int} :
    csrmmHM o w isReal tm ker g cj same op alpha (some H) d order B n ldb beta C ldc
      = csrmmH w isReal tm ker g cj same op alpha (some H) d order B n ldb beta C ldc ∨
    csrmmHM o w isReal tm ker g cj same op alpha (some H) d order B n ldb beta C ldc
      = some (.memoryError, C, some H) := by
  unfold csrmmHM csrmmH
  dsimp only
  refine ite_step (S := fun u => u = some (Status.memoryError, C, some H)) ?_
  cases hm : H.mats with
  | nil => exact .inl rfl
  | cons s rest =>
    dsimp only
    rcases csrmmM_cases (o := o) (w := w) (isReal := isReal) (tm := tm) (ker := ker) (g := g)
      (cj := cj) (op := op) (alpha := alpha) (M := some H.raw) (copies := rest.filterMap Stored.csr?) (d := d)
      (order := order) (B := B) (n := n) (ldb := ldb) (beta := beta) (C := C) (ldc := ldc) with h | h
    · rw [h]; exact .inl rfl
    · rw [h]
      refine .inr ?_
      simp only [Option.bind_eq_bind, Option.bind_some]
      rw [putCopies_self, ← hm]

omit [CommRing R] [StarRing R] [DecidableEq R] in
theorem optIdx_append {L : List (Stored R)} (h : optIdx L = none) {s : Stored R} (hs : s.opt = true) :
    optIdx (L ++ [s]) = some L.length := by
  induction L with
  | nil =>
    show (if s.opt then some 0 else _) = _
    rw [if_pos hs]; rfl
  | cons t L ih =>
    unfold optIdx at h
    by_cases ht : t.opt = true
    · rw [if_pos ht] at h; cases h
    · rw [if_neg ht, Option.map_eq_none_iff] at h
      show (if t.opt then some 0 else (optIdx (L ++ [s])).map (· + 1)) = _
      rw [if_neg ht, ih h]
      rfl

omit [StarRing R] [DecidableEq R] in
theorem optIdx_after {srt : (Int → Int → Bool) → List Int → List Int} {gi : Nat → Int} {gv : Nat → R}
    {H : MvHandle R} {q : Nat × MvHandle R} (e : csrCscOptimize srt gi gv H = some (.ok q)) :
    optIdx q.2.mats = some q.1 := by
  unfold csrCscOptimize at e
  cases ho : optIdx H.mats with
  | some i => rw [ho] at e; cases e; exact ho
  | none =>
    rw [ho] at e
    dsimp only at e
    split at e
    · rename_i c op iu rest hm
      simp only [Option.bind_eq_bind, Option.bind_eq_some_iff] at e
      obtain ⟨r, -, e⟩ := e
      cases r with
      | error s => cases e
      | ok p =>
        dsimp only at e
        rcases ite_or e with ⟨-, e⟩ | ⟨-, e⟩
        · cases e; rfl
        · cases e
          exact optIdx_append ho rfl
    · cases e

end ring

section field
variable {R : Type} [Field R] [StarRing R] [DecidableEq R] {ta : Bool} {A : Csr R} {o : Oom}

/-- **triangular solves**: as with enough memory, or memory_error, a correct handle and `x` as it was -/
theorem trsvHM_cases {srt : (Int → Int → Bool) → List Int → List Int} {g : Garb R} (hA : A.WF)
    (hd : A.OneDiag) (hn : o.sort = true → A.Grouped) {H : MvHandle R}
    (hH : HandleOk ta A H) {isReal : Bool} {w : Nat} {cjg : R → R} {im : TrsvImpl R} {same : Bool} {op : Int}
    {alpha : R} {d : Option Descr} {b : Option (List R)} {incb : Int} {x : Option (List R)} {incx : Int} :
    trsvHM o isReal w cjg srt g im same op alpha (some H) d b incb x incx
      = trsvH isReal w cjg srt g im same op alpha (some H) d b incb x incx ∨
    ∃ H', trsvHM o isReal w cjg srt g im same op alpha (some H) d b incb x incx = some (.memoryError, x, some H') ∧
      HandleOk ta A H' := by
  unfold trsvHM trsvH
  rcases x with _ | x <;> rcases b with _ | b <;> rcases d with _ | d <;> try exact .inl rfl
  dsimp only
  iterate 10
    refine ite_step (S := fun u => ∃ H', u = some (Status.memoryError, some x, some H') ∧ HandleOk ta A H') ?_
  rcases csrCscOptimizeM_cases (o := o) (srt := srt) g.i g.v hA hd hn hH with h | ⟨H', h, hk⟩
  · left
    rw [h]
    cases csrCscOptimize srt g.i g.v H with
    | none => rfl
    | some r => cases r <;> rfl
  · rw [h]
    exact .inr ⟨H', rfl, hk⟩

omit [StarRing R] in
/-- on a handle that has a clean copy, nothing is asked for -/
theorem trsvHM_some {srt : (Int → Int → Bool) → List Int → List Int} {g : Garb R} {H : MvHandle R} {i : Nat}
    (h : optIdx H.mats = some i) {isReal : Bool} {w : Nat} {cjg : R → R} {im : TrsvImpl R} {same : Bool} {op : Int}
    {alpha : R} {d : Option Descr} {b : Option (List R)} {incb : Int} {x : Option (List R)} {incx : Int} :
    trsvHM o isReal w cjg srt g im same op alpha (some H) d b incb x incx
      = trsvH isReal w cjg srt g im same op alpha (some H) d b incb x incx := by
  unfold trsvHM trsvH
  obtain ⟨h1, h2⟩ := csrCscOptimizeM_some (o := o) h srt g.i g.v
  rcases x with _ | x <;> rcases b with _ | b <;> rcases d with _ | d <;> try rfl
  dsimp only
  rw [h1, h2]
  rfl

/-- **triangular solves with several right-hand sides** -/
theorem trsmHM_cases {srt : (Int → Int → Bool) → List Int → List Int} {g : Garb R} (hA : A.WF)
    (hd : A.OneDiag) (hn : o.sort = true → A.Grouped) {H : MvHandle R}
    (hH : HandleOk ta A H) {isReal : Bool} {w : Nat} {cjg : R → R} {im : TrsvImpl R} {same : Bool} {sched : List Nat}
    {op : Int} {alpha : R} {d : Option Descr} {order : Int} {B X : Option (List R)} {n ldb ldx : Int} :
    trsmHM o isReal w cjg srt g im same sched op alpha (some H) d order B n ldb X ldx
      = trsmH isReal w cjg srt g im same sched op alpha (some H) d order B n ldb X ldx ∨
    ∃ H', trsmHM o isReal w cjg srt g im same sched op alpha (some H) d order B n ldb X ldx
      = some (.memoryError, X, some H') ∧ HandleOk ta A H' := by
  unfold trsmHM trsmH
  rcases X with _ | X <;> rcases B with _ | B <;> rcases d with _ | d <;> try exact .inl rfl
  dsimp only
  cases trsmCheck H.raw.fmt H.raw.um H.raw.un H.raw.nnz H.raw.base d op n ldb ldx with
  | some st => exact .inl rfl
  | none =>
  dsimp only
  refine ite_step (S := fun u => ∃ H', u = some (Status.memoryError, some X, some H') ∧ HandleOk ta A H') ?_
  rcases csrCscOptimizeM_cases (o := o) (srt := srt) g.i g.v hA hd hn hH with h | ⟨H', h, hk⟩
  · left
    rw [h]
    cases e : csrCscOptimize srt g.i g.v H with
    | none => rfl
    | some r =>
      cases r with
      | error e => rfl
      | ok q =>
        have hq := optIdx_after e
        obtain ⟨-, hq2⟩ := csrCscOptimizeM_some (o := o) hq srt g.i g.v
        simp only [Option.map_some, liftH, Option.bind_eq_bind, Option.bind_some]
        cases hl : trsmLayout w order n ldb ldx with
        | error e => rfl
        | ok l =>
          obtain ⟨ib, ix, ob, ox⟩ := l
          dsimp only
          have key : ∀ (l : List Nat) (s : Status × List R × MvHandle R), s.2.2 = q.2 →
              l.foldlM (trsmCol (fun H b x => (trsvHM o isReal w cjg srt g im true op alpha (some H) (some d) (some b)
                ib (some x) ix).bind trsvOut) ob ox B) s
              = l.foldlM (trsmCol (fun H b x => (trsvH isReal w cjg srt g im true op alpha (some H) (some d) (some b)
                ib (some x) ix).bind trsvOut) ob ox B) s := by
            intro l
            induction l with
            | nil => intro s _; rfl
            | cons a l ih =>
              intro s hs
              rw [List.foldlM_cons, List.foldlM_cons]
              have hstep : trsmCol (fun H b x => (trsvHM o isReal w cjg srt g im true op alpha (some H) (some d)
                  (some b) ib (some x) ix).bind trsvOut) ob ox B s a
                = trsmCol (fun H b x => (trsvH isReal w cjg srt g im true op alpha (some H) (some d)
                  (some b) ib (some x) ix).bind trsvOut) ob ox B s a := by
                unfold trsmCol
                rw [hs]
                simp only [trsvHM_some hq]
              rw [hstep]
              cases e3 : trsmCol (fun H b x => (trsvH isReal w cjg srt g im true op alpha (some H) (some d)
                  (some b) ib (some x) ix).bind trsvOut) ob ox B s a with
              | none => rfl
              | some s2 =>
                refine ih s2 ?_
                unfold trsmCol at e3
                simp only [Option.bind_eq_bind, Option.bind_eq_some_iff] at e3
                obtain ⟨b, -, x, -, z, ⟨z', e4, e5⟩, e3⟩ := e3
                cases e3
                obtain ⟨z1, z2, z3⟩ := z'
                unfold trsvOut at e5
                rcases z2 with _ | z2 <;> rcases z3 with _ | z3 <;> cases e5
                rw [hs] at e4
                exact trsvH_same hq2 e4
          unfold trsmLoop
          rw [key _ _ rfl]
  · rw [h]
    exact .inr ⟨H', rfl, hk⟩

end field
end Verif
