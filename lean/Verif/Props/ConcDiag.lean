/-
C62: concurrent products through the full copy of a symmetric or Hermitian matrix.  The copy carries a
mark, the diagonal type its values are for; a call whose descriptor has another diagonal type rewrites
the diagonal and the mark before it computes.
-/
import Verif.Proofs.ConcDiag
import Verif.Props.Expand

namespace Verif
open Model Proofs

variable {R : Type} [CommRing R] [StarRing R]

/-- the array of values as a kernel has read it: the value it read at position 0, at position 1, … -/
def dgGot {R : Type} (n : Nat) (seen : Nat → Option R) : List R := (List.range n).filterMap seen

omit [CommRing R] [StarRing R] in
theorem dgGot_eq {T : List R} {seen : Nat → Option R} (h : ∀ k, k < T.length → seen k = T[k]?) :
    dgGot T.length seen = T := by
  unfold dgGot
  rw [List.filterMap_congr (g := fun k => T[k]?) (fun k hk => h k (List.mem_range.1 hk))]
  clear h seen
  induction T with
  | nil => rfl
  | cons a T ih =>
    rw [List.length_cons, List.range_succ_eq_map, List.filterMap_cons]
    simp only [List.getElem?_cons_zero, List.filterMap_map]
    congr 1

/-- a call that is rewriting the diagonal or about to set the mark -/
def DgBusy {R : Type} : DgPC R → Prop
  | .write _ | .mark => True
  | _ => False

/-- two calls are about to access the same place, one of them writing -/
def DgRace {R : Type} (idiag : List Int) (M : Nat) (S : DgSys R) : Prop :=
  ∃ (t u : Nat) (l : Option Nat) (b : Bool), t ≠ u ∧ dgAccess idiag M S.val.length (S.pc t) l true ∧
    dgAccess idiag M S.val.length (S.pc u) l b

section
variable {U : Mat R} {M N : Nat} {c : MCopy R} {idiag : List Int} {dv : List R} {asks : Nat → Option Nat}
  {S : DgSys R}

/-- **C62, one diagonal type.**  Any number of concurrent calls whose descriptors have the same diagonal
type `D`, in any interleaving of their reads and writes: none of them leaves the arrays, and each that
has returned has computed with exactly the values the same call alone computes with, `c'`, which are
those of the operator with diagonal `D` (`CopyOk` and the mark). -/
theorem C62_same (h : CopyOk U M N c) (hs : 4 ≤ c.doid) (hi : c.idiag = some idiag)
    (hd : c.diagVal = some dv) (D : Diag) (hD : ∀ t w, asks t = some w → w = D.code) :
    ∃ c', dgAlone M D.code c = some (.success, c') ∧ CopyOk U M N c' ∧ c'.mtxDiag = D.code ∧
      ∀ S, DgReached M c idiag dv asks S → (∀ t, S.pc t ≠ .crash) ∧
        (∀ t seen, S.pc t = .done seen → dgGot S.val.length seen = c'.val) ∧
        ((∀ t, ¬ DgBusy (S.pc t)) →
          ({ c with val := S.val, mtxDiag := S.mark } = c ∨ { c with val := S.val, mtxDiag := S.mark } = c') ∧
          CopyOk U M N { c with val := S.val, mtxDiag := S.mark } ∧
          ((∃ t seen, S.pc t = .done seen) → { c with val := S.val, mtxDiag := S.mark } = c')) := by
  obtain ⟨pos, hp⟩ := dgPos_of h hs hi hd
  obtain ⟨T, e1, e2, e3, e4, e5⟩ := setMatDiag_any h hs hi hd hp D (v := c.val) (mk := c.mtxDiag) rfl
    (fun _ _ => rfl)
  -- the values a call alone uses
  have core : ∀ (T' : List R) (_ : T'.length = c.val.length)
      (_ : D.code ≠ c.mtxDiag → ∀ i, i < M → T'[pos i]? = some (dgVal U c.doid D i))
      (_ : D.code = c.mtxDiag → T' = c.val)
      (_ : ∀ q, (∀ i, i < M → q ≠ pos i) → T'[q]? = c.val[q]?)
      (_ : CopyOk U M N { c with val := T', mtxDiag := D.code }),
      ∀ S, DgReached M c idiag dv asks S → (∀ t, S.pc t ≠ .crash) ∧
        (∀ t seen, S.pc t = .done seen → dgGot S.val.length seen = T') ∧
        ((∀ t, ¬ DgBusy (S.pc t)) →
          ({ c with val := S.val, mtxDiag := S.mark } = c ∨
            { c with val := S.val, mtxDiag := S.mark } = { c with val := T', mtxDiag := D.code }) ∧
          CopyOk U M N { c with val := S.val, mtxDiag := S.mark } ∧
          ((∃ t seen, S.pc t = .done seen) →
            { c with val := S.val, mtxDiag := S.mark } = { c with val := T', mtxDiag := D.code })) := by
    intro T' t1 t2 t3 t4 t5 S hr
    have inv := dgInv_reached hp D t1 t2 t3 t4 hD hr
    refine ⟨?_, ?_, ?_⟩
    · intro t e
      have := inv.pcs t
      rw [e] at this
      exact this
    · intro t seen e
      have := inv.pcs t
      rw [e] at this
      rw [inv.len]
      exact dgGot_eq this.2
    · intro hq
      have hfin : S.mark = D.code →
          { c with val := S.val, mtxDiag := S.mark } = { c with val := T', mtxDiag := D.code } := by
        intro e
        rw [dg_ext inv.off (inv.good e), e]
      have hor : S.val = c.val ∨ S.mark = D.code := by
        rcases inv.act with e | e | ⟨t, e | e⟩
        · exact Or.inl e
        · exact Or.inr e
        · obtain ⟨i, e⟩ := e
          exact absurd (by rw [e]; trivial) (hq t)
        · exact absurd (by rw [e]; trivial) (hq t)
      have h3 : { c with val := S.val, mtxDiag := S.mark } = c ∨
            { c with val := S.val, mtxDiag := S.mark } = { c with val := T', mtxDiag := D.code } := by
        rcases inv.mrk with e | e
        · rcases hor with e' | e'
          · left
            rw [e, e']
          · exact Or.inr (hfin e')
        · exact Or.inr (hfin e)
      refine ⟨h3, ?_, ?_⟩
      · rcases h3 with e | e
        · rw [e]; exact h
        · rw [e]; exact t5
      · rintro ⟨t, seen, e⟩
        exact hfin (dgDone_mark hD hr t seen e)
  by_cases hm : D.code ≠ c.mtxDiag
  · refine ⟨_, ?_, e2, rfl, core T e3 (fun _ => e4) (fun e => absurd e hm) e5 e2⟩
    unfold dgAlone
    rw [if_pos hm]
    exact e1
  · have hm' := not_not.1 hm
    have hcc : { c with val := c.val, mtxDiag := D.code } = c := by rw [hm']
    refine ⟨c, ?_, h, hm'.symm, ?_⟩
    · unfold dgAlone
      rw [if_neg hm]
    · intro S hr
      have := core c.val rfl (fun e => absurd e hm) (fun _ => rfl) (fun _ _ => rfl) (by rw [hcc]; exact h) S hr
      rw [hcc] at this
      exact this

/-- **C62, no rewriting.**  If every descriptor has the diagonal type the copy is marked with, the calls
only read: neither the values nor the mark ever change, and no two calls race. -/
theorem C62_calm (hD : ∀ t w, asks t = some w → w = c.mtxDiag)
    (hr : DgReached M c idiag dv asks S) :
    S.val = c.val ∧ S.mark = c.mtxDiag ∧ ¬ DgRace idiag M S := by
  have inv : S.val = c.val ∧ S.mark = c.mtxDiag ∧ ∀ t, ¬ DgBusy (S.pc t) := by
    induction hr with
    | refl =>
      refine ⟨rfl, rfl, fun t => ?_⟩
      show ¬ DgBusy (if (asks t).isSome then _ else _)
      split <;> exact id
    | @tail S0 S1 _ st ih =>
      obtain ⟨i1, i2, i3⟩ := ih
      obtain ⟨t, k, w, r, ha, hs, rfl⟩ := st
      obtain rfl := hD t w ha
      have key : ∀ pc', ¬ DgBusy pc' → ∀ u, ¬ DgBusy (Function.update S0.pc t pc' u) := by
        intro pc' hb u
        by_cases hu : u = t
        · subst hu; simpa using hb
        · simpa [Function.update_of_ne hu] using i3 u
      have hb := i3 t
      cases epc : S0.pc t with
      | off => rw [epc] at hs; simp [dgStep] at hs
      | done s => rw [epc] at hs; simp [dgStep] at hs
      | crash => rw [epc] at hs; simp [dgStep] at hs
      | write i => rw [epc] at hb; exact absurd trivial hb
      | mark => rw [epc] at hb; exact absurd trivial hb
      | check =>
        rw [epc] at hs
        simp only [dgStep] at hs
        rw [if_neg (by rw [i2]; exact not_not.2 rfl)] at hs
        obtain rfl := Option.some.inj hs
        exact ⟨i1, i2, key _ id⟩
      | read seen =>
        rw [epc] at hs
        simp only [dgStep] at hs
        rcases ite_or hs with ⟨_, e⟩ | ⟨_, e⟩
        · obtain rfl := Option.some.inj e
          exact ⟨i1, i2, key _ id⟩
        · rcases ite_or e with ⟨_, e⟩ | ⟨_, e⟩
          · obtain rfl := Option.some.inj e
            exact ⟨i1, i2, key _ id⟩
          · cases e
  refine ⟨inv.1, inv.2.1, ?_⟩
  rintro ⟨t, u, l, b, _, h1, _⟩
  have := inv.2.2 t
  cases e : S.pc t <;> rw [e] at h1 this <;> simp [dgAccess, DgBusy] at h1 this

/-- **C62, several diagonal types.**  Whatever diagonal types the descriptors have, in any interleaving:
no call leaves the arrays, every value a call computes with is the one the copy had or the one it has
after an adjustment for one of the types asked for, and the values off the diagonal are never touched.
That all of a call's values are for its own type is not true: see the counterexample below. -/
theorem C62_any_types (h : CopyOk U M N c) (hs : 4 ≤ c.doid) (hi : c.idiag = some idiag)
    (hd : c.diagVal = some dv) (hD : ∀ t w, asks t = some w → ∃ D : Diag, w = D.code)
    (hr : DgReached M c idiag dv asks S) :
    (∀ t, S.pc t ≠ .crash) ∧
    (∀ t seen, S.pc t = .done seen → ∀ k, k < c.val.length →
      ∃ x, seen k = some x ∧ (c.val[k]? = some x ∨
        ∃ (u : Nat) (D : Diag) (c' : MCopy R), asks u = some D.code ∧
          setMatDiag (M : Int) D.code c = some (.success, c') ∧ c'.val[k]? = some x)) ∧
    (∀ q : Nat, (∀ i : Nat, i < M → rd idiag (i : Int) ≠ some (q : Int)) → S.val[q]? = c.val[q]?) := by
  obtain ⟨pos, hp⟩ := dgPos_of h hs hi hd
  have inv := dgAny_reached h hs hi hd hp hD hr
  refine ⟨inv.alive, ?_, ?_⟩
  · intro t seen e k hk
    obtain ⟨x, hx⟩ := inv.full t seen e k hk
    refine ⟨x, hx, ?_⟩
    have := inv.seen t k
    rw [e] at this
    simp only [DgPC.seen, hx] at this
    rcases this with e' | e' | ⟨u, w, c', a1, a2, a3⟩
    · cases e'
    · exact Or.inl e'.symm
    · obtain ⟨D, rfl⟩ := hD u w a1
      exact Or.inr ⟨u, D, c', a1, a2, a3.symm⟩
  · intro q hq
    exact inv.off q fun i hi' e => hq i hi' (by rw [hp.ix i hi', e])

/-- **C62, recovery.**  Whatever concurrent calls with whatever diagonal types did to the copy, a later
call alone whose type differs from the mark they left computes with the right values, and leaves a
right copy. -/
theorem C62_recover (h : CopyOk U M N c) (hs : 4 ≤ c.doid) (hi : c.idiag = some idiag)
    (hd : c.diagVal = some dv) (hD : ∀ t w, asks t = some w → ∃ D : Diag, w = D.code)
    (hr : DgReached M c idiag dv asks S) (D : Diag) (hne : D.code ≠ S.mark) :
    ∃ c', dgAlone M D.code { c with val := S.val, mtxDiag := S.mark } = some (.success, c') ∧
      CopyOk U M N c' ∧ c'.mtxDiag = D.code ∧
      setMatDiag (M : Int) D.code c = some (.success, c') := by
  obtain ⟨pos, hp⟩ := dgPos_of h hs hi hd
  have inv := dgAny_reached h hs hi hd hp hD hr
  obtain ⟨T, e1, e2, e3, e4, e5⟩ := setMatDiag_any h hs hi hd hp D (v := S.val) (mk := S.mark) inv.len
    inv.off
  obtain ⟨T2, f1, f2, f3, f4, f5⟩ := setMatDiag_any h hs hi hd hp D (v := c.val) (mk := c.mtxDiag) rfl
    (fun _ _ => rfl)
  have : T2 = T := dg_ext (M := M) (pos := pos) (fun q hq => by rw [f5 q hq, e5 q hq])
    (fun j hj => by rw [f4 j hj, e4 j hj])
  subst this
  refine ⟨_, ?_, e2, rfl, f1⟩
  unfold dgAlone
  rw [if_pos hne]
  exact e1

/-- **C62, progress.**  A call that has not returned can always take its next step, whatever the other
calls do: the calls do not wait for each other. -/
theorem C62_progress (h : CopyOk U M N c) (hs : 4 ≤ c.doid) (hi : c.idiag = some idiag)
    (hd : c.diagVal = some dv) (hD : ∀ t w, asks t = some w → ∃ D : Diag, w = D.code)
    (hr : DgReached M c idiag dv asks S) (t w : Nat) (ha : asks t = some w) :
    (∃ seen, S.pc t = .done seen) ∨
    ∃ (k : Nat) (r : DgPC R × List R × Nat), dgStep M idiag dv w k (S.pc t) (S.val, S.mark) = some r := by
  obtain ⟨pos, hp⟩ := dgPos_of h hs hi hd
  have inv := dgAny_reached h hs hi hd hp hD hr
  cases e : S.pc t with
  | off =>
    exfalso
    refine dgOff_never hr ha e
  | crash => exact absurd e (inv.alive t)
  | done s => exact Or.inl ⟨s, rfl⟩
  | check =>
    right
    refine ⟨0, ?_⟩
    simp only [dgStep]
    split <;> exact ⟨_, rfl⟩
  | write i =>
    right
    refine ⟨0, ?_⟩
    simp only [dgStep]
    split
    · split <;> exact ⟨_, rfl⟩
    · exact ⟨_, rfl⟩
  | mark => exact Or.inr ⟨0, _, rfl⟩
  | read seen =>
    right
    by_cases hz : dgAll S.val.length seen = true
    · refine ⟨S.val.length, ?_⟩
      simp only [dgStep]
      rw [if_neg (by omega), if_pos hz]
      exact ⟨_, rfl⟩
    · have : 0 < S.val.length := by
        by_contra hc
        have h0 : S.val.length = 0 := by omega
        rw [h0] at hz
        exact hz (by simp [dgAll])
      refine ⟨0, ?_⟩
      simp only [dgStep]
      rw [if_pos this]
      exact ⟨_, rfl⟩

end

/-- **C62, after optimize.**  The theorems above apply to every full copy `aoclsparse_optimize` makes:
its arrays are those of a copy of the user's matrix and it knows its diagonal. -/
theorem C62_after_optimize {A : Csr R} {isReal ta : Bool} (hA : A.WF) (g : Garb R) (re : R → R)
    (hre : ∀ y, star y = y → re y = y) (hreal : isReal = true → ∀ x : R, star x = x)
    (hints : List OptHint)
    (hh : ∀ x ∈ hints, ∃ t f op, IsHint isReal t f op x ∧ HintOk isReal ta A t f op) :
    ∃ hints' copies, matrixTransform g star re (A.raw ta) hints [] = some (.success, hints', copies) ∧
      ∀ c ∈ copies, 4 ≤ c.doid → ∃ idiag dv, c.idiag = some idiag ∧ c.diagVal = some dv ∧
        CopyOk (userMat ta A) (userRows ta A) (userCols ta A) c := by
  obtain ⟨hints', ext, e, _, hc, _⟩ := C43_transform hA g re hre hreal hints hh [] (by intro c hc; simp at hc)
  refine ⟨hints', _, e, fun c hm h4 => ?_⟩
  obtain ⟨_, idiag, dv, a1, a2, _⟩ := (hc c hm).sym h4
  exact ⟨idiag, dv, a1, a2, hc c hm⟩

/-! ### different diagonal types at the same time -/
section witness

/-- a run given by the calls and the positions read, step by step -/
def dgRun {R : Type} [Zero R] [One R] (M : Nat) (idiag : List Int) (dv : List R) (asks : Nat → Option Nat)
    (S : DgSys R) : List (Nat × Nat) → Option (DgSys R)
  | [] => some S
  | (t, k) :: l => do
    let w ← asks t
    let r ← dgStep M idiag dv w k (S.pc t) (S.val, S.mark)
    dgRun M idiag dv asks ⟨Function.update S.pc t r.1, r.2.1, r.2.2⟩ l

theorem dgRun_reached {R : Type} [Zero R] [One R] {M : Nat} {c : MCopy R} {idiag : List Int} {dv : List R}
    {asks : Nat → Option Nat} {S S' : DgSys R} (h : DgReached M c idiag dv asks S) (l : List (Nat × Nat))
    (e : dgRun M idiag dv asks S l = some S') : DgReached M c idiag dv asks S' := by
  induction l generalizing S with
  | nil => cases e; exact h
  | cons a l ih =>
    obtain ⟨t, k⟩ := a
    simp only [dgRun, Option.bind_eq_bind, Option.bind_eq_some_iff] at e
    obtain ⟨w, e1, r, e2, e3⟩ := e
    exact ih (h.tail ⟨t, k, w, r, e1, e2, rfl⟩) e3

/-- the full copy of [1 5 8; 5 0 6; 8 6 7] made for the matrix `ex43A` -/
def ex62C : MCopy Rat :=
  ⟨4, 0, 3, 3, 0, [0, 3, 6, 9], [0, 1, 2, 0, 1, 2, 1, 0, 2], [1, 5, 8, 5, 0, 6, 6, 8, 7],
    some [0, 4, 8], some [1, 0, 7]⟩

deriving instance DecidableEq for MCopy

theorem ex62_ok : CopyOk (userMat false ex43A) 3 3 ex62C := by
  obtain ⟨hints', copies, e, hc⟩ := C62_after_optimize (A := ex43A) (isReal := true) (ta := false)
    (by decide +kernel) ex43g id (fun _ _ => rfl) (fun _ _ => rfl) [⟨4, 0, false⟩] (by
      intro x hx
      obtain rfl := List.mem_singleton.1 hx
      exact ⟨.symmetric, .lower, .none, ⟨by decide, by decide⟩,
        ⟨fun _ => rfl, fun _ => by decide +kernel, fun h => by cases h⟩⟩)
  have hrun : (matrixTransform ex43g star id (ex43A.raw false) [⟨4, 0, false⟩] []).map (fun r => r.2.2)
      = some [ex62C] := by decide +kernel
  rw [e] at hrun
  have : copies = [ex62C] := Option.some.inj hrun
  obtain ⟨_, _, _, _, h⟩ := hc ex62C (by rw [this]; exact List.mem_singleton.2 rfl) (by decide)
  exact h

/-- two calls -/
def ex62K (a b : Diag) : Nat → Option Nat := fun t =>
  if t = 0 then some a.code else if t = 1 then some b.code else none

/-- the reads of a whole call -/
def ex62R (t : Nat) : List (Nat × Nat) := (List.range 10).map fun k => (t, k)

/-- what can be seen of a state: values, mark and what the two calls have read -/
def ex62O (S : DgSys Rat) : List Rat × Nat × Option (List Rat) × Option (List Rat) :=
  let got : DgPC Rat → Option (List Rat) := fun
    | .done seen => some (dgGot 9 seen)
    | _ => none
  (S.val, S.mark, got (S.pc 0), got (S.pc 1))

/-- both calls ask for a unit diagonal, their writes overlap: both compute with the unit diagonal -/
example : ((dgRun 3 [0, 4, 8] [1, 0, 7] (ex62K .unit .unit) (dgStart ex62C (ex62K .unit .unit))
      ([(0, 0), (1, 0), (0, 0), (1, 0), (1, 0), (0, 0), (0, 0), (0, 0), (0, 0)] ++ ex62R 0 ++
        [(1, 0), (1, 0), (1, 0)] ++ ex62R 1)).map ex62O)
    = some ([1, 5, 8, 5, 1, 6, 6, 8, 1], 1, some [1, 5, 8, 5, 1, 6, 6, 8, 1],
        some [1, 5, 8, 5, 1, 6, 6, 8, 1]) := by decide +kernel

example : ∀ t w, ex62K .unit .unit t = some w → w = Diag.unit.code := by
  intro t w h
  unfold ex62K at h
  split at h
  · exact (Option.some.inj h).symm
  · split at h
    · exact (Option.some.inj h).symm
    · cases h

/-- the schedule of the counterexample: both calls compare, one writes the first row, the other all its
rows, then the first the rest; the first sets the mark last -/
def ex62S : List (Nat × Nat) :=
  [(0, 0), (1, 0), (0, 0), (1, 0), (1, 0), (1, 0), (0, 0), (0, 0), (0, 0), (1, 0), (1, 0), (0, 0)] ++
    ex62R 0 ++ ex62R 1

/-- **F96.**  Two concurrent products on one optimized symmetric matrix, one descriptor with a unit
diagonal and one with a zero diagonal: both return a result computed with the diagonal (0, 1, 1), which
is neither; after both have returned the mark says unit, so a later call alone with a unit diagonal does
not repair the copy and also computes with the diagonal (0, 1, 1). -/
theorem C62_mixed_counterexample :
    ∃ S, DgReached 3 ex62C [0, 4, 8] [1, 0, 7] (ex62K .unit .zero) S ∧
      (∃ seen0 seen1, S.pc 0 = .done seen0 ∧ S.pc 1 = .done seen1 ∧
        dgGot 9 seen0 = [0, 5, 8, 5, 1, 6, 6, 8, 1] ∧ dgGot 9 seen1 = [0, 5, 8, 5, 1, 6, 6, 8, 1]) ∧
      ((dgAlone 3 Diag.unit.code ex62C).map fun r => r.2.val) = some [1, 5, 8, 5, 1, 6, 6, 8, 1] ∧
      ((dgAlone 3 Diag.zero.code ex62C).map fun r => r.2.val) = some [0, 5, 8, 5, 0, 6, 6, 8, 0] ∧
      ((dgAlone 3 Diag.unit.code { ex62C with val := S.val, mtxDiag := S.mark }).map fun r => r.2.val)
        = some [0, 5, 8, 5, 1, 6, 6, 8, 1] := by
  have h : ((dgRun 3 [0, 4, 8] [1, 0, 7] (ex62K .unit .zero) (dgStart ex62C (ex62K .unit .zero))
      ex62S).map ex62O) = some ([0, 5, 8, 5, 1, 6, 6, 8, 1], 1, some [0, 5, 8, 5, 1, 6, 6, 8, 1],
        some [0, 5, 8, 5, 1, 6, 6, 8, 1]) := by decide +kernel
  obtain ⟨S, h1, h2⟩ := Option.map_eq_some_iff.1 h
  simp only [ex62O, Prod.mk.injEq] at h2
  obtain ⟨v, m, g0, g1⟩ := h2
  refine ⟨S, dgRun_reached .refl _ h1, ?_, by decide +kernel, by decide +kernel, ?_⟩
  · cases e0 : S.pc 0 <;> rw [e0] at g0 <;> simp only [reduceCtorEq, Option.some.injEq] at g0
    cases e1 : S.pc 1 <;> rw [e1] at g1 <;> simp only [reduceCtorEq, Option.some.injEq] at g1
    exact ⟨_, _, rfl, rfl, g0, g1⟩
  · rw [v, m]
    decide +kernel

/-- **F96, the race with one type.**  Even when both calls ask for the same type, both may be about to
write the same element: in terms of the C++ memory model a data race, although the values are right. -/
theorem C62_race_counterexample :
    ∃ S, DgReached 3 ex62C [0, 4, 8] [1, 0, 7] (ex62K .unit .unit) S ∧ DgRace [0, 4, 8] 3 S := by
  have h : ((dgRun 3 [0, 4, 8] [1, 0, 7] (ex62K .unit .unit) (dgStart ex62C (ex62K .unit .unit))
      [(0, 0), (1, 0)]).map fun S => match S.pc 0, S.pc 1 with
        | .write 0, .write 0 => true
        | _, _ => false) = some true := by decide +kernel
  obtain ⟨S, h1, h2⟩ := Option.map_eq_some_iff.1 h
  refine ⟨S, dgRun_reached .refl _ h1, 0, 1, some 0, true, by omega, ?_⟩
  split at h2
  · rename_i e0 e1
    rw [e0, e1]
    exact ⟨⟨by omega, rfl, 0, rfl, rfl⟩, ⟨by omega, rfl, 0, rfl, rfl⟩⟩
  · cases h2

end witness
end Verif
