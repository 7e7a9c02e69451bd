import Verif.Model.ConcDiag
import Verif.Proofs.MCopy
import Mathlib.Logic.Relation

/-!
Invariants of concurrent diagonal adjustments of one full copy.
-/
namespace Verif
namespace Proofs
open Model
variable {R : Type}

/-- the state after some interleaving of the calls `asks` on the copy `c` -/
def DgReached [Zero R] [One R] (M : Nat) (c : MCopy R) (idiag : List Int) (dv : List R)
    (asks : Nat → Option Nat) (S : DgSys R) : Prop :=
  Relation.ReflTransGen (DgSys.Step M idiag dv asks) (dgStart c asks) S

/-- the diagonal value of row `i` for diagonal type `D` -/
def dgVal [Semiring R] [Star R] (U : Mat R) (d : Nat) (D : Diag) (i : Nat) : R :=
  match D with
  | .nonUnit => doidOp .nonUnit d U i i | .unit => 1 | .zero => 0

/-- what is known about the places of the diagonal in a full copy -/
structure DgPos [Semiring R] [Star R] (U : Mat R) (M : Nat) (c : MCopy R) (idiag : List Int)
    (dv : List R) (pos : Nat → Nat) : Prop where
  inj : ∀ i j, i < M → j < M → pos i = pos j → i = j
  lt : ∀ i, i < M → pos i < c.val.length
  ix : ∀ i : Nat, i < M → rd idiag (i : Int) = some (pos i : Int)
  dv : ∀ i : Nat, i < M → rd dv (i : Int) = some (doidOp .nonUnit c.doid U i i)

theorem dgPos_of [CommRing R] [StarRing R] {U : Mat R} {M N : Nat} {c : MCopy R}
    (h : CopyOk U M N c) (hs : 4 ≤ c.doid) {idiag : List Int} {dv : List R}
    (hi : c.idiag = some idiag) (hd : c.diagVal = some dv) :
    ∃ pos, DgPos U M c idiag dv pos := by
  obtain ⟨hMN, idiag', dv', e1, e2, hall⟩ := h.sym hs
  rw [hi] at e1
  rw [hd] at e2
  obtain rfl := Option.some.inj e1
  obtain rfl := Option.some.inj e2
  subst hMN
  choose! pos hp using hall
  have hXm : (c.csr M M).m = M := by simp [MCopy.csr]
  have hX := h.wf
  refine ⟨pos, ?_, ?_, fun i hi => (hp i hi).1, fun i hi => (hp i hi).2.2⟩
  · intro i j hi hj hij
    have a1 := (hp i hi).2.1
    have a2 := (hp j hj).2.1
    have b1 := a1.lo
    have b2 := a1.hi
    have b3 := a2.lo
    have b4 := a2.hi
    rw [hij] at b1 b2
    rcases Nat.lt_trichotomy i j with h | h | h
    · have := hX.mono (show i + 1 ≤ j by omega) (by omega)
      omega
    · exact h
    · have := hX.mono (show j + 1 ≤ i by omega) (by omega)
      omega
  · intro i hi
    have b2 := (hp i hi).2.1.hi
    have := hX.hi (i := i + 1) (by omega)
    have := hX.val_len
    simp only [MCopy.csr] at *
    omega

theorem dgNew_code [CommRing R] [StarRing R] {U : Mat R} {M : Nat} {c : MCopy R} {idiag : List Int}
    {dv : List R} {pos : Nat → Nat} (hp : DgPos U M c idiag dv pos) (D : Diag) {i : Nat} (hi : i < M) :
    dgNew dv D.code i = some (dgVal U c.doid D i) := by
  cases D
  · simp [dgNew, Diag.code, dgVal, hp.dv i hi]
  · simp [dgNew, Diag.code, dgVal]
  · simp [dgNew, Diag.code, dgVal]

theorem dgStore_ok [CommRing R] [StarRing R] {U : Mat R} {M : Nat} {c : MCopy R} {idiag : List Int}
    {dv : List R} {pos : Nat → Nat} (hp : DgPos U M c idiag dv pos) (D : Diag) {i : Nat} (hi : i < M)
    {v : List R} (hv : v.length = c.val.length) :
    dgStore idiag dv D.code i v = some (v.set (pos i) (dgVal U c.doid D i)) := by
  unfold dgStore
  rw [hp.ix i hi, dgNew_code hp D hi]
  show wr v (pos i : Int) _ = _
  have := hp.lt i hi
  rw [wr_eq (by omega) (by omega)]
  simp

/-- the values after a sequential adjustment, from any values that differ from the copy's only on the
diagonal -/
theorem setMatDiag_any [CommRing R] [StarRing R] {U : Mat R} {M N : Nat} {c : MCopy R}
    (h : CopyOk U M N c) (hs : 4 ≤ c.doid) {idiag : List Int} {dv : List R}
    (hi : c.idiag = some idiag) (hd : c.diagVal = some dv) {pos : Nat → Nat}
    (hp : DgPos U M c idiag dv pos) (D : Diag) {v : List R} {mk : Nat}
    (hv : v.length = c.val.length) (ho : ∀ q, (∀ i, i < M → q ≠ pos i) → v[q]? = c.val[q]?) :
    ∃ T : List R, setMatDiag (M : Int) D.code { c with val := v, mtxDiag := mk } =
        some (.success, { c with val := T, mtxDiag := D.code }) ∧
      CopyOk U M N { c with val := T, mtxDiag := D.code } ∧ T.length = c.val.length ∧
      (∀ i, i < M → T[pos i]? = some (dgVal U c.doid D i)) ∧
      (∀ q, (∀ i, i < M → q ≠ pos i) → T[q]? = c.val[q]?) := by
  obtain ⟨c', g0, g1, g2, g3, g4, g5, pos', p1, p2, p3⟩ := setMatDiag_ok h hs D
  have epos : ∀ i, i < M → pos' i = pos i := by
    intro i hi'
    have := p1 i hi'
    rw [hi] at this
    simp only [Option.bind_some] at this
    rw [hp.ix i hi'] at this
    have := Option.some.inj this
    omega
  have q1 : ∀ i, i < M → c'.val[pos i]? = some (dgVal U c.doid D i) := by
    intro i hi'
    have := (p2 i hi').2
    rw [epos i hi'] at this
    exact this
  have q2 : ∀ q, (∀ i, i < M → q ≠ pos i) → c'.val[q]? = c.val[q]? := by
    intro q hq
    exact p3 q fun i hi' => by rw [epos i hi']; exact hq i hi'
  refine ⟨c'.val, ?_, by rw [← g4]; exact g3, g5, q1, q2⟩
  -- the loop from the other values
  have run : ∀ (f : Int → List R → Option (List R)),
      (∀ (i : Nat) val, i < M → f i val = wr val (pos i : Int) (dgVal U c.doid D i)) →
      forC 0 (M : Int) f v = some c'.val := by
    intro f hf
    obtain ⟨val, r0, r1, r2, r3⟩ := writeDiag_ok (M := M) (pos := pos) (d := dgVal U c.doid D)
      (val0 := v) hp.inj (fun i hi' => by rw [hv]; exact hp.lt i hi') f hf
    rw [r0]
    congr 1
    apply List.ext_getElem?
    intro q
    by_cases hq : ∃ i, i < M ∧ q = pos i
    · obtain ⟨i, hi', rfl⟩ := hq
      rw [r2 i hi', q1 i hi']
    · have hq' : ∀ i, i < M → q ≠ pos i := fun i hi' e => hq ⟨i, hi', e⟩
      rw [r3 q hq', q2 q hq', ho q hq']
  unfold setMatDiag
  simp only [hi, hd]
  cases D
  · simp only [Diag.code, if_true]
    rw [run _ (fun i val hi' => by rw [hp.ix i hi', hp.dv i hi']; rfl)]
    rfl
  · simp only [Diag.code, if_true]
    simp only [one_ne_zero, if_false, Option.bind_eq_bind, Option.bind_some]
    rw [run _ (fun i val hi' => by rw [hp.ix i hi']; rfl)]
    rfl
  · simp only [Diag.code, if_true]
    simp only [show (2 : Nat) ≠ 0 by omega, show (2 : Nat) ≠ 1 by omega, if_false,
      Option.bind_eq_bind, Option.bind_some]
    rw [run _ (fun i val hi' => by rw [hp.ix i hi']; rfl)]
    rfl

/-- what a call with the program counter `pc` knows, when all calls want the values `T` -/
def dgKnows (M : Nat) (pos : Nat → Nat) (T v : List R) (differs : Prop) : DgPC R → Prop
  | .off => True
  | .check => True
  | .write i => differs ∧ i ≤ M ∧ ∀ j, j < i → v[pos j]? = T[pos j]?
  | .mark => differs ∧ ∀ j, j < M → v[pos j]? = T[pos j]?
  | .read seen => (∀ j, j < M → v[pos j]? = T[pos j]?) ∧ ∀ k, seen k = none ∨ seen k = T[k]?
  | .done seen => (∀ j, j < M → v[pos j]? = T[pos j]?) ∧ ∀ k, k < T.length → seen k = T[k]?
  | .crash => False

/-- the invariant when all calls want `D` -/
structure DgInv (M : Nat) (pos : Nat → Nat) (c : MCopy R) (T : List R) (w : Nat) (S : DgSys R) : Prop where
  len : S.val.length = T.length
  off : ∀ q, (∀ i, i < M → q ≠ pos i) → S.val[q]? = T[q]?
  mrk : S.mark = c.mtxDiag ∨ S.mark = w
  good : S.mark = w → ∀ j, j < M → S.val[pos j]? = T[pos j]?
  pcs : ∀ t, dgKnows M pos T S.val (w ≠ c.mtxDiag) (S.pc t)
  act : S.val = c.val ∨ S.mark = w ∨ ∃ t, (∃ i, S.pc t = .write i) ∨ S.pc t = .mark

theorem dgKnows_mono {M : Nat} {pos : Nat → Nat} {T v v' : List R} {P : Prop} {pc : DgPC R}
    (hg : ∀ j, j < M → v[pos j]? = T[pos j]? → v'[pos j]? = T[pos j]?)
    (h : dgKnows M pos T v P pc) : dgKnows M pos T v' P pc := by
  cases pc with
  | off => trivial
  | check => trivial
  | write i => exact ⟨h.1, h.2.1, fun j hj => hg j (by have := h.2.1; omega) (h.2.2 j hj)⟩
  | mark => exact ⟨h.1, fun j hj => hg j hj (h.2 j hj)⟩
  | read s => exact ⟨fun j hj => hg j hj (h.1 j hj), h.2⟩
  | done s => exact ⟨fun j hj => hg j hj (h.1 j hj), h.2⟩
  | crash => exact h

theorem dg_ext {M : Nat} {pos : Nat → Nat} {T v : List R}
    (off : ∀ q, (∀ i, i < M → q ≠ pos i) → v[q]? = T[q]?)
    (good : ∀ j, j < M → v[pos j]? = T[pos j]?) : v = T := by
  apply List.ext_getElem?
  intro q
  by_cases hq : ∃ i, i < M ∧ q = pos i
  · obtain ⟨i, hi', rfl⟩ := hq
    exact good i hi'
  · exact off q fun i hi' e => hq ⟨i, hi', e⟩

theorem dgAll_iff {n : Nat} {seen : Nat → Option R} :
    dgAll n seen = true ↔ ∀ k, k < n → ∃ x, seen k = some x := by
  unfold dgAll
  rw [List.all_eq_true]
  constructor
  · intro h k hk
    exact Option.isSome_iff_exists.1 (h k (List.mem_range.2 hk))
  · intro h k hk
    exact Option.isSome_iff_exists.2 (h k (List.mem_range.1 hk))

theorem dgInv_step [CommRing R] [StarRing R] {U : Mat R} {M : Nat} {c : MCopy R} {idiag : List Int}
    {dv : List R} {pos : Nat → Nat} (hp : DgPos U M c idiag dv pos) (D : Diag) {T : List R}
    (hT : T.length = c.val.length)
    (hTd : D.code ≠ c.mtxDiag → ∀ i, i < M → T[pos i]? = some (dgVal U c.doid D i))
    {asks : Nat → Option Nat} (hD : ∀ t w, asks t = some w → w = D.code) {S S' : DgSys R}
    (h : DgInv M pos c T D.code S) (st : DgSys.Step M idiag dv asks S S') :
    DgInv M pos c T D.code S' := by
  obtain ⟨t, k, w, r, ha, hs, rfl⟩ := st
  obtain rfl := hD t w ha
  have hk := h.pcs t
  -- a step that leaves the shared part alone
  have plain : ∀ pc', dgKnows M pos T S.val (D.code ≠ c.mtxDiag) pc' →
      (((∃ i, S.pc t = .write i) ∨ S.pc t = .mark) → ((∃ i, pc' = .write i) ∨ pc' = .mark)) →
      DgInv M pos c T D.code ⟨Function.update S.pc t pc', S.val, S.mark⟩ := by
    intro pc' hpc hact
    refine ⟨h.len, h.off, h.mrk, h.good, ?_, ?_⟩
    · intro u
      by_cases hu : u = t
      · subst hu
        simpa using hpc
      · simpa [Function.update_of_ne hu] using h.pcs u
    · rcases h.act with e | e | ⟨u, e⟩
      · exact Or.inl e
      · exact Or.inr (Or.inl e)
      · refine Or.inr (Or.inr ⟨u, ?_⟩)
        by_cases hu : u = t
        · subst hu
          simpa using hact e
        · simpa [Function.update_of_ne hu] using e
  cases epc : S.pc t with
  | off => rw [epc] at hs; simp [dgStep] at hs
  | done s => rw [epc] at hs; simp [dgStep] at hs
  | crash => rw [epc] at hs; simp [dgStep] at hs
  | check =>
    rw [epc] at hs
    simp only [dgStep] at hs
    by_cases hm : D.code ≠ S.mark
    · rw [if_pos hm] at hs
      obtain rfl := Option.some.inj hs
      refine plain _ ⟨?_, Nat.zero_le _, fun j hj => absurd hj (by omega)⟩ (by simp)
      rcases h.mrk with e | e
      · rw [← e]; exact hm
      · exact absurd e.symm hm
    · rw [if_neg hm] at hs
      obtain rfl := Option.some.inj hs
      refine plain _ ⟨h.good (not_not.1 hm).symm, fun k => Or.inl rfl⟩ (by simp [epc])
  | write i =>
    rw [epc] at hs hk
    simp only [dgStep] at hs
    by_cases hi : i < M
    · rw [if_pos hi, dgStore_ok hp D hi (by rw [h.len, hT])] at hs
      obtain rfl := Option.some.inj hs
      have hl : pos i < S.val.length := by rw [h.len, hT]; exact hp.lt i hi
      have hnew : (S.val.set (pos i) (dgVal U c.doid D i))[pos i]? = T[pos i]? := by
        rw [hTd hk.1 i hi]
        simp [hl]
      have hg : ∀ j, j < M → S.val[pos j]? = T[pos j]? →
          (S.val.set (pos i) (dgVal U c.doid D i))[pos j]? = T[pos j]? := by
        intro j hj e
        by_cases hij : pos i = pos j
        · rw [← hij]; exact hnew
        · rw [List.getElem?_set_ne hij]; exact e
      refine ⟨by simpa using h.len, ?_, h.mrk, fun e j hj => hg j hj (h.good e j hj), ?_, ?_⟩
      · intro q hq
        show (S.val.set _ _)[q]? = _
        rw [List.getElem?_set_ne (fun e => hq i hi e.symm)]
        exact h.off q hq
      · intro u
        by_cases hu : u = t
        · subst hu
          simp only [Function.update_self]
          refine ⟨hk.1, hi, fun j hj => ?_⟩
          rcases Nat.lt_succ_iff_lt_or_eq.1 hj with hj | rfl
          · exact hg j (by omega) (hk.2.2 j hj)
          · exact hnew
        · simp only [Function.update_of_ne hu]
          exact dgKnows_mono hg (h.pcs u)
      · exact Or.inr (Or.inr ⟨t, Or.inl ⟨i + 1, by simp⟩⟩)
    · rw [if_neg hi] at hs
      obtain rfl := Option.some.inj hs
      exact plain _ ⟨hk.1, fun j hj => hk.2.2 j (by omega)⟩ (by simp)
  | mark =>
    rw [epc] at hs hk
    simp only [dgStep] at hs
    obtain rfl := Option.some.inj hs
    refine ⟨h.len, h.off, Or.inr rfl, fun _ => hk.2, ?_, Or.inr (Or.inl rfl)⟩
    intro u
    by_cases hu : u = t
    · subst hu
      simp only [Function.update_self]
      exact ⟨hk.2, fun k => Or.inl rfl⟩
    · simpa [Function.update_of_ne hu] using h.pcs u
  | read seen =>
    rw [epc] at hs hk
    simp only [dgStep] at hs
    have eT := dg_ext h.off hk.1
    by_cases hl : k < S.val.length
    · rw [if_pos hl] at hs
      obtain rfl := Option.some.inj hs
      refine plain _ ⟨hk.1, fun q => ?_⟩ (by simp [epc])
      by_cases hq : q = k
      · subst hq
        right
        simp [eT]
      · simpa [Function.update_of_ne hq] using hk.2 q
    · rw [if_neg hl] at hs
      by_cases hall : dgAll S.val.length seen = true
      · rw [if_pos hall] at hs
        obtain rfl := Option.some.inj hs
        refine plain _ ⟨hk.1, fun q hq => ?_⟩ (by simp [epc])
        obtain ⟨x, hx⟩ := dgAll_iff.1 hall q (by rw [eT]; exact hq)
        rcases hk.2 q with e | e
        · rw [hx] at e; cases e
        · exact e
      · rw [if_neg hall] at hs
        cases hs

theorem dgInv_reached [CommRing R] [StarRing R] {U : Mat R} {M : Nat} {c : MCopy R} {idiag : List Int}
    {dv : List R} {pos : Nat → Nat} (hp : DgPos U M c idiag dv pos) (D : Diag) {T : List R}
    (hT : T.length = c.val.length)
    (hTd : D.code ≠ c.mtxDiag → ∀ i, i < M → T[pos i]? = some (dgVal U c.doid D i))
    (hTe : D.code = c.mtxDiag → T = c.val)
    (hTo : ∀ q, (∀ i, i < M → q ≠ pos i) → T[q]? = c.val[q]?)
    {asks : Nat → Option Nat} (hD : ∀ t w, asks t = some w → w = D.code) {S : DgSys R}
    (hr : DgReached M c idiag dv asks S) : DgInv M pos c T D.code S := by
  induction hr with
  | refl =>
    refine ⟨hT.symm, fun q hq => (hTo q hq).symm, Or.inl rfl, ?_, ?_, Or.inl rfl⟩
    · intro e j _
      rw [hTe e.symm]
      rfl
    · intro t
      show dgKnows _ _ _ _ _ (if (asks t).isSome then _ else _)
      split <;> trivial
  | tail _ st ih => exact dgInv_step hp D hT hTd hD ih st

/-- a value the calls may leave at position `k`: the one of the copy or the one for a type asked for -/
def dgFrom (M : Nat) (c : MCopy R) [Zero R] [One R] (asks : Nat → Option Nat) (k : Nat)
    (x : Option R) : Prop :=
  x = c.val[k]? ∨ ∃ t w c', asks t = some w ∧ setMatDiag (M : Int) w c = some (.success, c') ∧
    x = c'.val[k]?

/-- the values a call has read -/
def DgPC.seen : DgPC R → Nat → Option R
  | .read s => s
  | .done s => s
  | _ => fun _ => none

/-- the invariant whatever types are asked for -/
structure DgAny [Zero R] [One R] (M : Nat) (pos : Nat → Nat) (c : MCopy R) (asks : Nat → Option Nat)
    (S : DgSys R) : Prop where
  len : S.val.length = c.val.length
  off : ∀ q, (∀ i, i < M → q ≠ pos i) → S.val[q]? = c.val[q]?
  vals : ∀ k, dgFrom M c asks k S.val[k]?
  seen : ∀ t k, DgPC.seen (S.pc t) k = none ∨ dgFrom M c asks k (DgPC.seen (S.pc t) k)
  full : ∀ t s, S.pc t = .done s → ∀ k, k < c.val.length → ∃ x, s k = some x
  alive : ∀ t, S.pc t ≠ .crash

theorem dgAny_step [CommRing R] [StarRing R] {U : Mat R} {M N : Nat} {c : MCopy R}
    (hc : CopyOk U M N c) (h4 : 4 ≤ c.doid) {idiag : List Int} {dv : List R}
    (hi : c.idiag = some idiag) (hd : c.diagVal = some dv) {pos : Nat → Nat}
    (hp : DgPos U M c idiag dv pos) {asks : Nat → Option Nat}
    (hD : ∀ t w, asks t = some w → ∃ D : Diag, w = D.code) {S S' : DgSys R}
    (h : DgAny M pos c asks S) (st : DgSys.Step M idiag dv asks S S') : DgAny M pos c asks S' := by
  obtain ⟨t, k, w, r, ha, hs, rfl⟩ := st
  obtain ⟨D, rfl⟩ := hD t w ha
  have plain : ∀ pc' mk, (∀ k, DgPC.seen pc' k = none ∨ dgFrom M c asks k (DgPC.seen pc' k)) →
      (∀ s, pc' = .done s → ∀ k, k < c.val.length → ∃ x, s k = some x) → pc' ≠ .crash →
      DgAny M pos c asks ⟨Function.update S.pc t pc', S.val, mk⟩ := by
    intro pc' mk h1 h2 h3
    refine ⟨h.len, h.off, h.vals, ?_, ?_, ?_⟩
    · intro u k
      by_cases hu : u = t
      · subst hu; simpa using h1 k
      · simpa [Function.update_of_ne hu] using h.seen u k
    · intro u s
      by_cases hu : u = t
      · subst hu; simpa using h2 s
      · simpa [Function.update_of_ne hu] using h.full u s
    · intro u
      by_cases hu : u = t
      · subst hu; simpa using h3
      · simpa [Function.update_of_ne hu] using h.alive u
  cases epc : S.pc t with
  | off => rw [epc] at hs; simp [dgStep] at hs
  | done s => rw [epc] at hs; simp [dgStep] at hs
  | crash => rw [epc] at hs; simp [dgStep] at hs
  | check =>
    rw [epc] at hs
    simp only [dgStep] at hs
    by_cases hm : D.code ≠ S.mark
    · rw [if_pos hm] at hs
      obtain rfl := Option.some.inj hs
      exact plain _ _ (fun k => Or.inl rfl) (by simp) (by simp)
    · rw [if_neg hm] at hs
      obtain rfl := Option.some.inj hs
      exact plain _ _ (fun k => Or.inl rfl) (by simp) (by simp)
  | write i =>
    rw [epc] at hs
    simp only [dgStep] at hs
    by_cases hiM : i < M
    · rw [if_pos hiM, dgStore_ok hp D hiM h.len] at hs
      obtain rfl := Option.some.inj hs
      have hl : pos i < S.val.length := by rw [h.len]; exact hp.lt i hiM
      refine ⟨by simpa using h.len, ?_, ?_, ?_, ?_, ?_⟩
      · intro q hq
        show (S.val.set _ _)[q]? = _
        rw [List.getElem?_set_ne (fun e => hq i hiM e.symm)]
        exact h.off q hq
      · intro q
        show dgFrom _ _ _ _ (S.val.set _ _)[q]?
        by_cases hq : pos i = q
        · subst hq
          right
          obtain ⟨T, e1, _, _, e2, _⟩ := setMatDiag_any hc h4 hi hd hp D (v := c.val)
            (mk := c.mtxDiag) rfl (fun _ _ => rfl)
          refine ⟨t, _, _, ha, e1, ?_⟩
          show _ = T[pos i]?
          rw [e2 i hiM]
          simp [hl]
        · rw [List.getElem?_set_ne hq]
          exact h.vals q
      · intro u k
        by_cases hu : u = t
        · subst hu; left; simp [DgPC.seen]
        · simpa [Function.update_of_ne hu] using h.seen u k
      · intro u s
        by_cases hu : u = t
        · subst hu; simp
        · simpa [Function.update_of_ne hu] using h.full u s
      · intro u
        by_cases hu : u = t
        · subst hu; simp
        · simpa [Function.update_of_ne hu] using h.alive u
    · rw [if_neg hiM] at hs
      obtain rfl := Option.some.inj hs
      exact plain _ _ (fun k => Or.inl rfl) (by simp) (by simp)
  | mark =>
    rw [epc] at hs
    simp only [dgStep] at hs
    obtain rfl := Option.some.inj hs
    exact plain _ _ (fun k => Or.inl rfl) (by simp) (by simp)
  | read seen =>
    have hk := h.seen t
    rw [epc] at hs hk
    simp only [dgStep] at hs
    by_cases hl : k < S.val.length
    · rw [if_pos hl] at hs
      obtain rfl := Option.some.inj hs
      refine plain _ _ (fun q => ?_) (by simp) (by simp)
      by_cases hq : q = k
      · subst hq
        right
        simpa [DgPC.seen] using h.vals q
      · simpa [DgPC.seen, Function.update_of_ne hq] using hk q
    · rw [if_neg hl] at hs
      by_cases hall : dgAll S.val.length seen = true
      · rw [if_pos hall] at hs
        obtain rfl := Option.some.inj hs
        refine plain _ _ (fun q => hk q) ?_ (by simp)
        intro s e q hq
        obtain rfl := DgPC.done.inj e
        exact dgAll_iff.1 hall q (by rw [h.len]; exact hq)
      · rw [if_neg hall] at hs
        cases hs

theorem dgAny_reached [CommRing R] [StarRing R] {U : Mat R} {M N : Nat} {c : MCopy R}
    (hc : CopyOk U M N c) (h4 : 4 ≤ c.doid) {idiag : List Int} {dv : List R}
    (hi : c.idiag = some idiag) (hd : c.diagVal = some dv) {pos : Nat → Nat}
    (hp : DgPos U M c idiag dv pos) {asks : Nat → Option Nat}
    (hD : ∀ t w, asks t = some w → ∃ D : Diag, w = D.code) {S : DgSys R}
    (hr : DgReached M c idiag dv asks S) : DgAny M pos c asks S := by
  induction hr with
  | refl =>
    have key : ∀ t, (dgStart c asks).pc t = .check ∨ (dgStart c asks).pc t = .off := by
      intro t
      show (if (asks t).isSome then _ else _) = _ ∨ (if (asks t).isSome then _ else _) = _
      split
      · exact Or.inl rfl
      · exact Or.inr rfl
    refine ⟨rfl, fun _ _ => rfl, fun _ => Or.inl rfl, ?_, ?_, ?_⟩
    · intro t k
      rcases key t with e | e <;> rw [e] <;> exact Or.inl rfl
    · intro t s e
      rcases key t with e' | e' <;> rw [e'] at e <;> cases e
    · intro t e
      rcases key t with e' | e' <;> rw [e'] at e <;> cases e
  | tail _ st ih => exact dgAny_step hc h4 hi hd hp hD ih st

/-- a call that exists is never off -/
theorem dgOff_never [Zero R] [One R] {M : Nat} {c : MCopy R} {idiag : List Int} {dv : List R}
    {asks : Nat → Option Nat} {S : DgSys R} (hr : DgReached M c idiag dv asks S) {t w : Nat}
    (ha : asks t = some w) : S.pc t ≠ .off := by
  induction hr with
  | refl =>
    show (if (asks t).isSome then _ else _) ≠ _
    rw [ha]
    simp
  | @tail S0 S1 _ st ih =>
    obtain ⟨u, k, w', r, _, hs, rfl⟩ := st
    by_cases hu : t = u
    · subst hu
      simp only [Function.update_self]
      intro e
      cases epc : S0.pc t <;> rw [epc] at hs <;> simp only [dgStep, reduceCtorEq] at hs
      · split at hs <;> cases hs <;> cases e
      · split at hs
        · split at hs <;> cases hs <;> cases e
        · cases hs; cases e
      · cases hs; cases e
      · split at hs
        · cases hs; cases e
        · split at hs
          · cases hs; cases e
          · cases hs
    · simpa [Function.update_of_ne hu] using ih

/-- when all calls want the same type, the mark is right as soon as one of them has got to its kernel -/
theorem dgDone_mark [Zero R] [One R] {M : Nat} {c : MCopy R} {idiag : List Int} {dv : List R}
    {asks : Nat → Option Nat} {W : Nat} (hD : ∀ t w, asks t = some w → w = W) {S : DgSys R}
    (hr : DgReached M c idiag dv asks S) (t : Nat) (seen : Nat → Option R) (e : S.pc t = .done seen) :
    S.mark = W := by
  have inv : ∀ t s, S.pc t = .done s ∨ S.pc t = .read s → S.mark = W := by
    clear e
    induction hr with
    | refl =>
      intro t s e
      have : (dgStart c asks).pc t = .check ∨ (dgStart c asks).pc t = .off := by
        show (if (asks t).isSome then _ else _) = _ ∨ (if (asks t).isSome then _ else _) = _
        split
        · exact Or.inl rfl
        · exact Or.inr rfl
      rcases this with e' | e' <;> rw [e'] at e <;> rcases e with e | e <;> cases e
    | @tail S0 S1 _ st ih =>
      obtain ⟨u, k, w', r, ha, hs, rfl⟩ := st
      obtain rfl := hD u w' ha
      intro t s e
      have other : t ≠ u → S0.mark = w' := by
        intro hu
        simp only [Function.update_of_ne hu] at e
        exact ih t s e
      show r.2.2 = w'
      cases epc : S0.pc u <;> rw [epc] at hs <;> simp only [dgStep, reduceCtorEq] at hs
      · split at hs
        · cases hs
          by_cases hu : t = u
          · subst hu
            simp at e
          · exact other hu
        · rename_i hm
          cases hs
          exact (not_not.1 hm).symm
      · have hne : r.1 ≠ .done s ∧ r.1 ≠ .read s ∧ r.2.2 = S0.mark := by
          split at hs
          · split at hs <;> cases hs <;> simp
          · cases hs; simp
        by_cases hu : t = u
        · subst hu
          simp only [Function.update_self] at e
          rcases e with e | e
          · exact absurd e hne.1
          · exact absurd e hne.2.1
        · rw [hne.2.2]
          exact other hu
      · cases hs
        rfl
      · have hmk : r.2.2 = S0.mark := by
          split at hs
          · cases hs; rfl
          · split at hs
            · cases hs; rfl
            · cases hs
        rw [hmk]
        exact ih u _ (Or.inr epc)
  exact inv t seen (Or.inl e)

end Proofs
end Verif
