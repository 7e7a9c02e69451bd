/-
Invariant of the interleavings of Model/Conc.lean.
-/
import Verif.Model.Conc
import Verif.Core.Mem
import Mathlib.Logic.Function.Basic

namespace Verif
namespace Conc
open Model
variable {R : Type} [Zero R]

/-- the lock is held for reading -/
def holdsR : PC R → Bool
  | .mvBest | .mvRel _ | .first | .firstRel _ | .fast _ _ | .gotFast _ | .noFast _ => true
  | _ => false

/-- the lock is held for writing -/
def holdsW : PC R → Bool
  | .slow _ _ | .gotSlow _ | .build _ | .setDiag _ _ | .setUrow _ _ | .fillIdx _ _ | .setOpt _ _ | .push _ _
  | .flagD _ _ | .flagO _ | .failW _ | .crash => true
  | _ => false

/-- the handle before: the user's matrix without index arrays, no optimised object -/
structure Init (H0 : MvHandle R) (c0 : MCopy R) (rest : List (Stored R)) : Prop where
  mats : H0.mats = .csr c0 false none :: rest
  idiag : c0.idiag = none
  rest : optIdx rest = none

section inv
variable (srt : (Int → Int → Bool) → List Int → List Int) (H0 : MvHandle R) (c0 : MCopy R)
  (rest : List (Stored R)) (ns : Prop)

/-- the sequential call gives object `i` and handle `H1` -/
def Seq (i : Nat) (H1 : MvHandle R) : Prop :=
  ∃ gi gv, csrCscOptimize srt gi gv H0 = some (.ok (i, H1))

/-- `o` is a result of the builder -/
def Res (o : OptCsr R) : Prop :=
  ∃ gi gv, csrOptimize srt gi gv c0.m c0.n H0.raw.nnz c0.base c0.ptr c0.ind c0.val = some (.ok o)

/-- equal up to opt_csr_full_diag, and that too if no thread runs sorv -/
def Sim (H H' : MvHandle R) : Prop := H = { H' with fulldiag := H.fulldiag } ∧ (ns → H.fulldiag = H'.fulldiag)

/-- nobody is writing -/
def Quiet (H : MvHandle R) : Prop := Sim ns H H0 ∨ ∃ i H1, Seq srt H0 i H1 ∧ Sim ns H H1

/-- the clean copy is object `i` -/
def BuiltAt (i : Nat) (mats : List (Stored R)) : Prop := ∃ H1, Seq srt H0 i H1 ∧ mats = H1.mats

/-- the first `j` objects are not optimised -/
def NoneBefore (j : Nat) (mats : List (Stored R)) : Prop := ∀ m < j, ∀ x, mats[m]? = some x → x.opt = false

/-- an error the sequential call can give -/
def ErrOk (st : Status) : Prop :=
  st = .memoryError ∨ ∃ gi gv, csrCscOptimize srt gi gv H0 = some (.error st)

/-- the handle with the head of `mats` changed -/
def withHead (d u : Option (List Int)) : MvHandle R :=
  { H0 with mats := .csr { c0 with idiag := d } false u :: rest }

/-- what is known at each point of a thread -/
def TInv : PC R → MvHandle R → Prop
  | .mvStart, _ | .mvBest, _ | .mvRel _, _ | .mvTest _, _ | .mvUse _, _ | .start, _ | .first, _ | .fastAcq, _
  | .fin, _ => True
  | .sorRead, _ | .sorWrite, _ => ¬ ns
  | .firstRel ok, _ => ok = true
  | .fast j src, H => NoneBefore j H.mats ∧ src = if j = 0 then none else some 0
  | .gotFast i, H => BuiltAt srt H0 i H.mats
  | .noFast src, _ => src = some 0
  | .validate src, _ => src = some 0
  | .slowAcq k, _ => k = 0
  | .slow j k, H => Quiet srt H0 ns H ∧ NoneBefore j H.mats ∧ k = 0
  | .gotSlow i, H => Quiet srt H0 ns H ∧ BuiltAt srt H0 i H.mats
  | .build k, H => k = 0 ∧ Sim ns H H0
  | .setDiag k o, H => k = 0 ∧ Sim ns H H0 ∧ Res srt H0 c0 o ∧ o.inPlace = true
  | .setUrow k o, H => k = 0 ∧ (∃ d, Sim ns H (withHead H0 c0 rest d none)) ∧ Res srt H0 c0 o ∧ o.inPlace = true
  | .fillIdx k o, H => k = 0 ∧ (∃ d u, Sim ns H (withHead H0 c0 rest d u)) ∧ Res srt H0 c0 o ∧ o.inPlace = true
  | .setOpt k o, H => k = 0 ∧ Sim ns H (withHead H0 c0 rest (some o.idiag) (some o.iurow)) ∧
      Res srt H0 c0 o ∧ o.inPlace = true
  | .push k o, H => k = 0 ∧ Sim ns H H0 ∧ Res srt H0 c0 o ∧ o.inPlace = false
  | .flagD i fd, H => ∃ H1, Seq srt H0 i H1 ∧ fd = H1.fulldiag ∧
      H = { H1 with fulldiag := H.fulldiag, optimized := H.optimized }
  | .flagO i, H => ∃ H1, Seq srt H0 i H1 ∧
      H = { H1 with fulldiag := H.fulldiag, optimized := H.optimized } ∧ (ns → H.fulldiag = H1.fulldiag)
  | .failW st, H => Quiet srt H0 ns H ∧ ErrOk srt H0 st
  | .got i, H | .use i, H | .done (.ok i), H => BuiltAt srt H0 i H.mats
  | .done (.error st), _ => ErrOk srt H0 st
  | .crash, H => Quiet srt H0 ns H ∧ ∃ gi gv, csrCscOptimize srt gi gv H0 = none

structure Inv (S : Sys R) : Prop where
  nodup : S.sh.readers.Nodup
  rd : ∀ t, t ∈ S.sh.readers ↔ holdsR (S.th t) = true
  wr : ∀ t, S.sh.writer = some t ↔ holdsW (S.th t) = true
  excl : S.sh.writer ≠ none → S.sh.readers = []
  sh : S.sh.writer = none → Quiet srt H0 ns S.sh.H
  tinv : ∀ t, TInv srt H0 c0 rest ns (S.th t) S.sh.H

end inv

section lemmas
variable {srt : (Int → Int → Bool) → List Int → List Int} {H0 : MvHandle R} {c0 : MCopy R}
  {rest : List (Stored R)} {ns : Prop}

theorem optIdx_none {L : List (Stored R)} (h : optIdx L = none) : ∀ x ∈ L, x.opt = false := by
  induction L with
  | nil => intro x hx; cases hx
  | cons a L ih =>
    unfold optIdx at h
    split at h
    · cases h
    · rename_i ha
      intro x hx
      rcases List.mem_cons.1 hx with rfl | hx
      · simpa using ha
      · exact ih (by simpa using h) x hx

theorem optIdx_append {L : List (Stored R)} (h : optIdx L = none) {x : Stored R} (hx : x.opt = true) :
    optIdx (L ++ [x]) = some L.length := by
  induction L with
  | nil => simp [optIdx, hx]
  | cons a L ih =>
    have ha : a.opt = false := optIdx_none h a (by simp)
    unfold optIdx at h
    rw [ha] at h
    simp only [Bool.false_eq_true, if_false, Option.map_eq_none_iff] at h
    rw [List.cons_append, optIdx, ha]
    simp [ih h]

theorem optIdx_first {L : List (Stored R)} {i : Nat} (h : ∀ m < i, ∀ x, L[m]? = some x → x.opt = false)
    {x : Stored R} (hx : L[i]? = some x) (ho : x.opt = true) : optIdx L = some i := by
  induction L generalizing i with
  | nil => simp at hx
  | cons a L ih =>
    cases i with
    | zero =>
      simp at hx; subst hx; simp [optIdx, ho]
    | succ i =>
      have ha : a.opt = false := h 0 (by omega) a (by simp)
      simp only [List.getElem?_cons_succ] at hx
      rw [optIdx, ha]
      simp [ih (fun m hm x hx => h (m + 1) (by omega) x (by simpa using hx)) hx]

theorem optIdx_all {L : List (Stored R)} {n : Nat} (h : ∀ m < n, ∀ x, L[m]? = some x → x.opt = false)
    (hn : L.length ≤ n) : optIdx L = none := by
  cases e : optIdx L with
  | none => rfl
  | some i =>
    exfalso
    have : ∀ (L : List (Stored R)) (i : Nat), optIdx L = some i → ∃ x, L[i]? = some x ∧ x.opt = true := by
      intro L
      induction L with
      | nil => intro i h; cases h
      | cons a L ih =>
        intro i h
        unfold optIdx at h
        split at h
        · rename_i ha
          cases h; exact ⟨a, rfl, ha⟩
        · simp only [Option.map_eq_some_iff] at h
          obtain ⟨j, hj, rfl⟩ := h
          exact ih j hj
    obtain ⟨x, h1, h2⟩ := this L i e
    obtain ⟨hlt, _⟩ := List.getElem?_eq_some_iff.1 h1
    rw [h i (by omega) x h1] at h2
    cases h2

theorem Init.noOpt (I : Init H0 c0 rest) : optIdx H0.mats = none := by
  rw [I.mats, optIdx]
  simp [Stored.opt, I.rest]

/-- the handle after an in-place build -/
def inPlaceH (H0 : MvHandle R) (c0 : MCopy R) (rest : List (Stored R)) (o : OptCsr R) : MvHandle R :=
  { H0 with
    mats := .csr { c0 with idiag := some o.idiag } true (some o.iurow) :: rest
    optimized := true, fulldiag := o.fulldiag }

/-- the handle after the build of a new object -/
def pushH (H0 : MvHandle R) (c0 : MCopy R) (o : OptCsr R) : MvHandle R :=
  { H0 with mats := H0.mats ++ [newObj c0 o], optimized := true, fulldiag := o.fulldiag }

theorem seq_inPlace (I : Init H0 c0 rest) {o : OptCsr R} (h : Res srt H0 c0 o) (hp : o.inPlace = true) :
    Seq srt H0 0 (inPlaceH H0 c0 rest o) := by
  obtain ⟨gi, gv, e⟩ := h
  refine ⟨gi, gv, ?_⟩
  unfold csrCscOptimize
  rw [I.noOpt]
  dsimp only
  rw [I.mats]
  simp only [Option.bind_eq_bind, e, Option.bind_some, hp, if_true]
  rfl

theorem seq_push (I : Init H0 c0 rest) {o : OptCsr R} (h : Res srt H0 c0 o) (hp : o.inPlace = false) :
    Seq srt H0 H0.mats.length (pushH H0 c0 o) := by
  obtain ⟨gi, gv, e⟩ := h
  refine ⟨gi, gv, ?_⟩
  unfold csrCscOptimize pushH
  rw [I.noOpt]
  dsimp only
  rw [I.mats]
  simp only [Option.bind_eq_bind, e, Option.bind_some, hp, Bool.false_eq_true, if_false]
  rfl

theorem seq_cases (I : Init H0 c0 rest) {i : Nat} {H1 : MvHandle R} (h : Seq srt H0 i H1) :
    ∃ o, Res srt H0 c0 o ∧ ((o.inPlace = true ∧ i = 0 ∧ H1 = inPlaceH H0 c0 rest o) ∨
      (o.inPlace = false ∧ i = H0.mats.length ∧ H1 = pushH H0 c0 o)) := by
  obtain ⟨gi, gv, e⟩ := h
  unfold csrCscOptimize at e
  rw [I.noOpt] at e
  dsimp only at e
  rw [I.mats] at e
  simp only [Option.bind_eq_bind, Option.bind_eq_some_iff] at e
  obtain ⟨r, e1, e⟩ := e
  cases r with
  | error st => cases e
  | ok o =>
    dsimp only at e
    refine ⟨o, ⟨gi, gv, e1⟩, ?_⟩
    cases hp : o.inPlace
    · rw [hp] at e
      simp only [Bool.false_eq_true, if_false, Option.some.injEq, Except.ok.injEq, Prod.mk.injEq] at e
      refine .inr ⟨rfl, ?_, ?_⟩
      · rw [I.mats]; exact e.1.symm
      · rw [← e.2]; unfold pushH newObj; rw [I.mats]
    · rw [hp] at e
      simp only [if_true, Option.some.injEq, Except.ok.injEq, Prod.mk.injEq] at e
      exact .inl ⟨rfl, e.1.symm, e.2.symm⟩

theorem seq_opt (I : Init H0 c0 rest) {i : Nat} {H1 : MvHandle R} (h : Seq srt H0 i H1) :
    optIdx H1.mats = some i := by
  obtain ⟨o, _, ⟨_, rfl, rfl⟩ | ⟨_, rfl, rfl⟩⟩ := seq_cases I h
  · rfl
  · exact optIdx_append I.noOpt rfl

theorem built_opt (I : Init H0 c0 rest) {i : Nat} {L : List (Stored R)} (h : BuiltAt srt H0 i L) :
    optIdx L = some i := by
  obtain ⟨H1, h1, rfl⟩ := h
  exact seq_opt I h1

theorem Sim.mats {H H' : MvHandle R} (h : Sim ns H H') : H.mats = H'.mats := by rw [h.1]

theorem Sim.raw {H H' : MvHandle R} (h : Sim ns H H') : H.raw = H'.raw := by rw [h.1]

theorem Sim.refl (H : MvHandle R) : Sim ns H H := ⟨rfl, fun _ => rfl⟩

theorem Sim.fd (h0 : ¬ ns) {H H' : MvHandle R} (h : Sim ns H H') (b : Bool) :
    Sim ns { H with fulldiag := b } H' :=
  ⟨by conv_lhs => rw [h.1], fun h => absurd h h0⟩

theorem Quiet.unbuilt (I : Init H0 c0 rest) {H : MvHandle R} (h : Quiet srt H0 ns H)
    (hn : optIdx H.mats = none) : Sim ns H H0 := by
  rcases h with h | ⟨i, H1, h1, h2⟩
  · exact h
  · rw [h2.mats, seq_opt I h1] at hn; cases hn

theorem Quiet.built (I : Init H0 c0 rest) {H : MvHandle R} (h : Quiet srt H0 ns H) {i : Nat}
    (hn : optIdx H.mats = some i) : BuiltAt srt H0 i H.mats := by
  rcases h with h | ⟨i', H1, h1, h2⟩
  · rw [h.mats, I.noOpt] at hn; cases hn
  · rw [h2.mats, seq_opt I h1] at hn
    cases hn
    exact ⟨H1, h1, h2.mats⟩

theorem Quiet.ne (I : Init H0 c0 rest) {H : MvHandle R} (h : Quiet srt H0 ns H) : H.mats ≠ [] := by
  rcases h with h | ⟨i', H1, h1, h2⟩
  · rw [h.mats, I.mats]; simp
  · rw [h2.mats]
    obtain ⟨o, _, ⟨_, rfl, rfl⟩ | ⟨_, rfl, rfl⟩⟩ := seq_cases I h1
    · simp [inPlaceH]
    · simp [pushH]

theorem Quiet.fd (h0 : ¬ ns) {H : MvHandle R} (h : Quiet srt H0 ns H) (b : Bool) :
    Quiet srt H0 ns { H with fulldiag := b } := by
  rcases h with h | ⟨i, H1, h1, h2⟩
  · exact .inl (h.fd h0 b)
  · exact .inr ⟨i, H1, h1, h2.fd h0 b⟩

/-- the head of `mats` in a quiet state -/
theorem Quiet.head (I : Init H0 c0 rest) {H : MvHandle R} (h : Quiet srt H0 ns H) :
    ∃ c o u, H.mats[0]? = some (.csr c o u) := by
  rcases h with h | ⟨i', H1, h1, h2⟩
  · exact ⟨_, _, _, by rw [h.mats, I.mats]; rfl⟩
  · rw [h2.mats]
    obtain ⟨o, _, ⟨_, rfl, rfl⟩ | ⟨_, rfl, rfl⟩⟩ := seq_cases I h1
    · exact ⟨_, _, _, rfl⟩
    · exact ⟨_, _, _, by simp only [pushH]; rw [I.mats]; rfl⟩

/-- what a thread without the lock for writing knows depends on `mats` only -/
theorem tinv_mats {pc : PC R} {H H' : MvHandle R} (hw : holdsW pc = false) (hm : H'.mats = H.mats)
    (h : TInv srt H0 c0 rest ns pc H) : TInv srt H0 c0 rest ns pc H' := by
  cases pc with
  | done r => cases r <;> simp_all [TInv]
  | slow => cases hw
  | gotSlow => cases hw
  | build => cases hw
  | setDiag => cases hw
  | setUrow => cases hw
  | fillIdx => cases hw
  | setOpt => cases hw
  | push => cases hw
  | flagD => cases hw
  | flagO => cases hw
  | failW => cases hw
  | crash => cases hw
  | _ => simp_all [TInv]

/-- what a thread without the lock knows cannot depend on an object that is not there yet -/
theorem tinv_unbuilt {pc : PC R} {H H' : MvHandle R} (hw : holdsW pc = false) (hr : holdsR pc = false)
    (hb : ∀ i, ¬ BuiltAt srt H0 i H.mats) (h : TInv srt H0 c0 rest ns pc H) :
    TInv srt H0 c0 rest ns pc H' := by
  cases pc with
  | done r => cases r with
    | error => exact h
    | ok i => exact absurd h (hb i)
  | got i => exact absurd h (hb i)
  | use i => exact absurd h (hb i)
  | slow => cases hw
  | gotSlow => cases hw
  | build => cases hw
  | setDiag => cases hw
  | setUrow => cases hw
  | fillIdx => cases hw
  | setOpt => cases hw
  | push => cases hw
  | flagD => cases hw
  | flagO => cases hw
  | failW => cases hw
  | crash => cases hw
  | fast => cases hr
  | gotFast => cases hr
  | noFast => cases hr
  | _ => exact h

/-- sorv's write of the flag -/
theorem tinv_fd (h0 : ¬ ns) {pc : PC R} {H : MvHandle R} (b : Bool) (h : TInv srt H0 c0 rest ns pc H) :
    TInv srt H0 c0 rest ns pc { H with fulldiag := b } := by
  by_cases hw : holdsW pc = false
  · exact tinv_mats (H := H) hw rfl h
  · cases pc with
    | slow => exact ⟨h.1.fd h0 b, h.2⟩
    | gotSlow => exact ⟨h.1.fd h0 b, h.2⟩
    | build => exact ⟨h.1, h.2.fd h0 b⟩
    | setDiag => exact ⟨h.1, h.2.1.fd h0 b, h.2.2⟩
    | setUrow => obtain ⟨h1, ⟨d, h2⟩, h3⟩ := h; exact ⟨h1, ⟨d, h2.fd h0 b⟩, h3⟩
    | fillIdx => obtain ⟨h1, ⟨d, u, h2⟩, h3⟩ := h; exact ⟨h1, ⟨d, u, h2.fd h0 b⟩, h3⟩
    | setOpt => exact ⟨h.1, h.2.1.fd h0 b, h.2.2⟩
    | push => exact ⟨h.1, h.2.1.fd h0 b, h.2.2⟩
    | flagD =>
      obtain ⟨H1, h1, h2, h3⟩ := h
      exact ⟨H1, h1, h2, by conv_lhs => rw [h3]⟩
    | flagO =>
      obtain ⟨H1, h1, h2, h3⟩ := h
      exact ⟨H1, h1, by conv_lhs => rw [h2], fun h => absurd h h0⟩
    | failW => exact ⟨h.1.fd h0 b, h.2⟩
    | crash => exact ⟨h.1.fd h0 b, h.2⟩
    | _ => exact absurd rfl hw

/-! ### kinds of steps -/

section steps
variable {S : Sys R} {t : Nat} {pc' : PC R}

theorem upd_eq (th : Nat → PC R) (t : Nat) (pc' : PC R) : Function.update th t pc' t = pc' :=
  Function.update_self _ _ _

theorem upd_ne (th : Nat → PC R) {t u : Nat} (pc' : PC R) (h : u ≠ t) : Function.update th t pc' u = th u :=
  Function.update_of_ne h _ _

/-- a step that leaves the lock -/
theorem inv_same (I : Inv srt H0 c0 rest ns S) (hR : holdsR pc' = holdsR (S.th t))
    (hW : holdsW pc' = holdsW (S.th t)) {s' : Shared R} (h1 : s'.readers = S.sh.readers)
    (h2 : s'.writer = S.sh.writer)
    (ho : ∀ u, u ≠ t → TInv srt H0 c0 rest ns (S.th u) s'.H)
    (hq : S.sh.writer = none → Quiet srt H0 ns s'.H)
    (hT : TInv srt H0 c0 rest ns pc' s'.H) : Inv srt H0 c0 rest ns ⟨s', Function.update S.th t pc'⟩ := by
  refine ⟨by rw [h1]; exact I.nodup, fun u => ?_, fun u => ?_, fun h => ?_, fun h => ?_, fun u => ?_⟩
  · dsimp only; rw [h1, I.rd u]
    by_cases e : u = t
    · subst e; rw [upd_eq, hR]
    · rw [upd_ne _ _ e]
  · dsimp only; rw [h2, I.wr u]
    by_cases e : u = t
    · subst e; rw [upd_eq, hW]
    · rw [upd_ne _ _ e]
  · dsimp only at h ⊢; rw [h1]; rw [h2] at h; exact I.excl h
  · exact hq (h2 ▸ h)
  · dsimp only
    by_cases e : u = t
    · subst e; rw [upd_eq]; exact hT
    · rw [upd_ne _ _ e]; exact ho u e

/-- a step that only moves the thread -/
theorem inv_move (I : Inv srt H0 c0 rest ns S) (hR : holdsR pc' = holdsR (S.th t))
    (hW : holdsW pc' = holdsW (S.th t)) (hT : TInv srt H0 c0 rest ns pc' S.sh.H) :
    Inv srt H0 c0 rest ns ⟨S.sh, Function.update S.th t pc'⟩ :=
  inv_same I hR hW rfl rfl (fun u _ => I.tinv u) I.sh hT

/-- a step of the writer that changes the handle -/
theorem inv_write (I : Inv srt H0 c0 rest ns S) (hW : holdsW (S.th t) = true) (hR' : holdsR pc' = false)
    (hW' : holdsW pc' = true) (H' : MvHandle R)
    (hm : H'.mats = S.sh.H.mats ∨ ∀ i, ¬ BuiltAt srt H0 i S.sh.H.mats)
    (hT : TInv srt H0 c0 rest ns pc' H') :
    Inv srt H0 c0 rest ns ⟨{ S.sh with H := H' }, Function.update S.th t pc'⟩ := by
  have hw : S.sh.writer = some t := (I.wr t).2 hW
  have hrd : S.sh.readers = [] := I.excl (by rw [hw]; simp)
  have hnr : ∀ u, holdsR (S.th u) = false := fun u => by
    cases h : holdsR (S.th u)
    · rfl
    · have := (I.rd u).2 h; rw [hrd] at this; cases this
  refine inv_same I (by rw [hR', hnr]) (by rw [hW', hW]) rfl rfl (fun u hu => ?_)
    (fun h => by rw [hw] at h; cases h) hT
  have hnw : holdsW (S.th u) = false := by
    cases h : holdsW (S.th u)
    · rfl
    · have := (I.wr u).2 h; rw [hw] at this; cases this; exact absurd rfl hu
  rcases hm with hm | hm
  · exact tinv_mats hnw hm (I.tinv u)
  · exact tinv_unbuilt hnw (hnr u) hm (I.tinv u)

theorem inv_lockR (I : Inv srt H0 c0 rest ns S) (hR : holdsR (S.th t) = false)
    (hW : holdsW (S.th t) = false) (hR' : holdsR pc' = true) (hW' : holdsW pc' = false) {s' : Shared R}
    (e : lockR t S.sh = some s') (hT : Quiet srt H0 ns S.sh.H → TInv srt H0 c0 rest ns pc' S.sh.H) :
    Inv srt H0 c0 rest ns ⟨s', Function.update S.th t pc'⟩ := by
  unfold lockR at e
  split at e
  · rename_i hn
    cases e
    have hnt : t ∉ S.sh.readers := fun h => by rw [(I.rd t).1 h] at hR; cases hR
    refine ⟨List.nodup_cons.2 ⟨hnt, I.nodup⟩, fun u => ?_, fun u => ?_, fun h => absurd hn h, fun h => I.sh h,
      fun u => ?_⟩
    · dsimp only
      by_cases e : u = t
      · subst e; rw [upd_eq]; simp [hR']
      · rw [upd_ne _ _ e, ← I.rd u]; simp [e]
    · dsimp only; rw [I.wr u]
      by_cases e : u = t
      · subst e; rw [upd_eq, hW', hW]
      · rw [upd_ne _ _ e]
    · dsimp only
      by_cases e : u = t
      · subst e; rw [upd_eq]; exact hT (I.sh hn)
      · rw [upd_ne _ _ e]; exact I.tinv u
  · cases e

theorem inv_unlockR (I : Inv srt H0 c0 rest ns S) (hR : holdsR (S.th t) = true)
    (hW : holdsW (S.th t) = false) (hR' : holdsR pc' = false) (hW' : holdsW pc' = false)
    (hT : TInv srt H0 c0 rest ns pc' S.sh.H) :
    Inv srt H0 c0 rest ns ⟨unlockR t S.sh, Function.update S.th t pc'⟩ := by
  refine ⟨I.nodup.erase t, fun u => ?_, fun u => ?_, fun h => ?_, fun h => I.sh h, fun u => ?_⟩
  · dsimp only [unlockR]
    rw [I.nodup.mem_erase_iff]
    by_cases e : u = t
    · subst e; rw [upd_eq]; simp [hR']
    · rw [upd_ne _ _ e, ← I.rd u]; simp [e]
  · dsimp only [unlockR]; rw [I.wr u]
    by_cases e : u = t
    · subst e; rw [upd_eq, hW', hW]
    · rw [upd_ne _ _ e]
  · dsimp only [unlockR] at h ⊢; rw [I.excl h]; rfl
  · dsimp only [unlockR]
    by_cases e : u = t
    · subst e; rw [upd_eq]; exact hT
    · rw [upd_ne _ _ e]; exact I.tinv u

theorem inv_lockW (I : Inv srt H0 c0 rest ns S) (hR : holdsR (S.th t) = false) (hR' : holdsR pc' = false)
    (hW' : holdsW pc' = true) {s' : Shared R} (e : lockW t S.sh = some s')
    (hT : Quiet srt H0 ns S.sh.H → TInv srt H0 c0 rest ns pc' S.sh.H) :
    Inv srt H0 c0 rest ns ⟨s', Function.update S.th t pc'⟩ := by
  unfold lockW at e
  split at e
  · rename_i hn
    cases e
    refine ⟨I.nodup, fun u => ?_, fun u => ?_, fun _ => hn.2, fun h => absurd h (by simp), fun u => ?_⟩
    · dsimp only
      rw [I.rd u]
      by_cases e : u = t
      · subst e; rw [upd_eq, hR', hR]
      · rw [upd_ne _ _ e]
    · dsimp only
      by_cases e : u = t
      · subst e; rw [upd_eq]; simp [hW']
      · rw [upd_ne _ _ e, ← I.wr u, hn.1]
        constructor
        · intro h; exact absurd (Option.some.inj h).symm e
        · intro h; cases h
    · dsimp only
      by_cases e : u = t
      · subst e; rw [upd_eq]; exact hT (I.sh hn.1)
      · rw [upd_ne _ _ e]; exact I.tinv u
  · cases e

theorem inv_unlockW (I : Inv srt H0 c0 rest ns S) (hR : holdsR (S.th t) = false)
    (hW : holdsW (S.th t) = true) (hR' : holdsR pc' = false) (hW' : holdsW pc' = false)
    (hQ : Quiet srt H0 ns S.sh.H) (hT : TInv srt H0 c0 rest ns pc' S.sh.H) :
    Inv srt H0 c0 rest ns ⟨unlockW S.sh, Function.update S.th t pc'⟩ := by
  have hw : S.sh.writer = some t := (I.wr t).2 hW
  refine ⟨I.nodup, fun u => ?_, fun u => ?_, fun h => absurd rfl h, fun h => hQ, fun u => ?_⟩
  · dsimp only [unlockW]; rw [I.rd u]
    by_cases e : u = t
    · subst e; rw [upd_eq, hR', hR]
    · rw [upd_ne _ _ e]
  · dsimp only [unlockW]
    by_cases e : u = t
    · subst e; rw [upd_eq]; simp [hW']
    · rw [upd_ne _ _ e, ← I.wr u, hw]
      constructor
      · intro h; cases h
      · intro h; exact absurd (Option.some.inj h).symm e
  · dsimp only [unlockW]
    by_cases e : u = t
    · subst e; rw [upd_eq]; exact hT
    · rw [upd_ne _ _ e]; exact I.tinv u

/-- while a thread reads, nobody writes -/
theorem noWriter (I : Inv srt H0 c0 rest ns S) (t : Nat) (h : holdsR (S.th t) = true) :
    S.sh.writer = none := by
  by_contra hw
  have := (I.rd t).2 h
  rw [I.excl hw] at this
  cases this

end steps

/-! ### every step -/

theorem nb_succ {L : List (Stored R)} {j : Nat} (h : NoneBefore j L) {x : Stored R} (hx : L[j]? = some x)
    (ho : x.opt = false) : NoneBefore (j + 1) L := by
  intro m hm y hy
  rcases Nat.lt_succ_iff_lt_or_eq.1 hm with h1 | rfl
  · exact h m h1 y hy
  · rw [hx] at hy; cases hy; exact ho

theorem not_built (I : Init H0 c0 rest) {L : List (Stored R)} (h : optIdx L = none) (i : Nat) :
    ¬ BuiltAt srt H0 i L := fun hb => by rw [built_opt I hb] at h; cases h

theorem withHead_none (d u : Option (List Int)) : optIdx (withHead H0 c0 rest d u).mats = (optIdx rest).map (· + 1) := by
  simp [withHead, optIdx, Stored.opt]

theorem withHead_self (I : Init H0 c0 rest) : withHead H0 c0 rest none none = H0 := by
  have : ({ c0 with idiag := none } : MCopy R) = c0 := by
    cases c0; simp_all [I.idiag]; exact (by simpa using I.idiag.symm)
  unfold withHead
  rw [this, ← I.mats]

/-- changing the head -/
theorem onCsr_head {s : Shared R} {d u : Option (List Int)} (h : Sim ns s.H (withHead H0 c0 rest d u))
    (f : MCopy R → Bool → Option (List Int) → Stored R) :
    s.onCsr 0 f = { s with H := { s.H with mats := f { c0 with idiag := d } false u :: rest } } := by
  unfold Shared.onCsr
  rw [h.mats]
  simp [withHead]

theorem step_inv (I0 : Init H0 c0 rest) {S S' : Sys R} (I : Inv srt H0 c0 rest ns S)
    (h : S.Step srt S') : Inv srt H0 c0 rest ns S' := by
  obtain ⟨t, x, ⟨pc', s'⟩, e, rfl⟩ := h
  have T := I.tinv t
  dsimp only
  cases hpc : S.th t with
  | mvStart =>
    rw [hpc] at e T
    simp only [concStep, Option.map_eq_some_iff, Prod.mk.injEq] at e
    obtain ⟨s1, e1, rfl, rfl⟩ := e
    exact inv_lockR I (by rw [hpc]; rfl) (by rw [hpc]; rfl) rfl rfl e1 fun _ => trivial
  | mvBest =>
    rw [hpc] at e T
    simp only [concStep, Option.some.injEq, Prod.mk.injEq] at e
    obtain ⟨rfl, rfl⟩ := e
    exact inv_move I (by rw [hpc]; rfl) (by rw [hpc]; rfl) trivial
  | mvRel i =>
    rw [hpc] at e T
    simp only [concStep, Option.some.injEq, Prod.mk.injEq] at e
    obtain ⟨rfl, rfl⟩ := e
    exact inv_unlockR I (by rw [hpc]; rfl) (by rw [hpc]; rfl) rfl rfl trivial
  | mvTest i =>
    rw [hpc] at e T
    simp only [concStep] at e
    split at e
    · split at e <;>
      · simp only [Option.some.injEq, Prod.mk.injEq] at e
        obtain ⟨rfl, rfl⟩ := e
        exact inv_move I (by rw [hpc]; rfl) (by rw [hpc]; rfl) trivial
    all_goals
      simp only [Option.some.injEq, Prod.mk.injEq] at e
      obtain ⟨rfl, rfl⟩ := e
      exact inv_move I (by rw [hpc]; rfl) (by rw [hpc]; rfl) trivial
  | mvUse i =>
    rw [hpc] at e T
    simp only [concStep, Option.some.injEq, Prod.mk.injEq] at e
    obtain ⟨rfl, rfl⟩ := e
    exact inv_move I (by rw [hpc]; rfl) (by rw [hpc]; rfl) trivial
  | sorRead =>
    rw [hpc] at e T
    simp only [concStep] at e
    split at e <;>
    · simp only [Option.some.injEq, Prod.mk.injEq] at e
      obtain ⟨rfl, rfl⟩ := e
      exact inv_move I (by rw [hpc]; rfl) (by rw [hpc]; rfl) (by first | exact T | trivial)
  | sorWrite =>
    rw [hpc] at e T
    simp only [concStep, Option.some.injEq, Prod.mk.injEq] at e
    obtain ⟨rfl, rfl⟩ := e
    exact inv_same I (by rw [hpc]; rfl) (by rw [hpc]; rfl) rfl rfl (fun u _ => tinv_fd T true (I.tinv u))
      (fun h => (I.sh h).fd T true) trivial
  | start =>
    rw [hpc] at e T
    simp only [concStep, Option.map_eq_some_iff, Prod.mk.injEq] at e
    obtain ⟨s1, e1, rfl, rfl⟩ := e
    exact inv_lockR I (by rw [hpc]; rfl) (by rw [hpc]; rfl) rfl rfl e1 fun _ => trivial
  | first =>
    rw [hpc] at e T
    simp only [concStep, Option.some.injEq, Prod.mk.injEq] at e
    obtain ⟨rfl, rfl⟩ := e
    have hq := I.sh (noWriter I t (by rw [hpc]; rfl))
    exact inv_move I (by rw [hpc]; rfl) (by rw [hpc]; rfl) (decide_eq_true (hq.ne I0))
  | firstRel ok =>
    rw [hpc] at e T
    simp only [concStep, Option.some.injEq, Prod.mk.injEq] at e
    obtain ⟨rfl, rfl⟩ := e
    cases (show ok = true from T)
    exact inv_unlockR I (by rw [hpc]; rfl) (by rw [hpc]; rfl) rfl rfl trivial
  | fastAcq =>
    rw [hpc] at e T
    simp only [concStep, Option.map_eq_some_iff, Prod.mk.injEq] at e
    obtain ⟨s1, e1, rfl, rfl⟩ := e
    exact inv_lockR I (by rw [hpc]; rfl) (by rw [hpc]; rfl) rfl rfl e1 fun _ =>
      ⟨fun m hm => absurd hm (by omega), rfl⟩
  | fast j src =>
    rw [hpc] at e T
    have hq := I.sh (noWriter I t (by rw [hpc]; rfl))
    obtain ⟨T1, T2⟩ := T
    obtain ⟨c', o', u', hh⟩ := hq.head I0
    simp only [concStep] at e
    split at e
    · rename_i hj
      simp only [Option.some.injEq, Prod.mk.injEq] at e
      obtain ⟨rfl, rfl⟩ := e
      refine inv_move I (by rw [hpc]; rfl) (by rw [hpc]; rfl) ?_
      rw [if_neg (by rintro rfl; rw [hh] at hj; cases hj)] at T2
      exact T2
    · rename_i c o u hj
      split at e
      · rename_i ho
        simp only [Option.some.injEq, Prod.mk.injEq] at e
        obtain ⟨rfl, rfl⟩ := e
        refine inv_move I (by rw [hpc]; rfl) (by rw [hpc]; rfl) ?_
        exact hq.built I0 (optIdx_first T1 hj ho)
      · rename_i ho
        simp only [Option.some.injEq, Prod.mk.injEq] at e
        obtain ⟨rfl, rfl⟩ := e
        refine inv_move I (by rw [hpc]; rfl) (by rw [hpc]; rfl) ⟨nb_succ T1 hj (by simpa [Stored.opt] using ho), ?_⟩
        rw [T2]
        by_cases h0 : j = 0 <;> simp [h0]
    · rename_i y hy hj
      simp only [Option.some.injEq, Prod.mk.injEq] at e
      obtain ⟨rfl, rfl⟩ := e
      refine inv_move I (by rw [hpc]; rfl) (by rw [hpc]; rfl) ⟨nb_succ T1 hj ?_, ?_⟩
      · cases y with
        | csr c o u => exact absurd rfl (hy c o u)
        | _ => rfl
      · rw [T2, if_neg, if_neg (by omega)]
        rintro rfl
        rw [hh] at hj
        exact hy _ _ _ (Option.some.inj hj).symm
  | gotFast i =>
    rw [hpc] at e T
    simp only [concStep, Option.some.injEq, Prod.mk.injEq] at e
    obtain ⟨rfl, rfl⟩ := e
    exact inv_unlockR I (by rw [hpc]; rfl) (by rw [hpc]; rfl) rfl rfl T
  | noFast src =>
    rw [hpc] at e T
    simp only [concStep, Option.some.injEq, Prod.mk.injEq] at e
    obtain ⟨rfl, rfl⟩ := e
    exact inv_unlockR I (by rw [hpc]; rfl) (by rw [hpc]; rfl) rfl rfl T
  | validate src =>
    rw [hpc] at e T
    cases (show src = some 0 from T)
    simp only [concStep, Option.some.injEq, Prod.mk.injEq] at e
    obtain ⟨rfl, rfl⟩ := e
    exact inv_move I (by rw [hpc]; rfl) (by rw [hpc]; rfl) rfl
  | slowAcq k =>
    rw [hpc] at e T
    simp only [concStep, Option.map_eq_some_iff, Prod.mk.injEq] at e
    obtain ⟨s1, e1, rfl, rfl⟩ := e
    exact inv_lockW I (by rw [hpc]; rfl) rfl rfl e1 fun hq =>
      ⟨hq, fun m hm => absurd hm (by omega), T⟩
  | slow j k =>
    rw [hpc] at e T
    obtain ⟨hq, T1, T2⟩ := T
    simp only [concStep] at e
    split at e
    · rename_i hj
      simp only [Option.some.injEq, Prod.mk.injEq] at e
      obtain ⟨rfl, rfl⟩ := e
      exact inv_move I (by rw [hpc]; rfl) (by rw [hpc]; rfl)
        ⟨T2, hq.unbuilt I0 (optIdx_all T1 (by simpa using hj))⟩
    · rename_i c o u hj
      split at e
      · rename_i ho
        simp only [Option.some.injEq, Prod.mk.injEq] at e
        obtain ⟨rfl, rfl⟩ := e
        exact inv_move I (by rw [hpc]; rfl) (by rw [hpc]; rfl) ⟨hq, hq.built I0 (optIdx_first T1 hj ho)⟩
      · rename_i ho
        simp only [Option.some.injEq, Prod.mk.injEq] at e
        obtain ⟨rfl, rfl⟩ := e
        exact inv_move I (by rw [hpc]; rfl) (by rw [hpc]; rfl)
          ⟨hq, nb_succ T1 hj (by simpa [Stored.opt] using ho), T2⟩
    · rename_i y hy hj
      simp only [Option.some.injEq, Prod.mk.injEq] at e
      obtain ⟨rfl, rfl⟩ := e
      refine inv_move I (by rw [hpc]; rfl) (by rw [hpc]; rfl) ⟨hq, nb_succ T1 hj ?_, T2⟩
      cases y with
      | csr c o u => exact absurd rfl (hy c o u)
      | _ => rfl
  | gotSlow i =>
    rw [hpc] at e T
    simp only [concStep, Option.some.injEq, Prod.mk.injEq] at e
    obtain ⟨rfl, rfl⟩ := e
    exact inv_unlockW I (by rw [hpc]; rfl) (by rw [hpc]; rfl) rfl rfl T.1 T.2
  | build k =>
    rw [hpc] at e T
    obtain ⟨rfl, T⟩ := T
    have hmv : ∀ pc'', holdsR pc'' = false → holdsW pc'' = true → TInv srt H0 c0 rest ns pc'' S.sh.H →
        Inv srt H0 c0 rest ns ⟨S.sh, Function.update S.th t pc''⟩ := fun pc'' h1 h2 h3 =>
      inv_move I (by rw [hpc]; exact h1) (by rw [hpc]; exact h2) h3
    have hc : S.sh.H.mats[0]? = some (.csr c0 false none) := by rw [T.mats, I0.mats]; rfl
    simp only [concStep, hc] at e
    rw [T.raw] at e
    cases hr : csrOptimize srt x.gi x.gv c0.m c0.n H0.raw.nnz c0.base c0.ptr c0.ind c0.val with
    | none =>
      rw [hr] at e
      simp only [Option.some.injEq, Prod.mk.injEq] at e
      obtain ⟨rfl, rfl⟩ := e
      refine hmv _ rfl rfl ⟨.inl T, x.gi, x.gv, ?_⟩
      unfold csrCscOptimize
      rw [I0.noOpt, I0.mats]
      simp [hr]
    | some r =>
      rw [hr] at e
      cases r with
      | error st =>
        simp only [Option.some.injEq, Prod.mk.injEq] at e
        obtain ⟨rfl, rfl⟩ := e
        refine hmv _ rfl rfl ⟨.inl T, .inr ⟨x.gi, x.gv, ?_⟩⟩
        unfold csrCscOptimize
        rw [I0.noOpt, I0.mats]
        simp [hr]
      | ok o =>
        dsimp only at e
        rcases ite_or e with ⟨hp, e⟩ | ⟨hp, e⟩
        · simp only [Option.some.injEq, Prod.mk.injEq] at e
          obtain ⟨rfl, rfl⟩ := e
          exact hmv _ rfl rfl ⟨rfl, T, ⟨_, _, hr⟩, hp⟩
        · rcases ite_or e with ⟨_, e⟩ | ⟨_, e⟩
          · simp only [Option.some.injEq, Prod.mk.injEq] at e
            obtain ⟨rfl, rfl⟩ := e
            exact hmv _ rfl rfl ⟨.inl T, .inl rfl⟩
          · simp only [Option.some.injEq, Prod.mk.injEq] at e
            obtain ⟨rfl, rfl⟩ := e
            exact hmv _ rfl rfl ⟨rfl, T, ⟨_, _, hr⟩, by simpa using hp⟩
  | setDiag k o =>
    rw [hpc] at e T
    obtain ⟨rfl, T, hres, hp⟩ := T
    simp only [concStep] at e
    rcases ite_or e with ⟨_, e⟩ | ⟨_, e⟩
    · simp only [Option.some.injEq, Prod.mk.injEq] at e
      obtain ⟨rfl, rfl⟩ := e
      exact inv_move I (by rw [hpc]; rfl) (by rw [hpc]; rfl) ⟨.inl T, .inl rfl⟩
    · have T' := T
      rw [← withHead_self I0] at T'
      rw [onCsr_head T'] at e
      simp only [Option.some.injEq, Prod.mk.injEq] at e
      obtain ⟨rfl, rfl⟩ := e
      refine inv_write I (by rw [hpc]; rfl) rfl rfl _ (.inr fun i => not_built I0 (by rw [T.mats, I0.noOpt]) i)
        ⟨rfl, ⟨some (alloc c0.m.toNat x.gi), ?_, T.2⟩, hres, hp⟩
      conv_lhs => rw [T.1]
      rfl
  | setUrow k o =>
    rw [hpc] at e T
    obtain ⟨rfl, ⟨d, T⟩, hres, hp⟩ := T
    have hnb : ∀ i, ¬ BuiltAt srt H0 i S.sh.H.mats := fun i =>
      not_built I0 (by rw [T.mats, withHead_none, I0.rest]; rfl) i
    simp only [concStep] at e
    rcases ite_or e with ⟨_, e⟩ | ⟨_, e⟩
    · rw [onCsr_head T] at e
      simp only [Option.some.injEq, Prod.mk.injEq] at e
      obtain ⟨rfl, rfl⟩ := e
      refine inv_write I (by rw [hpc]; rfl) rfl rfl _ (.inr hnb) ⟨.inl ?_, .inl rfl⟩
      rw [← withHead_self I0]
      refine ⟨?_, T.2⟩
      conv_lhs => rw [T.1]
      rfl
    · rw [onCsr_head T] at e
      simp only [Option.some.injEq, Prod.mk.injEq] at e
      obtain ⟨rfl, rfl⟩ := e
      refine inv_write I (by rw [hpc]; rfl) rfl rfl _ (.inr hnb)
        ⟨rfl, ⟨d, some (alloc c0.m.toNat x.gi), ?_, T.2⟩, hres, hp⟩
      conv_lhs => rw [T.1]
      rfl
  | fillIdx k o =>
    rw [hpc] at e T
    obtain ⟨rfl, ⟨d, u, T⟩, hres, hp⟩ := T
    have hnb : ∀ i, ¬ BuiltAt srt H0 i S.sh.H.mats := fun i =>
      not_built I0 (by rw [T.mats, withHead_none, I0.rest]; rfl) i
    simp only [concStep] at e
    rw [onCsr_head T] at e
    simp only [Option.some.injEq, Prod.mk.injEq] at e
    obtain ⟨rfl, rfl⟩ := e
    refine inv_write I (by rw [hpc]; rfl) rfl rfl _ (.inr hnb) ⟨rfl, ⟨?_, T.2⟩, hres, hp⟩
    conv_lhs => rw [T.1]
    rfl
  | setOpt k o =>
    rw [hpc] at e T
    obtain ⟨rfl, T, hres, hp⟩ := T
    have hnb : ∀ i, ¬ BuiltAt srt H0 i S.sh.H.mats := fun i =>
      not_built I0 (by rw [T.mats, withHead_none, I0.rest]; rfl) i
    simp only [concStep] at e
    rw [onCsr_head T] at e
    simp only [Option.some.injEq, Prod.mk.injEq] at e
    obtain ⟨rfl, rfl⟩ := e
    refine inv_write I (by rw [hpc]; rfl) rfl rfl _ (.inr hnb) ⟨_, seq_inPlace I0 hres hp, rfl, ?_⟩
    conv_lhs => rw [T.1]
    conv_rhs => rw [T.1]
    rfl
  | push k o =>
    rw [hpc] at e T
    obtain ⟨rfl, T, hres, hp⟩ := T
    have hc : S.sh.H.mats[0]? = some (.csr c0 false none) := by rw [T.mats, I0.mats]; rfl
    simp only [concStep, hc] at e
    rcases ite_or e with ⟨_, e⟩ | ⟨_, e⟩
    · simp only [Option.some.injEq, Prod.mk.injEq] at e
      obtain ⟨rfl, rfl⟩ := e
      exact inv_move I (by rw [hpc]; rfl) (by rw [hpc]; rfl) ⟨.inl T, .inl rfl⟩
    · simp only [Option.some.injEq, Prod.mk.injEq] at e
      obtain ⟨rfl, rfl⟩ := e
      refine inv_write I (by rw [hpc]; rfl) rfl rfl _
        (.inr fun i => not_built I0 (by rw [T.mats, I0.noOpt]) i) ?_
      rw [T.mats]
      refine ⟨_, seq_push I0 hres hp, rfl, ?_⟩
      conv_lhs => rw [T.1]
      conv_rhs => rw [T.1]
      rfl
  | flagD i fd =>
    rw [hpc] at e T
    obtain ⟨H1, h1, rfl, h2⟩ := T
    simp only [concStep, Option.some.injEq, Prod.mk.injEq] at e
    obtain ⟨rfl, rfl⟩ := e
    refine inv_write I (by rw [hpc]; rfl) rfl rfl _ (.inl rfl) ⟨H1, h1, ?_, fun _ => rfl⟩
    conv_lhs => rw [h2]
  | flagO i =>
    rw [hpc] at e T
    obtain ⟨H1, h1, h2, h3⟩ := T
    simp only [concStep, Option.some.injEq, Prod.mk.injEq] at e
    obtain ⟨rfl, rfl⟩ := e
    have ho : H1.optimized = true := by
      obtain ⟨o, _, ⟨_, rfl, rfl⟩ | ⟨_, rfl, rfl⟩⟩ := seq_cases I0 h1 <;> rfl
    have hs : Sim ns { S.sh.H with optimized := true } H1 := by
      refine ⟨?_, h3⟩
      conv_lhs => rw [h2]
      conv_rhs => rw [← ho]
      cases H1; cases ho; rfl
    exact inv_write I (by rw [hpc]; rfl) rfl rfl _ (.inl rfl) ⟨.inr ⟨i, H1, h1, hs⟩, H1, h1, hs.mats⟩
  | failW st =>
    rw [hpc] at e T
    simp only [concStep, Option.some.injEq, Prod.mk.injEq] at e
    obtain ⟨rfl, rfl⟩ := e
    exact inv_unlockW I (by rw [hpc]; rfl) (by rw [hpc]; rfl) rfl rfl T.1 T.2
  | got i =>
    rw [hpc] at e T
    simp only [concStep, Option.some.injEq, Prod.mk.injEq] at e
    obtain ⟨rfl, rfl⟩ := e
    exact inv_move I (by rw [hpc]; rfl) (by rw [hpc]; rfl) T
  | use i =>
    rw [hpc] at e T
    simp only [concStep, Option.some.injEq, Prod.mk.injEq] at e
    obtain ⟨rfl, rfl⟩ := e
    exact inv_move I (by rw [hpc]; rfl) (by rw [hpc]; rfl) T
  | done r => rw [hpc] at e; cases e
  | fin => rw [hpc] at e; cases e
  | crash => rw [hpc] at e; cases e

end lemmas
end Conc
end Verif
