/-
C16: concurrent first use of a handle.
-/
import Verif.Proofs.Conc
import Verif.Props.TrsvH
import Mathlib.Algebra.BigOperators.Group.Finset.Basic
import Mathlib.Algebra.Order.BigOperators.Group.Finset
import Mathlib.Logic.Relation

namespace Verif
namespace Props
open Model Conc

/-- the threads before their first step: `kinds t` is what thread `t` calls, `none` if there is no such
thread -/
def threads {R : Type} (kinds : Nat → Option Kind) (t : Nat) : PC R :=
  match kinds t with
  | none => .fin
  | some k => k.start

/-- nobody holds the lock, every thread is about to call -/
def startSys {R : Type} (H0 : MvHandle R) (kinds : Nat → Option Kind) : Sys R :=
  ⟨⟨H0, [], none⟩, threads kinds⟩

/-- the state after some interleaving -/
def CReached {R : Type} [Zero R] (srt : (Int → Int → Bool) → List Int → List Int) (H0 : MvHandle R)
    (kinds : Nat → Option Kind) (S : Sys R) : Prop :=
  Relation.ReflTransGen (Sys.Step srt) (startSys H0 kinds) S

/-- a thread that has obtained object `i` -/
def Obtained {R : Type} (pc : PC R) (i : Nat) : Prop := pc = .got i ∨ pc = .use i ∨ pc = .done (.ok i)

/-- a thread at work on the copy -/
def Building {R : Type} : PC R → Prop
  | .build _ | .setDiag _ _ | .setUrow _ _ | .fillIdx _ _ | .setOpt _ _ | .push _ _ | .flagD _ _ | .flagO _ => True
  | _ => False

/-- a thread that has returned -/
def Finished {R : Type} (pc : PC R) : Prop := pc = .fin ∨ ∃ r, pc = .done r

/-- two threads are about to access the same place, one of them writing: a data race -/
def Race {R : Type} (S : Sys R) : Prop :=
  ∃ (t u : Nat) (l : Model.Loc) (b : Bool), t ≠ u ∧ (l, true) ∈ (S.th t).accesses ∧ (l, b) ∈ (S.th u).accesses

/-- the handle before any operation: one CSR object or more, none optimised -/
structure Unoptimised {R : Type} (H0 : MvHandle R) : Prop where
  first : ∃ c rest, H0.mats = .csr c false none :: rest ∧ c.idiag = none
  noOpt : ∀ x ∈ H0.mats, x.opt = false

section
variable {R : Type} [Zero R] {srt : (Int → Int → Bool) → List Int → List Int} {H0 : MvHandle R}
  {kinds : Nat → Option Kind} {S S' : Sys R}

theorem noOpt_optIdx {L : List (Stored R)} (h : ∀ x ∈ L, x.opt = false) : optIdx L = none :=
  optIdx_all (n := L.length) (fun _ _ x hx => h x (List.mem_of_getElem? hx)) (Nat.le_refl _)

theorem Unoptimised.init (h : Unoptimised H0) : ∃ c rest, Init H0 c rest := by
  obtain ⟨c, rest, h1, h2⟩ := h.first
  refine ⟨c, rest, h1, h2, noOpt_optIdx fun x hx => h.noOpt x ?_⟩
  rw [h1]
  exact List.mem_cons_of_mem _ hx

/-- no thread runs sorv -/
def NoSorv (kinds : Nat → Option Kind) : Prop := ∀ t, kinds t ≠ some .sorv

theorem inv_start (c : MCopy R) (rest : List (Stored R)) :
    Inv srt H0 c rest (NoSorv kinds) (startSys H0 kinds) := by
  refine ⟨List.nodup_nil, fun t => ?_, fun t => ?_, fun _ => rfl, fun _ => .inl (Sim.refl _), fun t => ?_⟩
  · simp only [startSys, threads]
    cases kinds t with
    | none => simp [holdsR]
    | some k => cases k <;> simp [holdsR, Kind.start]
  · simp only [startSys, threads]
    cases kinds t with
    | none => simp [holdsW]
    | some k => cases k <;> simp [holdsW, Kind.start]
  · simp only [startSys, threads]
    cases h : kinds t with
    | none => trivial
    | some k =>
      cases k with
      | solve => trivial
      | mv => trivial
      | sorv => exact fun hn => hn t h

theorem reached_inv {c : MCopy R} {rest : List (Stored R)} (I : Init H0 c rest)
    (h : CReached srt H0 kinds S) : Inv srt H0 c rest (NoSorv kinds) S := by
  induction h with
  | refl => exact inv_start c rest
  | tail _ h2 ih => exact step_inv I ih h2

theorem mats_cases {c : MCopy R} {rest : List (Stored R)} {ns : Prop} (I0 : Init H0 c rest)
    (I : Inv srt H0 c rest ns S) : optIdx S.sh.H.mats = none ∨ ∃ i, BuiltAt srt H0 i S.sh.H.mats := by
  have hq : Quiet srt H0 ns S.sh.H → _ := fun h => h.elim
    (fun h => (.inl (by rw [h.mats, I0.noOpt]) : optIdx S.sh.H.mats = none ∨ ∃ i, BuiltAt srt H0 i S.sh.H.mats))
    (fun ⟨i, H1, h1, h2⟩ => .inr ⟨i, H1, h1, h2.mats⟩)
  cases hw : S.sh.writer with
  | none => exact hq (I.sh hw)
  | some t =>
    have hW := (I.wr t).1 hw
    have T := I.tinv t
    cases hpc : S.th t with
    | slow => rw [hpc] at T; exact hq T.1
    | gotSlow => rw [hpc] at T; exact hq T.1
    | build => rw [hpc] at T; exact hq (.inl T.2)
    | setDiag => rw [hpc] at T; exact hq (.inl T.2.1)
    | setUrow =>
      rw [hpc] at T
      obtain ⟨-, ⟨d, h⟩, -⟩ := T
      exact .inl (by rw [h.mats, withHead_none, I0.rest]; rfl)
    | fillIdx =>
      rw [hpc] at T
      obtain ⟨-, ⟨d, u, h⟩, -⟩ := T
      exact .inl (by rw [h.mats, withHead_none, I0.rest]; rfl)
    | setOpt => rw [hpc] at T; exact .inl (by rw [T.2.1.mats, withHead_none, I0.rest]; rfl)
    | push => rw [hpc] at T; exact hq (.inl T.2.1)
    | flagD =>
      rw [hpc] at T
      obtain ⟨H1, h1, -, h2⟩ := T
      exact .inr ⟨_, H1, h1, by rw [h2]⟩
    | flagO =>
      rw [hpc] at T
      obtain ⟨H1, h1, h2, -⟩ := T
      exact .inr ⟨_, H1, h1, by rw [h2]⟩
    | failW => rw [hpc] at T; exact hq T.1
    | crash => rw [hpc] at T; exact hq T.1
    | _ => rw [hpc] at hW; cases hW

theorem seq_unique {c : MCopy R} {rest : List (Stored R)} (I : Init H0 c rest) {i : Nat} {H1 : MvHandle R}
    (h : Seq srt H0 i H1) {j : Nat} {x : Stored R} (hx : H1.mats[j]? = some x) (ho : x.opt = true) : j = i := by
  have hno := optIdx_none I.noOpt
  obtain ⟨o, _, ⟨_, rfl, rfl⟩ | ⟨_, rfl, rfl⟩⟩ := seq_cases I h
  · cases j with
    | zero => rfl
    | succ j =>
      simp only [inPlaceH, List.getElem?_cons_succ] at hx
      rw [hno x (by rw [I.mats]; exact List.mem_cons_of_mem _ (List.mem_of_getElem? hx))] at ho
      cases ho
  · simp only [pushH] at hx
    by_contra hj
    obtain ⟨hlt, -⟩ := List.getElem?_eq_some_iff.1 hx
    simp only [List.length_append, List.length_cons, List.length_nil] at hlt
    rw [List.getElem?_append_left (by omega)] at hx
    rw [hno x (List.mem_of_getElem? hx)] at ho
    cases ho

/-- **C16, flagged objects are complete.**  In every reachable state, an object of the handle marked as
optimised is the one a sequential call on the original handle makes, with everything in place. -/
theorem C16_flagged (h0 : Unoptimised H0) (h : CReached srt H0 kinds S) {i : Nat} {x : Stored R}
    (hx : S.sh.H.mats[i]? = some x) (ho : x.opt = true) :
    ∃ gi gv H1, csrCscOptimize srt gi gv H0 = some (.ok (i, H1)) ∧ S.sh.H.mats = H1.mats := by
  obtain ⟨c, rest, I0⟩ := h0.init
  rcases mats_cases I0 (reached_inv I0 h) with hn | ⟨i', H1, h1, h2⟩
  · rw [optIdx_none hn x (List.mem_of_getElem? hx)] at ho; cases ho
  · rw [h2] at hx
    cases seq_unique I0 h1 hx ho
    obtain ⟨gi, gv, e⟩ := h1
    exact ⟨gi, gv, H1, e, h2⟩

theorem obtained_built {c : MCopy R} {rest : List (Stored R)} {ns : Prop}
    (I : Inv srt H0 c rest ns S) {t i : Nat} (h : Obtained (S.th t) i) : BuiltAt srt H0 i S.sh.H.mats := by
  have T := I.tinv t
  rcases h with h | h | h <;> · rw [h] at T; exact T

/-- **C16, one copy.**  In every reachable state, any two threads that have obtained a copy have obtained
the same object, which is in the handle exactly as a sequential call on the original handle leaves it:
it was completely built before anybody got it. -/
theorem C16_single (h0 : Unoptimised H0) (h : CReached srt H0 kinds S) {t u i j : Nat}
    (ht : Obtained (S.th t) i) (hu : Obtained (S.th u) j) :
    i = j ∧ ∃ gi gv H1, csrCscOptimize srt gi gv H0 = some (.ok (i, H1)) ∧ S.sh.H.mats = H1.mats := by
  obtain ⟨c, rest, I0⟩ := h0.init
  have I := reached_inv I0 h
  have h1 := obtained_built I ht
  have h2 := obtained_built I hu
  have e := built_opt I0 h1
  rw [built_opt I0 h2] at e
  obtain ⟨H1, ⟨gi, gv, e1⟩, e2⟩ := h1
  exact ⟨(Option.some.inj e).symm, gi, gv, H1, e1, e2⟩

/-! ### the copy stays -/

theorem step_built {c : MCopy R} {rest : List (Stored R)} {ns : Prop} (I0 : Init H0 c rest)
    (I : Inv srt H0 c rest ns S) (hs : S.Step srt S') {i : Nat} (hb : BuiltAt srt H0 i S.sh.H.mats) :
    S'.sh.H.mats = S.sh.H.mats := by
  have hne := built_opt I0 hb
  obtain ⟨t, x, ⟨pc', s'⟩, e, rfl⟩ := hs
  have T := I.tinv t
  dsimp only
  cases hpc : S.th t with
  | setDiag =>
    rw [hpc] at T; rw [T.2.1.mats, I0.noOpt] at hne; cases hne
  | setUrow =>
    rw [hpc] at T
    obtain ⟨-, ⟨d, h⟩, -⟩ := T
    rw [h.mats, withHead_none, I0.rest] at hne; cases hne
  | fillIdx =>
    rw [hpc] at T
    obtain ⟨-, ⟨d, u, h⟩, -⟩ := T
    rw [h.mats, withHead_none, I0.rest] at hne; cases hne
  | setOpt => rw [hpc] at T; rw [T.2.1.mats, withHead_none, I0.rest] at hne; cases hne
  | push => rw [hpc] at T; rw [T.2.1.mats, I0.noOpt] at hne; cases hne
  | _ =>
    rw [hpc] at e
    simp only [concStep] at e
    repeat' split at e
    all_goals
      first
      | (simp only [Option.some.injEq, Prod.mk.injEq] at e; obtain ⟨-, rfl⟩ := e; rfl)
      | (simp only [lockR, lockW, Option.map_eq_some_iff, Prod.mk.injEq] at e
         obtain ⟨s1, e1, -, rfl⟩ := e
         rcases ite_or e1 with ⟨_, e1⟩ | ⟨_, e1⟩
         · cases e1; rfl
         · cases e1)
      | cases e

/-- **C16, built once.**  Once there is a copy, the objects of the handle never change again, whatever
the threads do: nobody builds it a second time or touches it. -/
theorem C16_built_once (h0 : Unoptimised H0) (h : CReached srt H0 kinds S)
    (hb : ∃ x ∈ S.sh.H.mats, x.opt = true) (hs : Relation.ReflTransGen (Sys.Step srt) S S') :
    S'.sh.H.mats = S.sh.H.mats := by
  obtain ⟨c, rest, I0⟩ := h0.init
  obtain ⟨x, hx, ho⟩ := hb
  obtain ⟨i, hi⟩ : ∃ i, BuiltAt srt H0 i S.sh.H.mats := by
    rcases mats_cases I0 (reached_inv I0 h) with hn | h'
    · rw [optIdx_none hn x hx] at ho; cases ho
    · exact h'
  induction hs with
  | refl => rfl
  | tail h1 h2 ih =>
    have hr := h.trans h1
    rw [← ih] at hi ⊢
    exact step_built I0 (reached_inv I0 hr) h2 hi

/-! ### flags -/

/-- setting the flags of the handle after a build -/
def isFlag : PC R → Bool
  | .flagD _ _ | .flagO _ => true
  | _ => false

/-- has the thread a copy? -/
def obt : PC R → Bool
  | .got _ | .use _ | .done (.ok _) => true
  | _ => false

theorem step_flag {t : Nat} {x : Choice R} {pc pc' : PC R} {s s' : Shared R}
    (h : concStep srt t x pc s = some (pc', s')) (hf : isFlag pc' = true) :
    isFlag pc = true ∨ (∃ k o, pc = .setOpt k o) ∨ ∃ k o, pc = .push k o := by
  cases pc with
  | flagD => exact .inl rfl
  | flagO => exact .inl rfl
  | setOpt k o => exact .inr (.inl ⟨k, o, rfl⟩)
  | push k o => exact .inr (.inr ⟨k, o, rfl⟩)
  | _ =>
    exfalso
    simp only [concStep] at h
    repeat' split at h
    all_goals
      first
      | (simp only [Option.some.injEq, Prod.mk.injEq] at h; obtain ⟨rfl, -⟩ := h; cases hf)
      | (simp only [Option.map_eq_some_iff, Prod.mk.injEq] at h
         obtain ⟨s1, -, rfl, -⟩ := h; cases hf)
      | cases h

theorem step_obt {t : Nat} {x : Choice R} {pc pc' : PC R} {s s' : Shared R}
    (h : concStep srt t x pc s = some (pc', s')) (hf : obt pc' = true) :
    obt pc = true ∨ holdsR pc = true ∨ holdsW pc = true := by
  cases pc with
  | got | use => exact .inl rfl
  | done | fin => cases h
  | gotFast | fast | noFast | first | firstRel | mvBest | mvRel => exact .inr (.inl rfl)
  | gotSlow | slow | build | setDiag | setUrow | fillIdx | setOpt | push | flagD | flagO | failW | crash =>
    exact .inr (.inr rfl)
  | _ =>
    exfalso
    simp only [concStep] at h
    repeat' split at h
    all_goals
      first
      | (simp only [Option.some.injEq, Prod.mk.injEq] at h; obtain ⟨rfl, -⟩ := h; cases hf)
      | (simp only [Option.map_eq_some_iff, Prod.mk.injEq] at h
         obtain ⟨s1, -, rfl, -⟩ := h; cases hf)
      | cases h

theorem isFlag_W {pc : PC R} (h : isFlag pc = true) : holdsW pc = true := by
  cases pc <;> first | rfl | cases h

theorem isFlag_not_obt {pc : PC R} (h : isFlag pc = true) : obt pc = false := by
  cases pc <;> first | rfl | cases h

theorem obt_obtained {pc : PC R} (h : obt pc = true) : ∃ i, Obtained pc i := by
  cases pc with
  | got i => exact ⟨i, .inl rfl⟩
  | use i => exact ⟨i, .inr (.inl rfl)⟩
  | done r => cases r with
    | ok i => exact ⟨i, .inr (.inr rfl)⟩
    | error => cases h
  | _ => cases h

/-- while the flags are being set nobody has the copy yet -/
theorem flags_first {c : MCopy R} {rest : List (Stored R)} (I0 : Init H0 c rest)
    (h : CReached srt H0 kinds S) (t u : Nat) (ht : isFlag (S.th t) = true) : obt (S.th u) = false := by
  induction h generalizing t u with
  | refl =>
    simp only [startSys, threads] at ht
    cases hk : kinds t with
    | none => rw [hk] at ht; cases ht
    | some k => rw [hk] at ht; cases k <;> cases ht
  | @tail S1 S2 h1 h2 ih =>
    have I := reached_inv I0 h1
    obtain ⟨v, x, ⟨pc', s'⟩, e, rfl⟩ := h2
    dsimp only at ht ⊢
    -- thread `t` holds the lock for writing
    by_cases hu : u = v
    · subst hu
      rw [Function.update_self]
      by_cases htu : t = u
      · subst htu
        rw [Function.update_self] at ht
        exact isFlag_not_obt ht
      · rw [Function.update_of_ne htu] at ht
        have hw := (I.wr t).2 (isFlag_W ht)
        cases ho : obt pc' with
        | false => rfl
        | true =>
          rcases step_obt e ho with h' | h' | h'
          · rw [ih t u ht] at h'; cases h'
          · have := (I.rd u).2 h'
            rw [I.excl (by rw [hw]; simp)] at this
            cases this
          · have := (I.wr u).2 h'
            rw [hw] at this
            cases this
            exact absurd rfl htu
    · rw [Function.update_of_ne hu]
      by_cases htv : t = v
      · subst htv
        rw [Function.update_self] at ht
        rcases step_flag e ht with h' | ⟨k, o, h'⟩ | ⟨k, o, h'⟩
        · exact ih t u h'
        · cases ho : obt (S1.th u) with
          | false => rfl
          | true =>
            obtain ⟨i, hi⟩ := obt_obtained ho
            have T := I.tinv t
            rw [h'] at T
            exact absurd (obtained_built I hi)
              (not_built I0 (by rw [T.2.1.mats, withHead_none, I0.rest]; rfl) i)
        · cases ho : obt (S1.th u) with
          | false => rfl
          | true =>
            obtain ⟨i, hi⟩ := obt_obtained ho
            have T := I.tinv t
            rw [h'] at T
            exact absurd (obtained_built I hi) (not_built I0 (by rw [T.2.1.mats, I0.noOpt]) i)
      · rw [Function.update_of_ne htv] at ht
        exact ih t u ht

theorem obtained_obt {pc : PC R} {i : Nat} (h : Obtained pc i) : obt pc = true := by
  rcases h with h | h | h <;> rw [h] <;> rfl

/-- **C16, the whole handle.**  If no thread runs sorv: when a thread has obtained a copy, the handle,
flags included, is the one a sequential call on the original handle leaves. -/
theorem C16_flags (h0 : Unoptimised H0) (hns : NoSorv kinds) (h : CReached srt H0 kinds S) {t i : Nat}
    (ht : Obtained (S.th t) i) :
    ∃ gi gv, csrCscOptimize srt gi gv H0 = some (.ok (i, S.sh.H)) := by
  obtain ⟨c, rest, I0⟩ := h0.init
  have I := reached_inv I0 h
  have hb := obtained_built I ht
  have hne := built_opt I0 hb
  have hq : Quiet srt H0 (NoSorv kinds) S.sh.H := by
    cases hw : S.sh.writer with
    | none => exact I.sh hw
    | some w =>
      have hW := (I.wr w).1 hw
      have T := I.tinv w
      have hfl : isFlag (S.th w) = false := by
        cases hf : isFlag (S.th w) with
        | false => rfl
        | true => have := flags_first I0 h w t hf; rw [obtained_obt ht] at this; cases this
      cases hpc : S.th w with
      | slow => rw [hpc] at T; exact T.1
      | gotSlow => rw [hpc] at T; exact T.1
      | build => rw [hpc] at T; exact .inl T.2
      | setDiag => rw [hpc] at T; exact .inl T.2.1
      | setUrow =>
        rw [hpc] at T
        obtain ⟨-, ⟨d, h⟩, -⟩ := T
        rw [h.mats, withHead_none, I0.rest] at hne; cases hne
      | fillIdx =>
        rw [hpc] at T
        obtain ⟨-, ⟨d, u, h⟩, -⟩ := T
        rw [h.mats, withHead_none, I0.rest] at hne; cases hne
      | setOpt => rw [hpc] at T; rw [T.2.1.mats, withHead_none, I0.rest] at hne; cases hne
      | push => rw [hpc] at T; exact .inl T.2.1
      | flagD => rw [hpc] at hfl; cases hfl
      | flagO => rw [hpc] at hfl; cases hfl
      | failW => rw [hpc] at T; exact T.1
      | crash => rw [hpc] at T; exact T.1
      | _ => rw [hpc] at hW; cases hW
  rcases hq with hq | ⟨i', H1, ⟨gi, gv, e⟩, h2⟩
  · rw [hq.mats, I0.noOpt] at hne; cases hne
  · have hi : optIdx S.sh.H.mats = some i' := by rw [h2.mats]; exact seq_opt I0 ⟨gi, gv, e⟩
    rw [hne] at hi
    cases hi
    refine ⟨gi, gv, ?_⟩
    rw [e]
    have : S.sh.H = H1 := by
      have h3 := h2.1
      rw [h2.2 hns] at h3
      exact h3
    rw [this]

/-! ### errors -/

/-- **C16, errors.**  A call that fails reports a failed allocation or the status the sequential call
reports; undefined behaviour is reached only if the sequential call reaches it. -/
theorem C16_errors (h0 : Unoptimised H0) (h : CReached srt H0 kinds S) (t : Nat) :
    (∀ st, S.th t = .done (.error st) → st = .memoryError ∨
      ∃ gi gv, csrCscOptimize srt gi gv H0 = some (.error st)) ∧
    (S.th t = .crash → ∃ gi gv, csrCscOptimize srt gi gv H0 = none) := by
  obtain ⟨c, rest, I0⟩ := h0.init
  have T := (reached_inv I0 h).tinv t
  exact ⟨fun st e => by rw [e] at T; exact T, fun e => by rw [e] at T; exact T.2⟩

/-! ### data races -/

/-- a thread that belongs to mv or sorv -/
def other : PC R → Bool
  | .mvStart | .mvBest | .mvRel _ | .mvTest _ | .mvUse _ | .sorRead | .sorWrite => true
  | _ => false

theorem step_other {t : Nat} {x : Choice R} {pc pc' : PC R} {s s' : Shared R}
    (h : concStep srt t x pc s = some (pc', s')) (hf : other pc = false) : other pc' = false := by
  cases pc with
  | mvStart | mvBest | mvRel | mvTest | mvUse | sorRead | sorWrite => cases hf
  | _ =>
    simp only [concStep] at h
    repeat' split at h
    all_goals
      first
      | (simp only [Option.some.injEq, Prod.mk.injEq] at h; obtain ⟨rfl, -⟩ := h; rfl)
      | (simp only [Option.map_eq_some_iff, Prod.mk.injEq] at h
         obtain ⟨s1, -, rfl, -⟩ := h; rfl)
      | (simp only [Option.some.injEq, Prod.mk.injEq] at h; obtain ⟨rfl, -⟩ := h; split <;> rfl)
      | cases h

theorem reached_solve (hk : ∀ t, kinds t = none ∨ kinds t = some .solve) (h : CReached srt H0 kinds S)
    (t : Nat) : other (S.th t) = false := by
  induction h generalizing t with
  | refl =>
    simp only [startSys, threads]
    rcases hk t with h | h <;> rw [h] <;> rfl
  | tail _ h2 ih =>
    obtain ⟨v, x, ⟨pc', s'⟩, e, rfl⟩ := h2
    dsimp only
    by_cases hv : t = v
    · subst hv; rw [Function.update_self]; exact step_other e (ih t)
    · rw [Function.update_of_ne hv]; exact ih t

theorem write_W {pc : PC R} (ho : other pc = false) {l : Model.Loc} (h : (l, true) ∈ pc.accesses) :
    holdsW pc = true := by
  cases pc <;> first | rfl | (cases ho; done) | (simp [PC.accesses] at h; done)

theorem access_locked {pc : PC R} (ho : other pc = false) {l : Model.Loc} {b : Bool} (h : (l, b) ∈ pc.accesses) :
    holdsR pc = true ∨ holdsW pc = true ∨ ∃ i, pc = .use i := by
  cases pc <;>
    first
    | exact .inl rfl
    | exact .inr (.inl rfl)
    | exact .inr (.inr ⟨_, rfl⟩)
    | (cases ho; done)
    | (simp [PC.accesses] at h; done)

/-- **C16, no data race.**  When all threads run operations that go straight to the optimised copy
(trsv, symgs, …), no reachable state has two threads about to access the same field with one of them
writing. -/
theorem C16_race_free (h0 : Unoptimised H0) (hk : ∀ t, kinds t = none ∨ kinds t = some .solve)
    (h : CReached srt H0 kinds S) : ¬ Race S := by
  rintro ⟨t, u, l, b, htu, ht, hu⟩
  obtain ⟨c, rest, I0⟩ := h0.init
  have I := reached_inv I0 h
  have hw := (I.wr t).2 (write_W (reached_solve hk h t) ht)
  rcases access_locked (reached_solve hk h u) hu with h' | h' | ⟨i, h'⟩
  · have := (I.rd u).2 h'
    rw [I.excl (by rw [hw]; simp)] at this
    cases this
  · have := (I.wr u).2 h'
    rw [hw] at this
    exact htu (Option.some.inj this)
  · have hob : Obtained (S.th u) i := .inr (.inl h')
    have hne := built_opt I0 (obtained_built I hob)
    have T := I.tinv t
    have hfl : isFlag (S.th t) = false := by
      cases hf : isFlag (S.th t) with
      | false => rfl
      | true => have := flags_first I0 h t u hf; rw [obtained_obt hob] at this; cases this
    rw [h'] at hu
    cases hpc : S.th t with
    | build => rw [hpc] at ht; simp [PC.accesses] at ht; subst ht; simp [PC.accesses] at hu
    | setDiag => rw [hpc] at T; rw [T.2.1.mats, I0.noOpt] at hne; cases hne
    | setUrow =>
      rw [hpc] at T
      obtain ⟨-, ⟨d, h⟩, -⟩ := T
      rw [h.mats, withHead_none, I0.rest] at hne; cases hne
    | fillIdx =>
      rw [hpc] at T
      obtain ⟨-, ⟨d, u, h⟩, -⟩ := T
      rw [h.mats, withHead_none, I0.rest] at hne; cases hne
    | setOpt => rw [hpc] at T; rw [T.2.1.mats, withHead_none, I0.rest] at hne; cases hne
    | push => rw [hpc] at T; rw [T.2.1.mats, I0.noOpt] at hne; cases hne
    | flagD => rw [hpc] at hfl; cases hfl
    | flagO => rw [hpc] at hfl; cases hfl
    | sorWrite => have := reached_solve hk h t; rw [hpc] at this; cases this
    | _ => rw [hpc] at ht; simp [PC.accesses] at ht

/-! ### progress -/

/-- an arbitrary choice -/
def someChoice : Choice R := ⟨false, fun _ => 0, fun _ => 0, 0, true, true⟩

theorem can_step_locked {t : Nat} {pc : PC R} {s : Shared R} (h : holdsR pc = true ∨ holdsW pc = true)
    (hc : pc ≠ .crash) : ∃ r, concStep srt t someChoice pc s = some r := by
  cases pc with
  | crash => exact absurd rfl hc
  | fast =>
    simp only [concStep]
    repeat' split
    all_goals exact ⟨_, rfl⟩
  | slow =>
    simp only [concStep]
    repeat' split
    all_goals exact ⟨_, rfl⟩
  | build =>
    simp only [concStep]
    repeat' split
    all_goals exact ⟨_, rfl⟩
  | setDiag =>
    simp only [concStep]
    repeat' split
    all_goals exact ⟨_, rfl⟩
  | setUrow =>
    simp only [concStep]
    repeat' split
    all_goals exact ⟨_, rfl⟩
  | push =>
    simp only [concStep]
    repeat' split
    all_goals exact ⟨_, rfl⟩
  | _ => first | exact ⟨_, rfl⟩ | (exfalso; rcases h with h | h <;> cases h)

theorem can_step_free {t : Nat} {pc : PC R} {s : Shared R} (hw : s.writer = none) (hr : s.readers = [])
    (hf : ¬ Finished pc) (hc : pc ≠ .crash) : ∃ r, concStep srt t someChoice pc s = some r := by
  cases pc with
  | fin => exact absurd (.inl rfl) hf
  | done r => exact absurd (.inr ⟨r, rfl⟩) hf
  | crash => exact absurd rfl hc
  | mvStart => exact ⟨_, by simp only [concStep, lockR, hw, if_true]; rfl⟩
  | start => exact ⟨_, by simp only [concStep, lockR, hw, if_true]; rfl⟩
  | fastAcq => exact ⟨_, by simp only [concStep, lockR, hw, if_true]; rfl⟩
  | slowAcq =>
    exact ⟨_, by simp only [concStep, lockW]; rw [if_pos ⟨hw, hr⟩]; rfl⟩
  | _ =>
    simp only [concStep]
    repeat' split
    all_goals exact ⟨_, rfl⟩

/-- **C16, no deadlock.**  If the sequential call is defined (no undefined behaviour on this handle),
then in every reachable state some thread can make a step, unless all have returned. -/
theorem C16_no_deadlock (h0 : Unoptimised H0) (hdef : ∀ gi gv, csrCscOptimize srt gi gv H0 ≠ none)
    (h : CReached srt H0 kinds S) (hu : ∃ t, ¬ Finished (S.th t)) : ∃ S', S.Step srt S' := by
  obtain ⟨c, rest, I0⟩ := h0.init
  have I := reached_inv I0 h
  have hcr : ∀ t, S.th t ≠ .crash := fun t e => by
    obtain ⟨gi, gv, e'⟩ := (C16_errors h0 h t).2 e
    exact hdef gi gv e'
  cases hw : S.sh.writer with
  | some w =>
    obtain ⟨r, e⟩ := can_step_locked (srt := srt) (t := w) (s := S.sh) (.inr ((I.wr w).1 hw)) (hcr w)
    exact ⟨_, w, _, r, e, rfl⟩
  | none =>
    cases hr : S.sh.readers with
    | nil =>
      obtain ⟨t, ht⟩ := hu
      obtain ⟨r, e⟩ := can_step_free (srt := srt) (t := t) hw hr ht (hcr t)
      exact ⟨_, t, _, r, e, rfl⟩
    | cons v l =>
      obtain ⟨r, e⟩ := can_step_locked (srt := srt) (t := v) (s := S.sh)
        (.inl ((I.rd v).1 (by rw [hr]; simp))) (hcr v)
      exact ⟨_, v, _, r, e, rfl⟩

/-- a bound on the steps a thread still has to make, `L` a bound on the number of objects -/
def rank (L : Nat) : PC R → Nat
  | .mvStart => 2 * L + 28
  | .mvBest => 2 * L + 27
  | .mvRel _ => 2 * L + 26
  | .mvTest _ => 2 * L + 25
  | .mvUse _ => 1
  | .sorRead => 2
  | .sorWrite => 1
  | .start => 2 * L + 24
  | .first => 2 * L + 23
  | .firstRel _ => 2 * L + 22
  | .fastAcq => 2 * L + 21
  | .fast j _ => (L - j) + L + 20
  | .gotFast _ => 3
  | .noFast _ => L + 19
  | .validate _ => L + 18
  | .slowAcq _ => L + 17
  | .slow j _ => (L - j) + 16
  | .build _ => 15
  | .setDiag _ _ => 14
  | .setUrow _ _ => 13
  | .fillIdx _ _ => 12
  | .setOpt _ _ => 11
  | .push _ _ => 11
  | .flagD _ _ => 10
  | .flagO _ => 9
  | .failW _ => 1
  | .gotSlow _ => 3
  | .got _ => 2
  | .use _ => 1
  | .done _ => 0
  | .fin => 0
  | .crash => 0

theorem step_rank {L t : Nat} {x : Choice R} {pc pc' : PC R} {s s' : Shared R}
    (h : concStep srt t x pc s = some (pc', s')) (hL : s.H.mats.length ≤ L) :
    rank L pc' < rank L pc := by
  have hlt : ∀ (j : Nat) (y : Stored R), s.H.mats[j]? = some y → j < L := fun j y hy => by
    obtain ⟨hlt, -⟩ := List.getElem?_eq_some_iff.1 hy
    omega
  cases pc with
  | fast j src =>
    simp only [concStep] at h
    split at h
    · simp only [Option.some.injEq, Prod.mk.injEq] at h
      obtain ⟨rfl, -⟩ := h
      simp only [rank]; omega
    · rename_i hj
      have := hlt j _ hj
      split at h <;>
      · simp only [Option.some.injEq, Prod.mk.injEq] at h
        obtain ⟨rfl, -⟩ := h
        simp only [rank]; omega
    · rename_i hj
      have := hlt j _ hj
      simp only [Option.some.injEq, Prod.mk.injEq] at h
      obtain ⟨rfl, -⟩ := h
      simp only [rank]; omega
  | slow j k =>
    simp only [concStep] at h
    split at h
    · simp only [Option.some.injEq, Prod.mk.injEq] at h
      obtain ⟨rfl, -⟩ := h
      simp only [rank]; omega
    · rename_i hj
      have := hlt j _ hj
      split at h <;>
      · simp only [Option.some.injEq, Prod.mk.injEq] at h
        obtain ⟨rfl, -⟩ := h
        simp only [rank]; omega
    · rename_i hj
      have := hlt j _ hj
      simp only [Option.some.injEq, Prod.mk.injEq] at h
      obtain ⟨rfl, -⟩ := h
      simp only [rank]; omega
  | _ =>
    simp only [concStep] at h
    repeat' split at h
    all_goals
      first
      | (simp only [Option.some.injEq, Prod.mk.injEq] at h; obtain ⟨rfl, -⟩ := h; simp only [rank]; omega)
      | (simp only [Option.map_eq_some_iff, Prod.mk.injEq] at h
         obtain ⟨s1, -, rfl, -⟩ := h; simp only [rank]; omega)
      | (simp only [Option.some.injEq, Prod.mk.injEq] at h; obtain ⟨rfl, -⟩ := h
         split <;> simp only [rank] <;> omega)
      | cases h

theorem mats_length {c : MCopy R} {rest : List (Stored R)} {ns : Prop} (I0 : Init H0 c rest)
    (I : Inv srt H0 c rest ns S) : S.sh.H.mats.length ≤ H0.mats.length + 1 := by
  have hsim : ∀ H : MvHandle R, Sim ns S.sh.H H → H.mats.length ≤ H0.mats.length + 1 →
      S.sh.H.mats.length ≤ H0.mats.length + 1 := fun H h hl => by rw [h.mats]; exact hl
  have hseq : ∀ i H1, Seq srt H0 i H1 → H1.mats.length ≤ H0.mats.length + 1 := by
    intro i H1 h
    obtain ⟨o, _, ⟨_, rfl, rfl⟩ | ⟨_, rfl, rfl⟩⟩ := seq_cases I0 h
    · simp [inPlaceH, I0.mats]
    · simp [pushH]
  have hhd : ∀ d u, (withHead H0 c rest d u).mats.length ≤ H0.mats.length + 1 := by
    intro d u; simp [withHead, I0.mats]
  have hq : Quiet srt H0 ns S.sh.H → S.sh.H.mats.length ≤ H0.mats.length + 1 := fun h => h.elim
    (fun h => hsim _ h (by omega)) (fun ⟨i, H1, h1, h2⟩ => hsim _ h2 (hseq i H1 h1))
  cases hw : S.sh.writer with
  | none => exact hq (I.sh hw)
  | some t =>
    have hW := (I.wr t).1 hw
    have T := I.tinv t
    cases hpc : S.th t with
    | slow => rw [hpc] at T; exact hq T.1
    | gotSlow => rw [hpc] at T; exact hq T.1
    | build => rw [hpc] at T; exact hq (.inl T.2)
    | setDiag => rw [hpc] at T; exact hq (.inl T.2.1)
    | setUrow => rw [hpc] at T; obtain ⟨-, ⟨d, h⟩, -⟩ := T; exact hsim _ h (hhd _ _)
    | fillIdx => rw [hpc] at T; obtain ⟨-, ⟨d, u, h⟩, -⟩ := T; exact hsim _ h (hhd _ _)
    | setOpt => rw [hpc] at T; exact hsim _ T.2.1 (hhd _ _)
    | push => rw [hpc] at T; exact hq (.inl T.2.1)
    | flagD => rw [hpc] at T; obtain ⟨H1, h1, -, h2⟩ := T; rw [h2]; exact hseq _ H1 h1
    | flagO => rw [hpc] at T; obtain ⟨H1, h1, h2, -⟩ := T; rw [h2]; exact hseq _ H1 h1
    | failW => rw [hpc] at T; exact hq T.1
    | crash => rw [hpc] at T; exact hq T.1
    | _ => rw [hpc] at hW; cases hW

/-- `k` steps, of any threads -/
inductive Steps (srt : (Int → Int → Bool) → List Int → List Int) : Sys R → Nat → Sys R → Prop
  | refl (S : Sys R) : Steps srt S 0 S
  | tail {S S1 S2 : Sys R} {k : Nat} : Steps srt S k S1 → S1.Step srt S2 → Steps srt S (k + 1) S2

theorem Steps.reached {k : Nat} (h : Steps srt (startSys H0 kinds) k S) : CReached srt H0 kinds S := by
  generalize e : startSys H0 kinds = S0 at h
  induction h with
  | refl => subst e; exact .refl
  | tail _ h2 ih => exact ih.tail h2

/-- **C16, every call returns.**  With `n` threads, no interleaving is longer than
`n · (2·(objects + 1) + 28)` steps; together with `C16_no_deadlock`, every schedule that keeps going ends
with all calls returned. -/
theorem C16_terminates (h0 : Unoptimised H0) {n k : Nat} (hn : ∀ t, n ≤ t → kinds t = none)
    (h : Steps srt (startSys H0 kinds) k S) : k ≤ n * (2 * (H0.mats.length + 1) + 28) := by
  obtain ⟨c, rest, I0⟩ := h0.init
  set L := H0.mats.length + 1 with hLdef
  have key : (∀ t, n ≤ t → S.th t = .fin) ∧
      k + ∑ t ∈ Finset.range n, rank L (S.th t) ≤ n * (2 * L + 28) := by
    generalize e : startSys H0 kinds = S0 at h
    induction h with
    | refl =>
      subst e
      refine ⟨fun t ht => by simp only [startSys, threads, hn t ht], ?_⟩
      rw [Nat.zero_add]
      calc _ ≤ ∑ _t ∈ Finset.range n, (2 * L + 28) := by
            refine Finset.sum_le_sum fun t _ => ?_
            simp only [startSys, threads]
            cases kinds t with
            | none => simp [rank]
            | some q => cases q <;> simp [Kind.start, rank]
        _ = _ := by simp
    | @tail S1 S2 k h1 h2 ih =>
      obtain ⟨ih1, ih2⟩ := ih
      subst e
      have I := reached_inv I0 h1.reached
      obtain ⟨v, x, ⟨pc', s'⟩, e, rfl⟩ := h2
      have hv : v < n := by
        by_contra hv
        rw [ih1 v (by omega)] at e
        cases e
      refine ⟨fun t ht => ?_, ?_⟩
      · dsimp only
        rw [Function.update_of_ne (by omega)]
        exact ih1 t ht
      · have hr := step_rank (L := L) e (mats_length I0 I)
        have hsum : ∑ t ∈ Finset.range n, rank L (Function.update S1.th v pc' t) <
            ∑ t ∈ Finset.range n, rank L (S1.th t) := by
          refine Finset.sum_lt_sum (fun t _ => ?_) ⟨v, Finset.mem_range.2 hv, ?_⟩
          · by_cases htv : t = v
            · subst htv; rw [Function.update_self]; omega
            · rw [Function.update_of_ne htv]
          · rw [Function.update_self]; exact hr
        dsimp only
        omega
  omega

end

/-! ### valid matrices -/

section valid
variable {R : Type} [Field R] [DecidableEq R] [StarRing R]
  {srt : (Int → Int → Bool) → List Int → List Int} {H0 : MvHandle R} {kinds : Nat → Option Kind} {S : Sys R}

/-- **C16, on matrices.**  For a handle of a valid matrix (sorted or not, either base, CSR or CSC): in
every interleaving nothing undefined happens, the only error is a failed allocation, and the copy a
thread obtains represents the user's matrix, is sorted, has its diagonal complete and its index arrays
right. -/
theorem C16_clean (hsrt : StdSort srt) {ta : Bool} {A : Csr R} (hA : A.WF) (hd : A.OneDiag)
    (hnd : A.Grouped ∨ A.NoDup) (hH : HandleOk ta A H0) (h0 : Unoptimised H0)
    (h : CReached srt H0 kinds S) (t : Nat) :
    S.th t ≠ .crash ∧ (∀ st, S.th t = .done (.error st) → st = .memoryError) ∧
    ∀ i, Obtained (S.th t) i → ∃ (c : MCopy R) (iu : Option (List Int)) (B : Csr R) (idl iul : List Int),
      S.sh.H.mats[i]? = some (.csr c true iu) ∧ c.idiag = some idl ∧ iu = some iul ∧ B.WF ∧
      B = ⟨A.m, A.n, c.base, c.ptr, c.ind, c.val⟩ ∧ Clean B idl iul ∧
      ∀ i j, i < A.m → j < A.n → B.mat i j = A.mat i j := by
  have hseq := fun gi gv => csrCscOptimize_spec hsrt gi gv hA hd hnd hH
  refine ⟨fun e => ?_, fun st e => ?_, fun i ho => ?_⟩
  · obtain ⟨gi, gv, e'⟩ := (C16_errors h0 h t).2 e
    obtain ⟨i, H', c, iu, e2, -⟩ := hseq gi gv
    rw [e2] at e'; cases e'
  · rcases (C16_errors h0 h t).1 st e with h | ⟨gi, gv, e'⟩
    · exact h
    · obtain ⟨i, H', c, iu, e2, -⟩ := hseq gi gv
      rw [e2] at e'; cases e'
  · obtain ⟨-, gi, gv, H1, e1, hm⟩ := C16_single h0 h ho ho
    obtain ⟨i', H', c, iu, e2, hok, hc⟩ := hseq gi gv
    rw [e1] at e2
    cases e2
    obtain ⟨B, idl, iul, b1, b2, b3, -, -, b6, b7, -, -, b9, -⟩ := clean_copy_of hok hc
    exact ⟨c, iu, B, idl, iul, by rw [hm]; exact hc, b1, b2, b3, b6, b7, b9⟩

end valid

/-- a fresh handle is one of those -/
theorem fresh_unoptimised {R : Type} (raw : RawMat R) (sorted : Bool) : Unoptimised (MvHandle.fresh raw sorted) :=
  ⟨⟨raw.copy0, [], rfl, rfl⟩, fun x hx => by
    simp only [MvHandle.fresh, List.mem_singleton] at hx
    subst hx; rfl⟩

/-! ### operations that do race -/

/-- a run given by the threads and choices, step by step -/
def runC {R : Type} [Zero R] (srt : (Int → Int → Bool) → List Int → List Int) (S : Sys R) :
    List (Nat × Choice R) → Option (Sys R)
  | [] => some S
  | (t, x) :: l => do
    let r ← concStep srt t x (S.th t) S.sh
    runC srt ⟨r.2, Function.update S.th t r.1⟩ l

theorem runC_reached {R : Type} [Zero R] {srt : (Int → Int → Bool) → List Int → List Int} {H0 : MvHandle R}
    {kinds : Nat → Option Kind} {S S' : Sys R} (h : CReached srt H0 kinds S) (l : List (Nat × Choice R))
    (e : runC srt S l = some S') : CReached srt H0 kinds S' := by
  induction l generalizing S with
  | nil => cases e; exact h
  | cons a l ih =>
    obtain ⟨t, x⟩ := a
    simp only [runC, Option.bind_eq_bind, Option.bind_eq_some_iff] at e
    obtain ⟨r, e1, e2⟩ := e
    exact ih (h.tail ⟨t, x, r, e1, rfl⟩) e2

/-- a sorted matrix with full diagonal: optimised in place -/
def concExA : RawMat Int := ⟨0, false, 2, 2, 3, 0, [0, 2, 3], [0, 1, 1], [4, 5, 6]⟩

def concExH : MvHandle Int := .fresh concExA true

def concExC (i : Nat) : Choice Int := ⟨false, fun _ => 9, fun _ => 9, i, false, true⟩

/-- two threads -/
def concExK (a b : Kind) (t : Nat) : Option Kind := if t = 0 then some a else if t = 1 then some b else none

/-- steps of one thread -/
def concExT (t n : Nat) : List (Nat × Choice Int) := List.replicate n (t, concExC 0)

/-- is there a race between threads 0 and 1? -/
def race01 (S : Sys Int) : Bool :=
  (S.th 0).accesses.any fun a => (S.th 1).accesses.any fun b => a.2 && decide (a.1 = b.1)

theorem race01_race {S : Sys Int} (h : race01 S = true) : Race S := by
  unfold race01 at h
  simp only [List.any_eq_true, Bool.and_eq_true, decide_eq_true_eq] at h
  obtain ⟨⟨l, b⟩, h1, ⟨l', b'⟩, h2, h3, h4⟩ := h
  dsimp only at h3 h4
  subst h3 h4
  exact ⟨0, 1, l, b', by omega, h1, h2⟩

/-- **F55.**  mv reads `is_optimized` of the matrix it chose without the lock (mv.cpp:136-138): a first
trsv on the same handle writes it at the same time. -/
theorem C16_mv_race_counterexample :
    ∃ S, CReached insertionSortB concExH (concExK .solve .mv) S ∧ Race S := by
  have h : ((runC insertionSortB (startSys concExH (concExK .solve .mv))
      (concExT 1 3 ++ concExT 0 15)).map race01) = some true := by decide +kernel
  obtain ⟨S, h1, h2⟩ := Option.map_eq_some_iff.1 h
  exact ⟨S, runC_reached .refl _ h1, race01_race h2⟩

/-- **F55.**  sorv reads and writes opt_csr_full_diag without the lock (sorv.hpp:197,209), a first trsv on the
same handle writes it under the lock and reads it without. -/
theorem C16_sorv_race_counterexample :
    ∃ S, CReached insertionSortB concExH (concExK .solve .sorv) S ∧ Race S := by
  have h : ((runC insertionSortB (startSys concExH (concExK .solve .sorv)) (concExT 0 16)).map race01)
      = some true := by decide +kernel
  obtain ⟨S, h1, h2⟩ := Option.map_eq_some_iff.1 h
  exact ⟨S, runC_reached .refl _ h1, race01_race h2⟩

/-! ### examples -/

/-- has thread `t` returned object `i`? -/
def doneWith (S : Sys Int) (t i : Nat) : Bool :=
  match S.th t with
  | .done (.ok j) => j = i
  | _ => false

/-- three threads interleaved, on an unsorted one-based matrix: all return object 1, which is the only new one -/
def concExB : MvHandle Int := .fresh ⟨0, false, 2, 3, 4, 1, [1, 4, 5], [3, 1, 2, 3], [1, 2, 3, 4]⟩ false

def concExRun : List (Nat × Choice Int) :=
  (List.range 40).flatMap fun _ => [(0, concExC 0), (1, concExC 0), (2, concExC 0)]

/-- let the threads run in turn, skipping those that wait -/
def fair {R : Type} [Zero R] (srt : (Int → Int → Bool) → List Int → List Int) (S : Sys R) :
    List (Nat × Choice R) → Sys R
  | [] => S
  | (t, x) :: l =>
    match concStep srt t x (S.th t) S.sh with
    | none => fair srt S l
    | some r => fair srt ⟨r.2, Function.update S.th t r.1⟩ l

theorem fair_reached {R : Type} [Zero R] {srt : (Int → Int → Bool) → List Int → List Int} {H0 : MvHandle R}
    {kinds : Nat → Option Kind} {S : Sys R} (h : CReached srt H0 kinds S) (l : List (Nat × Choice R)) :
    CReached srt H0 kinds (fair srt S l) := by
  induction l generalizing S with
  | nil => exact h
  | cons a l ih =>
    obtain ⟨t, x⟩ := a
    unfold fair
    split
    · exact ih h
    · rename_i r e
      exact ih (h.tail ⟨t, x, r, e, rfl⟩)

example : let S := fair insertionSortB (startSys concExB fun t => if t < 3 then some .solve else none) concExRun
    CReached insertionSortB concExB (fun t => if t < 3 then some .solve else none) S ∧
    doneWith S 0 1 = true ∧ doneWith S 1 1 = true ∧ doneWith S 2 1 = true ∧ S.sh.H.mats.length = 2 :=
  ⟨fair_reached .refl _, by decide +kernel, by decide +kernel, by decide +kernel, by decide +kernel⟩

example : Unoptimised concExB ∧ Unoptimised concExH := ⟨fresh_unoptimised _ _, fresh_unoptimised _ _⟩

end Props
end Verif
