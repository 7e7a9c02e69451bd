/-
No call other than an update of the values changes the number of null pointers in the list of copies.
-/
import Verif.Model.Symgs

namespace Verif
open Model

variable {R : Type}

theorem csrCscOptimize_nulls [Zero R] {srt : (Int → Int → Bool) → List Int → List Int} {gi : Nat → Int}
    {gv : Nat → R} {H H' : MvHandle R} {i : Nat} (e : csrCscOptimize srt gi gv H = some (.ok (i, H'))) :
    H'.nulls = H.nulls := by
  unfold csrCscOptimize at e
  cases ho : optIdx H.mats with
  | some j => rw [ho] at e; cases e; rfl
  | none =>
    rw [ho] at e
    dsimp only at e
    split at e
    · simp only [Option.bind_eq_bind, Option.bind_eq_some_iff] at e
      obtain ⟨r, -, e⟩ := e
      cases r with
      | error _ => cases e
      | ok o =>
        dsimp only at e
        rcases ite_or e with ⟨-, e⟩ | ⟨-, e⟩ <;> cases e <;> rfl
    · cases e

section
variable [Zero R] [One R] [Add R] [Mul R] [DecidableEq R] {isa : Isa} {k : MvSel R}
  {srt : (Int → Int → Bool) → List Int → List Int} {g : Garb R}

theorem mvOn_nulls {req op : Nat} {alpha beta : R} {H H' : MvHandle R} {d : Descr} {i : Nat}
    {x y y' : List R} {st : Status} (e : mvOn isa k req op alpha H d i x beta y = some (st, y', H')) :
    H'.nulls = H.nulls := by
  unfold mvOn at e
  split at e
  · cases e
  · unfold mvCsr at e
    rcases ite_or e with ⟨-, e⟩ | ⟨-, e⟩
    · rcases ite_or e with ⟨-, e⟩ | ⟨-, e⟩
      · simp only [Option.bind_eq_bind, Option.bind_eq_some_iff] at e
        obtain ⟨r, -, e⟩ := e
        rcases ite_or e with ⟨-, e⟩ | ⟨-, e⟩
        · cases e; rfl
        · simp only [Option.bind_eq_some_iff] at e
          obtain ⟨q, -, e⟩ := e
          cases e; rfl
      · simp only [Option.bind_eq_bind, Option.bind_eq_some_iff] at e
        obtain ⟨q, -, e⟩ := e
        cases e; rfl
    · simp only [Option.bind_eq_bind, Option.bind_eq_some_iff] at e
      obtain ⟨q, -, e⟩ := e
      cases e; rfl
  · unfold mvBlk at e
    rcases ite_or e with ⟨-, e⟩ | ⟨-, e⟩
    · cases e; rfl
    · simp only [Option.bind_eq_bind, Option.bind_eq_some_iff] at e
      obtain ⟨q, -, e⟩ := e
      cases e; rfl
  · unfold mvHyb at e
    split at e
    · split at e
      · cases e; rfl
      · simp only [Option.bind_eq_bind, Option.bind_eq_some_iff] at e
        obtain ⟨q, -, e⟩ := e
        cases e; rfl
    · cases e; rfl
  · unfold mvBr4 at e
    split at e
    · cases e; rfl
    · simp only [Option.bind_eq_bind, Option.bind_eq_some_iff] at e
      obtain ⟨q, -, e⟩ := e
      cases e; rfl

theorem mvRun_nulls {op : Int} {alpha beta : R} {H H' : MvHandle R} {d : Descr}
    {x y y' : List R} {st : Status} (e : mvRun isa k srt g op alpha H d x beta y = some (st, y', H')) :
    H.nulls = 0 ∧ H'.nulls = H.nulls := by
  unfold mvRun at e
  rcases ite_or e with ⟨-, e⟩ | ⟨hn, e⟩
  · cases e
  refine ⟨by simpa using hn, ?_⟩
  split at e
  · cases e; rfl
  · simp only [Option.bind_eq_bind, Option.bind_eq_some_iff] at e
    obtain ⟨r, e1, e⟩ := e
    cases r with
    | error _ => cases e; rfl
    | ok q =>
      rw [mvOn_nulls e]
      unfold mvReady at e1
      split at e1
      · cases e1
      · rcases ite_or e1 with ⟨-, e1⟩ | ⟨-, e1⟩
        · exact csrCscOptimize_nulls e1
        · cases e1; rfl

/-- a product does not change the number of null pointers -/
theorem mv_nulls {same : Bool} {op : Int} {alpha beta : Option R} {H H' : MvHandle R} {d : Option Descr}
    {x y y' : Option (List R)} {st : Status}
    (e : mv isa k srt g same op alpha (some H) d x beta y = some (st, y', some H')) :
    H'.nulls = H.nulls := by
  unfold mv at e
  rcases alpha with _ | alpha <;> rcases beta with _ | beta <;> rcases d with _ | d <;>
    rcases x with _ | x <;> rcases y with _ | y <;> try (cases e; rfl)
  dsimp only at e
  iterate 6
    (rcases ite_or e with ⟨-, e'⟩ | ⟨-, e'⟩
     · cases e'; rfl
     replace e := e'; clear e')
  rcases ite_or e with ⟨-, e⟩ | ⟨-, e⟩
  · simp only [Option.bind_eq_bind, Option.bind_eq_some_iff] at e
    obtain ⟨r, -, e⟩ := e
    cases e; rfl
  · simp only [Option.bind_eq_bind, Option.bind_eq_some_iff] at e
    obtain ⟨⟨a, b, c⟩, e1, e⟩ := e
    cases e
    exact (mvRun_nulls e1).2

end

section
variable [Zero R] [One R] [Add R] [Sub R] [Neg R] [Mul R] [Div R] [DecidableEq R]

/-- a triangular solve does not change the number of null pointers -/
theorem trsvH_nulls {isReal : Bool} {w : Nat} {cjg : R → R} {srt : (Int → Int → Bool) → List Int → List Int}
    {g : Garb R} {im : TrsvImpl R} {same : Bool} {op : Int} {alpha : R} {H H' : MvHandle R}
    {d : Option Descr} {b x x' : Option (List R)} {incb incx : Int} {st : Status}
    (e : trsvH isReal w cjg srt g im same op alpha (some H) d b incb x incx = some (st, x', some H')) :
    H'.nulls = H.nulls := by
  unfold trsvH at e
  rcases x with _ | x <;> rcases b with _ | b <;> rcases d with _ | d <;> try (cases e; rfl)
  dsimp only at e
  iterate 10
    (rcases ite_or e with ⟨-, e'⟩ | ⟨-, e'⟩
     · cases e'; rfl
     replace e := e'; clear e')
  simp only [Option.bind_eq_bind, Option.bind_eq_some_iff] at e
  obtain ⟨r, e1, e⟩ := e
  cases r with
  | error _ => cases e; rfl
  | ok q =>
    simp only [Option.bind_eq_some_iff] at e
    obtain ⟨s, e2, e⟩ := e
    cases e
    rw [← csrCscOptimize_nulls e1]
    unfold trsvCopy at e2
    split at e2
    · simp only [Option.bind_eq_bind, Option.bind_eq_some_iff] at e2
      obtain ⟨_, -, t, -, e2⟩ := e2
      cases t <;> cases e2 <;> rfl
    · cases e2

theorem gsMv_nulls {E : GsEnv R} {op : Int} {alpha : R} {H H' : MvHandle R} {d : Descr} {x y y' : List R}
    {st : Status} (e : gsMv E op alpha H d x y = some (st, y', H')) : H'.nulls = H.nulls := by
  unfold gsMv at e
  simp only [Option.bind_eq_bind, Option.bind_eq_some_iff] at e
  obtain ⟨⟨a, b, c⟩, e1, y1, rfl, H1, rfl, e⟩ := e
  cases e
  exact mv_nulls e1

theorem gsTrsv_nulls {E : GsEnv R} {op : Int} {H H' : MvHandle R} {d : Descr} {x b x' : List R}
    {st : Status} (e : gsTrsv E op H d b x = some (st, x', H')) : H'.nulls = H.nulls := by
  unfold gsTrsv at e
  simp only [Option.bind_eq_bind, Option.bind_eq_some_iff] at e
  obtain ⟨⟨a, b, c⟩, e1, y1, rfl, H1, rfl, e⟩ := e
  cases e
  exact trsvH_nulls e1

theorem gsFuse_nulls {E : GsEnv R} {op : Int} {H H' : MvHandle R} {d : Descr} {x x' : List R}
    {y y' : Option (List R)} {fuse : Bool} {st : Status}
    (e : gsFuse E op H d x y fuse = some (st, x', y', H')) : H'.nulls = H.nulls := by
  unfold gsFuse at e
  rcases ite_or e with ⟨-, e⟩ | ⟨-, e⟩
  · simp only [Option.bind_eq_bind, Option.bind_eq_some_iff] at e
    obtain ⟨yl, -, ⟨a, b, c⟩, e1, e⟩ := e
    cases e
    exact gsMv_nulls e1
  · cases e; rfl

theorem symgsRef_nulls {E : GsEnv R} {op : Int} {alpha : R} {H H' : MvHandle R} {d : Descr}
    {b x x' : List R} {y y' : Option (List R)} {fuse : Bool} {st : Status}
    (e : symgsRef E op alpha H d b x y fuse = some (st, x', y', H')) : H'.nulls = H.nulls := by
  unfold symgsRef at e
  rcases ite_or e with ⟨-, e⟩ | ⟨-, e⟩
  · unfold gsTri at e
    simp only [Option.bind_eq_bind, Option.bind_eq_some_iff] at e
    obtain ⟨⟨a, c, H1⟩, e1, e⟩ := e
    have h1 := gsTrsv_nulls e1
    rcases ite_or e with ⟨-, e⟩ | ⟨-, e⟩
    · cases e; exact h1
    · exact (gsFuse_nulls e).trans h1
  · unfold gsSweeps at e
    simp only [Option.bind_eq_bind, Option.bind_eq_some_iff] at e
    obtain ⟨⟨a, c, H1⟩, e1, z, -, ⟨a2, c2, H2⟩, e2, e⟩ := e
    have h1 := gsMv_nulls e1
    have h2 := (gsTrsv_nulls e2).trans h1
    rcases ite_or e with ⟨-, e⟩ | ⟨-, e⟩
    · cases e; exact h2
    · unfold gsBack at e
      simp only [Option.bind_eq_bind, Option.bind_eq_some_iff] at e
      obtain ⟨⟨a3, c3, H3⟩, e3, q, -, ⟨a4, c4, H4⟩, e4, e⟩ := e
      have h3 := (gsMv_nulls e3).trans h2
      have h4 := (gsTrsv_nulls e4).trans h3
      rcases ite_or e with ⟨-, e⟩ | ⟨-, e⟩
      · cases e; exact h4
      · exact (gsFuse_nulls e).trans h4

/-- a smoothing step does not change the number of null pointers -/
theorem symgs_nulls {E : GsEnv R} {same : Bool} {op : Int} {alpha : R} {H H' : MvHandle R}
    {d : Option Descr} {b x x' y y' : Option (List R)} {fuse : Bool} {st : Status}
    (e : symgs E same op (some H) d alpha b x y fuse = some (st, x', y', some H')) : H'.nulls = H.nulls := by
  unfold symgs at e
  rcases x with _ | x <;> rcases b with _ | b <;> rcases d with _ | d <;> try (cases e; rfl)
  dsimp only at e
  iterate 13
    (rcases ite_or e with ⟨-, e'⟩ | ⟨-, e'⟩
     · cases e'; rfl
     replace e := e'; clear e')
  simp only [Option.bind_eq_bind, Option.bind_eq_some_iff] at e
  obtain ⟨r, e1, e⟩ := e
  cases r with
  | error _ => cases e; rfl
  | ok q =>
    have h1 := csrCscOptimize_nulls e1
    dsimp only at e
    rcases ite_or e with ⟨-, e⟩ | ⟨-, e⟩
    · cases e; exact h1
    · simp only [Option.bind_eq_some_iff] at e
      obtain ⟨⟨a, b1, c, H1⟩, e2, e⟩ := e
      cases e
      exact (symgsRef_nulls e2).trans h1

/-- over-relaxation does not change the number of null pointers -/
theorem sorv_nulls {re same : Bool} {ty : Nat} {d : Option Descr} {H H' : MvHandle R} {omega alpha : R}
    {x b x' : Option (List R)} {st : Status}
    (e : sorv re same ty d (some H) omega alpha x b = some (st, x', some H')) : H'.nulls = H.nulls := by
  unfold sorv at e
  rcases ite_or e with ⟨-, e⟩ | ⟨-, e⟩
  · cases e; rfl
  rcases x with _ | x <;> rcases b with _ | b <;> rcases d with _ | d <;> try (cases e; rfl)
  dsimp only at e
  iterate 7
    (rcases ite_or e with ⟨-, e'⟩ | ⟨-, e'⟩
     · cases e'; rfl
     replace e := e'; clear e')
  rcases ite_or e with ⟨-, e⟩ | ⟨-, e⟩
  · rcases ite_or e with ⟨-, e⟩ | ⟨-, e⟩ <;> cases e <;> rfl
  simp only [Option.bind_eq_bind, Option.bind_eq_some_iff] at e
  obtain ⟨⟨a, c, H1⟩, e1, e⟩ := e
  cases e
  have run : ∀ (c0 : MCopy R) (H0 : MvHandle R) {r}, sorRun c0 H0 d.base omega alpha x b = some r →
      r.2.2.nulls = H0.nulls := by
    intro c0 H0 r e
    unfold sorRun at e
    simp only [Option.bind_eq_bind, Option.bind_eq_some_iff] at e
    obtain ⟨_, -, _, -, e⟩ := e
    cases e; rfl
  unfold sorOn at e1
  split at e1
  · rcases ite_or e1 with ⟨-, e1⟩ | ⟨-, e1⟩
    · simp only [Option.bind_eq_bind, Option.bind_eq_some_iff] at e1
      obtain ⟨ok, -, e1⟩ := e1
      rcases ite_or e1 with ⟨-, e1⟩ | ⟨-, e1⟩
      · cases e1; rfl
      · have := run _ _ e1
        exact this
    · exact run _ _ e1
  · cases e1; rfl

end

section
variable [Zero R] {isa : Isa} {dbl : Bool} {ch : MvChoice} {g : Garb R} {g' : MvGarb R}

theorem optimizeMv_nulls {H H' : MvHandle R} {st : Status}
    (e : optimizeMv isa dbl ch g' H = some (st, H')) : H'.nulls = H.nulls := by
  unfold optimizeMv at e
  rcases ite_or e with ⟨-, e⟩ | ⟨-, e⟩
  · cases e; rfl
  split at e
  · rcases ite_or e with ⟨-, e⟩ | ⟨-, e⟩
    · cases e; rfl
    · simp only [Option.bind_eq_bind, Option.bind_eq_some_iff] at e
      obtain ⟨H1, e1, H2, e2, e⟩ := e
      cases e
      have h1 : H1.nulls = H.nulls := by
        unfold optBlk at e1
        rcases ite_or e1 with ⟨-, e1⟩ | ⟨-, e1⟩
        · simp only [Option.bind_eq_bind, Option.bind_eq_some_iff] at e1
          obtain ⟨b, -, e1⟩ := e1
          rcases ite_or e1 with ⟨-, e1⟩ | ⟨-, e1⟩
          · simp only [Option.bind_eq_some_iff] at e1
            obtain ⟨_, -, _, -, _, -, _, -, _, -, _, -, e1⟩ := e1
            cases e1; rfl
          · cases e1; rfl
        · cases e1; rfl
      rw [← h1]
      unfold optFmt at e2
      rcases ite_or e2 with ⟨-, e2⟩ | ⟨-, e2⟩
      · unfold optBr4 at e2
        simp only [Option.bind_eq_bind, Option.bind_eq_some_iff] at e2
        obtain ⟨_, -, e2⟩ := e2
        cases e2; rfl
      rcases ite_or e2 with ⟨-, e2⟩ | ⟨-, e2⟩
      · unfold optHyb at e2
        simp only [Option.bind_eq_bind, Option.bind_eq_some_iff] at e2
        obtain ⟨w, -, e2⟩ := e2
        rcases ite_or e2 with ⟨-, e2⟩ | ⟨-, e2⟩
        · cases e2; rfl
        · simp only [Option.bind_eq_some_iff] at e2
          obtain ⟨_, -, _, -, _, -, _, -, e2⟩ := e2
          cases e2; rfl
      · cases e2; rfl
  · cases e; rfl

/-- optimize does not change the number of null pointers -/
theorem optimize_nulls {unr : Bool} {srt : (Int → Int → Bool) → List Int → List Int} {cj re : R → R}
    {H H' : MvHandle R} {hs hs' : List MvHint} {st : Status}
    (e : optimize isa dbl unr srt ch g g' cj re H hs = some (st, H', hs')) : H'.nulls = H.nulls := by
  unfold optimize at e
  rcases ite_or e with ⟨-, e⟩ | ⟨-, e⟩
  · cases e; rfl
  simp only [Option.bind_eq_bind, Option.bind_eq_some_iff] at e
  obtain ⟨⟨a, H1, hs1⟩, e1, e⟩ := e
  have h1 : H1.nulls = H.nulls := by
    unfold optTransform at e1
    rcases ite_or e1 with ⟨-, e1⟩ | ⟨-, e1⟩
    · simp only [Option.bind_eq_bind, Option.bind_eq_some_iff] at e1
      obtain ⟨_, -, e1⟩ := e1
      cases e1; rfl
    · cases e1; rfl
  rcases ite_or e with ⟨-, e⟩ | ⟨-, e⟩
  · cases e; exact h1
  simp only [Option.bind_eq_some_iff] at e
  obtain ⟨⟨b, H2⟩, e2, e⟩ := e
  cases e
  rw [← h1]
  unfold optAct at e2
  rcases ite_or e2 with ⟨-, e2⟩ | ⟨-, e2⟩
  · cases e2; rfl
  rcases ite_or e2 with ⟨-, e2⟩ | ⟨-, e2⟩
  · split at e2
    · cases e2
    · cases e2; rfl
    · rename_i q hq
      cases e2
      exact csrCscOptimize_nulls hq
  rcases ite_or e2 with ⟨-, e2⟩ | ⟨-, e2⟩
  · exact optimizeMv_nulls e2
  · cases e2; rfl

end
end Verif
