/-
C39: hints accumulate, a rejected hint changes nothing, optimize is idempotent.
-/
import Verif.Model.Hint
import Verif.Spec.Hints
import Verif.Props.Mv

namespace Verif
namespace Props
open Model Spec
variable {R : Type}

/-- the model of the function called -/
def callHint (isReal : Bool) (mat : Option (HintHandle R)) (c : HintCall) : Status × Option (HintHandle R) :=
  match c.fn with
  | .mv => setMvHint isReal c.noMem mat c.op c.descr c.calls
  | .mvKid k => setMvHintKid isReal c.noMem mat c.op c.descr c.calls k
  | .dotmv => setDotmvHint isReal c.noMem mat c.op c.descr c.calls
  | .sv => setSvHint isReal c.noMem mat c.op c.descr c.calls
  | .mm => setMmHint isReal c.noMem mat c.op c.descr c.calls
  | .spmm => set2mHint isReal c.noMem mat c.op c.descr c.calls
  | .ilu => setLuSmootherHint isReal c.noMem mat c.op c.descr c.calls
  | .trsm o => setSmHint isReal c.noMem mat c.op c.descr c.calls o
  | .symgs => setSymgsHint isReal c.noMem mat c.op c.descr c.calls
  | .sor k => setSorvHint isReal c.noMem mat c.descr c.calls k

/-- the enumerators of aoclsparse_hinted_action -/
def actionOf : Nat → Option Action
  | 1 => some .mv
  | 2 => some .sv
  | 3 => some .mm
  | 4 => some .spmm
  | 5 => some .ilu
  | 6 => some .trsmRow
  | 7 => some .trsmCol
  | 8 => some .dotmv
  | 9 => some .symgs
  | 10 => some .sorForward
  | 11 => some .sorBackward
  | 12 => some .sorSymmetric
  | _ => none

/-- stored hint `x` is what request `r` asks to remember, whether acted on or not -/
structure Remembers (isReal : Bool) (x : MvHint × Int) (r : Request) : Prop where
  act : actionOf x.1.act = some r.action
  op : (x.1.op : Int) = r.op
  type : (x.1.type : Int) = r.type
  fill : (x.1.h.fill : Int) = r.fill
  calls : x.1.nop = r.calls
  kid : x.2 = r.kid
  doid : x.1.h.doid = getDoid isReal r.type.toNat r.fill.toNat r.op

/-- the index base of the user's matrix -/
def HintHandle.base (A : HintHandle R) : Option Int := A.H.mats.head?.map Stored.base

private theorem setHint_spec (isReal : Bool) (A : HintHandle R) {b : Int} (hb : HintHandle.base A = some b)
    (act : Nat) (a : Action) (ha : actionOf act = some a) (c : HintCall) (hact : c.fn.action = some a)
    {r : Status × Option (HintHandle R)}
    (hr : r = setHint isReal c.noMem (some A) act c.theOp c.descr c.calls c.fn.kid) :
    r.1 = (c.outcome b).1 ∧ ∃ l, r.2 = some { A with hints := l } ∧
      match (c.outcome b).2 with
      | none => l = A.hints
      | some q => ∃ x, x.1.h.done = false ∧ Remembers isReal x q ∧ l = x :: A.hints := by
  subst hr
  unfold HintHandle.base at hb
  obtain ⟨first, hf, hfb⟩ := Option.map_eq_some_iff.1 hb
  have hact2 : ¬ (act ≤ 0 ∨ act ≥ 13) := by
    rintro (h | h)
    · have : act = 0 := by omega
      subst this; simp [actionOf] at ha
    · unfold actionOf at ha
      split at ha <;> first | omega | cases ha
  unfold setHint HintCall.outcome
  rw [hact]
  dsimp only
  rw [hf]
  dsimp only
  cases hd : c.descr with
  | none => exact ⟨rfl, _, rfl, rfl⟩
  | some d =>
    dsimp only
    by_cases hg : c.good b d
    · rw [if_pos hg]
      obtain ⟨h1, h2, h3, h4, h5, h6, h7⟩ := hg
      unfold Fld.legal at h2 h3 h4 h5
      dsimp only at h2 h3 h4 h5
      rw [if_neg (by omega), if_neg (by rw [hfb]; omega), if_neg (by omega), if_neg (by omega),
        if_neg (by omega), if_neg (by omega), if_neg (by omega), if_neg hact2]
      unfold addHint
      cases c.noMem
      · refine ⟨rfl, _, rfl, _, rfl, ?_, rfl⟩
        exact ⟨ha, Int.toNat_of_nonneg (by omega), Int.toNat_of_nonneg (by omega),
          Int.toNat_of_nonneg (by omega), rfl, rfl, rfl⟩
      · exact ⟨rfl, _, rfl, rfl⟩
    · rw [if_neg hg]
      have key : ∀ r : Status × Option (HintHandle R), r = (.invalidValue, some A) →
          r.1 = Status.invalidValue ∧ ∃ l, r.2 = some { A with hints := l } ∧ l = A.hints :=
        fun r hr => by rw [hr]; exact ⟨rfl, _, rfl, rfl⟩
      apply key
      iterate 7
        split
        · rfl
      exfalso
      apply hg
      refine ⟨by omega, ?_, ?_, ?_, ?_, by omega, by omega⟩ <;> unfold Fld.legal <;> dsimp only <;> omega

/-- **C39, one hint.**  On any handle that holds a matrix, whatever was done with it before, a hint
function returns the status that the arguments alone determine; an accepted hint is put in front of the
earlier ones, none of which is lost or changed; a rejected one leaves the handle as it was. -/
theorem C39_hint (isReal : Bool) (A : HintHandle R) {b : Int} (hb : HintHandle.base A = some b)
    (c : HintCall) :
    (callHint isReal (some A) c).1 = (c.outcome b).1 ∧
      ∃ l, (callHint isReal (some A) c).2 = some { A with hints := l } ∧
      match (c.outcome b).2 with
      | none => l = A.hints
      | some q => ∃ x, x.1.h.done = false ∧ Remembers isReal x q ∧ l = x :: A.hints := by
  obtain ⟨fn, op, descr, calls, noMem⟩ := c
  cases fn with
  | mv => exact setHint_spec isReal A hb 1 .mv rfl _ rfl rfl
  | mvKid k => exact setHint_spec isReal A hb 1 .mv rfl _ rfl rfl
  | dotmv => exact setHint_spec isReal A hb 8 .dotmv rfl _ rfl rfl
  | sv => exact setHint_spec isReal A hb 2 .sv rfl _ rfl rfl
  | mm => exact setHint_spec isReal A hb 3 .mm rfl _ rfl rfl
  | spmm => exact setHint_spec isReal A hb 4 .spmm rfl _ rfl rfl
  | ilu => exact setHint_spec isReal A hb 5 .ilu rfl _ rfl rfl
  | symgs => exact setHint_spec isReal A hb 9 .symgs rfl _ rfl rfl
  | trsm o =>
    by_cases h0 : o = 0
    · subst h0; exact setHint_spec isReal A hb 6 .trsmRow rfl _ rfl rfl
    · by_cases h1 : o = 1
      · subst h1; exact setHint_spec isReal A hb 7 .trsmCol rfl _ rfl rfl
      · have e : callHint isReal (some A) ⟨.trsm o, op, descr, calls, noMem⟩ = (.invalidValue, some A) := by
          simp only [callHint, setSmHint]; rw [if_pos ⟨h0, h1⟩]
        have e' : HintCall.outcome b ⟨.trsm o, op, descr, calls, noMem⟩ = (.invalidValue, none) := by
          simp [HintCall.outcome, HintFn.action, h0, h1]
        rw [e, e']; exact ⟨rfl, _, rfl, rfl⟩
  | sor k =>
    by_cases h0 : k = 0
    · subst h0; exact setHint_spec isReal A hb 10 .sorForward rfl _ rfl rfl
    · by_cases h1 : k = 1
      · subst h1; exact setHint_spec isReal A hb 11 .sorBackward rfl _ rfl rfl
      · by_cases h2 : k = 2
        · subst h2; exact setHint_spec isReal A hb 12 .sorSymmetric rfl _ rfl rfl
        · have e : callHint isReal (some A) ⟨.sor k, op, descr, calls, noMem⟩ = (.invalidValue, some A) := by
            simp only [callHint, setSorvHint]; rw [if_pos ⟨h0, h1, h2⟩]
          have e' : HintCall.outcome b ⟨.sor k, op, descr, calls, noMem⟩ = (.invalidValue, none) := by
            simp [HintCall.outcome, HintFn.action, h0, h1, h2]
          rw [e, e']; exact ⟨rfl, _, rfl, rfl⟩

/-- without a matrix nothing is accepted -/
theorem C39_hint_null (isReal : Bool) (c : HintCall) :
    (callHint isReal (none : Option (HintHandle R)) c).2 = none ∧
    (callHint isReal (none : Option (HintHandle R)) c).1 =
      if c.fn.action = none then .invalidValue else .invalidPointer := by
  obtain ⟨fn, op, descr, calls, noMem⟩ := c
  cases fn with
  | trsm o =>
    simp only [callHint, setSmHint, setHint, HintFn.action]
    by_cases h0 : o = 0
    · simp [h0]
    · by_cases h1 : o = 1 <;> simp [h0, h1]
  | sor k =>
    simp only [callHint, setSorvHint, setHint, HintFn.action]
    by_cases h0 : k = 0
    · simp [h0]
    · by_cases h1 : k = 1
      · simp [h1]
      · by_cases h2 : k = 2 <;> simp [h0, h1, h2]
  | _ => exact ⟨rfl, rfl⟩

/-! ### optimize -/

section opt
variable [Zero R]

/-- a hint with the mark "acted on" removed -/
def unmark (x : MvHint) : MvHint := { x with h := { x.h with done := false } }

private theorem transformHint_frame {g : Garb R} {cj re : R → R} {A : RawMat R} {h h' : OptHint}
    {cs cs' : List (MCopy R)} {st : Status} (e : transformHint g cj re A h cs = some (st, h', cs')) :
    h'.doid = h.doid ∧ h'.fill = h.fill ∧ (h.done = true → h' = h ∧ cs' = cs ∧ st = .success) := by
  unfold transformHint at e
  split at e
  · cases e; exact ⟨rfl, rfl, fun _ => ⟨rfl, rfl, rfl⟩⟩
  · rename_i hd
    split at e
    · cases e; exact ⟨rfl, rfl, fun h => absurd h hd⟩
    · simp only [Option.bind_eq_bind, Option.bind_eq_some_iff] at e
      obtain ⟨r, _, e⟩ := e
      split at e <;> (cases e; exact ⟨rfl, rfl, fun h => absurd h hd⟩)

private theorem matrixTransform_frame {g : Garb R} {cj re : R → R} {A : RawMat R} :
    ∀ {hs hs' : List OptHint} {cs cs' : List (MCopy R)} {st : Status},
      matrixTransform g cj re A hs cs = some (st, hs', cs') →
      List.Forall₂ (fun a b : OptHint => a.doid = b.doid ∧ a.fill = b.fill) hs' hs ∧
      ((∀ h ∈ hs, h.done = true) → hs' = hs ∧ cs' = cs ∧ st = .success) := by
  intro hs
  induction hs with
  | nil => intro hs' cs cs' st e; cases e; exact ⟨.nil, fun _ => ⟨rfl, rfl, rfl⟩⟩
  | cons h hs ih =>
    intro hs' cs cs' st e
    simp only [matrixTransform, Option.bind_eq_bind, Option.bind_eq_some_iff] at e
    obtain ⟨⟨st1, h1, cs1⟩, e1, e⟩ := e
    obtain ⟨hd, hf, hdone⟩ := transformHint_frame e1
    by_cases hst : st1 = .success
    · rw [if_pos hst] at e
      simp only [Option.bind_eq_some_iff] at e
      obtain ⟨⟨st2, hs2, cs2⟩, e2, e⟩ := e
      cases e
      obtain ⟨ha, hb⟩ := ih e2
      refine ⟨.cons ⟨hd, hf⟩ ha, fun hall => ?_⟩
      obtain ⟨q1, q2, q3⟩ := hdone (hall h (by simp))
      obtain ⟨q4, q5, q6⟩ := hb (fun x hx => hall x (by simp [hx]))
      subst q1 q2; exact ⟨by rw [q4], q5, q6⟩
    · rw [if_neg hst] at e
      cases e
      refine ⟨.cons ⟨hd, hf⟩ (List.forall₂_same.2 fun _ _ => ⟨rfl, rfl⟩), fun hall => ?_⟩
      exact absurd (hdone (hall h (by simp))).2.2 hst

private theorem zip_unmark : ∀ {hs : List MvHint} {os : List OptHint},
    List.Forall₂ (fun a b : OptHint => a.doid = b.doid ∧ a.fill = b.fill) os (hs.map (·.h)) →
    (List.zipWith (fun (x : MvHint) o => { x with h := o }) hs os).map unmark = hs.map unmark := by
  intro hs
  induction hs with
  | nil => intro os h; cases h; rfl
  | cons x hs ih =>
    intro os h
    cases os with
    | nil => cases h
    | cons o os =>
      rw [List.map_cons] at h
      cases h with
      | cons h1 h2 =>
        simp only [List.zipWith_cons_cons, List.map_cons, ih h2]
        congr 1
        obtain ⟨o1, o2, o3⟩ := o
        simp only at h1
        simp [unmark, h1.1, h1.2]

private theorem zip_self : ∀ (hs : List MvHint),
    List.zipWith (fun (x : MvHint) o => { x with h := o }) hs (hs.map (·.h)) = hs
  | [] => rfl
  | x :: hs => by simp [zip_self hs]

/-- the hints after optimize are those before, up to the marks; after a success, or when the work for
them failed, all are marked -/
private theorem optimize_hints {isa : Isa} {dbl u : Bool} {srt : (Int → Int → Bool) → List Int → List Int}
    {ch : MvChoice} {g : Garb R} {g' : MvGarb R} {cj re : R → R} {H H' : MvHandle R} {hs hs' : List MvHint}
    {st : Status} (e : optimize isa dbl u srt ch g g' cj re H hs = some (st, H', hs')) :
    hs'.map unmark = hs.map unmark ∧ (st = .success → ∀ x ∈ hs', x.h.done = true) := by
  unfold optimize at e
  split at e
  · cases e; exact ⟨rfl, fun h => Status.noConfusion h⟩
  · simp only [Option.bind_eq_bind, Option.bind_eq_some_iff] at e
    obtain ⟨⟨st1, H1, hs1⟩, e1, e⟩ := e
    have hu : hs1.map unmark = hs.map unmark := by
      unfold optTransform at e1
      split at e1
      · simp only [Option.bind_eq_bind, Option.bind_eq_some_iff] at e1
        obtain ⟨⟨st2, os, cs⟩, e2, e1⟩ := e1
        cases e1
        exact zip_unmark (matrixTransform_frame e2).1
      · cases e1; rfl
    split at e
    · rename_i hne
      cases e; exact ⟨hu, fun h => absurd h hne⟩
    · simp only [Option.bind_eq_some_iff] at e
      obtain ⟨r, e2, e⟩ := e
      cases e
      refine ⟨?_, fun _ x hx => ?_⟩
      · rw [List.map_map, ← hu]
        exact List.map_congr_left fun x _ => rfl
      · obtain ⟨y, _, rfl⟩ := List.mem_map.1 hx
        rfl

/-- nothing is done when all hints are marked -/
private theorem optimize_done {isa : Isa} {dbl u : Bool} {srt : (Int → Int → Bool) → List Int → List Int}
    {ch : MvChoice} {g : Garb R} {g' : MvGarb R} {cj re : R → R} {H : MvHandle R} {hs : List MvHint}
    (hs0 : ¬ (H.raw.um < 0 ∨ H.raw.un < 0 ∨ H.raw.nnz < 0)) (hd : ∀ x ∈ hs, x.h.done = true) :
    optimize isa dbl u srt ch g g' cj re H hs = some (.success, H, hs) := by
  have hmt : ∀ (os : List OptHint) (cs : List (MCopy R)), (∀ x ∈ os, x.done = true) →
      matrixTransform g cj re H.raw os cs = some (.success, os, cs) := by
    intro os
    induction os with
    | nil => intro cs _; rfl
    | cons o os ih =>
      intro cs ho
      have h1 : transformHint g cj re H.raw o cs = some (.success, o, cs) := by
        unfold transformHint; rw [if_pos (ho o (by simp))]
      simp [matrixTransform, h1, ih cs (fun x hx => ho x (by simp [hx]))]
  have ht : optTransform u g cj re H hs = some (.success, H, hs) := by
    unfold optTransform
    split
    · rw [hmt _ _ (by simpa using hd)]
      simp only [Option.bind_eq_bind, Option.bind_some, List.drop_length, List.map_nil, List.append_nil,
        zip_self]
    · rfl
  unfold optimize
  rw [if_neg hs0, ht]
  have hf : hs.filter (fun x => !x.h.done) = [] :=
    List.filter_eq_nil_iff.2 fun x hx => by simp [hd x hx]
  have hm : hs.map (fun x => { x with h := { x.h with done := true } }) = hs := by
    conv_rhs => rw [← List.map_id hs]
    refine List.map_congr_left fun x hx => ?_
    have := hd x hx
    obtain ⟨⟨a, b, c⟩, d⟩ := x
    simp only at this; subst this; rfl
  simp only [Option.bind_eq_bind, Option.bind_some, ne_eq, not_true_eq_false, if_false, hf, optAct, if_true, hm]

/-- the user's matrix stays in the handle -/
private def SameFirst (H H' : MvHandle R) : Prop :=
  H'.raw = H.raw ∧ H'.mats.head?.map Stored.base = H.mats.head?.map Stored.base

private theorem SameFirst.refl (H : MvHandle R) : SameFirst H H := ⟨rfl, rfl⟩

private theorem head_append {l l' : List (Stored R)} (h : l ≠ []) : (l ++ l').head? = l.head? := by
  cases l with
  | nil => exact absurd rfl h
  | cons a l => rfl

private theorem optAct_first {isa : Isa} {dbl : Bool} {srt : (Int → Int → Bool) → List Int → List Int}
    {ch : MvChoice} {g : Garb R} {g' : MvGarb R} {H H' : MvHandle R} {todo : List MvHint} {d0 : Nat}
    {st : Status} (hne : H.mats ≠ []) (e : optAct isa dbl srt ch g g' H todo d0 = some (st, H')) :
    SameFirst H H' := by
  unfold optAct at e
  split at e
  · cases e; exact .refl _
  · split at e
    · unfold csrCscOptimize at e
      split at e <;> rename_i e0
      · cases e
      · cases e; exact .refl _
      · cases e
        split at e0
        · cases e0; exact .refl _
        · split at e0
          · rename_i c o u rest hm
            simp only [Option.bind_eq_bind, Option.bind_eq_some_iff] at e0
            obtain ⟨r, _, e0⟩ := e0
            split at e0
            · cases e0
            · split at e0
              · cases e0; refine ⟨rfl, ?_⟩
                rw [hm]; rfl
              · cases e0; refine ⟨rfl, ?_⟩
                dsimp only
                rw [head_append (by rw [hm]; simp)]
          · cases e0
    · split at e
      · unfold optimizeMv at e
        split at e
        · cases e; exact ⟨rfl, rfl⟩
        · split at e
          · rename_i c o u rest hm
            split at e
            · cases e; exact .refl _
            · simp only [Option.bind_eq_bind, Option.bind_eq_some_iff] at e
              obtain ⟨H1, e1, H2, e2, e⟩ := e
              cases e
              have h1 : SameFirst H H1 ∧ H1.mats ≠ [] := by
                unfold optBlk at e1
                split at e1
                · simp only [Option.bind_eq_bind, Option.bind_eq_some_iff] at e1
                  obtain ⟨b, _, e1⟩ := e1
                  split at e1
                  · simp only [Option.bind_eq_some_iff] at e1
                    obtain ⟨_, _, _, _, _, _, _, _, _, _, _, _, e1⟩ := e1
                    cases e1
                    refine ⟨⟨rfl, ?_⟩, by simp⟩
                    dsimp only
                    rw [head_append hne]
                  · cases e1; exact ⟨.refl _, hne⟩
                · cases e1; exact ⟨.refl _, hne⟩
              have h2 : SameFirst H1 H' := by
                unfold optFmt at e2
                split at e2
                · unfold optBr4 at e2
                  simp only [Option.bind_eq_bind, Option.bind_eq_some_iff] at e2
                  obtain ⟨_, _, e2⟩ := e2
                  cases e2
                  refine ⟨rfl, ?_⟩
                  dsimp only
                  rw [head_append h1.2]
                · split at e2
                  · unfold optHyb at e2
                    simp only [Option.bind_eq_bind, Option.bind_eq_some_iff] at e2
                    obtain ⟨w, _, e2⟩ := e2
                    split at e2
                    · cases e2; exact .refl _
                    · simp only [Option.bind_eq_some_iff] at e2
                      obtain ⟨_, _, _, _, _, _, _, _, e2⟩ := e2
                      cases e2
                      refine ⟨rfl, ?_⟩
                      dsimp only
                      rw [head_append h1.2]
                  · cases e2; exact ⟨rfl, rfl⟩
              exact ⟨h2.1.trans h1.1.1, h2.2.trans h1.1.2⟩
          · cases e; exact .refl _
      · cases e; exact .refl _

private theorem optimize_first {isa : Isa} {dbl u : Bool} {srt : (Int → Int → Bool) → List Int → List Int}
    {ch : MvChoice} {g : Garb R} {g' : MvGarb R} {cj re : R → R} {H H' : MvHandle R} {hs hs' : List MvHint}
    {st : Status} (hne : H.mats ≠ [])
    (e : optimize isa dbl u srt ch g g' cj re H hs = some (st, H', hs')) : SameFirst H H' := by
  unfold optimize at e
  split at e
  · cases e; exact .refl _
  · simp only [Option.bind_eq_bind, Option.bind_eq_some_iff] at e
    obtain ⟨⟨st1, H1, hs1⟩, e1, e⟩ := e
    have h1 : SameFirst H H1 ∧ H1.mats ≠ [] := by
      unfold optTransform at e1
      split at e1
      · simp only [Option.bind_eq_bind, Option.bind_eq_some_iff] at e1
        obtain ⟨_, _, e1⟩ := e1
        cases e1
        refine ⟨⟨rfl, ?_⟩, by simp [hne]⟩
        dsimp only
        rw [head_append hne]
      · cases e1; exact ⟨.refl _, hne⟩
    split at e
    · cases e; exact h1.1
    · simp only [Option.bind_eq_some_iff] at e
      obtain ⟨r, e2, e⟩ := e
      cases e
      have h2 := optAct_first h1.2 e2
      exact ⟨h2.1.trans h1.1.1, h2.2.trans h1.1.2⟩

/-! ### histories -/

/-- a call; every call of optimize may meet another instruction set, outcome of the floating point
comparisons and content of uninitialised memory -/
inductive HCall (R : Type) where
  | hint (c : HintCall)
  | memory (policy : Int)
  | optimize (isa : Isa) (ch : MvChoice) (g : Garb R) (g' : MvGarb R)

/-- the value type and the sorting function -/
structure HEnv (R : Type) where
  isReal : Bool
  dbl : Bool
  srt : (Int → Int → Bool) → List Int → List Int
  cj : R → R
  re : R → R

/-- one call on a handle; `none` is undefined behaviour -/
def hstep (E : HEnv R) (A : HintHandle R) : HCall R → Option (Status × Option (HintHandle R))
  | .hint c => some (callHint E.isReal (some A) c)
  | .memory p => some (setMemoryHint (some A) p)
  | .optimize isa ch g g' => optimizeH isa E.dbl E.srt ch g g' E.cj E.re (some A)

/-- a history: the status of every call and the handle at the end -/
def hrun (E : HEnv R) (A : HintHandle R) : List (HCall R) → Option (List Status × HintHandle R)
  | [] => some ([], A)
  | c :: cs => do
    let r ← hstep E A c
    let A ← r.2
    let q ← hrun E A cs
    some (r.1 :: q.1, q.2)

/-- the requests accepted in a history, latest first -/
def requests (b : Int) : List (HCall R) → List Request
  | [] => []
  | .hint c :: cs => requests b cs ++ (c.outcome b).2.toList
  | _ :: cs => requests b cs

private theorem unmark_remembers {isReal : Bool} {x y : MvHint} {k : Int} {r : Request}
    (hu : unmark x = unmark y) (h : Remembers isReal (y, k) r) : Remembers isReal (x, k) r := by
  obtain ⟨⟨a, b, c⟩, d, e, f, n⟩ := x
  obtain ⟨⟨a', b', c'⟩, d', e', f', n'⟩ := y
  simp only [unmark, MvHint.mk.injEq, OptHint.mk.injEq] at hu
  obtain ⟨⟨rfl, rfl, _⟩, rfl, rfl, rfl, rfl⟩ := hu
  exact ⟨h.act, h.op, h.type, h.fill, h.calls, h.kid, h.doid⟩

private theorem zip_remembers {isReal : Bool} : ∀ {l : List (MvHint × Int)} {hs : List MvHint} {rs : List Request},
    hs.map unmark = (l.map (·.1)).map unmark → List.Forall₂ (Remembers isReal) l rs →
    List.Forall₂ (Remembers isReal) (List.zipWith (fun x k => (x, k)) hs (l.map (·.2))) rs := by
  intro l
  induction l with
  | nil => intro hs rs hu h; cases h; cases hs <;> exact .nil
  | cons x l ih =>
    intro hs rs hu h
    cases hs with
    | nil => cases hu
    | cons y hs =>
      cases h with
      | cons h1 h2 =>
        simp only [List.map_cons, List.cons.injEq] at hu
        exact .cons (unmark_remembers hu.1 h1) (ih hu.2 h2)

private theorem hstep_ok {E : HEnv R} {A A' : HintHandle R} {c : HCall R} {b : Int} {st : Status}
    (hb : HintHandle.base A = some b) (e : hstep E A c = some (st, some A')) {rs : List Request}
    (hr : List.Forall₂ (Remembers E.isReal) A.hints rs) :
    HintHandle.base A' = some b ∧ A'.H.raw = A.H.raw ∧
      List.Forall₂ (Remembers E.isReal) A'.hints (requests b [c] ++ rs) := by
  cases c with
  | hint c =>
    obtain ⟨_, l, h2, h3⟩ := C39_hint E.isReal A hb c
    have e' : callHint E.isReal (some A) c = (st, some A') := Option.some.inj e
    rw [e'] at h2
    cases h2
    refine ⟨hb, rfl, ?_⟩
    unfold requests requests
    cases ho : (c.outcome b).2 with
    | none => rw [ho] at h3; dsimp only at h3; subst h3; exact hr
    | some q =>
      rw [ho] at h3
      obtain ⟨x, _, hx, rfl⟩ := h3
      exact .cons hx hr
  | memory p =>
    simp only [hstep, setMemoryHint] at e
    split at e <;> (cases e; exact ⟨hb, rfl, hr⟩)
  | optimize isa ch g g' =>
    simp only [hstep, optimizeH] at e
    split at e
    · cases e; exact ⟨hb, rfl, hr⟩
    · simp only [Option.bind_eq_bind, Option.bind_eq_some_iff] at e
      obtain ⟨⟨st1, H1, hs1⟩, e1, e⟩ := e
      cases e
      have hne : A.H.mats ≠ [] := by
        intro h; unfold HintHandle.base at hb; rw [h] at hb; cases hb
      have hf := optimize_first hne e1
      refine ⟨hf.2.trans hb, hf.1, zip_remembers ?_ hr⟩
      exact (optimize_hints e1).1

/-- **C39, histories.**  After every sequence of hint calls (accepted or rejected), memory hints and
optimize calls (succeeding or failing), the handle remembers exactly the accepted hints, every one of
them, in order, the latest first, in front of those it had (`rs`): nothing is lost, altered or invented. -/
theorem C39_history (E : HEnv R) {b : Int} (cs : List (HCall R)) : ∀ {A A' : HintHandle R} {sts : List Status}
    {rs : List Request}, HintHandle.base A = some b → List.Forall₂ (Remembers E.isReal) A.hints rs →
    hrun E A cs = some (sts, A') →
    List.Forall₂ (Remembers E.isReal) A'.hints (requests b cs ++ rs) := by
  induction cs with
  | nil => intro A A' sts rs _ hr e; cases e; exact hr
  | cons c cs ih =>
    intro A A' sts rs hb hr e
    simp only [hrun, Option.bind_eq_bind, Option.bind_eq_some_iff] at e
    obtain ⟨⟨st, Ao⟩, e1, A1, rfl, q, e2, e⟩ := e
    cases e
    obtain ⟨hb1, _, hr1⟩ := hstep_ok hb e1 hr
    have := ih hb1 hr1 e2
    have e3 : requests b (c :: cs) = requests b cs ++ requests b [c] := by
      cases c with
      | hint c => simp [requests]
      | memory p => simp [requests]
      | optimize => simp [requests]
    rw [e3, List.append_assoc]; exact this

/-- a memory policy is accepted if it is one of the two (minimal 0, unrestricted 1) and then is the one
in force; otherwise, and on a null handle, nothing changes -/
theorem C39_memory (mat : Option (HintHandle R)) (policy : Int) :
    setMemoryHint mat policy =
      (if mat.isNone then .invalidPointer else if policy = 0 ∨ policy = 1 then .success else .invalidValue,
       mat.map fun A => if policy = 0 then { A with unrestricted := false }
         else if policy = 1 then { A with unrestricted := true } else A) := by
  cases mat with
  | none => rfl
  | some A =>
    unfold setMemoryHint
    by_cases h0 : policy = 0
    · subst h0; rfl
    · by_cases h1 : policy = 1
      · subst h1; rfl
      · simp [h0, h1]

/-- the kernel a product will be asked to use is the one wished in the latest accepted matching hint -/
theorem C39_kid (E : HEnv R) {b : Int} (cs : List (HCall R)) {A A' : HintHandle R} {sts : List Status}
    (hb : HintHandle.base A = some b) (h0 : A.hints = []) (e : hrun E A cs = some (sts, A')) (doid : Nat) :
    getKid A'.hints doid 1 = (((requests b cs).find? fun r => decide (r.action = .mv ∧
      getDoid E.isReal r.type.toNat r.fill.toNat r.op = doid)).map Request.kid).getD (-1) := by
  have h := C39_history E cs (rs := []) hb (by rw [h0]; exact .nil) e
  rw [List.append_nil] at h
  clear e
  generalize A'.hints = l at h
  generalize requests b cs = rs at h
  induction h with
  | nil => rfl
  | @cons x r l rs hx _ ih =>
    obtain ⟨x, k⟩ := x
    have hact : x.act = 1 ↔ r.action = .mv := by
      have h1 := hx.act
      constructor
      · intro h; rw [show (x, k).1.act = 1 from h] at h1; exact (Option.some.inj h1).symm
      · intro h; rw [h] at h1
        unfold actionOf at h1
        split at h1 <;> first | assumption | cases h1
    have hd : x.h.doid = getDoid E.isReal r.type.toNat r.fill.toNat r.op := hx.doid
    rw [List.find?_cons, getKid]
    by_cases hc : r.action = .mv ∧ getDoid E.isReal r.type.toNat r.fill.toNat r.op = doid
    · rw [if_pos ⟨hact.2 hc.1, by rw [hd]; exact hc.2.symm⟩]
      simp only [decide_eq_true hc]
      exact hx.kid
    · rw [if_neg (fun h => hc ⟨hact.1 h.1, by rw [← hd]; exact h.2.symm⟩), ih]
      simp only [decide_eq_false hc]

/-- all hints were acted on -/
def Settled (A : HintHandle R) : Prop :=
  0 ≤ A.H.raw.um ∧ 0 ≤ A.H.raw.un ∧ 0 ≤ A.H.raw.nnz ∧ HintHandle.base A ≠ none ∧ ∀ x ∈ A.hints, x.1.h.done = true

private theorem zip_pair : ∀ (l : List (MvHint × Int)),
    List.zipWith (fun x k => (x, k)) (l.map (·.1)) (l.map (·.2)) = l
  | [] => rfl
  | x :: l => by simp [zip_pair l]

private theorem settled_optimize {isa : Isa} {dbl : Bool} {srt : (Int → Int → Bool) → List Int → List Int}
    {ch : MvChoice} {g : Garb R} {g' : MvGarb R} {cj re : R → R} {A : HintHandle R} (h : Settled A) :
    optimizeH isa dbl srt ch g g' cj re (some A) = some (.success, some A) := by
  obtain ⟨h1, h2, h3, h4, h5⟩ := h
  have hne : A.H.mats.isEmpty = false := by
    cases hm : A.H.mats with
    | nil => exact absurd (by unfold HintHandle.base; rw [hm]; rfl) h4
    | cons a l => rfl
  unfold optimizeH
  dsimp only
  rw [if_neg (by rw [hne]; exact fun h => Bool.noConfusion h.2), optimize_done (by omega) (by simpa using h5)]
  simp only [Option.bind_eq_bind, Option.bind_some, zip_pair]

/-- a successful optimize leaves no hint open -/
theorem C39_optimize_settles {isa : Isa} {dbl : Bool} {srt : (Int → Int → Bool) → List Int → List Int}
    {ch : MvChoice} {g : Garb R} {g' : MvGarb R} {cj re : R → R} {mat : Option (HintHandle R)}
    {mat' : Option (HintHandle R)} (e : optimizeH isa dbl srt ch g g' cj re mat = some (.success, mat')) :
    ∃ A', mat' = some A' ∧ Settled A' := by
  unfold optimizeH at e
  split at e
  · cases e
  · rename_i A
    split at e
    · cases e
    · rename_i hc
      simp only [Option.bind_eq_bind, Option.bind_eq_some_iff] at e
      obtain ⟨⟨st1, H1, hs1⟩, e1, e⟩ := e
      cases e
      have hsz : ¬ (A.H.raw.um < 0 ∨ A.H.raw.un < 0 ∨ A.H.raw.nnz < 0) := by
        intro h; unfold optimize at e1; rw [if_pos h] at e1; cases e1
      have hne : A.H.mats ≠ [] := fun h => hc ⟨hsz, by rw [h]; rfl⟩
      have hf := optimize_first hne e1
      refine ⟨_, rfl, ?_, ?_, ?_, ?_, ?_⟩
      · dsimp only; rw [hf.1]; omega
      · dsimp only; rw [hf.1]; omega
      · dsimp only; rw [hf.1]; omega
      · show H1.mats.head?.map Stored.base ≠ none
        rw [hf.2]
        cases hm : A.H.mats with
        | nil => exact absurd hm hne
        | cons a l => simp
      · intro x hx
        have hx1 : x.1 ∈ hs1 := by
          obtain ⟨i, hi, rfl⟩ := List.getElem_of_mem hx
          simp
        exact (optimize_hints e1).2 rfl _ hx1

/-- **C39, idempotence.**  After a successful optimize a second one, on any instruction set and whatever
the outcome of its internal comparisons, returns success and leaves the handle as it is: no copy is
added, removed or changed. -/
theorem C39_idempotent {isa isa2 : Isa} {dbl dbl2 : Bool} {srt srt2 : (Int → Int → Bool) → List Int → List Int}
    {ch ch2 : MvChoice} {g g2 : Garb R} {g' g2' : MvGarb R} {cj re : R → R} {mat mat' : Option (HintHandle R)}
    (e : optimizeH isa dbl srt ch g g' cj re mat = some (.success, mat')) :
    optimizeH isa2 dbl2 srt2 ch2 g2 g2' cj re mat' = some (.success, mat') := by
  obtain ⟨A', rfl, hA⟩ := C39_optimize_settles e
  exact settled_optimize hA

/-- **C39, idempotence over histories.**  The same holds however many optimize calls, rejected hints and
memory hints follow: as long as no further hint is accepted, every optimize returns success and the
matrix and its copies stay as they are. -/
theorem C39_stable (E : HEnv R) {b : Int} (cs : List (HCall R)) : ∀ {A : HintHandle R},
    HintHandle.base A = some b → Settled A → requests b cs = [] →
    ∃ sts u, hrun E A cs = some (sts, { A with unrestricted := u }) ∧
      ∀ (i : Nat) (isa : Isa) (ch : MvChoice) (g : Garb R) (g' : MvGarb R),
        cs[i]? = some (HCall.optimize isa ch g g') → sts[i]? = some Status.success := by
  induction cs with
  | nil => intro A _ _ _; exact ⟨[], A.unrestricted, rfl, fun i isa ch g g' h => by simp at h⟩
  | cons c cs ih =>
    intro A hb hS hq
    cases c with
    | hint c =>
      obtain ⟨_, l, h2, h3⟩ := C39_hint E.isReal A hb c
      have hq' : requests b cs = [] ∧ (c.outcome b).2 = none := by
        rw [requests, List.append_eq_nil_iff] at hq
        exact ⟨hq.1, by simpa using hq.2⟩
      rw [hq'.2] at h3
      dsimp only at h3; subst h3
      obtain ⟨sts, u, e, hs⟩ := ih hb hS hq'.1
      refine ⟨(callHint E.isReal (some A) c).1 :: sts, u, by simp [hrun, hstep, h2, e], ?_⟩
      intro i isa ch g g' hi
      cases i with
      | zero => simp at hi
      | succ i => exact hs i isa ch g g' hi
    | memory p =>
      have hst : ∃ st u, setMemoryHint (some A) p = (st, some { A with unrestricted := u }) := by
        unfold setMemoryHint
        dsimp only
        split
        · exact ⟨_, A.unrestricted, rfl⟩
        · exact ⟨_, _, rfl⟩
      obtain ⟨st, u, e0⟩ := hst
      obtain ⟨sts, u', e, hs⟩ := ih (A := { A with unrestricted := u }) hb hS hq
      refine ⟨st :: sts, u', by simp [hrun, hstep, e0, e], ?_⟩
      intro i isa ch g g' hi
      cases i with
      | zero => simp at hi
      | succ i => exact hs i isa ch g g' hi
    | optimize isa ch g g' =>
      obtain ⟨sts, u, e, hs⟩ := ih hb hS hq
      refine ⟨.success :: sts, u, by simp [hrun, hstep, settled_optimize hS, e], ?_⟩
      intro i isa ch g g' hi
      cases i with
      | zero => rfl
      | succ i => exact hs i isa ch g g' hi

end opt

/-! ### examples -/

def hintEx : HintHandle Int := ⟨.fresh (mvExA.raw false) false, [], true⟩
def hintEnv : HEnv Int := ⟨true, true, insertionSortB, id, id⟩
def hintDescr : DescObj := { base := 1 }
def hintCalls : List (HCall Int) :=
  [.hint ⟨.mv, 111, some hintDescr, 10, false⟩, .hint ⟨.sv, 112, some { hintDescr with type := 3 }, 0, false⟩,
    .optimize ⟨true, false, false⟩ (mvExChoice 0) mvExG mvExG', .hint ⟨.mvKid 2, 111, some hintDescr, 0, false⟩,
    .hint ⟨.sor 7, 111, some hintDescr, 5, false⟩,
    .hint ⟨.trsm 1, 113, some { hintDescr with type := 3 }, 5, true⟩, .memory 5, .memory 0,
    .optimize ⟨true, true, true⟩ (mvExChoice 0) mvExG mvExG']

example : HintHandle.base hintEx = some 1 ∧
    (hrun hintEnv hintEx hintCalls).map (·.1) = some [.success, .invalidValue, .success, .success,
      .invalidValue, .memoryError, .invalidValue, .success, .success] ∧
    requests 1 hintCalls = [⟨.mv, 111, 0, 0, 0, 2⟩, ⟨.mv, 111, 0, 0, 10, -1⟩] ∧
    (hrun hintEnv hintEx hintCalls).map (fun r => getKid r.2.hints 0 1) = some 2 := by
  decide +kernel

/-- **C39 does not extend to failures**: optimize marks the hints as acted on before acting.  If the
work fails (here with the minimal memory policy, where it is the only step), calling optimize again
reports success without doing anything. -/
theorem C39_failure_forgets [Zero R] {isa isa2 : Isa} {dbl : Bool}
    {srt srt2 : (Int → Int → Bool) → List Int → List Int} {ch ch2 : MvChoice} {g g2 : Garb R} {g' g2' : MvGarb R}
    {cj re : R → R} {A A' : HintHandle R} {st : Status} (hm : HintHandle.base A ≠ none)
    (hu : A.unrestricted = false) (h1 : 0 ≤ A.H.raw.um) (h2 : 0 ≤ A.H.raw.un) (h3 : 0 ≤ A.H.raw.nnz)
    (e : optimizeH isa dbl srt ch g g' cj re (some A) = some (st, some A')) :
    optimizeH isa2 dbl srt2 ch2 g2 g2' cj re (some A') = some (.success, some A') := by
  apply settled_optimize
  have hne : A.H.mats ≠ [] := fun h => hm (by unfold HintHandle.base; rw [h]; rfl)
  unfold optimizeH at e
  dsimp only at e
  rw [if_neg (fun h => hne (by simpa using h.2))] at e
  simp only [Option.bind_eq_bind, Option.bind_eq_some_iff] at e
  obtain ⟨⟨st1, H1, hs1⟩, e1, e⟩ := e
  cases e
  have hf := optimize_first hne e1
  have hall : ∀ x ∈ hs1, x.h.done = true := by
    unfold optimize at e1
    rw [if_neg (by omega), hu] at e1
    simp only [optTransform, Bool.false_eq_true, if_false, Option.bind_eq_bind, Option.bind_some, ne_eq,
      not_true_eq_false, Option.bind_eq_some_iff] at e1
    obtain ⟨r, _, e1⟩ := e1
    cases e1
    intro x hx
    obtain ⟨y, _, rfl⟩ := List.mem_map.1 hx
    rfl
  refine ⟨?_, ?_, ?_, ?_, ?_⟩
  · dsimp only; rw [hf.1]; omega
  · dsimp only; rw [hf.1]; omega
  · dsimp only; rw [hf.1]; omega
  · show H1.mats.head?.map Stored.base ≠ none
    rw [hf.2]; exact hm
  · intro x hx
    obtain ⟨i, hi, rfl⟩ := List.getElem_of_mem hx
    have : (List.zipWith (fun x k => (x, k)) hs1 (A.hints.map (·.2)))[i].1 ∈ hs1 := by simp
    exact hall _ this

set_option synthInstance.maxSize 1000 in
/-- the case occurs: a column index that is out of range makes optimize fail; after the user has
repaired it, optimize reports success but no clean copy is made for the announced solves, neither in
place nor elsewhere -/
theorem C39_retry_counterexample :
    ∃ A B : Csr Int, ¬ A.WF ∧ B.WF ∧
    ((hrun hintEnv ⟨.fresh (A.raw false) true, [], false⟩
      [.hint ⟨.sv, 111, some { type := 3 }, 5, false⟩,
       .optimize ⟨true, false, false⟩ (mvExChoice 0) mvExG mvExG']).bind fun r =>
      ((optimizeH ⟨true, false, false⟩ true insertionSortB (mvExChoice 0) mvExG mvExG' id id
        (some { r.2 with H := { r.2.H with raw := B.raw false, mats := [.csr (B.raw false).copy0 false none] } })).map
        fun q => (r.1, q.1, q.2.map fun X => (X.H.optimized, X.H.mats.length, X.H.mats.map Stored.opt)))) =
      some ([.success, .invalidIndexValue], .success, some (false, 1, [false])) := by
  refine ⟨⟨2, 2, 0, [0, 1, 2], [0, 5], [1, 2]⟩, ⟨2, 2, 0, [0, 1, 2], [0, 1], [1, 2]⟩, ?_, ?_, ?_⟩
  · intro h
    exact absurd (h.ind_range 5 (by simp)) (by decide)
  · constructor <;> decide +kernel
  · decide +kernel

end Props
end Verif
