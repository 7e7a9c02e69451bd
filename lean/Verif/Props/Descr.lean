/-
C38: the settings of matrix descriptors.
-/
import Verif.Model.DescrObj
import Verif.Spec.DescrHist

namespace Verif
namespace Props
open Model Spec

/-- the value returned by a call: the status or, for getters, the value -/
inductive DOut where
  | st (s : Status)
  | new (s : Status) (a : Option Nat)
  | val (v : Int)
deriving DecidableEq, Repr

/-- the API function that sets a setting -/
def setFld : Fld → DHeap → Option Nat → Int → Option (Status × DHeap)
  | .type => setMatType
  | .fill => setMatFillMode
  | .diag => setMatDiagType
  | .base => setMatIndexBase

/-- the API function that reads a setting -/
def getFld : Fld → DHeap → Option Nat → Option Int
  | .type => getMatType
  | .fill => getMatFillMode
  | .diag => getMatDiagType
  | .base => getMatIndexBase

/-- one call: what the caller gets and the heap; `none` is undefined behaviour -/
def dstep (h : DHeap) : DCall → Option (DOut × DHeap)
  | .create out fails =>
    let r := createDescr h out fails
    some (.new r.1 r.2.1, r.2.2)
  | .copy d s => (copyDescr h d s).map fun r => (.st r.1, r.2)
  | .destroy p => (destroyDescr h p).map fun r => (.st r.1, r.2)
  | .set f p v => (setFld f h p v).map fun r => (.st r.1, r.2)
  | .get f p => (getFld f h p).map fun v => (.val v, h)

/-- a history, given latest call first: what the latest call gave and the heap after it -/
def drun : List DCall → Option DHeap
  | [] => some []
  | c :: past => do
    let h ← drun past
    let r ← dstep h c
    some r.2

/-- what a call must give the caller after `past` -/
def expected (past : List DCall) : DCall → DOut
  | .create out fails =>
    if out = false then .new .invalidPointer none
    else if fails then .new .memoryError none
    else .new .success (some (created past))
  | .copy d s => .st (if d = none ∨ s = none then .invalidPointer else .success)
  | .destroy _ => .st .success
  | .set f p v =>
    .st (if p = none then .invalidPointer else if f.legal v then .success else .invalidValue)
  | .get f p => .val (match p with | none => f.default | some a => current f a past)

/-- field of an object -/
private def fld (d : DescObj) : Fld → Int
  | .type => d.type
  | .fill => d.fill
  | .diag => d.diag
  | .base => d.base

private theorem load_some {h : DHeap} {a : Nat} {d : DescObj} :
    h.load a = some d ↔ h[a]? = some (some d) := by
  unfold DHeap.load
  cases h[a]? with
  | none => simp
  | some x => simp

private theorem load_lt {h : DHeap} {a : Nat} {d : DescObj} (e : h.load a = some d) : a < h.length := by
  obtain ⟨hi, _⟩ := List.getElem?_eq_some_iff.1 (load_some.1 e)
  exact hi

private theorem load_set {h : DHeap} {a b : Nat} {x : Option DescObj} (hb : b < h.length) :
    DHeap.load (h.set b x) a = if a = b then x else h.load a := by
  unfold DHeap.load
  rw [List.getElem?_set]
  by_cases e : b = a
  · subst e; simp [hb]
  · rw [if_neg e, if_neg (fun h => e h.symm)]

private theorem getFld_some {h : DHeap} {a : Nat} (f : Fld) :
    getFld f h (some a) = (h.load a).map (fld · f) := by
  cases f <;> (simp only [getFld, getMatType, getMatFillMode, getMatDiagType, getMatIndexBase]) <;>
    cases h.load a <;> rfl

private theorem legal_type (v : Int) : Fld.legal .type v ↔ ¬ (v ≠ 0 ∧ v ≠ 1 ∧ v ≠ 2 ∧ v ≠ 3) := by
  unfold Fld.legal; omega
private theorem legal_fill (v : Int) : Fld.legal .fill v ↔ ¬ (v ≠ 0 ∧ v ≠ 1) := by
  unfold Fld.legal; omega
private theorem legal_diag (v : Int) : Fld.legal .diag v ↔ ¬ (v ≠ 1 ∧ v ≠ 0 ∧ v ≠ 2) := by
  unfold Fld.legal; omega
private theorem legal_base (v : Int) : Fld.legal .base v ↔ ¬ (v ≠ 0 ∧ v ≠ 1) := by
  unfold Fld.legal; omega

/-- the object with one setting changed -/
private def upd (d : DescObj) (v : Int) : Fld → DescObj
  | .type => { d with type := v }
  | .fill => { d with fill := v }
  | .diag => { d with diag := v }
  | .base => { d with base := v }

private theorem fld_upd (d : DescObj) (v : Int) (f g : Fld) :
    fld (upd d v f) g = if f = g then v else fld d g := by
  cases f <;> cases g <;> rfl

private theorem setFld_some {h : DHeap} {a : Nat} {d : DescObj} (e : h.load a = some d) (f : Fld)
    (v : Int) : setFld f h (some a) v =
      if f.legal v then some (.success, h.set a (some (upd d v f))) else some (.invalidValue, h) := by
  cases f
  · rw [setFld, setMatType]
    by_cases hl : Fld.legal .type v
    · rw [if_pos hl, if_neg ((legal_type v).1 hl)]; simp [e, DHeap.store, upd]
    · rw [if_neg hl, if_pos (not_not.1 (fun h' => hl ((legal_type v).2 h')))]
  · rw [setFld, setMatFillMode]
    by_cases hl : Fld.legal .fill v
    · rw [if_pos hl, if_neg ((legal_fill v).1 hl)]; simp [e, DHeap.store, upd]
    · rw [if_neg hl, if_pos (not_not.1 (fun h' => hl ((legal_fill v).2 h')))]
  · rw [setFld, setMatDiagType]
    by_cases hl : Fld.legal .diag v
    · rw [if_pos hl, if_neg ((legal_diag v).1 hl)]; simp [e, DHeap.store, upd]
    · rw [if_neg hl, if_pos (not_not.1 (fun h' => hl ((legal_diag v).2 h')))]
  · rw [setFld, setMatIndexBase]
    by_cases hl : Fld.legal .base v
    · rw [if_pos hl, if_neg ((legal_base v).1 hl)]; simp [e, DHeap.store, upd]
    · rw [if_neg hl, if_pos (not_not.1 (fun h' => hl ((legal_base v).2 h')))]

/-- **C38, one setter.**  On any heap: a null pointer is rejected; an illegal value is rejected and
nothing changes; a legal value is accepted, is what the getter returns from then on, and no other
setting of this descriptor nor any setting of another descriptor changes. -/
theorem C38_set (f : Fld) (h : DHeap) (v : Int) :
    setFld f h none v = some (.invalidPointer, h) ∧
    ∀ a, h.load a ≠ none →
      (¬ f.legal v → setFld f h (some a) v = some (.invalidValue, h)) ∧
      (f.legal v → ∃ h', setFld f h (some a) v = some (.success, h') ∧
        getFld f h' (some a) = some v ∧ h'.length = h.length ∧
        ∀ g b, (g, b) ≠ (f, a) → getFld g h' (some b) = getFld g h (some b)) := by
  refine ⟨by cases f <;> rfl, fun a ha => ?_⟩
  obtain ⟨d, e⟩ := Option.ne_none_iff_exists'.1 ha
  rw [setFld_some e]
  refine ⟨fun hl => by rw [if_neg hl], fun hl => ?_⟩
  rw [if_pos hl]
  refine ⟨_, rfl, ?_, by simp, ?_⟩
  · rw [getFld_some, load_set (load_lt e), if_pos rfl]
    simp [fld_upd]
  · intro g b hne
    rw [getFld_some, getFld_some, load_set (load_lt e)]
    by_cases hb : b = a
    · subst hb
      have hg : f ≠ g := fun h' => hne (by rw [h'])
      rw [if_pos rfl, e]
      simp [fld_upd, hg]
    · rw [if_neg hb]

/-- the heap agrees with what the caller knows -/
private structure Agree (past : List DCall) (h : DHeap) : Prop where
  len : h.length = created past
  live : ∀ a, alive a past → ∃ d, h.load a = some d ∧ ∀ f, fld d f = current f a past

private theorem alive_tail {a : Nat} {c : DCall} {past : List DCall} (ha : alive a (c :: past))
    (hc : created (c :: past) = created past) : alive a past :=
  ⟨hc ▸ ha.1, fun h => ha.2 (List.mem_cons_of_mem _ h)⟩

private theorem dstep_ok {past : List DCall} {h : DHeap} (A : Agree past h) (c : DCall)
    (hw : wellUsed (c :: past)) :
    ∃ h', dstep h c = some (expected past c, h') ∧ Agree (c :: past) h' := by
  cases c with
  | create out fails =>
    rcases out with _ | _
    · refine ⟨h, rfl, ⟨A.len, fun a ha => ?_⟩⟩
      exact A.live a (alive_tail ha rfl)
    · rcases fails with _ | _
      · refine ⟨h ++ [some ({} : DescObj)], by simp [dstep, createDescr, expected, A.len], ⟨?_, fun a ha => ?_⟩⟩
        · simp [created, A.len]
        · have hlt : a < created past + 1 := ha.1
          by_cases e : a = created past
          · refine ⟨({} : DescObj), ?_, fun f => ?_⟩
            · rw [load_some, e, ← A.len]; simp
            · rw [current, if_pos e]; cases f <;> rfl
          · obtain ⟨d, hd, hf⟩ := A.live a ⟨by omega, fun h => ha.2 (List.mem_cons_of_mem _ h)⟩
            refine ⟨d, ?_, fun f => by rw [current, if_neg e]; exact hf f⟩
            rw [load_some] at hd ⊢
            rw [List.getElem?_append_left (load_lt (load_some.2 hd))]; exact hd
      · refine ⟨h, rfl, ⟨A.len, fun a ha => ?_⟩⟩
        exact A.live a (alive_tail ha rfl)
  | copy dp sp =>
    rcases dp with _ | dd
    · exact ⟨h, rfl, ⟨A.len, fun a ha => A.live a (alive_tail ha rfl)⟩⟩
    · rcases sp with _ | ss
      · exact ⟨h, rfl, ⟨A.len, fun a ha => A.live a (alive_tail ha rfl)⟩⟩
      · obtain ⟨x, hx, hxf⟩ := A.live ss (hw.2.2 ss rfl)
        obtain ⟨y, hy, _⟩ := A.live dd (hw.2.1 dd rfl)
        refine ⟨h.set dd (some x), ?_, ⟨by rw [List.length_set]; exact A.len, fun a ha => ?_⟩⟩
        · simp [dstep, copyDescr, hx, hy, DHeap.store, expected]
        · rw [load_set (load_lt hy)]
          by_cases e : a = dd
          · rw [if_pos e]
            refine ⟨x, rfl, fun f => ?_⟩
            rw [current, if_pos e]; exact hxf f
          · rw [if_neg e]
            obtain ⟨d, hd, hf⟩ := A.live a (alive_tail ha rfl)
            refine ⟨d, hd, fun f => by rw [current, if_neg e]; exact hf f⟩
  | destroy p =>
    rcases p with _ | b
    · exact ⟨h, rfl, ⟨A.len, fun a ha => A.live a (alive_tail ha rfl)⟩⟩
    · obtain ⟨y, hy, _⟩ := A.live b (hw.2 b rfl)
      refine ⟨h.set b none, by simp [dstep, destroyDescr, hy, expected],
        ⟨by rw [List.length_set]; exact A.len, fun a ha => ?_⟩⟩
      have hne : a ≠ b := fun e => ha.2 (by rw [e]; exact List.mem_cons_self)
      rw [load_set (load_lt hy), if_neg hne]
      obtain ⟨d, hd, hf⟩ := A.live a (alive_tail ha rfl)
      exact ⟨d, hd, fun f => by rw [current]; exact hf f; all_goals simp⟩
  | set f p v =>
    rcases p with _ | b
    · exact ⟨h, by cases f <;> rfl, ⟨A.len, fun a ha => A.live a (alive_tail ha rfl)⟩⟩
    · obtain ⟨y, hy, hyf⟩ := A.live b (hw.2 b rfl)
      by_cases hl : f.legal v
      · refine ⟨h.set b (some (upd y v f)), by simp [dstep, setFld_some hy, hl, expected],
          ⟨by rw [List.length_set]; exact A.len, fun a ha => ?_⟩⟩
        rw [load_set (load_lt hy)]
        by_cases e : a = b
        · subst e
          rw [if_pos rfl]
          refine ⟨_, rfl, fun g => ?_⟩
          rw [fld_upd, current]
          by_cases hg : f = g
          · subst hg; simp [hl]
          · simp [hg, hyf]
        · rw [if_neg e]
          obtain ⟨d, hd, hf⟩ := A.live a (alive_tail ha rfl)
          refine ⟨d, hd, fun g => ?_⟩
          rw [current, if_neg (fun h' => e h'.2.1.symm)]; exact hf g
      · refine ⟨h, by simp [dstep, setFld_some hy, hl, expected], ⟨A.len, fun a ha => ?_⟩⟩
        obtain ⟨d, hd, hf⟩ := A.live a (alive_tail ha rfl)
        refine ⟨d, hd, fun g => ?_⟩
        rw [current, if_neg (fun (h' : f = g ∧ b = a ∧ g.legal v) => hl (h'.1 ▸ h'.2.2))]; exact hf g
  | get f p =>
    rcases p with _ | b
    · exact ⟨h, by cases f <;> rfl, ⟨A.len, fun a ha => A.live a (alive_tail ha rfl)⟩⟩
    · obtain ⟨y, hy, hyf⟩ := A.live b (hw.2 b rfl)
      refine ⟨h, by simp [dstep, getFld_some, hy, expected, hyf],
        ⟨A.len, fun a ha => A.live a (alive_tail ha rfl)⟩⟩

private theorem drun_agree (past : List DCall) (hw : wellUsed past) :
    ∃ h, drun past = some h ∧ Agree past h := by
  induction past with
  | nil => exact ⟨[], rfl, ⟨rfl, fun a ha => absurd ha.1 (Nat.not_lt_zero a)⟩⟩
  | cons c past ih =>
    obtain ⟨h, e, A⟩ := ih hw.1
    obtain ⟨h', e', A'⟩ := dstep_ok A c hw
    exact ⟨h', by simp [drun, e, e'], A'⟩

/-- **C38.**  For every history of calls on descriptors by a caller who only uses descriptors that
exist, however many descriptors there are and whichever pointers are null or equal, every call is
defined and gives exactly what the history of accepted values says: each getter the value last accepted
for that setting of that descriptor (its default after creation, the source's value after a copy), each
setter success for legal values and a rejection otherwise. -/
theorem C38_history (past : List DCall) (c : DCall) (hw : wellUsed (c :: past)) :
    ∃ h h', drun past = some h ∧ dstep h c = some (expected past c, h') := by
  obtain ⟨h, e, A⟩ := drun_agree past hw.1
  obtain ⟨h', e', _⟩ := dstep_ok A c hw
  exact ⟨h, h', e, e'⟩

/-- the values descriptors hold are legal at all times -/
theorem C38_legal (f : Fld) (a : Nat) (past : List DCall) : f.legal (current f a past) := by
  have h0 : f.legal f.default := by cases f <;> decide
  fun_induction current f a past <;> first
    | exact h0
    | assumption
    | (rename_i hc _; exact hc.2.2)
    | (rename_i hc; exact hc.2.2)

/-- two descriptors, an alias of the first, rejected values, a copy -/
def dEx : List DCall :=
  [.set .type (some 1) 2, .copy (some 1) (some 0), .set .base (some 0) 7, .set .diag (some 0) 2,
    .set .base none 1, .set .base (some 0) 1, .create true false, .create true true,
    .create true false]

example : wellUsed (.get .base (some 1) :: dEx) ∧ expected dEx (.get .base (some 1)) = .val 1 ∧
    expected dEx (.get .diag (some 1)) = .val 2 ∧ expected dEx (.get .type (some 0)) = .val 0 ∧
    expected dEx (.get .type (some 1)) = .val 2 ∧
    (drun dEx).isSome = true ∧ ((drun dEx).bind fun h => getMatDiagType h (some 1)) = some 2 := by
  refine ⟨?_, by decide, by decide, by decide, by decide, by decide, by decide⟩
  simp only [wellUsed, dEx]
  decide

/-- destroying through one of two equal pointers leaves the other dangling: the next use is undefined -/
theorem C38_use_after_destroy (past : List DCall) (a : Nat) (f : Fld) (h : DHeap)
    (e : drun (.destroy (some a) :: past) = some h) : getFld f h (some a) = none := by
  simp only [drun, dstep, destroyDescr, Option.bind_eq_bind, Option.bind_eq_some_iff,
    Option.map_eq_some_iff] at e
  obtain ⟨h0, _, r, ⟨q, ⟨d, hd, e1⟩, e2⟩, e3⟩ := e
  cases e1; cases e2; cases e3
  rw [getFld_some, load_set (load_lt hd), if_pos rfl]; rfl

end Props
end Verif
