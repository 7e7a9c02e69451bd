/-
Ownership: every call that makes a new handle, and the iterative solvers, keep the accounts.
-/
import Verif.Proofs.Own2

namespace Verif
namespace Proofs
namespace Own
open Model.Own Spec.Own

variable {V α β : Type} {c : Bool} {W : Env} {L : Multiset Nat}

/-- the arrays of an object of another handle may be read -/
def Rd (W : Env) (o : Obj) : Prop := ∀ a, some (.heap a) ∈ o.arrs → W.r a

theorem Rd.touch {o : Obj} (h : Rd W o) :
    Tri (V := V) c W L (Model.Own.touch o.arrs) (fun _ => L) (fun _ => True) :=
  touch_tri (fun a ha => .inr (h a ha))

theorem destroy_tri {h : Handle} (hh : HOk h) :
    Tri (V := V) c W (handleOwn h) (destroyH h) (fun _ => 0) (fun _ => True) :=
  destroyH_tri hh.objs hh.iluNU

theorem bailH {st : Status} {h : Handle} (hh : HOk h) :
    Tri (V := V) c W (handleOwn h) (do destroyH h; pure (st, none)) (fun r => handleOwn? r.2) OutOk := by
  refine Tri.bind (destroy_tri hh) ?_
  intro _ _
  exact Tri.pure rfl (by intro h e; cases e)

theorem bailOH {st : Status} {h : Handle} (hh : HOk h) {o : Obj} (ho : ObjOk o) :
    Tri (V := V) c W (objOwn o + handleOwn h) (do delObj o; destroyH h; pure (st, none))
      (fun r => handleOwn? r.2) OutOk := by
  refine Tri.seq (delObj_tri ho) (G := handleOwn h) rfl ?_
  intro _ _
  exact (bailH hh).conseq (by abel) (fun _ h => ⟨rfl, h⟩)

theorem outNone {st : Status} : OutOk (st, none) := by intro h e; cases e

/-- the result is a handle with one object of its own -/
theorem outOne {st : Status} {a : Nat} {o : Obj} (ho : Fresh .csr 3 o) :
    OutOk (st, some { self := a, mats := [some o] }) := by
  intro h e
  cases e
  exact HOk.one ho.ok (fun _ _ => ⟨ho.idiag, ho.iurow⟩)

/-! ### Copy -/

theorem mem_hps' {ps : List (Option Ptr)} {p : Option Ptr} (h : p ∈ ps) {a : Nat} (e : p = some (.heap a)) :
    a ∈ hps ps := mem_hps (e ▸ h)

theorem copyArrs_tri {ds ss : List (Option Ptr)} (hd : ∀ a, some (.heap a) ∈ ds → a ∈ L)
    (hn : ∀ p ∈ ds, NU p) (hs : ∀ a, some (.heap a) ∈ ss → W.r a) :
    Tri (V := V) c W L (copyArrs ds ss) (fun _ => L) (fun _ => True) := by
  induction ds generalizing ss with
  | nil => unfold copyArrs; exact Tri.pure rfl trivial
  | cons d ds ih =>
    rcases ss with _ | ⟨s, ss⟩
    · unfold copyArrs; exact Tri.pure rfl trivial
    · have ih := ih (ss := ss) (fun a ha => hd a (List.mem_cons_of_mem _ ha))
        (fun p hp' => hn p (List.mem_cons_of_mem _ hp')) (fun a ha => hs a (List.mem_cons_of_mem _ ha))
      unfold copyArrs
      refine Tri.bind (readP_tri (fun a ha => .inr (hs a (ha ▸ List.mem_cons_self)))) ?_
      intro r _
      rcases r with _ | v
      · exact ih
      · refine Tri.bind (writeP_tri (fun a ha => hd a (ha ▸ List.mem_cons_self))
          (fun k hk => absurd hk (hn d List.mem_cons_self k))) ?_
        intro _ _
        exact ih

theorem copy_tri {st st2 : Status} {src : Handle} (hr : ∀ o, src.first = some o → Rd W o) :
    Tri (V := V) c W 0 (copy st st2 src) (fun r => handleOwn? r.2) OutOk := by
  unfold copy
  refine Tri.ite (fun _ => Tri.pure rfl outNone) (fun _ => ?_)
  refine Tri.bind newHandle_tri ?_
  intro r hr'
  rcases r with _ | h
  · exact Tri.pure rfl outNone
  · obtain ⟨a, rfl⟩ := hr'.1 h rfl
    cases hf : src.first with
    | none => exact bailH HOk.empty
    | some o =>
      refine Tri.ite (fun _ => bailH HOk.empty) (fun hk => ?_)
      refine Tri.ite (fun _ => bailH HOk.empty) (fun _ => ?_)
      refine Tri.seq (newObj_tri o.kind 3 0) (G := {a}) (by simp [handleOwn?, own_empty]) ?_
      intro q hq
      rcases q with _ | d
      · exact (bailH HOk.empty).conseq (by simp [own_empty, objOwn?]) (fun _ h => ⟨rfl, h⟩)
      · have hd := (hq.1 d rfl).1
        refine Tri.bind (copyArrs_tri (fun x hx => Multiset.mem_add.mpr (.inl (mem_objOwn hd.ok hx)))
          (hd.ok.own hd.internal) (hr o hf)) ?_
        intro _ _
        refine Tri.seq vec_tri (G := objOwn d + {a}) (by simp [objOwn?]) ?_
        intro b _
        refine Tri.ite (fun _ => ?_) (fun _ => ?_)
        · refine Tri.pure (by simp [handleOwn?, own_one, add_comm]) ?_
          intro h e
          cases e
          exact HOk.one hd.ok (fun _ _ => ⟨hd.idiag, hd.iurow⟩)
        · exact (bailOH HOk.empty hd.ok).conseq (by simp [own_empty]) (fun _ h => ⟨rfl, h⟩)

/-! ### Conversion, products, sums -/

theorem newWithCsr_tri {full : Bool} : Tri (V := V) c W 0 (newWithCsr full) handleOwn?
    (fun r => (∀ h, r = some h → ∃ a o, h = { self := a, mats := [some o] } ∧ Fresh .csr 3 o ∧
      (full = false → o.arrs.getD 1 none = none ∧ o.arrs.getD 2 none = none)) ∧
      (c = true → r ≠ none)) := by
  unfold newWithCsr
  refine Tri.bind newHandle_tri ?_
  intro r hr
  rcases r with _ | h
  · exact Tri.pure rfl ⟨by simp, fun h => absurd rfl (hr.2 h)⟩
  · obtain ⟨a, rfl⟩ := hr.1 h rfl
    refine Tri.seq (newCsr_tri full) (G := {a}) (by simp [handleOwn?, own_empty]) ?_
    intro q hq
    rcases q with _ | o
    · refine Tri.bind ((destroy_tri HOk.empty).conseq (by simp [own_empty, objOwn?]) (fun _ h => ⟨rfl, h⟩)) ?_
      intro _ _
      exact Tri.pure rfl ⟨by simp, fun h => absurd rfl (hq.2 h)⟩
    · refine Tri.seq vec_tri (G := {a} + objOwn o) (by simp [objOwn?, add_comm]) ?_
      intro b hb
      cases b with
      | true =>
        refine Tri.pure (by simp [handleOwn?, own_one]) ⟨?_, by simp⟩
        intro h e
        cases e
        exact ⟨a, o, rfl, hq.1 o rfl⟩
      | false =>
        refine Tri.seq (delObj_tri (hq.1 o rfl).1.ok) (G := {a}) (by abel) ?_
        intro _ _
        refine Tri.bind ((destroy_tri HOk.empty).conseq (by simp [own_empty]) (fun _ h => ⟨rfl, h⟩)) ?_
        intro _ _
        exact Tri.pure rfl ⟨by simp, fun h => by cases hb h⟩

theorem convertCsr_tri {st st2 : Status} {src : Handle} (hr : ∀ o, src.first = some o → Rd W o) :
    Tri (V := V) c W 0 (convertCsr st st2 src) (fun r => handleOwn? r.2)
      (fun r => OutOk r ∧ (r.1 ≠ .success → r.2 = none)) := by
  unfold convertCsr
  cases hf : src.first with
  | none => exact Tri.pure rfl ⟨outNone, fun _ => rfl⟩
  | some o =>
    refine Tri.ite (fun _ => Tri.pure rfl ⟨outNone, fun _ => rfl⟩) (fun _ => ?_)
    refine Tri.bind newWithCsr_tri ?_
    intro r hr'
    rcases r with _ | h
    · exact Tri.pure rfl ⟨outNone, fun _ => rfl⟩
    · obtain ⟨a, d, rfl, hd, _⟩ := hr'.1 h rfl
      refine Tri.bind (hr o hf).touch ?_
      intro _ _
      refine Tri.ite (fun _ => ?_) (fun _ => Tri.pure rfl ⟨outOne hd, fun h => absurd rfl h⟩)
      refine Tri.bind (destroy_tri (HOk.one hd.ok (fun _ _ => ⟨hd.idiag, hd.iurow⟩))) ?_
      intro _ _
      exact Tri.pure rfl ⟨outNone, fun _ => rfl⟩

theorem vecIf_tri {b : Bool} : Tri (V := V) c W 0 (vecIf b) (fun _ => 0) (fun _ => True) := by
  unfold vecIf
  exact Tri.ite (fun _ => vec_tri.conseq rfl (fun _ _ => ⟨rfl, trivial⟩)) (fun _ => Tri.pure rfl trivial)

theorem syrk_tri {st st2 : Status} {tr : Bool} {src : Handle} (hr : ∀ o, src.first = some o → Rd W o) :
    Tri (V := V) c W 0 (syrk st st2 tr src) (fun r => handleOwn? r.2) OutOk := by
  unfold syrk
  cases hf : src.first with
  | none => exact Tri.pure rfl outNone
  | some o =>
    refine Tri.ite (fun _ => Tri.pure rfl outNone) (fun _ => ?_)
    refine Tri.bind newWithCsr_tri ?_
    intro r hr'
    rcases r with _ | h
    · exact Tri.pure rfl outNone
    · obtain ⟨a, d, rfl, hd, _⟩ := hr'.1 h rfl
      refine Tri.bind (hr o hf).touch ?_
      intro _ _
      have hok := HOk.one (a := a) hd.ok (fun _ _ => ⟨hd.idiag, hd.iurow⟩)
      refine Tri.seq vecIf_tri (zero_add _).symm ?_
      intro b _
      refine Tri.ite (fun _ => (bailH hok).conseq (by simp [handleOwn?]) (fun _ h => ⟨rfl, h⟩)) (fun _ => ?_)
      refine Tri.ite (fun _ => (bailH hok).conseq (by simp [handleOwn?]) (fun _ h => ⟨rfl, h⟩)) (fun _ => ?_)
      exact Tri.pure (by simp) (outOne hd)

theorem syprOut_tri {st1 st2 : Status} {full : Bool} :
    Tri (V := V) c W 0 (syprOut st1 st2 full) (fun r => handleOwn? r.2) OutOk := by
  unfold syprOut
  refine Tri.bind newWithCsr_tri ?_
  intro r hr'
  rcases r with _ | h
  · exact Tri.pure rfl outNone
  · obtain ⟨a, d, rfl, hd, hn⟩ := hr'.1 h rfl
    refine Tri.ite (fun _ => bailH (HOk.one hd.ok (fun _ _ => ⟨hd.idiag, hd.iurow⟩))) (fun _ => ?_)
    refine Tri.seq (tryNew_tri 2) (G := {a} + objOwn d) (by simp [handleOwn?, own_one]) ?_
    intro q hq
    obtain ⟨f1, f2⟩ := hd.withArrs (hn rfl) hq.1 hq.2.1
    simp only [withIndVal]
    have hok := HOk.one (a := a) f1.ok (fun _ _ => ⟨f1.idiag, f1.iurow⟩)
    have e : hps q.2 + ({a} + objOwn d) = handleOwn { self := a, mats := [some
        { d with arrs := [d.arrs.getD 0 none, q.2.getD 0 none, q.2.getD 1 none] }] } := by
      rw [own_one, f2]; abel
    refine Tri.ite (fun _ => (bailH hok).conseq e.symm (fun _ h => ⟨rfl, h⟩)) (fun _ => ?_)
    refine Tri.ite (fun _ => (bailH hok).conseq e.symm (fun _ h => ⟨rfl, h⟩)) (fun _ => ?_)
    exact Tri.pure e (outOne f1)

theorem bailO {st : Status} {o : Obj} (ho : ObjOk o) {P : Status × Option Obj → Prop} (hP : P (st, none)) :
    Tri (V := V) c W (objOwn o) (do delObj o; pure (st, none)) (fun r => objOwn? r.2) P := by
  refine Tri.bind (delObj_tri ho) ?_
  intro _ _
  exact Tri.pure rfl hP

/-- the outcome of making an object of the kind csr -/
def NewOk (r : Status × Option Obj) : Prop := ∀ o, r.2 = some o → Fresh .csr 3 o

theorem newNone {st : Status} : NewOk (st, none) := by intro o e; cases e
theorem newSome {st : Status} {o : Obj} (h : Fresh .csr 3 o) : NewOk (st, some o) := by
  intro p e; cases e; exact h

theorem addCsr_tri {how : Option Bool} {stc st2 : Status} :
    Tri (V := V) c W 0 (addCsr how stc st2) (fun r => objOwn? r.2) NewOk := by
  unfold addCsr
  rcases how with _ | _ | _
  · refine Tri.bind (newCsr_tri true) ?_
    intro r hr
    rcases r with _ | o
    · exact Tri.pure rfl newNone
    · exact Tri.pure rfl (newSome (hr.1 o rfl).1)
  · refine Tri.bind (newCsr_tri true) ?_
    intro r hr
    rcases r with _ | o
    · exact Tri.pure rfl newNone
    · have ho := (hr.1 o rfl).1
      refine Tri.ite (fun _ => bailO ho.ok newNone) (fun _ => Tri.pure rfl (newSome ho))
  · refine Tri.bind (newCsr_tri false) ?_
    intro r hr
    rcases r with _ | o
    · exact Tri.pure rfl newNone
    · have ho := (hr.1 o rfl).1
      refine Tri.ite (fun _ => bailO ho.ok newNone) (fun _ => ?_)
      refine Tri.seq (tryNew_tri 2) (G := objOwn o) (by simp [objOwn?]) ?_
      intro q hq
      obtain ⟨f1, f2⟩ := ho.withArrs ((hr.1 o rfl).2 rfl) hq.1 hq.2.1
      dsimp only
      refine Tri.ite (fun _ => (bailO f1.ok newNone).conseq f2 (fun _ h => ⟨rfl, h⟩)) (fun _ => ?_)
      refine Tri.ite (fun _ => (bailO f1.ok newNone).conseq f2 (fun _ h => ⟨rfl, h⟩)) (fun _ => ?_)
      exact Tri.pure f2.symm (newSome f1)

theorem addOut_tri {o : Obj} (ho : Fresh .csr 3 o) :
    Tri (V := V) c W (objOwn o) (addOut none o) (fun r => handleOwn? r.2) OutOk := by
  unfold addOut
  refine Tri.seq newHandle_tri (G := objOwn o) (by abel) ?_
  intro r hr
  rcases r with _ | h
  · refine Tri.seq (delObj_tri ho.ok) (G := 0) (by simp [handleOwn?]) ?_
    intro _ _
    refine Tri.seq (delete_tri NU.none) (G := 0) rfl ?_
    intro _ _
    exact Tri.pure rfl outNone
  · obtain ⟨a, rfl⟩ := hr.1 h rfl
    refine Tri.seq vec_tri (G := {a} + objOwn o) (by simp [handleOwn?, own_empty]) ?_
    intro b _
    refine Tri.ite (fun _ => Tri.pure (by simp [handleOwn?, own_one]) (outOne ho)) (fun _ => ?_)
    refine Tri.seq (delObj_tri ho.ok) (G := {a}) (by abel) ?_
    intro _ _
    refine Tri.seq free_tri (G := 0) (by abel) ?_
    intro _ _
    exact Tri.pure rfl outNone

theorem add_tri {st : Status} {how : Option Bool} {stc st2 : Status} {a b : Handle}
    (ha : ∀ o, a.first = some o → Rd W o) (hb : ∀ o, b.first = some o → Rd W o) :
    Tri (V := V) c W 0 (add st how stc st2 none a b) (fun r => handleOwn? r.2) OutOk := by
  unfold add
  split
  · rename_i oa ob e1 e2
    refine Tri.ite (fun _ => Tri.pure rfl outNone) (fun _ => ?_)
    refine Tri.bind (ha oa e1).touch ?_
    intro _ _
    refine Tri.bind (hb ob e2).touch ?_
    intro _ _
    refine Tri.bind addCsr_tri ?_
    intro r hr
    rcases r with ⟨st, _ | o⟩
    · exact Tri.pure rfl outNone
    · exact addOut_tri (hr o rfl)
  · exact Tri.pure rfl outNone

theorem makeTransposed_tri {st : Status} {src : Obj} (hr : Rd W src) :
    Tri (V := V) c W 0 (makeTransposed st src) (fun r => objOwn? r.2)
      (fun r => NewOk r ∧ (r.1 ≠ .success → r.2 = none)) := by
  unfold makeTransposed
  refine Tri.bind (newCsr_tri true) ?_
  intro r hr'
  rcases r with _ | o
  · exact Tri.pure rfl ⟨newNone, fun _ => rfl⟩
  · have ho := (hr'.1 o rfl).1
    refine Tri.bind hr.touch ?_
    intro _ _
    exact Tri.ite (fun _ => bailO ho.ok ⟨newNone, fun _ => rfl⟩)
      (fun _ => Tri.pure rfl ⟨newSome ho, fun h => absurd rfl h⟩)

theorem operand_tri {t : Bool} {st : Status} {src : Obj} (hr : Rd W src) :
    Tri (V := V) c W 0 (operand t st src) (fun r => objOwn? r.2)
      (fun r => NewOk r ∧ (r.1 ≠ .success → r.2 = none)) := by
  unfold operand
  exact Tri.ite (fun _ => makeTransposed_tri hr) (fun _ => Tri.pure rfl ⟨newNone, fun _ => rfl⟩)

theorem sp2mSecond_tri {a : Nat} {o : Obj} (ho : Fresh .csr 3 o) :
    Tri (V := V) c W (handleOwn { self := a, mats := [some o] }) (sp2mSecond { self := a, mats := [some o] })
      (fun r => handleOwn? r.2) OutOk := by
  have hok := HOk.one (a := a) ho.ok (fun _ _ => ⟨ho.idiag, ho.iurow⟩)
  unfold sp2mSecond
  refine Tri.seq (newCsr_tri true) (zero_add _).symm ?_
  intro r hr
  rcases r with _ | q
  · exact (bailH hok).conseq (by simp [objOwn?]) (fun _ h => ⟨rfl, h⟩)
  · have hq := (hr.1 q rfl).1
    refine Tri.seq vec_tri (zero_add _).symm ?_
    intro b _
    refine Tri.ite (fun _ => ?_) (fun _ => ?_)
    · refine Tri.pure ?_ ?_
      · simp only [handleOwn?, objOwn?, zero_add]
        exact (own_push (h := { self := a, mats := [some o] })).symm
      · intro h e
        cases e
        exact hok.push ⟨o, [], rfl, ho.kind⟩ hq.ok
    · exact (bailOH hok hq.ok).conseq (by simp [objOwn?]) (fun _ h => ⟨rfl, h⟩)

theorem sp2mAlloc_tri {both : Bool} {o : Obj} (ho : Fresh .csr 3 o)
    (hn : o.arrs.getD 1 none = none ∧ o.arrs.getD 2 none = none) :
    Tri (V := V) c W (objOwn o) (sp2mAlloc both o) (fun r => handleOwn? r.2) OutOk := by
  unfold sp2mAlloc
  refine Tri.seq newHandle_tri (zero_add _).symm ?_
  intro r hr
  rcases r with _ | h
  · refine Tri.seq (delObj_tri ho.ok) (G := 0) (by simp [handleOwn?]) ?_
    intro _ _
    exact Tri.pure rfl outNone
  · obtain ⟨a, rfl⟩ := hr.1 h rfl
    refine Tri.seq (tryNew_tri 2) (G := {a} + objOwn o) (by simp [handleOwn?, own_empty]) ?_
    intro q hq
    obtain ⟨f1, f2⟩ := ho.withArrs hn hq.1 hq.2.1
    dsimp only
    refine Tri.ite (fun _ => (bailOH HOk.empty f1.ok).conseq (by rw [f2, own_empty]; abel)
      (fun _ h => ⟨rfl, h⟩)) (fun _ => ?_)
    refine Tri.seq vec_tri (zero_add _).symm ?_
    intro b _
    refine Tri.ite (fun _ => (bailOH HOk.empty f1.ok).conseq (by rw [f2, own_empty]; abel)
      (fun _ h => ⟨rfl, h⟩)) (fun _ => ?_)
    have e : 0 + (hps q.2 + ({a} + objOwn o)) = handleOwn { self := a, mats := [some
        { o with arrs := [o.arrs.getD 0 none, q.2.getD 0 none, q.2.getD 1 none] }] } := by
      rw [own_one, f2]; abel
    refine Tri.ite (fun _ => (sp2mSecond_tri f1).conseq e.symm (fun _ h => ⟨rfl, h⟩)) (fun _ => ?_)
    exact Tri.pure e (outOne f1)

theorem sp2mCount_tri {st1 : Status} {ovf both : Bool} :
    Tri (V := V) c W 0 (sp2mCount st1 ovf both) (fun r => handleOwn? r.2) OutOk := by
  unfold sp2mCount
  refine Tri.bind (newCsr_tri false) ?_
  intro r hr
  rcases r with _ | o
  · exact Tri.pure rfl outNone
  · have ho := (hr.1 o rfl).1
    have bail : ∀ st : Status, Tri (V := V) c W (objOwn o) (do delObj o; pure (st, none))
        (fun r => handleOwn? r.2) OutOk := by
      intro st
      refine Tri.bind (delObj_tri ho.ok) ?_
      intro _ _
      exact Tri.pure rfl outNone
    refine Tri.ite (fun _ => bail _) (fun _ => ?_)
    refine Tri.ite (fun _ => bail _) (fun _ => sp2mAlloc_tri ho ((hr.1 o rfl).2 rfl))

theorem sp2mDispatch_tri {st1 st2 : Status} {ovf both full : Bool} :
    Tri (V := V) c W 0 (sp2mDispatch st1 st2 ovf both full) (fun r => handleOwn? r.2) OutOk := by
  unfold sp2mDispatch
  refine Tri.bind sp2mCount_tri ?_
  intro r hr
  rcases r with ⟨st, _ | h⟩
  · exact Tri.pure rfl outNone
  · have : ∀ st : Status, OutOk (st, some h) := by intro st q e; cases e; exact hr h rfl
    exact Tri.ite (fun _ => Tri.pure rfl (this _)) (fun _ => Tri.pure rfl (this _))

theorem dropOperand_tri {r : Status × Option Obj} (hr : NewOk r) :
    Tri (V := V) c W (objOwn? r.2) (dropOperand r.2) (fun _ => 0) (fun _ => True) := by
  unfold dropOperand
  rcases r with ⟨st, _ | o⟩
  · exact Tri.pure rfl trivial
  · exact delObj_tri (hr o rfl).ok

theorem sp2mRun_tri {stA stB st1 st2 : Status} {tA tB ovf full : Bool} {a b : Obj} (ha : Rd W a)
    (hb : Rd W b) :
    Tri (V := V) c W 0 (sp2mRun stA stB st1 st2 tA tB ovf full a b) (fun r => handleOwn? r.2) OutOk := by
  unfold sp2mRun
  refine Tri.bind (operand_tri ha) ?_
  intro ra hra
  refine Tri.ite (fun h => Tri.pure (by rw [hra.2 h]; rfl) outNone) (fun _ => ?_)
  refine Tri.seq (operand_tri hb) (zero_add _).symm ?_
  intro rb hrb
  refine Tri.ite (fun h => ?_) (fun _ => ?_)
  · refine Tri.seq (dropOperand_tri hra.1) (G := 0) (by rw [hrb.2 h]; simp [objOwn?]) ?_
    intro _ _
    exact Tri.pure rfl outNone
  · refine Tri.bind ha.touch ?_
    intro _ _
    refine Tri.bind hb.touch ?_
    intro _ _
    refine Tri.seq sp2mDispatch_tri (zero_add _).symm ?_
    intro r hr
    refine Tri.seq (dropOperand_tri hra.1) (G := objOwn? rb.2 + handleOwn? r.2) (by abel) ?_
    intro _ _
    refine Tri.seq (dropOperand_tri hrb.1) (G := handleOwn? r.2) (by abel) ?_
    intro _ _
    exact Tri.pure (by abel) hr

theorem sp2m_tri {st stA stB st1 st2 : Status} {em tA tB ovf full : Bool} {a b : Handle}
    (ha : ∀ o, a.first = some o → Rd W o) (hb : ∀ o, b.first = some o → Rd W o) :
    Tri (V := V) c W 0 (sp2m st stA stB st1 st2 em tA tB ovf full a b) (fun r => handleOwn? r.2)
      OutOk := by
  unfold sp2m
  split
  · rename_i oa ob e1 e2
    refine Tri.ite (fun _ => Tri.pure rfl outNone) (fun _ => ?_)
    refine Tri.ite (fun _ => ?_) (fun _ => sp2mRun_tri (ha oa e1) (hb ob e2))
    refine Tri.bind newWithCsr_tri ?_
    intro r hr
    rcases r with _ | h
    · exact Tri.pure rfl outNone
    · obtain ⟨x, d, rfl, hd, _⟩ := hr.1 h rfl
      exact Tri.pure rfl (outOne hd)
  · exact Tri.pure rfl outNone

theorem sp2md_tri {st stB : Status} {temp : Bool} {b : Handle}
    (hb : ∀ o, b.first = some o → Rd W o) :
    Tri (V := V) c W 0 (sp2md st stB temp b) (fun _ => 0) (fun _ => True) := by
  unfold sp2md
  cases hf : b.first with
  | none => exact Tri.pure rfl trivial
  | some o =>
    refine Tri.ite (fun _ => Tri.pure rfl trivial) (fun _ => ?_)
    refine Tri.ite (fun _ => ?_) (fun _ => ?_)
    · refine Tri.bind (makeTransposed_tri (hb o hf)) ?_
      intro r hr
      refine Tri.ite (fun h => Tri.pure (by rw [hr.2 h]; rfl) trivial) (fun _ => ?_)
      refine Tri.bind (dropOperand_tri hr.1) ?_
      intro _ _
      exact Tri.pure rfl trivial
    · refine Tri.bind (hb o hf).touch ?_
      intro _ _
      exact Tri.pure rfl trivial

/-! ### convert_bsr, when no allocation fails -/

theorem bsrOut_tri (hct : c = true) {arrs : List (Option Ptr)} (hn : ∀ p ∈ arrs, NU p) :
    Tri (V := V) c W (hps arrs) (bsrOut arrs) (fun r => handleOwn? r.2) OutOk := by
  unfold bsrOut
  refine Tri.seq newHandle_tri (zero_add _).symm ?_
  intro r hr
  rcases r with _ | h
  · exact absurd rfl (hr.2 hct)
  · obtain ⟨a, rfl⟩ := hr.1 h rfl
    refine Tri.seq new_tri (G := {a} + hps arrs) (by simp [handleOwn?, own_empty]) ?_
    intro q hq
    rcases q with _ | b
    · exact absurd rfl (hq hct)
    · dsimp only
      refine Tri.seq vec_tri (zero_add _).symm ?_
      intro v hv
      have hv := hv hct
      subst hv
      refine Tri.pure ?_ ?_
      · simp only [handleOwn?, own_one, addr]
        rw [objOwn_mk _ rfl]
        simp only [hp_none]; abel
      · intro h e
        cases e
        refine HOk.one ⟨fun _ => hn, fun h => Bool.noConfusion h, NU.none, NU.none, NU.none⟩ (fun _ _ => ⟨rfl, rfl⟩)

theorem bsrArrays_tri (hct : c = true) {st1 st2 : Status} {src : Obj}
    (hs : ∀ a, some (.heap a) ∈ src.arrs → a ∈ L ∨ W.r a) :
    Tri (V := V) c W L (bsrArrays st1 st2 src) (fun r => hps r.2 + L)
      (fun r => (∀ p ∈ r.2, NU p) ∧ (r.1 ≠ .success → r.2 = [])) := by
  unfold bsrArrays
  refine Tri.seq (tryNew_tri 1) (zero_add _).symm ?_
  intro r hr
  have fail : ∀ (st : Status) (ps : List (Option Ptr)), (∀ p ∈ ps, NU p) →
      Tri (V := V) c W (hps ps + L) (do deleteAll ps; pure (st, [])) (fun r => hps r.2 + L)
      (fun r => (∀ p ∈ r.2, NU p) ∧ (r.1 ≠ .success → r.2 = [])) := by
    intro st ps hps'
    refine Tri.seq (deleteAll_tri hps') rfl ?_
    intro _ _
    exact Tri.pure (by simp) ⟨by simp, fun _ => rfl⟩
  refine Tri.ite (fun h => ?_) (fun _ => ?_)
  · rw [hr.2.2 hct] at h; cases h
  refine Tri.ite (fun _ => fail _ _ hr.2.1) (fun _ => ?_)
  refine Tri.seq (tryNew_tri 2) (zero_add _).symm ?_
  intro q hq
  have hnu : ∀ p ∈ r.2 ++ q.2, NU p := by
    intro p hp'
    rcases List.mem_append.mp hp' with h | h
    · exact hr.2.1 p h
    · exact hq.2.1 p h
  have e : hps q.2 + (hps r.2 + L) = hps (r.2 ++ q.2) + L := by
    rw [hps_append]; abel
  refine Tri.ite (fun _ => (fail _ _ hnu).conseq e.symm (fun _ h => ⟨rfl, h⟩)) (fun _ => ?_)
  refine Tri.bind (touch_tri (fun a ha => (hs a ha).imp (fun h => ?_) id)) ?_
  · exact Multiset.mem_add.mpr (.inr (Multiset.mem_add.mpr (.inr h)))
  intro _ _
  refine Tri.ite (fun _ => (fail _ _ hnu).conseq e.symm (fun _ h => ⟨rfl, h⟩)) (fun _ => ?_)
  exact Tri.pure e ⟨hnu, fun h => absurd rfl h⟩

theorem convertIf_tri {tr : Bool} {st : Status} {src : Handle} (hr : ∀ o, src.first = some o → Rd W o) :
    Tri (V := V) c W 0 (convertIf tr st src) (fun r => handleOwn? r.2)
      (fun r => OutOk r ∧ (r.1 ≠ .success → r.2 = none)) := by
  unfold convertIf
  exact Tri.ite (fun _ => convertCsr_tri hr) (fun _ => Tri.pure rfl ⟨outNone, fun _ => rfl⟩)

theorem dropHandle_tri {r : Status × Option Handle} (hr : OutOk r) :
    Tri (V := V) c W (handleOwn? r.2) (dropHandle r.2) (fun _ => 0) (fun _ => True) := by
  unfold dropHandle
  rcases r with ⟨st, _ | h⟩
  · exact Tri.pure rfl trivial
  · exact destroy_tri (hr h rfl)

theorem convertBsr_tri (hct : c = true) {st stt st1 st2 : Status} {tr : Bool} {src : Handle}
    (hr : ∀ o, src.first = some o → Rd W o) :
    Tri (V := V) c W 0 (convertBsr st stt st1 st2 tr src) (fun r => handleOwn? r.2) OutOk := by
  unfold convertBsr
  cases hf : src.first with
  | none => exact Tri.pure rfl outNone
  | some o =>
    refine Tri.ite (fun _ => Tri.pure rfl outNone) (fun _ => ?_)
    refine Tri.bind new_tri ?_
    intro d hd
    rcases d with _ | d
    · exact absurd rfl (hd hct)
    · refine Tri.seq (convertIf_tri hr) (zero_add _).symm ?_
      intro t ht
      refine Tri.ite (fun h => ?_) (fun _ => ?_)
      · refine Tri.seq free_tri (G := 0) (by rw [ht.2 h]; simp [handleOwn?, addr]) ?_
        intro _ _
        exact Tri.pure rfl outNone
      · refine Tri.bind (bsrArrays_tri hct ?_) ?_
        · intro a ha
          rcases t with ⟨st', _ | h⟩
          · exact .inr (hr o hf a ha)
          · unfold bsrSource at ha
            dsimp only at ha
            cases hh : h.first with
            | none => rw [hh] at ha; exact .inr (hr o hf a ha)
            | some q =>
              rw [hh] at ha
              exact .inl (Multiset.mem_add.mpr (.inl ((ht.1 h rfl).readable (first_mem hh) a ha)))
        · intro r hr'
          refine Tri.seq (dropHandle_tri ht.1) (G := hps r.2 + {d}) (by simp only [addr]; abel) ?_
          intro _ _
          refine Tri.ite (fun h => ?_) (fun _ => ?_)
          · refine Tri.seq free_tri (G := 0) (by rw [hr'.2 h]; simp) ?_
            intro _ _
            exact Tri.pure rfl outNone
          · refine Tri.seq (bsrOut_tri hct hr'.1) (G := {d}) (by abel) ?_
            intro q hq
            refine Tri.seq free_tri (G := handleOwn? q.2) (by abel) ?_
            intro _ _
            exact Tri.pure (by abel) hq

/-! ### Iterative solvers -/

/-- the working arrays are the library's -/
def WorkOk (w : Option Work) : Prop := ∀ x, w = some x → ∀ p ∈ x.arrs, NU p

structure SolverOk (h : Solver) : Prop where
  b : NU h.b
  cg : WorkOk h.cg
  gmres : WorkOk h.gmres

theorem freeWork_tri {w : Option Work} (h : WorkOk w) :
    Tri (V := V) c W (workOwn? w) (freeWork w) (fun _ => 0) (fun _ => True) := by
  unfold freeWork
  rcases w with _ | w
  · exact Tri.pure rfl trivial
  · refine Tri.seq (deleteAll_tri (h w rfl)) (G := {w.self}) (by simp only [workOwn?]; abel) ?_
    intro _ _
    exact free_tri.conseq (by abel) (fun _ _ => ⟨rfl, trivial⟩)

theorem workNone : WorkOk none := by intro x h; cases h
theorem workSome {a : Nat} {ps : List (Option Ptr)} (h : ∀ p ∈ ps, NU p) : WorkOk (some ⟨a, ps⟩) := by
  intro x e; cases e; exact h

theorem hps_replicate (k : Nat) : hps (List.replicate k none) = 0 := by
  induction k with
  | zero => rfl
  | succ k ih => rw [List.replicate_succ, hps_cons, ih]; rfl

theorem newWork_tri {k : Nat} {ok : Bool} : Tri (V := V) c W 0 (newWork k ok) (fun r => workOwn? r.2)
    (fun r => WorkOk r.2 ∧ (r.1 ≠ .success → r.2 = none)) := by
  have bail : ∀ (st : Status) (x : Work), WorkOk (some x) → Tri (V := V) c W (workOwn? (some x))
      (do freeWork (some x); pure (st, none)) (fun r => workOwn? r.2)
      (fun r => WorkOk r.2 ∧ (r.1 ≠ .success → r.2 = none)) := by
    intro st x hx
    refine Tri.bind (freeWork_tri hx) ?_
    intro _ _
    exact Tri.pure rfl ⟨workNone, fun _ => rfl⟩
  unfold newWork
  refine Tri.bind new_tri ?_
  intro r _
  rcases r with _ | a
  · exact Tri.pure rfl ⟨workNone, fun _ => rfl⟩
  · refine Tri.ite (fun _ => ?_) (fun _ => ?_)
    · refine (bail _ _ (workSome ?_)).conseq (by simp [workOwn?, hps_replicate, addr]) (fun _ h => ⟨rfl, h⟩)
      intro p hp'
      rw [List.eq_of_mem_replicate hp']
      exact NU.none
    · refine Tri.seq (tryNew_tri k) (zero_add _).symm ?_
      intro q hq
      refine Tri.ite (fun _ => Tri.pure (by simp [workOwn?, addr, add_comm]) ⟨workSome hq.2.1, fun h => absurd rfl h⟩)
        (fun _ => ?_)
      exact (bail _ _ (workSome hq.2.1)).conseq (by simp [workOwn?, addr, add_comm]) (fun _ h => ⟨rfl, h⟩)

theorem clearSolver_tri {h : Solver} (hh : SolverOk h) :
    Tri (V := V) c W (solverOwn h) (clearSolver h) (fun _ => {h.self} + {h.data})
      (fun r => r = { h with b := none, cg := none, gmres := none }) := by
  unfold clearSolver
  refine Tri.seq (delete_tri hh.b) (G := {h.self} + {h.data} + workOwn? h.cg + workOwn? h.gmres)
    (by simp only [solverOwn, hps_cons, hps_nil]; abel) ?_
  intro _ _
  refine Tri.seq (freeWork_tri hh.cg) (G := {h.self} + {h.data} + workOwn? h.gmres) (by abel) ?_
  intro _ _
  refine Tri.seq (freeWork_tri hh.gmres) (G := {h.self} + {h.data}) (by abel) ?_
  intro _ _
  exact Tri.pure (by abel) rfl

theorem destroySolver_tri {h : Solver} (hh : SolverOk h) :
    Tri (V := V) c W (solverOwn h) (destroySolver h) (fun _ => 0) (fun _ => True) := by
  unfold destroySolver
  refine Tri.bind (clearSolver_tri hh) ?_
  intro r hr
  subst hr
  refine Tri.seq free_tri (G := {h.self}) (add_comm _ _) ?_
  intro _ _
  exact free_tri.conseq (by abel) (fun _ _ => ⟨rfl, trivial⟩)

theorem SolverOk.empty {a d : Nat} : SolverOk { self := a, data := d } :=
  ⟨NU.none, workNone, workNone⟩

theorem initSolver_tri {opts : Bool} : Tri (V := V) c W 0 (initSolver opts) (fun r => solverOwn? r.2)
    (fun r => ∀ h, r.2 = some h → SolverOk h) := by
  unfold initSolver
  refine Tri.bind new_tri ?_
  intro r _
  rcases r with _ | a
  · exact Tri.pure rfl (by intro h e; cases e)
  · refine Tri.seq new_tri (zero_add _).symm ?_
    intro q _
    rcases q with _ | d
    · refine Tri.seq free_tri (G := 0) (by simp [addr]) ?_
      intro _ _
      exact Tri.pure rfl (by intro h e; cases e)
    · refine Tri.ite (fun _ => ?_) (fun _ => ?_)
      · refine Tri.pure (by simp [addr, solverOwn?, solverOwn, workOwn?, hps_cons, hps_nil, add_comm]) ?_
        intro h e
        cases e
        exact SolverOk.empty
      · refine Tri.seq free_tri (G := {a}) rfl ?_
        intro _ _
        refine Tri.seq free_tri (G := 0) (by simp) ?_
        intro _ _
        exact Tri.pure rfl (by intro h e; cases e)

theorem rciInput_tri {st : Status} {h : Solver} (hh : SolverOk h) :
    Tri (V := V) c W (solverOwn h) (rciInput st h) (fun r => solverOwn r.2) (fun r => SolverOk r.2) := by
  unfold rciInput
  refine Tri.ite (fun _ => Tri.pure rfl hh) (fun _ => ?_)
  refine Tri.bind (clearSolver_tri hh) ?_
  intro r hr
  subst hr
  refine Tri.seq new_tri (zero_add _).symm ?_
  intro q _
  rcases q with _ | a
  · exact Tri.pure (by simp [addr, solverOwn, workOwn?, hps_cons, hps_nil]) ⟨NU.none, workNone, workNone⟩
  · exact Tri.pure (by simp [addr, solverOwn, workOwn?, hps_cons, hps_nil, hp, add_comm])
      ⟨NU.heap, workNone, workNone⟩

theorem solverInit_tri {cg ok : Bool} {st : Status} {h : Solver} (hh : SolverOk h) :
    Tri (V := V) c W (solverOwn h) (solverInit cg ok st h) (fun r => solverOwn r.2)
      (fun r => SolverOk r.2) := by
  unfold solverInit
  refine Tri.ite (fun _ => ?_) (fun _ => ?_)
  · cases hc : h.cg with
    | some _ => exact Tri.pure rfl hh
    | none =>
      refine Tri.seq newWork_tri (zero_add _).symm ?_
      intro r hr
      refine Tri.ite (fun h' => Tri.pure (by rw [hr.2 h']; simp [workOwn?]) hh) (fun _ => ?_)
      refine Tri.pure ?_ ⟨hh.b, hr.1, hh.gmres⟩
      simp only [solverOwn, hc]
      simp only [workOwn?]; abel
  · cases hc : h.gmres with
    | some _ => exact Tri.pure rfl hh
    | none =>
      refine Tri.seq newWork_tri (zero_add _).symm ?_
      intro r hr
      refine Tri.ite (fun h' => Tri.pure (by rw [hr.2 h']; simp [workOwn?]) hh) (fun _ => ?_)
      refine Tri.pure ?_ ⟨hh.b, hh.cg, hr.1⟩
      simp only [solverOwn, hc]
      simp only [workOwn?]; abel

end Own
end Proofs
end Verif
