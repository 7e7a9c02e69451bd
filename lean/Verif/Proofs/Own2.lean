/-
Ownership: every call on one handle keeps the accounts.
-/
import Verif.Proofs.Own

namespace Verif
namespace Proofs
namespace Own
open Model.Own Spec.Own

variable {V α β : Type} {c : Bool} {W : Env} {L : Multiset Nat}

theorem mem_hps {ps : List (Option Ptr)} {a : Nat} (h : some (.heap a) ∈ ps) : a ∈ hps ps := by
  induction ps with
  | nil => cases h
  | cons p ps ih =>
    rw [hps_cons]
    rcases List.mem_cons.mp h with e | h
    · rw [← e]; exact Multiset.mem_add.mpr (.inl (Multiset.mem_singleton_self a))
    · exact Multiset.mem_add.mpr (.inr (ih h))

theorem mem_objOwn {o : Obj} (h : ObjOk o) {a : Nat} (ha : some (.heap a) ∈ o.arrs) : a ∈ objOwn o := by
  cases hi : o.internal with
  | false => exact absurd rfl (h.users hi _ ha a)
  | true =>
    simp only [objOwn, hi, if_true]
    exact Multiset.mem_add.mpr (.inl (Multiset.mem_add.mpr (.inr (mem_hps ha))))

theorem mem_matsOwn {ms : List (Option Obj)} {o : Obj} (h : some o ∈ ms) {a : Nat} (ha : a ∈ objOwn o) :
    a ∈ matsOwn ms := by
  induction ms with
  | nil => cases h
  | cons m ms ih =>
    rw [matsOwn_cons]
    rcases List.mem_cons.mp h with e | h
    · rw [← e]; exact Multiset.mem_add.mpr (.inl ha)
    · exact Multiset.mem_add.mpr (.inr (ih h))

theorem mem_handleOwn {h : Handle} {o : Obj} (hm : some o ∈ h.mats) {a : Nat} (ha : a ∈ objOwn o) :
    a ∈ handleOwn h := by
  rw [handleOwn_eq]
  exact Multiset.mem_add.mpr (.inr (mem_matsOwn hm ha))

theorem first_mem {h : Handle} {o : Obj} (hf : h.first = some o) : some o ∈ h.mats := by
  unfold Handle.first at hf
  cases hm : h.mats with
  | nil => rw [hm] at hf; cases hf
  | cons m ms =>
    rw [hm] at hf
    have : m = some o := by simpa using hf
    rw [this]; exact List.mem_cons_self

/-- the arrays of an object of the handle may be read -/
theorem HOk.readable {h : Handle} (hh : HOk h) {o : Obj} (hm : some o ∈ h.mats) :
    ∀ a, some (.heap a) ∈ o.arrs → a ∈ handleOwn h :=
  fun _ ha => mem_handleOwn hm (mem_objOwn (hh.objs o hm) ha)

theorem touch_h {h : Handle} (hh : HOk h) {o : Obj} (hm : some o ∈ h.mats) {G : Multiset Nat} :
    Tri (V := V) c W (handleOwn h + G) (touch o.arrs) (fun _ => handleOwn h + G) (fun _ => True) :=
  touch_tri (fun a ha => .inl (Multiset.mem_add.mpr (.inl (hh.readable hm a ha))))

/-! ### Creation -/

theorem newHandle_tri : Tri (V := V) c W 0 newHandle handleOwn?
    (fun r => (∀ h, r = some h → ∃ a, h = { self := a }) ∧ (c = true → r ≠ none)) := by
  unfold newHandle
  refine Tri.bind new_tri ?_
  intro r hr
  rcases r with _ | a
  · exact Tri.pure rfl ⟨by simp, fun h => absurd rfl (hr h)⟩
  · refine Tri.pure ?_ ⟨fun h e => ⟨a, (Option.some.inj e).symm⟩, by simp⟩
    simp [addr, handleOwn?, handleOwn_eq]

theorem HOk.one {a : Nat} {o : Obj} (ho : ObjOk o)
    (hi : o.kind = .csr → o.opt = false → o.idiag = none ∧ o.iurow = none) :
    HOk { self := a, mats := [some o] } := by
  refine ⟨?_, .inr ⟨o, [], rfl, ?_, hi⟩, fun _ => ⟨rfl, rfl⟩, NU.none, NU.none⟩
  · intro p hp'
    cases List.mem_singleton.mp hp'
    exact ho
  · by_cases hk : o.kind = .csr
    · exact .inl hk
    · refine .inr ?_
      intro p hp'
      cases List.mem_singleton.mp hp'
      exact hk

theorem HOk.empty {a : Nat} : HOk { self := a } :=
  ⟨by simp, .inl rfl, fun _ => ⟨rfl, rfl⟩, NU.none, NU.none⟩

theorem own_one {a : Nat} {o : Obj} : handleOwn { self := a, mats := [some o] } = {a} + objOwn o := by
  simp [handleOwn_eq, objOwn?]

theorem own_empty {a : Nat} : handleOwn { self := a } = {a} := by
  simp [handleOwn_eq]

/-- the outcome of a call that makes a handle -/
def OutOk (r : Status × Option Handle) : Prop := ∀ h, r.2 = some h → HOk h

theorem createWith_tri {st : Status} {mk : OM V (Option Obj)}
    (hmk : Tri c W 0 mk objOwn? (fun r => ∀ o, r = some o → ObjOk o ∧
      (o.kind = .csr → o.opt = false → o.idiag = none ∧ o.iurow = none))) :
    Tri c W 0 (createWith st mk) (fun r => handleOwn? r.2) OutOk := by
  unfold createWith
  refine Tri.ite (fun _ => Tri.pure rfl (by intro h e; cases e)) (fun _ => ?_)
  refine Tri.bind newHandle_tri ?_
  intro r hr
  rcases r with _ | h
  · exact Tri.pure rfl (by intro h e; cases e)
  · obtain ⟨a, rfl⟩ := hr.1 h rfl
    refine Tri.seq hmk (G := {a}) (by simp [handleOwn?, own_empty]) ?_
    intro q hq
    rcases q with _ | o
    · refine Tri.seq free_tri (G := 0) (by simp [objOwn?]) ?_
      intro _ _
      exact Tri.pure (by simp [handleOwn?]) (by intro h e; cases e)
    · refine Tri.seq vec_tri (G := {a} + objOwn o) (by simp [objOwn?, add_comm]) ?_
      intro b _
      refine Tri.ite (fun _ => ?_) (fun _ => ?_)
      · refine Tri.pure (by simp [handleOwn?, own_one]) ?_
        intro h e
        cases e
        exact HOk.one (hq o rfl).1 (hq o rfl).2
      · refine Tri.seq (delObj_tri (hq o rfl).1) (G := {a}) (by abel) ?_
        intro _ _
        refine Tri.seq free_tri (G := 0) (by abel) ?_
        intro _ _
        exact Tri.pure (by simp [handleOwn?]) (by intro h e; cases e)

theorem create_tri (st : Status) (kind : Kind) (us : List Nat) :
    Tri (V := V) c W 0 (create st kind us) (fun r => handleOwn? r.2) OutOk := by
  unfold create
  by_cases hk : kind = .tcsr
  · rw [if_pos hk]
    exact createWith_tri ((newTcsr_tri us).conseq rfl (fun r h => ⟨rfl, fun o ho =>
      ⟨(h o ho).1, fun hc => by rw [(h o ho).2.1] at hc; cases hc⟩⟩))
  · rw [if_neg hk]
    exact createWith_tri ((newUser_tri kind us).conseq rfl (fun r h => ⟨rfl, fun o ho =>
      ⟨(h o ho).1, fun _ _ => (h o ho).2.2.2.2.2⟩⟩))

/-! ### Calls that change a handle -/

/-- the first object is of the kind csr -/
def HasCsr (h : Handle) : Prop := ∃ o ms, h.mats = some o :: ms ∧ o.kind = .csr

theorem HasCsr.of_first {h : Handle} {o : Obj} (hf : h.first = some o) (hk : o.kind = .csr) : HasCsr h := by
  unfold Handle.first at hf
  cases hm : h.mats with
  | nil => rw [hm] at hf; cases hf
  | cons m ms =>
    rw [hm] at hf
    have : m = some o := by simpa using hf
    exact ⟨o, ms, by rw [hm, this], hk⟩

/-- the first object keeps its arrays -/
def Same (h h' : Handle) : Prop :=
  h'.first.map (fun o => (o.internal, o.arrs)) = h.first.map (fun o => (o.internal, o.arrs))

/-- well formed, with the same first object -/
def Kp (h h' : Handle) : Prop := HOk h' ∧ Same h h'

theorem HOk.kp {h : Handle} (hh : HOk h) : Kp h h := ⟨hh, rfl⟩

theorem Same.push {h : Handle} (hc : HasCsr h) {o : Obj} : Same h { h with mats := h.mats ++ [some o] } := by
  obtain ⟨o0, ms, e, _⟩ := hc
  simp [Same, Handle.first, e]

theorem HOk.push {h : Handle} (hh : HOk h) (hc : HasCsr h) {o : Obj} (ho : ObjOk o) :
    HOk { h with mats := h.mats ++ [some o] } := by
  obtain ⟨o0, ms, e, hk⟩ := hc
  refine ⟨?_, .inr ⟨o0, ms ++ [some o], by simp [e], .inl hk, ?_⟩, hh.ilu, hh.iluNU⟩
  · intro p hp'
    rcases List.mem_append.mp hp' with h' | h'
    · exact hh.objs p h'
    · cases List.mem_singleton.mp h'; exact ho
  · rcases hh.shape with e' | ⟨o1, ms1, e1, _, hi⟩
    · rw [e'] at e; cases e
    · rw [e1] at e
      cases e
      exact hi

theorem own_push {h : Handle} {o : Obj} :
    handleOwn { h with mats := h.mats ++ [some o] } = objOwn o + handleOwn h := by
  simp only [handleOwn_eq, matsOwn_append, matsOwn_cons, matsOwn_nil, objOwn?]; abel

theorem push_tri {h : Handle} (hh : HOk h) (hc : HasCsr h) {o : Obj} (ho : ObjOk o) :
    Tri (V := V) c W (objOwn o + handleOwn h) (push o h) (fun r => handleOwn r.2) (fun r => Kp h r.2) := by
  unfold push
  refine Tri.seq vec_tri (G := objOwn o + handleOwn h) (by abel) ?_
  intro b _
  refine Tri.ite (fun _ => ?_) (fun _ => ?_)
  · exact Tri.pure (by rw [own_push]; abel) ⟨hh.push hc ho, Same.push hc⟩
  · refine Tri.seq (delObj_tri ho) (G := handleOwn h) (by abel) ?_
    intro _ _
    exact Tri.pure (by abel) hh.kp

theorem addHyb_tri {st : Status} {us : List Nat} {h : Handle} (hh : HOk h) :
    Tri (V := V) c W (handleOwn h) (addHyb st us h) (fun r => handleOwn r.2) (fun r => Kp h r.2) := by
  unfold addHyb
  refine Tri.ite (fun _ => Tri.pure rfl hh.kp) (fun _ => ?_)
  refine Tri.ite (fun _ => Tri.pure rfl hh.kp) (fun hk => ?_)
  have hc : HasCsr h := by
    cases hf : h.first with
    | none => rw [hf] at hk; simp at hk
    | some o =>
      rw [hf] at hk
      exact HasCsr.of_first hf (by simpa using hk)
  refine Tri.seq (newUser_tri .hyb us) (G := handleOwn h) (by abel) ?_
  intro r hr
  rcases r with _ | o
  · exact Tri.pure (by simp [objOwn?]) hh.kp
  · exact (push_tri hh hc (hr o rfl).1).conseq (by simp [objOwn?]) (fun a h => ⟨rfl, h⟩)

theorem hint_tri {st : Status} {h : Handle} (hh : HOk h) :
    Tri (V := V) c W (handleOwn h) (hint st h) (fun r => handleOwn r.2) (fun r => Kp h r.2) := by
  unfold hint
  refine Tri.ite (fun _ => Tri.pure rfl hh.kp) (fun _ => ?_)
  refine Tri.seq new_tri (G := handleOwn h) (by abel) ?_
  intro r _
  rcases r with _ | a
  · exact Tri.pure (by simp [addr]) hh.kp
  · refine Tri.pure ?_ ⟨⟨hh.objs, hh.shape, hh.ilu, hh.iluNU⟩, rfl⟩
    simp only [handleOwn_eq, addr, ← Multiset.cons_coe, ← Multiset.singleton_add]; abel

theorem addCsc_tri {st : Status} {h : Handle} (hh : HOk h) (hc : HasCsr h) {src : Obj}
    (hs : some src ∈ h.mats) :
    Tri (V := V) c W (handleOwn h) (addCsc st src h) (fun r => handleOwn r.2) (fun r => Kp h r.2) := by
  unfold addCsc
  refine Tri.seq (newCsr_tri true) (G := handleOwn h) (by abel) ?_
  intro r hr
  rcases r with _ | o
  · exact Tri.pure (by simp [objOwn?]) hh.kp
  · have ho := (hr.1 o rfl).1.ok
    refine Tri.bind ((touch_h hh hs).conseq (X := fun _ => handleOwn h + objOwn o)
      (Y := fun _ => objOwn o + handleOwn h) (by simp [objOwn?, add_comm]) (fun _ _ => ⟨add_comm _ _, trivial⟩)) ?_
    intro _ _
    refine Tri.ite (fun _ => ?_) (fun _ => push_tri hh hc ho)
    refine Tri.seq (delObj_tri ho) (G := handleOwn h) rfl ?_
    intro _ _
    exact Tri.pure (by abel) hh.kp

/-- what is owned by an object with given arrays -/
theorem objOwn_mk (o : Obj) (hi : o.internal = true) : objOwn o =
    {o.self} + hps o.arrs + (hp o.idiag + hp o.iurow + hp o.diagVal) := by
  simp only [objOwn, hi, if_true, hps_cons, hps_nil]; abel

theorem toGeneral_tri {ok : Bool} {o : Obj} (ho : Fresh .csr 3 o)
    (hn : o.arrs.getD 1 none = none ∧ o.arrs.getD 2 none = none) :
    Tri (V := V) c W (objOwn o) (toGeneral ok o) (fun r => objOwn? r.2)
      (fun r => ∀ q, r.2 = some q → ObjOk q) := by
  have base : objOwn o = {o.self} + hp (o.arrs.getD 0 none) := by
    rw [objOwn_mk o ho.internal, hps_three ho.len, hn.1, hn.2, ho.idiag, ho.iurow, ho.diagVal]
    simp
  have bail : ∀ (st : Status) (q : Obj), ObjOk q → Tri (V := V) c W (objOwn q)
      (do delObj q; pure (st, none)) (fun r => objOwn? r.2) (fun r => ∀ q, r.2 = some q → ObjOk q) := by
    intro st q hq
    refine Tri.bind (delObj_tri hq) ?_
    intro _ _
    exact Tri.pure rfl (by simp)
  unfold toGeneral
  refine Tri.ite (fun _ => bail _ o ho.ok) (fun _ => ?_)
  refine Tri.seq vec_tri (G := objOwn o) (by abel) ?_
  intro b _
  refine Tri.ite (fun _ => (bail _ o ho.ok).conseq (by abel) (fun _ h => ⟨rfl, h⟩)) (fun _ => ?_)
  refine Tri.seq (tryNew_tri 2) (G := objOwn o) (by abel) ?_
  intro r hr
  have h1 : ObjOk { o with idiag := r.2.getD 0 none, diagVal := r.2.getD 1 none } :=
    ⟨ho.ok.own, ho.ok.users, NU.getD hr.2.1 0, by rw [ho.iurow]; exact NU.none, NU.getD hr.2.1 1⟩
  have e1 : objOwn { o with idiag := r.2.getD 0 none, diagVal := r.2.getD 1 none } =
      {o.self} + hp (o.arrs.getD 0 none) + hps r.2 := by
    rw [objOwn_mk _ (by exact ho.internal), hps_three ho.len, hn.1, hn.2, ho.iurow, hps_two hr.1]
    simp only [hp_none]; abel
  dsimp only
  refine Tri.ite (fun _ => (bail _ _ h1).conseq (by rw [e1, base]; abel) (fun _ h => ⟨rfl, h⟩)) (fun _ => ?_)
  refine Tri.seq vec_tri (G := hps r.2 + objOwn o) (by abel) ?_
  intro b _
  refine Tri.ite (fun _ => (bail _ _ h1).conseq (by rw [e1, base]; abel) (fun _ h => ⟨rfl, h⟩)) (fun _ => ?_)
  refine Tri.seq (tryNew_tri 2) (G := hps r.2 + objOwn o) (by abel) ?_
  intro q hq
  have h2 : ObjOk { o with
      idiag := r.2.getD 0 none, diagVal := r.2.getD 1 none,
      arrs := [o.arrs.getD 0 none, q.2.getD 1 none, q.2.getD 0 none] } := by
    refine ⟨?_, fun h => ?_, NU.getD hr.2.1 0, by rw [ho.iurow]; exact NU.none, NU.getD hr.2.1 1⟩
    · intro _ p hp'
      simp only [List.mem_cons, List.not_mem_nil, or_false] at hp'
      rcases hp' with rfl | rfl | rfl
      · exact NU.getD (ho.ok.own ho.internal) 0
      · exact NU.getD hq.2.1 1
      · exact NU.getD hq.2.1 0
    · have h : o.internal = false := h
      rw [ho.internal] at h; cases h
  have e2 : objOwn { o with
      idiag := r.2.getD 0 none, diagVal := r.2.getD 1 none,
      arrs := [o.arrs.getD 0 none, q.2.getD 1 none, q.2.getD 0 none] } =
      {o.self} + hp (o.arrs.getD 0 none) + hps r.2 + hps q.2 := by
    rw [objOwn_mk _ (by exact ho.internal), ho.iurow, hps_two hr.1, hps_two hq.1]
    simp only [hp_none, hps_cons, hps_nil]; abel
  try dsimp only
  refine Tri.ite (fun _ => (bail _ _ h2).conseq (by rw [e2, base]; abel) (fun _ h => ⟨rfl, h⟩)) (fun _ => ?_)
  refine Tri.pure ?_ ?_
  · show _ = objOwn _
    rw [e2, base]; abel
  · intro x hx
    cases hx
    exact h2

theorem addExpanded_tri {sq ok : Bool} {h : Handle} (hh : HOk h) (hc : HasCsr h) {src : Obj}
    (hs : some src ∈ h.mats) :
    Tri (V := V) c W (handleOwn h) (addExpanded sq ok src h) (fun r => handleOwn r.2)
      (fun r => Kp h r.2) := by
  unfold addExpanded
  refine Tri.ite (fun _ => Tri.pure rfl hh.kp) (fun _ => ?_)
  refine Tri.seq (newCsr_tri false) (G := handleOwn h) (by abel) ?_
  intro r hr
  rcases r with _ | o
  · exact Tri.pure (by simp [objOwn?]) hh.kp
  · refine Tri.bind ((touch_h hh hs).conseq (X := fun _ => handleOwn h + objOwn o)
      (Y := fun _ => objOwn o + handleOwn h) (by simp [objOwn?, add_comm]) (fun _ _ => ⟨add_comm _ _, trivial⟩)) ?_
    intro _ _
    refine Tri.seq (toGeneral_tri (hr.1 o rfl).1 ((hr.1 o rfl).2 rfl)) rfl ?_
    intro q hq
    rcases q with ⟨st, _ | q⟩
    · exact Tri.pure (by simp [objOwn?]) hh.kp
    · exact push_tri hh hc (hq q rfl)

theorem indices_tri {o : Obj} (ho : ObjOk o) (hi : o.idiag = none ∧ o.iurow = none) :
    Tri (V := V) c W (objOwn o) (indices o) (fun r => objOwn r.2)
      (fun r => ObjOk r.2 ∧ r.2.kind = o.kind ∧ r.2.opt = o.opt ∧ r.2.arrs = o.arrs ∧
        r.2.internal = o.internal ∧
        (r.1 ≠ .success → r.2.idiag = none ∧ r.2.iurow = none)) := by
  unfold indices
  refine Tri.seq (tryNew_tri 2) (G := objOwn o) (by abel) ?_
  intro r hr
  dsimp only
  refine Tri.ite (fun _ => ?_) (fun _ => ?_)
  · refine Tri.pure ?_ ⟨⟨ho.own, ho.users, NU.getD hr.2.1 0, NU.getD hr.2.1 1, ho.idx.2.2⟩, rfl, rfl, rfl, rfl,
      fun h => absurd rfl h⟩
    simp only [objOwn, hps_cons, hps_nil, hi.1, hi.2, hp_none, hps_two hr.1]; abel
  · refine Tri.seq (deleteAll_tri hr.2.1) (G := objOwn o) rfl ?_
    intro _ _
    refine Tri.pure ?_ ⟨⟨ho.own, ho.users, NU.none, NU.none, ho.idx.2.2⟩, rfl, rfl, rfl, rfl, fun _ => ⟨rfl, rfl⟩⟩
    simp only [objOwn, hps_cons, hps_nil, hi.1, hi.2, hp_none]; abel

theorem fillDiag_tri {ms : Bool} {o : Obj} (ho : Fresh .csr 3 o) :
    Tri (V := V) c W (objOwn o) (fillDiag ms o) (fun r => objOwn r.2) (fun r => Fresh .csr 3 r.2) := by
  unfold fillDiag
  refine Tri.seq vec_tri (G := objOwn o) (by abel) ?_
  intro b _
  refine Tri.ite (fun _ => Tri.pure (by abel) ho) (fun _ => ?_)
  refine Tri.ite (fun _ => Tri.pure (by abel) ho) (fun _ => ?_)
  refine Tri.seq (tryNew_tri 3) (G := objOwn o) (by abel) ?_
  intro r hr
  refine Tri.ite (fun _ => ?_) (fun _ => ?_)
  · refine Tri.seq (deleteAll_tri hr.2.1) (G := objOwn o) rfl ?_
    intro _ _
    exact Tri.pure (by abel) ho
  · refine Tri.bind (touch_tri (fun a ha => .inl (Multiset.mem_add.mpr (.inr (mem_objOwn ho.ok ha))))) ?_
    intro _ _
    have hd : ∀ p ∈ [o.arrs.getD 1 none, o.arrs.getD 0 none, o.arrs.getD 2 none], NU p := by
      intro p hp'
      simp only [List.mem_cons, List.not_mem_nil, or_false] at hp'
      rcases hp' with rfl | rfl | rfl <;> exact NU.getD (ho.ok.own ho.internal) _
    refine Tri.seq (deleteAll_tri hd) (G := hps r.2 + {o.self}) ?_ ?_
    · rw [objOwn_mk o ho.internal, hps_three ho.len, ho.idiag, ho.iurow, ho.diagVal]
      simp only [hps_cons, hps_nil, hp_none]; abel
    · intro _ _
      refine Tri.pure ?_ ?_
      · rw [objOwn_mk _ (by exact ho.internal), ho.idiag, ho.iurow, ho.diagVal]
        simp only [hp_none]; abel
      · exact ⟨⟨fun _ => hr.2.1, fun h => Bool.noConfusion (ho.internal.symm.trans h),
          ho.ok.idx⟩, ho.kind, ho.internal, ho.opt, hr.1, ho.idiag, ho.iurow, ho.diagVal⟩

theorem fillUnless_tri {full ms : Bool} {o : Obj} (ho : Fresh .csr 3 o) :
    Tri (V := V) c W (objOwn o) (fillUnless full ms o) (fun r => objOwn r.2)
      (fun r => Fresh .csr 3 r.2) := by
  unfold fillUnless
  exact Tri.ite (fun _ => Tri.pure rfl ho) (fun _ => fillDiag_tri ho)

theorem cleanNew_tri {a : CleanArgs} {h : Handle} (hh : HOk h) (hc : HasCsr h) {src : Obj}
    (hs : some src ∈ h.mats) :
    Tri (V := V) c W (handleOwn h) (cleanNew a src h) (fun r => handleOwn r.2) (fun r => Kp h r.2) := by
  have bail : ∀ (st : Status) (q : Obj), ObjOk q → Tri (V := V) c W (objOwn q + handleOwn h)
      (do delObj q; pure (st, h)) (fun r => handleOwn r.2) (fun r => Kp h r.2) := by
    intro st q hq
    refine Tri.seq (delObj_tri hq) (G := handleOwn h) rfl ?_
    intro _ _
    exact Tri.pure (by abel) hh.kp
  unfold cleanNew
  refine Tri.seq (newCsr_tri true) (G := handleOwn h) (by abel) ?_
  intro r hr
  rcases r with _ | o
  · exact Tri.pure (by simp [objOwn?]) hh.kp
  · have ho := (hr.1 o rfl).1
    refine Tri.bind ((touch_h hh hs).conseq (X := fun _ => handleOwn h + objOwn o)
      (Y := fun _ => objOwn o + handleOwn h) (by simp [objOwn?, add_comm]) (fun _ _ => ⟨add_comm _ _, trivial⟩)) ?_
    intro _ _
    refine Tri.ite (fun _ => bail _ o ho.ok) (fun _ => ?_)
    refine Tri.seq (fillUnless_tri ho) rfl ?_
    intro q hq
    refine Tri.ite (fun _ => bail _ _ hq.ok) (fun _ => ?_)
    refine Tri.seq (indices_tri hq.ok ⟨hq.idiag, hq.iurow⟩) rfl ?_
    intro x hx
    refine Tri.ite (fun _ => bail _ _ hx.1) (fun _ => ?_)
    have ho' : ObjOk { x.2 with opt := true } := ⟨hx.1.own, hx.1.users, hx.1.idx⟩
    exact (push_tri hh hc ho').conseq rfl (fun _ h => ⟨rfl, h⟩)

theorem firstCsr_of {h : Handle} (hh : HOk h) {src : Obj} (hf : firstCsr h.mats = some src) :
    ∃ ms, h.mats = some src :: ms ∧ src.kind = .csr := by
  have hk : ∀ ms : List (Option Obj), firstCsr ms = some src → some src ∈ ms ∧ src.kind = .csr := by
    intro ms
    induction ms with
    | nil => intro h; cases h
    | cons m ms ih =>
      intro h
      rcases m with _ | p
      · obtain ⟨h1, h2⟩ := ih h
        exact ⟨List.mem_cons_of_mem _ h1, h2⟩
      · unfold firstCsr at h
        split at h
        · rename_i hp'
          cases h
          exact ⟨List.mem_cons_self, hp'⟩
        · obtain ⟨h1, h2⟩ := ih h
          exact ⟨List.mem_cons_of_mem _ h1, h2⟩
  rcases hh.shape with e | ⟨o, ms, e, hs, _⟩
  · rw [e] at hf; cases hf
  · rcases hs with hs | hs
    · rw [e] at hf
      unfold firstCsr at hf
      rw [if_pos hs] at hf
      cases hf
      exact ⟨ms, e, hs⟩
    · obtain ⟨h1, h2⟩ := hk _ hf
      exact absurd h2 (hs src h1)

theorem csrCscOptimize_tri {a : CleanArgs} {h : Handle} (hh : HOk h) :
    Tri (V := V) c W (handleOwn h) (csrCscOptimize a h) (fun r => handleOwn r.2) (fun r => Kp h r.2) := by
  unfold csrCscOptimize
  refine Tri.ite (fun _ => Tri.pure rfl hh.kp) (fun _ => ?_)
  refine Tri.ite (fun _ => Tri.pure rfl hh.kp) (fun hno => ?_)
  cases hf : firstCsr h.mats with
  | none => exact Tri.pure rfl hh.kp
  | some src =>
    obtain ⟨ms, e, hk⟩ := firstCsr_of hh hf
    have hm : some src ∈ h.mats := by rw [e]; exact List.mem_cons_self
    refine Tri.bind (touch_tri (fun a ha => .inl (hh.readable hm a ha))) ?_
    intro _ _
    refine Tri.ite (fun _ => Tri.pure rfl hh.kp) (fun _ => ?_)
    refine Tri.ite (fun _ => ?_) (fun _ => cleanNew_tri hh ⟨src, ms, e, hk⟩ hm)
    have hopt : src.opt = false := by
      cases ho : src.opt with
      | false => rfl
      | true =>
        exfalso
        apply hno
        simp [hasOpt, e, hk, ho]
    have hi : src.idiag = none ∧ src.iurow = none := by
      rcases hh.shape with e' | ⟨o, ms', e', _, hi⟩
      · rw [e'] at e; cases e
      · rw [e'] at e
        cases e
        exact hi hk hopt
    have split : handleOwn h = objOwn src +
        ({h.self} + (h.hints : Multiset Nat) + hps [h.iluDiag, h.iluVal] + matsOwn ms) := by
      rw [handleOwn_eq, e, matsOwn_cons]
      simp only [objOwn?]; abel
    have setF : ∀ q : Obj, setFirstCsr q h.mats = some q :: ms := by
      intro q; rw [e]; unfold setFirstCsr; rw [if_pos hk]
    have okq : ∀ q : Obj, ObjOk q → q.kind = .csr →
        (q.opt = false → q.idiag = none ∧ q.iurow = none) →
        HOk { h with mats := some q :: ms } := by
      intro q hq hqk hqi
      refine ⟨?_, .inr ⟨q, ms, rfl, .inl hqk, fun _ => hqi⟩, hh.ilu, hh.iluNU⟩
      intro p hp'
      rcases List.mem_cons.mp hp' with h' | h'
      · cases h'; exact hq
      · exact hh.objs p (by rw [e]; exact List.mem_cons_of_mem _ h')
    have same : ∀ q : Obj, q.arrs = src.arrs → q.internal = src.internal →
        Same h { h with mats := some q :: ms } := by
      intro q h1 h2
      simp [Same, Handle.first, e, h1, h2]
    refine Tri.seq (indices_tri (hh.objs src hm) hi) split ?_
    intro q hq
    refine Tri.ite (fun hne => ?_) (fun _ => ?_)
    · refine Tri.pure ?_ ?_
      · simp only [setF]
        rw [handleOwn_eq]
        simp only [matsOwn_cons, objOwn?]; abel
      · simp only [setF]
        exact ⟨okq q.2 hq.1 (hq.2.1.trans hk) (fun _ => hq.2.2.2.2.2 hne), same q.2 hq.2.2.2.1 hq.2.2.2.2.1⟩
    · refine Tri.pure ?_ ?_
      · simp only [setF]
        rw [handleOwn_eq]
        simp only [matsOwn_cons, objOwn?]
        show objOwn q.2 + _ = _ + (objOwn q.2 + _)
        abel
      · simp only [setF]
        exact ⟨okq _ ⟨hq.1.own, hq.1.users, hq.1.idx⟩ (hq.2.1.trans hk) (fun h => by cases h),
          same _ hq.2.2.2.1 hq.2.2.2.2.1⟩

theorem addObj_tri {kind : Kind} {k : Nat} {h : Handle} (hh : HOk h) (hc : HasCsr h) {src : Obj}
    (hs : some src ∈ h.mats) :
    Tri (V := V) c W (handleOwn h)
      (do match ← newObj kind k 0 with
          | none => pure (.memoryError, h)
          | some o => do touch src.arrs; push o h) (fun r => handleOwn r.2) (fun r => Kp h r.2) := by
  refine Tri.seq (newObj_tri kind k 0) (G := handleOwn h) (by abel) ?_
  intro r hr
  rcases r with _ | o
  · exact Tri.pure (by simp [objOwn?]) hh.kp
  · refine Tri.bind ((touch_h hh hs).conseq (X := fun _ => handleOwn h + objOwn o)
      (Y := fun _ => objOwn o + handleOwn h) (by simp [objOwn?, add_comm]) (fun _ _ => ⟨add_comm _ _, trivial⟩)) ?_
    intro _ _
    exact push_tri hh hc (hr.1 o rfl).1.ok

/-- an object that got its indices and values -/
theorem Fresh.withArrs {o : Obj} (ho : Fresh .csr 3 o)
    (hn : o.arrs.getD 1 none = none ∧ o.arrs.getD 2 none = none) {r : List (Option Ptr)}
    (hl : r.length = 2) (hr : ∀ p ∈ r, NU p) :
    Fresh .csr 3 { o with arrs := [o.arrs.getD 0 none, r.getD 0 none, r.getD 1 none] } ∧
      objOwn { o with arrs := [o.arrs.getD 0 none, r.getD 0 none, r.getD 1 none] } =
        hps r + objOwn o := by
  refine ⟨⟨⟨?_, fun h => Bool.noConfusion (ho.internal.symm.trans h),
    ho.ok.idx⟩, ho.kind, ho.internal, ho.opt, rfl, ho.idiag, ho.iurow, ho.diagVal⟩, ?_⟩
  · intro _ p hp'
    simp only [List.mem_cons, List.not_mem_nil, or_false] at hp'
    rcases hp' with rfl | rfl | rfl
    · exact NU.getD (ho.ok.own ho.internal) 0
    · exact NU.getD hr 0
    · exact NU.getD hr 1
  · rw [objOwn_mk _ (by exact ho.internal), objOwn_mk o ho.internal, hps_three ho.len, hn.1, hn.2, hps_two hl]
    simp only [hps_cons, hps_nil, hp_none]; abel

theorem addBr4_tri {h : Handle} (hh : HOk h) (hc : HasCsr h) {src : Obj} (hs : some src ∈ h.mats) :
    Tri (V := V) c W (handleOwn h) (addBr4 src h) (fun r => handleOwn r.2) (fun r => Kp h r.2) := by
  have bail : ∀ (q : Obj), ObjOk q → Tri (V := V) c W (objOwn q + handleOwn h)
      (do delObj q; pure (Status.memoryError, h)) (fun r => handleOwn r.2) (fun r => Kp h r.2) := by
    intro q hq
    refine Tri.seq (delObj_tri hq) (G := handleOwn h) rfl ?_
    intro _ _
    exact Tri.pure (by abel) hh.kp
  unfold addBr4
  refine Tri.seq vec_tri (G := handleOwn h) (by abel) ?_
  intro b _
  refine Tri.ite (fun _ => Tri.pure (by abel) hh.kp) (fun _ => ?_)
  refine Tri.seq (newCsr_tri false) (G := handleOwn h) rfl ?_
  intro r hr
  rcases r with _ | o
  · exact Tri.pure (by simp [objOwn?]) hh.kp
  · refine Tri.seq (tryNew_tri 2) (G := objOwn o + handleOwn h) (by simp [objOwn?]) ?_
    intro q hq
    obtain ⟨f1, f2⟩ := (hr.1 o rfl).1.withArrs ((hr.1 o rfl).2 rfl) hq.1 hq.2.1
    dsimp only
    refine Tri.ite (fun _ => (bail _ f1.ok).conseq (by rw [f2]; abel) (fun _ h => ⟨rfl, h⟩)) (fun _ => ?_)
    refine Tri.bind ((touch_h hh hs).conseq (X := fun _ => handleOwn h + (hps q.2 + objOwn o))
      (Y := fun _ => objOwn { o with arrs := [o.arrs.getD 0 none, q.2.getD 0 none, q.2.getD 1 none] } +
        handleOwn h) (by abel) (fun _ _ => ⟨by rw [f2]; abel, trivial⟩)) ?_
    intro _ _
    refine Tri.seq vec_tri (G := objOwn { o with arrs := [o.arrs.getD 0 none, q.2.getD 0 none, q.2.getD 1 none] } +
        handleOwn h) (by abel) ?_
    intro b _
    refine Tri.ite (fun _ => (bail _ f1.ok).conseq (by abel) (fun _ h => ⟨rfl, h⟩)) (fun _ => ?_)
    exact (push_tri hh hc f1.ok).conseq (by abel) (fun _ h => ⟨rfl, h⟩)

/-- optimize_ilu, when no allocation fails -/
theorem optIlu_tri {st : Status} {h : Handle} (hh : HOk h) (hct : c = true) :
    Tri (V := V) c W (handleOwn h) (optIlu st h) (fun r => handleOwn r.2) (fun r => Kp h r.2) := by
  unfold optIlu
  cases hf : h.first with
  | none => exact Tri.pure rfl hh.kp
  | some o =>
    refine Tri.ite (fun _ => Tri.pure rfl hh.kp) (fun _ => ?_)
    refine Tri.ite (fun _ => Tri.pure rfl hh.kp) (fun hnr => ?_)
    have hil := hh.ilu (by simpa using hnr)
    refine Tri.seq new_tri (G := handleOwn h) (by abel) ?_
    intro r hr
    rcases r with _ | a
    · exact absurd rfl (hr hct)
    · refine Tri.seq new_tri (G := {a} + handleOwn h) (by simp [addr]) ?_
      intro q hq
      rcases q with _ | b
      · exact absurd rfl (hq hct)
      · refine Tri.bind ((touch_h hh (first_mem hf)).conseq (X := fun _ => handleOwn h + ({a} + {b}))
          (Y := fun _ => {a} + {b} + handleOwn h) (by simp only [addr]; abel) (fun _ _ => ⟨by abel, trivial⟩)) ?_
        intro _ _
        refine Tri.pure ?_ ⟨⟨hh.objs, hh.shape, fun h => (by cases h), NU.heap, NU.heap⟩, rfl⟩
        simp only [handleOwn_eq, hps_cons, hps_nil, hil.1, hil.2, hp_none]
        simp only [hp]; abel

/-- does a step use optimize_ilu? -/
def isIlu : Step → Bool
  | .ilu _ => true
  | _ => false

theorem runStep_tri {s : Step} {h : Handle} (hh : HOk h) (hct : isIlu s = true → c = true) :
    Tri (V := V) c W (handleOwn h) (runStep s h) (fun r => handleOwn r.2) (fun r => Kp h r.2) := by
  unfold runStep
  cases hf : h.first with
  | none => exact Tri.pure rfl hh.kp
  | some src =>
    have hm := first_mem hf
    rcases s with st | ⟨sq, ok⟩ | a | _ | _ | _ | st
    · refine Tri.ite (fun _ => Tri.pure rfl hh.kp) (fun hk => ?_)
      exact addCsc_tri hh (HasCsr.of_first hf (not_not.mp hk)) hm
    · refine Tri.ite (fun _ => Tri.pure rfl hh.kp) (fun hk => ?_)
      exact addExpanded_tri hh (HasCsr.of_first hf (not_not.mp hk)) hm
    · exact csrCscOptimize_tri hh
    · refine Tri.ite (fun _ => Tri.pure rfl hh.kp) (fun hk => ?_)
      exact addObj_tri hh (HasCsr.of_first hf (not_not.mp hk)) hm
    · refine Tri.ite (fun _ => Tri.pure rfl hh.kp) (fun hk => ?_)
      exact addObj_tri hh (HasCsr.of_first hf (not_not.mp hk)) hm
    · refine Tri.ite (fun _ => Tri.pure rfl hh.kp) (fun hk => ?_)
      exact addBr4_tri hh (HasCsr.of_first hf (not_not.mp hk)) hm
    · refine Tri.ite (fun _ => Tri.pure rfl hh.kp) (fun hk => ?_)
      exact optIlu_tri hh (hct rfl)

theorem prepare_tri {ss : List Step} {h : Handle} (hh : HOk h) (hct : ss.any isIlu = true → c = true) :
    Tri (V := V) c W (handleOwn h) (prepare ss h) (fun r => handleOwn r.2) (fun r => Kp h r.2) := by
  induction ss generalizing h with
  | nil => exact Tri.pure rfl hh.kp
  | cons s ss ih =>
    unfold prepare
    refine Tri.bind (runStep_tri hh (fun hs => hct (by simp [hs]))) ?_
    intro r hr
    refine Tri.ite (fun _ => Tri.pure rfl hr) (fun _ => ?_)
    exact (ih hr.1 (fun hs => hct (by simp [hs]))).conseq rfl (fun _ h => ⟨rfl, h.1, h.2.trans hr.2⟩)

/-! ### Changes of values -/

theorem dropCopies_tri {ms : List (Option Obj)} (h : ∀ o, some o ∈ ms → ObjOk o) :
    Tri (V := V) c W (matsOwn ms) (dropCopies ms) (fun _ => 0) (fun r => ∀ m ∈ r, m = none) := by
  induction ms with
  | nil => exact Tri.pure rfl (by simp)
  | cons m ms ih =>
    have ih := ih (fun o ho => h o (List.mem_cons_of_mem _ ho))
    rcases m with _ | o
    · unfold dropCopies
      refine Tri.bind (ih.conseq (by simp [objOwn?]) (fun _ h => ⟨rfl, h⟩)) ?_
      intro r hr
      refine Tri.pure rfl ?_
      intro m hm
      rcases List.mem_cons.mp hm with h' | h'
      · exact h'
      · exact hr m h'
    · unfold dropCopies
      refine Tri.seq (delObj_tri (h o List.mem_cons_self)) (G := matsOwn ms) (by simp [objOwn?]) ?_
      intro _ _
      refine Tri.bind (ih.conseq (by abel) (fun _ h => ⟨rfl, h⟩)) ?_
      intro r hr
      refine Tri.pure rfl ?_
      intro m hm
      rcases List.mem_cons.mp hm with h' | h'
      · exact h'
      · exact hr m h'

theorem matsOwn_none {ms : List (Option Obj)} (h : ∀ m ∈ ms, m = none) : matsOwn ms = 0 := by
  induction ms with
  | nil => rfl
  | cons m ms ih =>
    rw [matsOwn_cons, ih (fun x hx => h x (List.mem_cons_of_mem _ hx)), h m List.mem_cons_self]
    rfl

/-- the arrays of the caller that a handle was created from -/
def usersOf (h : Handle) : Env :=
  ⟨fun k => ∃ o, h.first = some o ∧ some (.user k) ∈ o.arrs, fun _ => False⟩

theorem getD_mem {ps : List (Option Ptr)} {i : Nat} {p : Ptr} (h : ps.getD i none = some p) : some p ∈ ps := by
  rw [List.getD_eq_getElem?_getD] at h
  cases hx : ps[i]? with
  | none => rw [hx] at h; cases h
  | some x =>
    rw [hx] at h
    have : x = some p := h
    rw [← this]
    exact List.mem_of_getElem? hx

theorem write_first {h : Handle} (hh : HOk h) {o : Obj} (hf : h.first = some o) {i : Nat} {v : V} :
    Tri c (usersOf h) (handleOwn h) (writeP (o.arrs.getD i none) v) (fun _ => handleOwn h)
      (fun _ => True) :=
  writeP_tri (fun a ha => hh.readable (first_mem hf) a (getD_mem ha)) (fun k hk => ⟨o, hf, getD_mem hk⟩)

theorem update_tri {st : Status} {v : V} {h : Handle} (hh : HOk h) :
    Tri c (usersOf h) (handleOwn h) (update st v h) (fun r => handleOwn r.2) (fun r => Kp h r.2) := by
  unfold update
  split
  · rename_i o ms e
    have hf : h.first = some o := by simp [Handle.first, e]
    refine Tri.ite (fun _ => Tri.pure rfl hh.kp) (fun _ => ?_)
    refine Tri.bind (write_first hh hf) ?_
    intro _ _
    refine Tri.seq (dropCopies_tri (ms := ms)
        (fun p hp' => hh.objs p (by rw [e]; exact List.mem_cons_of_mem _ hp')))
      (G := {h.self} + (h.hints : Multiset Nat) + hps [h.iluDiag, h.iluVal] + objOwn o) ?_ ?_
    · rw [handleOwn_eq, e, matsOwn_cons]
      simp only [objOwn?]; abel
    · intro r hr
      refine Tri.pure ?_ ?_
      · rw [handleOwn_eq]
        simp only [matsOwn_cons, objOwn?, matsOwn_none hr]; abel
      · refine ⟨⟨?_, .inr ⟨o, r, rfl, ?_, ?_⟩, hh.ilu, hh.iluNU⟩, by simp [Same, Handle.first, e]⟩
        · intro p hp'
          rcases List.mem_cons.mp hp' with h' | h'
          · cases h'; exact hh.objs o (first_mem hf)
          · cases hr _ h'
        · by_cases hk : o.kind = .csr
          · exact .inl hk
          · refine .inr ?_
            intro p hp'
            rcases List.mem_cons.mp hp' with h' | h'
            · cases h'; exact hk
            · cases hr _ h'
        · rcases hh.shape with e' | ⟨o1, ms1, e1, _, hi⟩
          · rw [e'] at e; cases e
          · rw [e1] at e
            cases e
            exact hi
  · exact Tri.pure rfl hh.kp

theorem order_tri {st : Status} {i v : V} {h : Handle} (hh : HOk h) :
    Tri c (usersOf h) (handleOwn h) (order st i v h) (fun r => handleOwn r.2) (fun r => Kp h r.2) := by
  unfold order
  cases hf : h.first with
  | none => exact Tri.pure rfl hh.kp
  | some o =>
    refine Tri.ite (fun _ => Tri.pure rfl hh.kp) (fun _ => ?_)
    refine Tri.seq vec_tri (G := handleOwn h) (by abel) ?_
    intro b _
    refine Tri.ite (fun _ => Tri.pure (by abel) hh.kp) (fun _ => ?_)
    refine Tri.bind ((write_first hh hf).conseq (by abel) (fun _ _ => ⟨rfl, trivial⟩)) ?_
    intro _ _
    refine Tri.bind (write_first hh hf) ?_
    intro _ _
    exact Tri.pure rfl hh.kp

end Own
end Proofs
end Verif
