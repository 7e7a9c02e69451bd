/-
C23 — ownership — and C25 — copies are independent — for every history of calls, with any pattern of
failing allocations.

Addresses are never reused; releasing an address that is not live, releasing an array of the caller,
reading or writing an array that is not live: all are undefined behaviour (`none`) in the model.  So a
history that runs (`some`) never released an array of the caller and released nothing twice.
-/
import Verif.Proofs.Own3

namespace Verif
namespace Props
open Model.Own Spec.Own Proofs.Own

variable {V : Type}

/-! ### What a call may change -/

/-- the handle a call works on, where it may change it -/
def Op.target : Op V → Option Nat
  | .addHyb i _ _ | .hint i _ | .prepare i _ | .update i _ _ | .order i _ _ _ | .sypr i _ _ _ _
  | .destroy i => some i
  | _ => none

/-- the arrays of the caller a call may write: those a handle was created from, when its values are
changed or its rows ordered -/
def Op.mayWrite (w : World V) : Op V → Nat → Prop
  | .update i _ _ | .order i _ _ _ => fun k => ∃ h o, w.slots[i]? = some (some h) ∧
      h.first = some o ∧ some (.user k) ∈ o.arrs
  | .userWrite k _ => fun k' => k' = k
  | _ => fun _ => False

/-- calls in which the code mishandles failing allocations (F50, F51): optimize for an incomplete
factorisation, convert_bsr -/
def Op.fragile : Op V → Bool
  | .prepare _ ss => ss.any isIlu
  | .convertBsr .. => true
  | _ => false

/-- a call whose failing allocations the code is able to handle -/
def Call.Ok (c : Call V) : Prop := Op.fragile c.op = true → ∀ b ∈ c.fails, b = false

/-- the state between calls -/
structure WOk (w : World V) : Prop where
  /-- what is live is exactly what the handles own, each address once -/
  mem : St w.mem (worldOwn w)
  handles : ∀ h, some h ∈ w.slots → HOk h
  solvers : ∀ h, some h ∈ w.solvers → SolverOk h

/-- what stays the same: other handles, the arrays they own, arrays of the caller -/
structure Kept (t : Option Nat) (W : Nat → Prop) (w w' : World V) : Prop where
  slots : ∀ j, t ≠ some j → j < w.slots.length → w'.slots[j]? = w.slots[j]?
  heap : ∀ j h, t ≠ some j → w.slots[j]? = some (some h) →
    ∀ a ∈ handleOwn h, w'.mem.data (.heap a) = w.mem.data (.heap a)
  user : ∀ k, ¬ W k → w'.mem.data (.user k) = w.mem.data (.user k)
  len : w.slots.length ≤ w'.slots.length

theorem Kept.refl {t : Option Nat} {W : Nat → Prop} {w : World V} : Kept t W w w :=
  ⟨fun _ _ _ => rfl, fun _ _ _ _ _ _ => rfl, fun _ _ => rfl, le_refl _⟩

theorem join_some {α : Type} {l : List (Option α)} {i : Nat} {h : α} :
    l[i]?.join = some h ↔ l[i]? = some (some h) := by
  cases e : l[i]? with
  | none => simp
  | some x => simp

theorem mem_sum {α : Type} (f : Option α → Multiset Nat) {l : List (Option α)} {y : Option α} (h : y ∈ l)
    {a : Nat} (ha : a ∈ f y) : a ∈ (l.map f).sum := by
  induction l with
  | nil => cases h
  | cons z l ih =>
    rw [List.map_cons, List.sum_cons]
    rcases List.mem_cons.mp h with rfl | h
    · exact Multiset.mem_add.mpr (.inl ha)
    · exact Multiset.mem_add.mpr (.inr (ih h))

theorem sum_split {α : Type} (f : Option α → Multiset Nat) {l : List (Option α)} {i : Nat} {h : α}
    (hi : l[i]? = some (some h)) : ∃ G : Multiset Nat, (l.map f).sum = f (some h) + G ∧
      (∀ x, ((l.set i x).map f).sum = f x + G) ∧
      (∀ j y, j ≠ i → l[j]? = some y → ∀ a ∈ f y, a ∈ G) := by
  induction l generalizing i with
  | nil => simp at hi
  | cons y l ih =>
    cases i with
    | zero =>
      have : y = some h := by simpa using hi
      subst this
      refine ⟨(l.map f).sum, by simp, fun x => by simp, ?_⟩
      intro j z hj hz a ha
      cases j with
      | zero => exact absurd rfl hj
      | succ j =>
        have hz : l[j]? = some z := by simpa using hz
        exact mem_sum f (List.mem_of_getElem? hz) ha
    | succ i =>
      obtain ⟨G, h1, h2, h3⟩ := ih (by simpa using hi)
      refine ⟨f y + G, ?_, ?_, ?_⟩
      · simp only [List.map_cons, List.sum_cons, h1]; abel
      · intro x
        simp only [List.set_cons_succ, List.map_cons, List.sum_cons, h2]; abel
      · intro j z hj hz a ha
        cases j with
        | zero =>
          have : y = z := by simpa using hz
          subst this
          exact Multiset.mem_add.mpr (.inl ha)
        | succ j =>
          exact Multiset.mem_add.mpr (.inr (h3 j z (by omega) (by simpa using hz) a ha))

/-- no array of the caller may be written, none of another handle read -/
def env0 : Env := ⟨fun _ => False, fun _ => False⟩

/-- the arrays of the first object of a handle may be read -/
def envR (w : World V) : Env := ⟨fun _ => False, fun a => a ∈ (w.slots.map handleOwn?).sum⟩

theorem St.withFails {m : Mem V} {L : Multiset Nat} (h : St m L) (f : List Bool) :
    St { m with fails := f } L := h

section Step
variable {w : World V} {c : Bool}

/-- a call on one handle -/
theorem onSlot_ok {W : Env} (hw : WOk w) (hc : c = true → ∀ b ∈ w.mem.fails, b = false) {i : Nat}
    {f : Handle → OM V (Status × Handle)} (hr : ∀ a, ¬ W.r a)
    (hf : ∀ h, HOk h → w.slots[i]? = some (some h) →
      Tri c W (handleOwn h) (f h) (fun r => handleOwn r.2) (fun r => Kp h r.2)) :
    ∃ st w', w.onSlot i f = some (st, w') ∧ WOk w' ∧ Kept (some i) W.w w w' ∧
      (c = true → ∀ b ∈ w'.mem.fails, b = false) ∧
      (∀ h, w.slots[i]? = some (some h) → ∃ h', w'.slots[i]? = some (some h') ∧ Kp h h') := by
  unfold World.onSlot
  cases hj : w.slots[i]?.join with
  | none =>
    refine ⟨_, w, rfl, hw, Kept.refl, hc, ?_⟩
    intro h hh
    rw [join_some.mpr hh] at hj
    cases hj
  | some h =>
    have hi := join_some.mp hj
    have hh := hw.handles h (List.mem_of_getElem? hi)
    obtain ⟨G, h1, h2, h3⟩ := sum_split handleOwn? hi
    have hlt : i < w.slots.length := by
      rw [List.getElem?_eq_some_iff] at hi
      exact hi.1
    obtain ⟨r, s', e, p, hs, r1, _, _, r4, r5⟩ := hf h hh hi w.mem (G + (w.solvers.map solverOwn?).sum)
      (by
        have := hw.mem
        unfold worldOwn at this
        rw [h1, add_assoc] at this
        exact this) hc (fun a ha => absurd ha (hr a))
    refine ⟨r.1, { w with mem := s', slots := w.slots.set i (some r.2) }, by simp [e],
      ⟨?_, ?_, hw.solvers⟩, ⟨?_, ?_, r4, by simp⟩, r1, ?_⟩
    · show St s' _
      unfold worldOwn
      rw [h2, add_assoc]
      exact hs
    · intro q hq
      rcases List.mem_or_eq_of_mem_set hq with hq | hq
      · exact hw.handles q hq
      · cases hq; exact p.1
    · intro j hj _
      have : i ≠ j := fun e => hj (by rw [e])
      simp [List.getElem?_set, this]
    · intro j h' hj hj' a ha
      exact r5 a (Multiset.mem_add.mpr (.inl (h3 j _ (fun e => hj (by rw [e])) hj' a ha)))
    · intro h' hh'
      rw [hi] at hh'
      cases hh'
      refine ⟨r.2, ?_, p⟩
      simp [List.getElem?_set, hlt]

/-- a call that makes a handle -/
theorem out_ok (hw : WOk w) (hc : c = true → ∀ b ∈ w.mem.fails, b = false)
    {f : OM V (Status × Option Handle)}
    (hf : Tri c (envR w) 0 f (fun r => handleOwn? r.2) OutOk) :
    ∃ st w', w.out f = some (st, w') ∧ WOk w' ∧ Kept none (fun _ => False) w w' := by
  obtain ⟨r, s', e, p, hs, _, _, _, r4, r5⟩ := hf w.mem (worldOwn w) (by rw [zero_add]; exact hw.mem) hc
    (fun a ha => Multiset.mem_add.mpr (.inl ha))
  refine ⟨r.1, { w with mem := s', slots := w.slots ++ [r.2] }, by simp [World.out, e],
    ⟨?_, ?_, hw.solvers⟩, ⟨?_, ?_, r4, by simp⟩⟩
  · show St s' _
    unfold worldOwn at hs ⊢
    rw [List.map_append, List.sum_append]
    simp only [List.map_cons, List.map_nil, List.sum_cons, List.sum_nil, add_zero]
    rw [show (w.slots.map handleOwn?).sum + handleOwn? r.2 + (w.solvers.map solverOwn?).sum =
      handleOwn? r.2 + ((w.slots.map handleOwn?).sum + (w.solvers.map solverOwn?).sum) by abel]
    exact hs
  · intro q hq
    rcases List.mem_append.mp hq with hq | hq
    · exact hw.handles q hq
    · exact p q (List.mem_singleton.mp hq).symm
  · intro j _ hj
    exact List.getElem?_append_left hj
  · intro j h _ hj a ha
    exact r5 a (Multiset.mem_add.mpr (.inl (mem_sum _ (List.mem_of_getElem? hj) ha)))

theorem slot_rd (hw : WOk w) {i : Nat} {h : Handle} (hi : w.slots[i]?.join = some h) :
    ∀ o, h.first = some o → Rd (envR w) o := by
  intro o ho a ha
  have hm := List.mem_of_getElem? (join_some.mp hi)
  exact mem_sum _ hm ((hw.handles h hm).readable (first_mem ho) a ha)

theorem out1_ok (hw : WOk w) (hc : c = true → ∀ b ∈ w.mem.fails, b = false) {i : Nat}
    {f : Handle → OM V (Status × Option Handle)}
    (hf : ∀ h, (∀ o, h.first = some o → Rd (envR w) o) →
      Tri c (envR w) 0 (f h) (fun r => handleOwn? r.2) OutOk) :
    ∃ st w', w.out1 i f = some (st, w') ∧ WOk w' ∧ Kept none (fun _ => False) w w' := by
  unfold World.out1
  cases hj : w.slots[i]?.join with
  | none => exact ⟨_, w, rfl, hw, Kept.refl⟩
  | some h => exact out_ok hw hc (hf h (slot_rd hw hj))

theorem out2_ok (hw : WOk w) (hc : c = true → ∀ b ∈ w.mem.fails, b = false) {i j : Nat}
    {f : Handle → Handle → OM V (Status × Option Handle)}
    (hf : ∀ a b, (∀ o, a.first = some o → Rd (envR w) o) → (∀ o, b.first = some o → Rd (envR w) o) →
      Tri c (envR w) 0 (f a b) (fun r => handleOwn? r.2) OutOk) :
    ∃ st w', w.out2 i j f = some (st, w') ∧ WOk w' ∧ Kept none (fun _ => False) w w' := by
  unfold World.out2
  split
  · rename_i a b e1 e2
    exact out_ok hw hc (hf a b (slot_rd hw e1) (slot_rd hw e2))
  · exact ⟨_, w, rfl, hw, Kept.refl⟩

/-- a call on a solver -/
theorem solver_ok (hw : WOk w) {i : Nat} {h : Solver} (hi : w.solvers[i]?.join = some h)
    {α : Type} {f : OM V α} {g : α → Option Solver}
    (hf : SolverOk h → Tri false env0 (solverOwn h) f (fun r => solverOwn? (g r))
      (fun r => ∀ h', g r = some h' → SolverOk h')) :
    ∃ r s', f w.mem = some (r, s') ∧ WOk { w with mem := s', solvers := w.solvers.set i (g r) } ∧
      Kept none (fun _ => False) w { w with mem := s', solvers := w.solvers.set i (g r) } := by
  have hi' := join_some.mp hi
  have hh := hw.solvers h (List.mem_of_getElem? hi')
  obtain ⟨G, h1, h2, h3⟩ := sum_split solverOwn? hi'
  obtain ⟨r, s', e, p, hs, _, _, _, r4, r5⟩ := hf hh w.mem ((w.slots.map handleOwn?).sum + G)
    (by
      have := hw.mem
      unfold worldOwn at this
      rw [h1, show (w.slots.map handleOwn?).sum + (solverOwn? (some h) + G) =
        solverOwn h + ((w.slots.map handleOwn?).sum + G) by simp only [solverOwn?]; abel] at this
      exact this) (fun h => by cases h) (fun a ha => absurd ha id)
  refine ⟨r, s', e, ⟨?_, hw.handles, ?_⟩, ⟨fun _ _ _ => rfl, ?_, r4, le_refl _⟩⟩
  · show St s' _
    unfold worldOwn
    dsimp only
    rw [h2, show (w.slots.map handleOwn?).sum + (solverOwn? (g r) + G) =
      solverOwn? (g r) + ((w.slots.map handleOwn?).sum + G) by abel]
    exact hs
  · intro q hq
    rcases List.mem_or_eq_of_mem_set hq with hq | hq
    · exact hw.solvers q hq
    · exact p q hq.symm
  · intro j h' _ hj a ha
    exact r5 a (Multiset.mem_add.mpr (.inl (mem_sum _ (List.mem_of_getElem? hj) ha)))

end Step

theorem Kept.mono {t : Option Nat} {W W' : Nat → Prop} {w w' : World V} (h : Kept none W w w')
    (hW : ∀ k, W k → W' k) : Kept t W' w w' :=
  ⟨fun j _ => h.slots j (by simp), fun j x _ => h.heap j x (by simp), fun k hk => h.user k (fun hw => hk (hW k hw)),
    h.len⟩

theorem Kept.weaken {t : Option Nat} {W W' : Nat → Prop} {w w' : World V} (h : Kept t W w w')
    (hW : ∀ k, W k → W' k) : Kept t W' w w' :=
  ⟨h.slots, h.heap, fun k hk => h.user k (fun hw => hk (hW k hw)), h.len⟩

theorem Kept.trans {t : Option Nat} {W : Nat → Prop} {w w' w'' : World V} (h : Kept t W w w')
    (h' : Kept t W w' w'') : Kept t W w w'' := by
  refine ⟨?_, ?_, fun k hk => (h'.user k hk).trans (h.user k hk), le_trans h.len h'.len⟩
  · intro j hj hl
    exact (h'.slots j hj (lt_of_lt_of_le hl h.len)).trans (h.slots j hj hl)
  · intro j x hj hx a ha
    have hl : j < w.slots.length := (List.getElem?_eq_some_iff.mp hx).1
    exact (h'.heap j x hj ((h.slots j hj hl).trans hx) a ha).trans (h.heap j x hj hx a ha)

/-- the handle worked on keeps the arrays it has, unless it is destroyed -/
def TargetKept (t : Option Nat) (w w' : World V) : Prop :=
  ∀ i h, t = some i → w.slots[i]? = some (some h) →
    w'.slots[i]? = some none ∨ ∃ h', w'.slots[i]? = some (some h') ∧ Same h h'

/-- C23, one call: it does not run into undefined behaviour, what is live afterwards is exactly what the
handles own, and other handles keep their arrays -/
theorem C23_step {w : World V} (hw : WOk w) (cl : Call V) (hc : Call.Ok cl) :
    ∃ st w', cl.step w = some (st, w') ∧ WOk w' ∧ Kept (Op.target cl.op) (Op.mayWrite w cl.op) w w' ∧
      TargetKept (Op.target cl.op) w w' := by
  obtain ⟨op, fails⟩ := cl
  unfold Call.step
  have hw0 : WOk ({ w with mem := { w.mem with fails := fails } } : World V) := ⟨hw.mem, hw.handles, hw.solvers⟩
  have hmw : Op.mayWrite w op = Op.mayWrite ({ w with mem := { w.mem with fails := fails } } : World V) op := by
    cases op <;> rfl
  have fin : ∀ r : Option (Status × World V),
      (∃ st w', r = some (st, w') ∧ WOk w' ∧
        Kept (Op.target op) (Op.mayWrite ({ w with mem := { w.mem with fails := fails } } : World V) op)
          ({ w with mem := { w.mem with fails := fails } } : World V) w' ∧
        TargetKept (Op.target op) w w') →
      ∃ st w', r = some (st, w') ∧ WOk w' ∧ Kept (Op.target op) (Op.mayWrite w op) w w' ∧
        TargetKept (Op.target op) w w' := by
    rintro r ⟨st, w', e, h1, h2, h3⟩
    refine ⟨st, w', e, h1, ?_, h3⟩
    rw [hmw]
    exact ⟨h2.slots, h2.heap, h2.user, h2.len⟩
  apply fin
  have hcf : Op.fragile op = true → ∀ b ∈ fails, b = false := hc
  clear fin hmw hc
  have hslots : ({ w with mem := { w.mem with fails := fails } } : World V).slots = w.slots := rfl
  rw [show TargetKept (Op.target op) w =
    TargetKept (Op.target op) ({ w with mem := { w.mem with fails := fails } } : World V) from rfl]
  have hfl : ({ w with mem := { w.mem with fails := fails } } : World V).mem.fails = fails := rfl
  generalize ({ w with mem := { w.mem with fails := fails } } : World V) = w1 at *
  have hf0 : false = true → ∀ b ∈ w1.mem.fails, b = false := fun h => by cases h
  -- results of the helpers
  have of_out : ∀ {r : Option (Status × World V)}, Op.target op = none →
      (∃ st w', r = some (st, w') ∧ WOk w' ∧ Kept none (fun _ => False) w1 w') →
      ∃ st w', r = some (st, w') ∧ WOk w' ∧ Kept (Op.target op) (Op.mayWrite w1 op) w1 w' ∧
        TargetKept (Op.target op) w1 w' := by
    rintro r ht ⟨st, w', e, h1, h2⟩
    refine ⟨st, w', e, h1, h2.mono (fun _ h => h.elim), ?_⟩
    rw [ht]
    intro i h hi
    cases hi
  have of_slot : ∀ {r : Option (Status × World V)} {i : Nat} {W : Env} {c : Bool}, Op.target op = some i →
      (∀ k, W.w k → Op.mayWrite w1 op k) →
      (∃ st w', r = some (st, w') ∧ WOk w' ∧ Kept (some i) W.w w1 w' ∧
        (c = true → ∀ b ∈ w'.mem.fails, b = false) ∧
        (∀ h, w1.slots[i]? = some (some h) → ∃ h', w'.slots[i]? = some (some h') ∧ Kp h h')) →
      ∃ st w', r = some (st, w') ∧ WOk w' ∧ Kept (Op.target op) (Op.mayWrite w1 op) w1 w' ∧
        TargetKept (Op.target op) w1 w' := by
    rintro r i W c ht hW ⟨st, w', e, h1, h2, _, h3⟩
    refine ⟨st, w', e, h1, ?_, ?_⟩
    · rw [ht]; exact h2.weaken hW
    · rw [ht]
      intro j h hj hh
      cases hj
      obtain ⟨h', e', k⟩ := h3 h hh
      exact .inr ⟨h', e', k.2⟩
  have no : ∀ a, ¬ env0.r a := fun _ h => h
  cases op with
  | create st k us => exact of_out rfl (out_ok hw0 hf0 (create_tri st k us))
  | addHyb i st us =>
    exact of_slot (W := env0) rfl (fun _ h => h.elim) (onSlot_ok hw0 hf0 no (fun h hh _ => addHyb_tri hh))
  | hint i st =>
    exact of_slot (W := env0) rfl (fun _ h => h.elim) (onSlot_ok hw0 hf0 no (fun h hh _ => hint_tri hh))
  | prepare i ss =>
    have hcf : ss.any isIlu = true → ∀ b ∈ w1.mem.fails, b = false := by rw [hfl]; exact hcf
    exact of_slot (W := env0) rfl (fun _ h => h.elim) (onSlot_ok (c := ss.any isIlu) hw0 hcf no
      (fun h hh _ => prepare_tri hh id))
  | update i st v =>
    cases hj : w1.slots[i]?.join with
    | none =>
      exact ⟨.invalidPointer, w1, by simp only [Op.step, World.onSlot, hj], hw0, Kept.refl, by
        intro k h hk hh
        cases hk
        rw [join_some.mpr hh] at hj
        cases hj⟩
    | some h =>
      have hi := join_some.mp hj
      refine of_slot (W := usersOf h) rfl ?_ (onSlot_ok hw0 hf0 (fun _ h => h) ?_)
      · rintro k ⟨o, h1, h2⟩
        exact ⟨h, o, hi, h1, h2⟩
      · intro h' hh' hi'
        rw [hi] at hi'
        cases hi'
        exact update_tri hh'
  | order i st ind v =>
    cases hj : w1.slots[i]?.join with
    | none =>
      exact ⟨.invalidPointer, w1, by simp only [Op.step, World.onSlot, hj], hw0, Kept.refl, by
        intro k h hk hh
        cases hk
        rw [join_some.mpr hh] at hj
        cases hj⟩
    | some h =>
      have hi := join_some.mp hj
      refine of_slot (W := usersOf h) rfl ?_ (onSlot_ok hw0 hf0 (fun _ h => h) ?_)
      · rintro k ⟨o, h1, h2⟩
        exact ⟨h, o, hi, h1, h2⟩
      · intro h' hh' hi'
        rw [hi] at hi'
        cases hi'
        exact order_tri hh'
  | copy i st st2 => exact of_out rfl (out1_ok hw0 hf0 (fun h hr => copy_tri hr))
  | convertCsr i st st2 =>
    exact of_out rfl (out1_ok hw0 hf0 (fun h hr => (convertCsr_tri hr).conseq rfl (fun _ h => ⟨rfl, h.1⟩)))
  | convertBsr i st stt st1 st2 tr =>
    have hcf : true = true → ∀ b ∈ w1.mem.fails, b = false := by rw [hfl]; exact hcf
    exact of_out rfl (out1_ok hw0 hcf (fun h hr => convertBsr_tri rfl hr))
  | syrk i st st2 tr => exact of_out rfl (out1_ok hw0 hf0 (fun h hr => syrk_tri hr))
  | sypr i a st1 st2 full =>
    obtain ⟨st, w2, e, h1, h2, _, h3⟩ := onSlot_ok (W := env0) (i := i) (f := csrCscOptimize a) hw0 hf0 no
      (fun h hh _ => csrCscOptimize_tri hh)
    have tk : TargetKept (some i) w1 w2 := by
      intro j h hj hh
      cases hj
      obtain ⟨h', e', k⟩ := h3 h hh
      exact .inr ⟨h', e', k.2⟩
    by_cases hs : st = .success
    · obtain ⟨st', w3, e', k1, k2⟩ := out_ok (c := false) (f := syprOut st1 st2 full) h1
        (fun h => by cases h) syprOut_tri
      refine ⟨st', w3, ?_, k1, h2.trans (k2.mono (fun _ h => h)), ?_⟩
      · simp only [Op.step, e, hs, ne_eq, not_true_eq_false, if_false]
        exact e'
      · intro j h hj hh
        have hl : j < w2.slots.length := lt_of_lt_of_le (List.getElem?_eq_some_iff.mp hh).1 h2.len
        rw [k2.slots j (by simp) hl]
        exact tk j h hj hh
    · refine ⟨st, w2, ?_, h1, h2, tk⟩
      simp only [Op.step, e, ne_eq, hs, not_false_eq_true, if_true]
  | add i j st how stc st2 => exact of_out rfl (out2_ok hw0 hf0 (fun a b ha hb => add_tri ha hb))
  | sp2m i j st stA stB st1 st2 em tA tB ovf full =>
    exact of_out rfl (out2_ok hw0 hf0 (fun a b ha hb => sp2m_tri ha hb))
  | sp2md i st stB temp =>
    refine of_out rfl ?_
    cases hj : w1.slots[i]?.join with
    | none => exact ⟨_, w1, by simp only [Op.step, hj]; rfl, hw0, Kept.refl⟩
    | some h =>
      obtain ⟨r, s', e, p, hs, _, _, _, r4, r5⟩ := sp2md_tri (c := false) (W := envR w1) (st := st) (stB := stB)
        (temp := temp) (slot_rd hw0 hj) w1.mem (worldOwn w1) (by rw [zero_add]; exact hw0.mem)
        (fun h => by cases h) (fun a ha => Multiset.mem_add.mpr (.inl ha))
      refine ⟨r, { w1 with mem := s' }, by simp [Op.step, hj, World.run, e], ⟨?_, hw0.handles, hw0.solvers⟩,
        ⟨fun _ _ _ => rfl, ?_, r4, le_refl _⟩⟩
      · rw [zero_add] at hs; exact hs
      · intro j h _ hj a ha
        exact r5 a (Multiset.mem_add.mpr (.inl (mem_sum _ (List.mem_of_getElem? hj) ha)))
  | destroy i =>
    cases hj : w1.slots[i]?.join with
    | none =>
      exact ⟨.success, w1, by simp only [Op.step, hj], hw0, Kept.refl, by
        intro k h hk hh
        cases hk
        rw [join_some.mpr hh] at hj
        cases hj⟩
    | some h =>
      have hi := join_some.mp hj
      have hh := hw0.handles h (List.mem_of_getElem? hi)
      obtain ⟨G, h1, h2, h3⟩ := sum_split handleOwn? hi
      obtain ⟨r, s', e, p, hs, _, _, _, r4, r5⟩ := destroy_tri (c := false) (W := env0) hh w1.mem
        (G + (w1.solvers.map solverOwn?).sum) (by
          have := hw0.mem
          unfold worldOwn at this
          rw [h1, add_assoc] at this
          exact this) (fun h => by cases h) (fun a ha => ha.elim)
      have hlt : i < w1.slots.length := (List.getElem?_eq_some_iff.mp hi).1
      refine ⟨.success, { w1 with mem := s', slots := w1.slots.set i none }, by simp [Op.step, hj, e],
        ⟨?_, ?_, hw0.solvers⟩, ⟨?_, ?_, r4, by simp⟩, ?_⟩
      · show St s' _
        unfold worldOwn
        rw [h2, add_assoc]
        exact hs
      · intro q hq
        rcases List.mem_or_eq_of_mem_set hq with hq | hq
        · exact hw0.handles q hq
        · cases hq
      · intro j hj _
        have : i ≠ j := fun e => hj (by rw [e]; rfl)
        simp [List.getElem?_set, this]
      · intro j h' hj hj' a ha
        exact r5 a (Multiset.mem_add.mpr (.inl (h3 j _ (fun e => hj (by rw [e]; rfl)) hj' a ha)))
      · intro j h' hj hh'
        cases hj
        exact .inl (by simp [List.getElem?_set, hlt])
  | solverNew opts =>
    refine of_out rfl ?_
    obtain ⟨r, s', e, p, hs, _, _, _, r4, r5⟩ := initSolver_tri (c := false) (W := env0) (opts := opts)
      w1.mem (worldOwn w1) (by rw [zero_add]; exact hw0.mem) (fun h => by cases h) (fun a ha => ha.elim)
    refine ⟨r.1, { w1 with mem := s', solvers := w1.solvers ++ [r.2] }, by simp [Op.step, e],
      ⟨?_, hw0.handles, ?_⟩, ⟨fun _ _ _ => rfl, ?_, r4, le_refl _⟩⟩
    · show St s' _
      unfold worldOwn at hs ⊢
      dsimp only
      rw [List.map_append, List.sum_append]
      simp only [List.map_cons, List.map_nil, List.sum_cons, List.sum_nil, add_zero]
      rw [show (w1.slots.map handleOwn?).sum + ((w1.solvers.map solverOwn?).sum + solverOwn? r.2) =
        solverOwn? r.2 + ((w1.slots.map handleOwn?).sum + (w1.solvers.map solverOwn?).sum) by abel]
      exact hs
    · intro q hq
      rcases List.mem_append.mp hq with hq | hq
      · exact hw0.solvers q hq
      · exact p q (List.mem_singleton.mp hq).symm
    · intro j h _ hj a ha
      exact r5 a (Multiset.mem_add.mpr (.inl (mem_sum _ (List.mem_of_getElem? hj) ha)))
  | solverInput i st =>
    refine of_out rfl ?_
    cases hj : w1.solvers[i]?.join with
    | none => exact ⟨_, w1, by simp only [Op.step, hj]; rfl, hw0, Kept.refl⟩
    | some h =>
      obtain ⟨r, s', e, k1, k2⟩ := solver_ok hw0 hj (f := rciInput st h) (g := fun r => some r.2)
        (fun hh => (rciInput_tri hh).conseq rfl (fun r hr => ⟨rfl, fun h' e => by cases e; exact hr⟩))
      exact ⟨r.1, _, by simp [Op.step, hj, e], k1, k2⟩
  | solverRun i cg ok st =>
    refine of_out rfl ?_
    cases hj : w1.solvers[i]?.join with
    | none => exact ⟨_, w1, by simp only [Op.step, hj]; rfl, hw0, Kept.refl⟩
    | some h =>
      obtain ⟨r, s', e, k1, k2⟩ := solver_ok hw0 hj (f := solverInit cg ok st h) (g := fun r => some r.2)
        (fun hh => (solverInit_tri hh).conseq rfl (fun r hr => ⟨rfl, fun h' e => by cases e; exact hr⟩))
      exact ⟨r.1, _, by simp [Op.step, hj, e], k1, k2⟩
  | solverDestroy i =>
    refine of_out rfl ?_
    cases hj : w1.solvers[i]?.join with
    | none => exact ⟨_, w1, by simp only [Op.step, hj]; rfl, hw0, Kept.refl⟩
    | some h =>
      obtain ⟨r, s', e, k1, k2⟩ := solver_ok hw0 hj (f := destroySolver h) (g := fun _ => none)
        (fun hh => (destroySolver_tri hh).conseq rfl (fun r hr => ⟨rfl, fun h' e => by cases e⟩))
      exact ⟨.success, _, by simp [Op.step, hj, e], k1, k2⟩
  | userWrite k v =>
    refine ⟨.success, _, rfl, ⟨hw0.mem, hw0.handles, hw0.solvers⟩, ⟨fun _ _ _ => rfl, ?_, ?_, le_refl _⟩, ?_⟩
    · intro j h _ _ a _
      rfl
    · intro k' hk
      show (if Ptr.user k' = Ptr.user k then _ else _) = _
      rw [if_neg]
      intro e
      cases e
      exact hk rfl
    · intro i h hi
      cases hi

/-- what a history starts from -/
theorem wok_init (data : Ptr → V) (gen : Nat → V) : WOk (World.init data gen) :=
  ⟨⟨rfl, Multiset.nodup_zero, by intro a ha; exact absurd ha (Multiset.notMem_zero a)⟩,
    fun _ hh => absurd hh List.not_mem_nil, fun _ hh => absurd hh List.not_mem_nil⟩

theorem runCalls_ok (cs : List (Call V)) (hc : ∀ c ∈ cs, Call.Ok c) {w : World V} (hw : WOk w) :
    ∃ sts w', runCalls cs w = some (sts, w') ∧ WOk w' := by
  induction cs generalizing w with
  | nil => exact ⟨[], w, rfl, hw⟩
  | cons c cs ih =>
    obtain ⟨st, w1, e, h1, _⟩ := C23_step hw c (hc c List.mem_cons_self)
    obtain ⟨sts, w2, e2, h2⟩ := ih (fun x hx => hc x (List.mem_cons_of_mem _ hx)) h1
    exact ⟨st :: sts, w2, by simp [runCalls, e, e2], h2⟩

/-- **C23**: after every history of calls (with any pattern of failing allocations outside the two
mishandled calls), nothing was released twice and no array of the caller was released (the history did
not run into undefined behaviour), and what is allocated is exactly what the handles own, each address
owned once -/
theorem C23_history (cs : List (Call V)) (hc : ∀ c ∈ cs, Call.Ok c) (data : Ptr → V) (gen : Nat → V) :
    ∃ sts w, runCalls cs (World.init data gen) = some (sts, w) ∧
      (w.mem.live : Multiset Nat) = worldOwn w ∧ (worldOwn w).Nodup := by
  obtain ⟨sts, w, e, h⟩ := runCalls_ok cs hc (wok_init data gen)
  exact ⟨sts, w, e, h.mem.1, h.mem.2.1⟩

/-- destroying a handle releases exactly what it owns -/
theorem C23_destroy {w : World V} (hw : WOk w) (i : Nat) (h : Handle) (hi : w.slots[i]? = some (some h))
    (fails : List Bool) : ∃ w', Call.step ⟨.destroy i, fails⟩ w = some (.success, w') ∧
      w'.slots[i]? = some none ∧ (w.mem.live : Multiset Nat) = handleOwn h + (w'.mem.live : Multiset Nat) := by
  obtain ⟨st, w', e, h1, h2, h3⟩ := C23_step hw ⟨.destroy i, fails⟩ (fun h => by cases h)
  have hlt : i < w.slots.length := (List.getElem?_eq_some_iff.mp hi).1
  obtain ⟨G, g1, g2, _⟩ := sum_split handleOwn? hi
  unfold Call.step at e
  simp only [Op.step, join_some.mpr hi] at e
  simp only [Option.bind_eq_bind, Option.bind_eq_some_iff] at e
  obtain ⟨r, er, e⟩ := e
  cases e
  refine ⟨{ mem := r.2, slots := w.slots.set i none, solvers := w.solvers }, ?_, ?_, ?_⟩
  · unfold Call.step
    simp only [Op.step, join_some.mpr hi, er]
    rfl
  · simp [List.getElem?_set, hlt]
  · rw [hw.mem.1, h1.mem.1]
    unfold worldOwn
    dsimp only
    rw [g1, g2]
    simp only [handleOwn?]
    abel

/-- destroy everything -/
def destroyAll (w : World V) : List (Call V) :=
  (List.range w.slots.length).map (fun i => ⟨.destroy i, []⟩) ++
    (List.range w.solvers.length).map (fun i => ⟨.solverDestroy i, []⟩)

theorem runCalls_append (cs ds : List (Call V)) (w : World V) :
    runCalls (cs ++ ds) w = (do
      let r ← runCalls cs w
      let q ← runCalls ds r.2
      some (r.1 ++ q.1, q.2)) := by
  induction cs generalizing w with
  | nil => simp only [List.nil_append, runCalls, Option.bind_eq_bind, Option.bind_some]
           cases runCalls ds w <;> rfl
  | cons c cs ih =>
    simp only [List.cons_append, runCalls, ih, Option.bind_eq_bind]
    cases c.step w with
    | none => rfl
    | some r =>
      simp only [Option.bind_some]
      cases runCalls cs r.2 with
      | none => rfl
      | some q =>
        simp only [Option.bind_some]
        cases runCalls ds q.2 <;> rfl

theorem destroySlots (n : Nat) {w : World V} (hw : WOk w) (hn : n ≤ w.slots.length) :
    ∃ sts w', runCalls ((List.range n).map (fun i => (⟨.destroy i, []⟩ : Call V))) w = some (sts, w') ∧
      WOk w' ∧ w'.slots.length = w.slots.length ∧ w'.solvers = w.solvers ∧
      ∀ j < n, w'.slots[j]? = some none := by
  induction n with
  | zero => exact ⟨[], w, rfl, hw, rfl, rfl, by intro j hj; omega⟩
  | succ n ih =>
    obtain ⟨sts, w1, e1, h1, l1, s1, z1⟩ := ih (by omega)
    obtain ⟨st, w2, e2, h2, k2, t2⟩ := C23_step h1 ⟨.destroy n, []⟩ (fun h => by cases h)
    have hx : w2.slots.length = w1.slots.length ∧ w2.solvers = w1.solvers ∧ w2.slots[n]? = some none := by
      unfold Call.step at e2
      simp only [Op.step] at e2
      cases hj : w1.slots[n]?.join with
      | none =>
        rw [hj] at e2
        cases e2
        refine ⟨rfl, rfl, ?_⟩
        have hl : n < w1.slots.length := by omega
        rw [List.getElem?_eq_getElem hl] at hj ⊢
        simpa using hj
      | some h =>
        rw [hj] at e2
        simp only [Option.bind_eq_bind, Option.bind_eq_some_iff] at e2
        obtain ⟨r, _, e2⟩ := e2
        cases e2
        refine ⟨by simp, rfl, ?_⟩
        have hl : n < w1.slots.length := by omega
        simp [List.getElem?_set, hl]
    refine ⟨sts ++ [st], w2, ?_, h2, by omega, hx.2.1.trans s1, ?_⟩
    · rw [List.range_succ, List.map_append, runCalls_append, e1]
      simp [runCalls, e2]
    · intro j hj
      rcases Nat.lt_succ_iff_lt_or_eq.mp hj with h | rfl
      · rw [k2.slots j (by simp [Op.target]; omega) (by omega)]
        exact z1 j h
      · exact hx.2.2

theorem destroySolvers (n : Nat) {w : World V} (hw : WOk w) (hn : n ≤ w.solvers.length) :
    ∃ sts w', runCalls ((List.range n).map (fun i => (⟨.solverDestroy i, []⟩ : Call V))) w = some (sts, w') ∧
      WOk w' ∧ w'.solvers.length = w.solvers.length ∧ w'.slots = w.slots ∧
      ∀ j < n, w'.solvers[j]? = some none := by
  induction n with
  | zero => exact ⟨[], w, rfl, hw, rfl, rfl, by intro j hj; omega⟩
  | succ n ih =>
    obtain ⟨sts, w1, e1, h1, l1, s1, z1⟩ := ih (by omega)
    obtain ⟨st, w2, e2, h2, _, _⟩ := C23_step h1 ⟨.solverDestroy n, []⟩ (fun h => by cases h)
    have hl : n < w1.solvers.length := by omega
    have hx : w2.solvers.length = w1.solvers.length ∧ w2.slots = w1.slots ∧ w2.solvers[n]? = some none ∧
        ∀ j, j ≠ n → w2.solvers[j]? = w1.solvers[j]? := by
      unfold Call.step at e2
      simp only [Op.step] at e2
      cases hj : w1.solvers[n]?.join with
      | none =>
        rw [hj] at e2
        cases e2
        refine ⟨rfl, rfl, ?_, fun _ _ => rfl⟩
        rw [List.getElem?_eq_getElem hl] at hj ⊢
        simpa using hj
      | some h =>
        rw [hj] at e2
        simp only [Option.bind_eq_bind, Option.bind_eq_some_iff] at e2
        obtain ⟨r, _, e2⟩ := e2
        cases e2
        refine ⟨by simp, rfl, ?_, ?_⟩
        · simp [List.getElem?_set, hl]
        · intro j hj
          simp [List.getElem?_set, hj.symm]
    refine ⟨sts ++ [st], w2, ?_, h2, by omega, hx.2.1.trans s1, ?_⟩
    · rw [List.range_succ, List.map_append, runCalls_append, e1]
      simp [runCalls, e2]
    · intro j hj
      rcases Nat.lt_succ_iff_lt_or_eq.mp hj with h | rfl
      · rw [hx.2.2.2 j (by omega)]
        exact z1 j h
      · exact hx.2.2.1

theorem sum_none {α : Type} (f : Option α → Multiset Nat) (h0 : f none = 0) {l : List (Option α)}
    (h : ∀ j < l.length, l[j]? = some none) : (l.map f).sum = 0 := by
  induction l with
  | nil => rfl
  | cons x l ih =>
    have hx : x = none := by simpa using h 0 (by simp)
    have := ih (fun j hj => by simpa using h (j + 1) (by simp; omega))
    simp [hx, h0, this]

/-- **C23**, end of life: after every history, destroying all the handles leaves nothing allocated -/
theorem C23_all_released (cs : List (Call V)) (hc : ∀ c ∈ cs, Call.Ok c) (data : Ptr → V) (gen : Nat → V) :
    ∃ sts w sts' w', runCalls cs (World.init data gen) = some (sts, w) ∧
      runCalls (destroyAll w) w = some (sts', w') ∧ w'.mem.live = [] := by
  obtain ⟨sts, w, e, hw⟩ := runCalls_ok cs hc (wok_init data gen)
  obtain ⟨s1, w1, e1, h1, l1, v1, z1⟩ := destroySlots w.slots.length hw (le_refl _)
  obtain ⟨s2, w2, e2, h2, l2, v2, z2⟩ := destroySolvers w.solvers.length h1 (by rw [v1])
  refine ⟨sts, w, s1 ++ s2, w2, e, ?_, ?_⟩
  · unfold destroyAll
    rw [runCalls_append, e1]
    simp [e2]
  · have hl := h2.mem.1
    unfold worldOwn at hl
    rw [sum_none handleOwn? rfl (by rw [v2, l1]; exact z1),
      sum_none solverOwn? rfl (by rw [l2, v1]; exact z2)] at hl
    simpa using hl

/-! ### C25: copies are independent -/

/-- what the caller can see of the matrix of a handle: the contents of the arrays of its first object -/
def seen (w : World V) (j : Nat) : Option (List (Option V)) :=
  (w.slots[j]?.join.bind Handle.first).map (fun o => o.arrs.map (Option.map w.mem.data))

/-- all arrays of the matrix are the library's, as in every copy -/
def OwnArrays (w : World V) (j : Nat) : Prop :=
  ∀ h o, w.slots[j]? = some (some h) → h.first = some o → o.internal = true

theorem seen_eq {w w' : World V} {j : Nat} (hs : w'.slots[j]? = w.slots[j]?)
    (hd : ∀ h o p, w.slots[j]? = some (some h) → h.first = some o → some p ∈ o.arrs →
      w'.mem.data p = w.mem.data p) : seen w' j = seen w j := by
  unfold seen
  rw [hs]
  cases hj : w.slots[j]?.join with
  | none => rfl
  | some h =>
    simp only [Option.bind_some]
    cases ho : h.first with
    | none => rfl
    | some o =>
      simp only [Option.map_some]
      congr 1
      apply List.map_congr_left
      intro p hp
      cases p with
      | none => rfl
      | some p =>
        simp only [Option.map_some]
        rw [hd h o p (join_some.mp hj) ho hp]

/-- one call that works on another handle does not change the matrix of a handle that has arrays of its
own -/
theorem C25_step {w : World V} (hw : WOk w) (cl : Call V) (hc : Call.Ok cl) (j : Nat)
    (hj : j < w.slots.length) (ho : OwnArrays w j) (ht : Op.target cl.op ≠ some j) :
    ∃ st w', cl.step w = some (st, w') ∧ WOk w' ∧ seen w' j = seen w j ∧ OwnArrays w' j ∧
      j < w'.slots.length := by
  obtain ⟨st, w', e, h1, h2, _⟩ := C23_step hw cl hc
  refine ⟨st, w', e, h1, seen_eq (h2.slots j ht hj) ?_, ?_, lt_of_lt_of_le hj h2.len⟩
  · intro h o p hs hf hp
    have hm := List.mem_of_getElem? hs
    cases p with
    | user k =>
      exact absurd rfl (((hw.handles h hm).objs o (first_mem hf)).own (ho h o hs hf) _ hp k)
    | heap a => exact h2.heap j h ht hs a ((hw.handles h hm).readable (first_mem hf) a hp)
  · intro h o hs hf
    rw [h2.slots j ht hj] at hs
    exact ho h o hs hf

/-- **C25**, first half: whatever is called after a copy was made — on its source (updates, ordering,
destruction, …), on other handles, or changes by the caller of their own arrays — never shows in the copy -/
theorem C25_source_never_shows (cs : List (Call V)) (hc : ∀ c ∈ cs, Call.Ok c) {w : World V} (hw : WOk w)
    (j : Nat) (hj : j < w.slots.length) (ho : OwnArrays w j) (ht : ∀ c ∈ cs, Op.target c.op ≠ some j) :
    ∃ sts w', runCalls cs w = some (sts, w') ∧ seen w' j = seen w j := by
  induction cs generalizing w with
  | nil => exact ⟨[], w, rfl, rfl⟩
  | cons c cs ih =>
    obtain ⟨st, w1, e, h1, h2, h3, h4⟩ := C25_step hw c (hc c List.mem_cons_self) j hj ho
      (ht c List.mem_cons_self)
    obtain ⟨sts, w2, e2, k⟩ := ih (fun x hx => hc x (List.mem_cons_of_mem _ hx)) h1 h4 h3
      (fun x hx => ht x (List.mem_cons_of_mem _ hx))
    exact ⟨st :: sts, w2, by simp [runCalls, e, e2], k.trans h2⟩

/-- **C25**, second half: whatever is called on the copy `i` (updates, ordering, preparation,
destruction, …) never shows in another handle `j`, whether its arrays are the caller's or the library's -/
theorem C25_copy_never_shows (cs : List (Call V)) (hc : ∀ c ∈ cs, Call.Ok c) {w : World V} (hw : WOk w)
    (i j : Nat) (hij : i ≠ j) (hi : i < w.slots.length) (hj : j < w.slots.length) (ho : OwnArrays w i)
    (ht : ∀ c ∈ cs, Op.target c.op = some i ∨ Op.target c.op = none ∧ ∀ k v, c.op ≠ .userWrite k v) :
    ∃ sts w', runCalls cs w = some (sts, w') ∧ seen w' j = seen w j := by
  induction cs generalizing w with
  | nil => exact ⟨[], w, rfl, rfl⟩
  | cons c cs ih =>
    obtain ⟨st, w1, e, h1, h2, h3⟩ := C23_step hw c (hc c List.mem_cons_self)
    have htc := ht c List.mem_cons_self
    have htj : Op.target c.op ≠ some j := by
      rcases htc with h | ⟨h, _⟩ <;> rw [h]
      · intro e; exact hij (Option.some.inj e)
      · simp
    have hno : ∀ k, ¬ Op.mayWrite w c.op k := by
      intro k hk
      obtain ⟨op, fl⟩ := c
      have base : ∀ h o, w.slots[i]? = some (some h) → h.first = some o → some (Ptr.user k) ∈ o.arrs → False := by
        intro h o hs hf hp
        exact absurd rfl (((hw.handles h (List.mem_of_getElem? hs)).objs o (first_mem hf)).own
          (ho h o hs hf) _ hp k)
      cases op with
      | update i' st v =>
        obtain ⟨h, o, hs, hf, hp⟩ := hk
        rcases htc with h' | ⟨h', _⟩
        · cases h'
          exact base h o hs hf hp
        · cases h'
      | order i' st a b =>
        obtain ⟨h, o, hs, hf, hp⟩ := hk
        rcases htc with h' | ⟨h', _⟩
        · cases h'
          exact base h o hs hf hp
        · cases h'
      | userWrite k' v =>
        rcases htc with h' | ⟨_, h'⟩
        · cases h'
        · exact h' _ _ rfl
      | _ => exact hk
    have hown : OwnArrays w1 i := by
      intro h o hs hf
      rcases htc with h' | ⟨h', _⟩
      · cases hx : w.slots[i]? with
        | none => exact absurd hx (by simp; omega)
        | some x =>
          cases x with
          | some h0 =>
            rcases h3 i h0 h' hx with e0 | ⟨h1', e1, sm⟩
            · rw [e0] at hs; cases hs
            · rw [e1] at hs
              cases hs
              unfold Same at sm
              rw [hf] at sm
              cases hf0 : h0.first with
              | none => rw [hf0] at sm; cases sm
              | some o0 =>
                rw [hf0] at sm
                have sm := Option.some.inj sm
                rw [show o.internal = o0.internal from congrArg Prod.fst sm]
                exact ho h0 o0 hx hf0
          | none =>
            exfalso
            have : w1.slots[i]? = some none := by
              have hjn : w.slots[i]?.join = none := by rw [hx]; rfl
              clear ih ho hno htj h1 h2 h3 hs hf
              obtain ⟨op, fl⟩ := c
              unfold Call.step at e
              cases op with
              | sypr i' a s1 s2 full =>
                cases h'
                simp only [Op.step, World.onSlot, hjn] at e
                rw [if_pos (by simp)] at e
                cases e
                exact hx
              | addHyb i' _ _ | hint i' _ | prepare i' _ | update i' _ _ | order i' _ _ _ =>
                cases h'
                simp only [Op.step, World.onSlot, hjn] at e
                cases e
                exact hx
              | destroy i' =>
                cases h'
                simp only [Op.step, hjn] at e
                cases e
                exact hx
              | _ => cases h'
            rw [this] at hs
            cases hs
      · rw [h2.slots i (by rw [h']; simp) hi] at hs
        exact ho h o hs hf
    obtain ⟨sts, w2, e2, k⟩ := ih (fun x hx => hc x (List.mem_cons_of_mem _ hx)) h1
      (lt_of_lt_of_le hi h2.len) (lt_of_lt_of_le hj h2.len) hown (fun x hx => ht x (List.mem_cons_of_mem _ hx))
    refine ⟨st :: sts, w2, by simp [runCalls, e, e2], k.trans (seen_eq (h2.slots j htj hj) ?_)⟩
    intro h o p hs hf hp
    cases p with
    | user k => exact h2.user k (hno k)
    | heap a =>
      have hm := List.mem_of_getElem? hs
      exact h2.heap j h htj hs a ((hw.handles h hm).readable (first_mem hf) a hp)

/-! ### What a copy holds -/

theorem bind_inv {α β : Type} {f : OM V α} {g : α → OM V β} {s s' : Mem V} {b : β}
    (h : (f >>= g) s = some (b, s')) : ∃ a t, f s = some (a, t) ∧ g a t = some (b, s') := by
  change (f s).bind (fun p => g p.1 p.2) = _ at h
  rw [Option.bind_eq_some_iff] at h
  obtain ⟨⟨a, t⟩, e1, e2⟩ := h
  exact ⟨a, t, e1, e2⟩

theorem new_inv {s s' : Mem V} {a : Nat} (h : new s = some (some a, s')) :
    a = s.next ∧ s'.next = s.next + 1 ∧ s'.live = a :: s.live ∧
      ∀ p, p ≠ .heap a → s'.data p = s.data p := by
  unfold new at h
  obtain ⟨b, t, e1, e2⟩ := bind_inv h
  have ht : t.next = s.next ∧ t.live = s.live ∧ t.data = s.data := by
    unfold mayFail at e1
    cases hf : s.fails with
    | nil => rw [hf] at e1; cases e1; exact ⟨rfl, rfl, rfl⟩
    | cons x xs => rw [hf] at e1; cases e1; exact ⟨rfl, rfl, rfl⟩
  cases b with
  | false => cases e2
  | true =>
    cases e2
    refine ⟨ht.1, by simp [ht.1], by simp [ht.2.1], ?_⟩
    intro p hp
    show (if p = .heap t.next then _ else _) = _
    rw [if_neg hp, ht.2.2]

theorem tryNew_inv {k : Nat} {s s' : Mem V} {r : List (Option Ptr)} (h : tryNew k s = some ((true, r), s')) :
    r = (List.range k).map (fun i => some (.heap (s.next + i))) ∧ s'.next = s.next + k ∧
      (∀ a ∈ s.live, a ∈ s'.live) ∧ (∀ i < k, s.next + i ∈ s'.live) ∧
      ∀ p, (∀ i < k, p ≠ .heap (s.next + i)) → s'.data p = s.data p := by
  induction k generalizing s s' r with
  | zero =>
    cases h
    exact ⟨rfl, rfl, fun _ h => h, by intro i hi; omega, fun _ _ => rfl⟩
  | succ k ih =>
    unfold tryNew at h
    obtain ⟨x, t, e1, e2⟩ := bind_inv h
    cases x with
    | none => cases e2
    | some a =>
      obtain ⟨ha, hn, hl, hd⟩ := new_inv e1
      obtain ⟨⟨b, q2⟩, u, e3, e4⟩ := bind_inv e2
      cases b with
      | false => cases e4
      | true =>
      cases e4
      obtain ⟨hr, hn', hl', hm, hd'⟩ := ih e3
      refine ⟨?_, by omega, fun x hx => hl' x (by rw [hl]; exact List.mem_cons_of_mem _ hx), ?_, ?_⟩
      · rw [hr, List.range_succ_eq_map, List.map_cons, List.map_map, ha]
        simp only [Nat.add_zero]
        congr 1
        apply List.map_congr_left
        intro i _
        simp only [Function.comp, hn]
        congr 2
        omega
      · intro i hi
        cases i with
        | zero => exact hl' _ (by rw [hl, ha]; exact List.mem_cons_self)
        | succ i =>
          have := hm i (by omega)
          rw [hn] at this
          rw [show s.next + (i + 1) = s.next + 1 + i by omega]
          exact this
      · intro p hp
        rw [hd' p (fun i hi => by rw [hn, show s.next + 1 + i = s.next + (i + 1) by omega]; exact hp (i + 1) (by omega)),
          hd p (by rw [ha]; exact hp 0 (by omega))]

theorem readP_data {p : Option Ptr} {s s' : Mem V} {v : Option V} (h : readP p s = some (v, s')) :
    s' = s ∧ v = p.map s.data := by
  rcases p with _ | ⟨k | a⟩
  · cases h; exact ⟨rfl, rfl⟩
  · cases h; exact ⟨rfl, rfl⟩
  · change (if a ∈ s.live then _ else _) = _ at h
    split at h
    · cases h; exact ⟨rfl, rfl⟩
    · cases h

theorem writeP_data {a : Nat} {x : V} {s s' : Mem V} (h : writeP (some (.heap a)) x s = some ((), s')) :
    s'.next = s.next ∧ s'.data (.heap a) = x ∧ ∀ p, p ≠ .heap a → s'.data p = s.data p := by
  change (if a ∈ s.live then _ else _) = _ at h
  split at h
  · cases h
    refine ⟨rfl, if_pos rfl, fun p hp => if_neg hp⟩
  · cases h

/-- arrays at new addresses receive the contents of the old ones -/
theorem copyArrs_data {ds : List Nat} {ss : List Ptr} {n : Nat} {s s' : Mem V} (hl : ds.length = ss.length)
    (hd : ds.Nodup) (hds : ∀ a ∈ ds, n ≤ a) (hss : ∀ a, .heap a ∈ ss → a < n)
    (h : copyArrs (ds.map (fun a => some (.heap a))) (ss.map some) s = some ((), s')) :
    ds.map (fun a => s'.data (.heap a)) = ss.map s.data ∧
      (∀ p, (∀ a, p = .heap a → a ∉ ds) → s'.data p = s.data p) := by
  induction ds generalizing ss s with
  | nil =>
    cases ss with
    | nil => cases h; exact ⟨rfl, fun _ _ => rfl⟩
    | cons _ _ => cases hl
  | cons d ds ih =>
    cases ss with
    | nil => cases hl
    | cons p ss =>
      simp only [List.map_cons, copyArrs] at h
      obtain ⟨v, t, e1, e2⟩ := bind_inv h
      obtain ⟨rfl, rfl⟩ := readP_data e1
      simp only [Option.map_some] at e2
      obtain ⟨_, u, e3, e4⟩ := bind_inv e2
      obtain ⟨_, w2, w3⟩ := writeP_data e3
      have hnd := List.nodup_cons.mp hd
      obtain ⟨i1, i2⟩ := ih (by simpa using hl) hnd.2 (fun a ha => hds a (List.mem_cons_of_mem _ ha))
        (fun a ha => hss a (List.mem_cons_of_mem _ ha)) e4
      have hneq : ∀ q ∈ p :: ss, q ≠ .heap d := by
        rintro q hq rfl
        have := hss d hq
        have := hds d List.mem_cons_self
        omega
      refine ⟨?_, ?_⟩
      · rw [List.map_cons, List.map_cons, i1, i2 (.heap d) (by rintro a ha; cases ha; exact hnd.1), w2]
        congr 1
        apply List.map_congr_left
        intro q hq
        exact w3 q (hneq q (List.mem_cons_of_mem _ hq))
      · intro q hq
        rw [i2 q (fun a ha hm => hq a ha (List.mem_cons_of_mem _ hm)),
          w3 q (fun e => hq d e List.mem_cons_self)]

/-- **C25**, equality: a successful copy makes a new handle whose arrays are all its own and hold what
the arrays of the source hold -/
theorem C25_copy_holds {w : World V} (hw : WOk w) (i : Nat) (st st2 : Status) (fails : List Bool)
    {w' : World V} (h : Call.step ⟨.copy i st st2, fails⟩ w = some (.success, w'))
    {hs : Handle} {o : Obj} (hi : w.slots[i]? = some (some hs)) (hf : hs.first = some o) {p q r : Ptr}
    (ha : o.arrs = [some p, some q, some r]) :
    seen w i = some [some (w.mem.data p), some (w.mem.data q), some (w.mem.data r)] ∧
      w'.slots.length = w.slots.length + 1 ∧ seen w' w.slots.length = seen w i ∧ seen w' i = seen w i ∧
      OwnArrays w' w.slots.length := by
  have hm := List.mem_of_getElem? hi
  have hrd := (hw.handles hs hm).readable (first_mem hf)
  have hlow : ∀ a, Ptr.heap a ∈ [p, q, r] → a < w.mem.next := by
    intro a hx
    apply hw.mem.2.2
    refine Multiset.mem_add.mpr (.inl (mem_sum _ hm (hrd a ?_)))
    rw [ha]
    simpa using hx
  have hseen : seen w i = some [some (w.mem.data p), some (w.mem.data q), some (w.mem.data r)] := by
    simp [seen, hi, hf, ha]
  refine ⟨hseen, ?_⟩
  unfold Call.step at h
  simp only [Op.step, World.out1, join_some.mpr hi, World.out] at h
  simp only [Option.bind_eq_bind, Option.bind_eq_some_iff] at h
  obtain ⟨⟨⟨stx, hx⟩, m'⟩, e, h⟩ := h
  simp only [Option.some.injEq, Prod.mk.injEq] at h
  obtain ⟨h1, h2⟩ := h
  subst h1 h2
  dsimp only
  unfold copy at e
  by_cases hst : st = .success
  · rw [if_neg (by simpa using hst)] at e
    obtain ⟨x, m1, e1, e⟩ := bind_inv e
    cases x with
    | none => cases e
    | some hn =>
      unfold newHandle at e1
      obtain ⟨y, m1', e11, e12⟩ := bind_inv e1
      cases y with
      | none => cases e12
      | some a0 =>
        cases e12
        obtain ⟨_, n1, l1, d1⟩ := new_inv e11
        rename_i ha0
        rw [hf] at e
        dsimp only at e
        by_cases hk : o.kind ≠ .csr ∧ o.kind ≠ .coo
        · rw [if_pos hk] at e
          obtain ⟨_, _, _, e⟩ := bind_inv e
          cases e
        · rw [if_neg hk] at e
          by_cases hst2 : st2 = .success
          · rw [if_neg (by simpa using hst2)] at e
            obtain ⟨z, m2, e2, e⟩ := bind_inv e
            cases z with
            | none =>
              obtain ⟨_, _, _, e⟩ := bind_inv e
              cases e
            | some d =>
              unfold newObj at e2
              obtain ⟨y, m3, e21, e22⟩ := bind_inv e2
              cases y with
              | none => cases e22
              | some a1 =>
                obtain ⟨_, n2, l2, d2⟩ := new_inv e21
                rename_i ha1
                obtain ⟨⟨b, rs⟩, m4, e23, e24⟩ := bind_inv e22
                cases b with
                | false =>
                  dsimp only at e24
                  rw [if_neg (by simp)] at e24
                  obtain ⟨_, _, _, e24⟩ := bind_inv e24
                  obtain ⟨_, _, _, e24⟩ := bind_inv e24
                  cases e24
                | true =>
                  cases e24
                  obtain ⟨hr, n4, l4, _, d4⟩ := tryNew_inv e23
                  obtain ⟨_, m5, e3, e⟩ := bind_inv e
                  obtain ⟨vb, m6, e4, e⟩ := bind_inv e
                  have hm6 : m6.data = m5.data := by
                    unfold vec mayFail at e4
                    cases hfl : m5.fails with
                    | nil => rw [hfl] at e4; cases e4; rfl
                    | cons x xs => rw [hfl] at e4; cases e4; rfl
                  cases vb with
                  | false =>
                    dsimp only at e
                    rw [if_neg (by simp)] at e
                    obtain ⟨_, _, _, e⟩ := bind_inv e
                    obtain ⟨_, _, _, e⟩ := bind_inv e
                    cases e
                  | true =>
                    cases e
                    have hrs : rs = [m3.next, m3.next + 1, m3.next + 2].map (fun a => some (Ptr.heap a)) := by
                      rw [hr]; rfl
                    dsimp only at e3
                    rw [hrs, ha] at e3
                    simp only [List.replicate_zero, List.append_nil] at e3
                    have hnx : w.mem.next ≤ m3.next := by
                      have h1 : m1.next = w.mem.next + 1 := n1
                      have h2 : m3.next = m1.next + 1 := n2
                      omega
                    obtain ⟨c1, c2⟩ := copyArrs_data (n := m3.next) (ss := [p, q, r]) rfl
                      (by simp) (by simp) (fun a hx => lt_of_lt_of_le (hlow a hx) hnx) e3
                    have keep : ∀ x ∈ [p, q, r], m2.data x = w.mem.data x := by
                      intro x hx
                      have hne : ∀ a, w.mem.next ≤ a → x ≠ .heap a := by
                        rintro a hle rfl
                        have := hlow a hx
                        omega
                      rw [d4 x (fun j _ => hne _ (by omega)), d2 x (hne _ (by have h1 : m1.next = w.mem.next + 1 := n1; omega)),
                        d1 x (hne _ (le_of_eq (by rw [ha0])))]
                    have keep5 : ∀ x ∈ [p, q, r], m'.data x = w.mem.data x := by
                      intro x hx
                      rw [hm6, c2 x ?_, keep x hx]
                      rintro a rfl hmem
                      have := hlow a hx
                      simp at hmem
                      omega
                    have c1' : [m'.data (.heap m3.next), m'.data (.heap (m3.next + 1)), m'.data (.heap (m3.next + 2))] =
                        [w.mem.data p, w.mem.data q, w.mem.data r] := by
                      rw [hm6]
                      rw [show [w.mem.data p, w.mem.data q, w.mem.data r] = [p, q, r].map m2.data by
                        simp [keep p (by simp), keep q (by simp), keep r (by simp)]]
                      exact c1
                    have hlt : i < w.slots.length := (List.getElem?_eq_some_iff.mp hi).1
                    refine ⟨by simp, ?_, ?_, ?_⟩
                    · rw [hseen]
                      simp only [List.cons.injEq, and_true] at c1'
                      simp [seen, Handle.first, hrs, c1']
                    · rw [hseen]
                      simp [seen, List.getElem?_append_left hlt, hi, hf, ha, keep5]
                    · intro h' o' hs' hf'
                      simp only [List.length_append, List.getElem?_append_right (le_refl _), Nat.sub_self,
                        List.getElem?_cons_zero, Option.some.injEq] at hs'
                      subst hs'
                      simp only [Handle.first, List.head?_cons, Option.join_some, Option.some.injEq] at hf'
                      subst hf'
                      rfl
          · rw [if_pos (by simpa using hst2)] at e
            obtain ⟨_, _, _, e⟩ := bind_inv e
            cases e
            exact absurd rfl hst2
  · rw [if_pos (by simpa using hst)] at e
    cases e
    exact absurd rfl hst

end Props
end Verif
