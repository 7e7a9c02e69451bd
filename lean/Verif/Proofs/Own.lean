/-
Ownership: a small logic for the memory model, and the rules of the building blocks.
-/
import Verif.Spec.Own
import Mathlib.Tactic.Abel

namespace Verif
namespace Proofs
namespace Own
open Model.Own Spec.Own

variable {V α β : Type}

/-- the memory holds exactly the addresses `L`, each once, and fresh addresses are new -/
def St (s : Mem V) (L : Multiset Nat) : Prop :=
  (s.live : Multiset Nat) = L ∧ L.Nodup ∧ ∀ a ∈ L, a < s.next

/-- the arrays of the caller that may be written, and the arrays of other handles that may be read -/
structure Env where
  w : Nat → Prop
  r : Nat → Prop

/-- `f`, started with the addresses `L` (and any others, `F`, among them all that `W.r` allows to read),
does not run into undefined behaviour, and leaves `X a` (and `F`).  With `c` no allocation fails.  Arrays
of the caller outside `W.w` and arrays at the addresses `F` keep their contents. -/
def Tri (c : Bool) (W : Env) (L : Multiset Nat) (f : OM V α) (X : α → Multiset Nat)
    (P : α → Prop) : Prop :=
  ∀ (s : Mem V) (F : Multiset Nat), St s (L + F) → (c = true → ∀ b ∈ s.fails, b = false) →
    (∀ a, W.r a → a ∈ F) →
    ∃ a s', f s = some (a, s') ∧ P a ∧ St s' (X a + F) ∧
      (c = true → ∀ b ∈ s'.fails, b = false) ∧ s.next ≤ s'.next ∧ s'.gen = s.gen ∧
      (∀ k, ¬ W.w k → s'.data (.user k) = s.data (.user k)) ∧
      (∀ a ∈ F, s'.data (.heap a) = s.data (.heap a))

variable {c : Bool} {W : Env} {L L' G : Multiset Nat} {X Y : α → Multiset Nat}
  {P Q : α → Prop}

theorem Tri.conseq {f : OM V α} (h : Tri c W L f X P) (hL : L = L')
    (hq : ∀ a, P a → X a = Y a ∧ Q a) : Tri c W L' f Y Q := by
  subst hL
  intro s F hs hc hR
  obtain ⟨a, s', e, p, hs', r⟩ := h s F hs hc hR
  exact ⟨a, s', e, (hq a p).2, (hq a p).1 ▸ hs', r⟩

theorem Tri.pure {a : α} (hX : L = X a) (hP : P a) : Tri (V := V) c W L (Pure.pure a) X P := by
  intro s F hs hc hR
  exact ⟨a, s, rfl, hP, hX ▸ hs, hc, le_refl _, rfl, fun _ _ => rfl, fun _ _ => rfl⟩

theorem Tri.frame {f : OM V α} (h : Tri c W L f X P) :
    Tri c W (L + G) f (fun a => X a + G) P := by
  intro s F hs hc hR
  obtain ⟨a, s', e, p, hs', r1, r2, r3, r4, r5⟩ := h s (G + F) (by rwa [← add_assoc]) hc
    (fun a ha => Multiset.mem_add.mpr (.inr (hR a ha)))
  exact ⟨a, s', e, p, by rwa [add_assoc], r1, r2, r3, r4,
    fun a ha => r5 a (Multiset.mem_add.mpr (.inr ha))⟩

theorem Tri.bind {f : OM V α} {g : α → OM V β} {Y : β → Multiset Nat} {Q : β → Prop}
    (h : Tri c W L f X P) (hg : ∀ a, P a → Tri c W (X a) (g a) Y Q) :
    Tri c W L (f >>= g) Y Q := by
  intro s F hs hc hR
  obtain ⟨a, s', e, p, hs', r1, r2, r3, r4, r5⟩ := h s F hs hc hR
  obtain ⟨b, t, e', q, ht, t1, t2, t3, t4, t5⟩ := hg a p s' F hs' r1 hR
  refine ⟨b, t, ?_, q, ht, t1, le_trans r2 t2, t3.trans r3,
    fun k hk => (t4 k hk).trans (r4 k hk), fun x hx => (t5 x hx).trans (r5 x hx)⟩
  show (f s).bind (fun p => g p.1 p.2) = _
  rw [e]
  exact e'

/-- run `f` on a part of what is owned, then go on -/
theorem Tri.seq {f : OM V α} {g : α → OM V β} {Y : β → Multiset Nat} {Q : β → Prop}
    (h : Tri c W L f X P) (hL : L' = L + G) (hg : ∀ a, P a → Tri c W (X a + G) (g a) Y Q) :
    Tri c W L' (f >>= g) Y Q := by
  subst hL
  exact h.frame.bind hg

theorem Tri.ite {b : Prop} [Decidable b] {f g : OM V α} (h1 : b → Tri c W L f X P)
    (h2 : ¬ b → Tri c W L g X P) : Tri c W L (if b then f else g) X P := by
  by_cases h : b
  · rw [if_pos h]; exact h1 h
  · rw [if_neg h]; exact h2 h

/-! ### Building blocks -/

theorem mayFail_tri : Tri (V := V) c W 0 mayFail (fun _ => 0) (fun b => c = true → b = true) := by
  intro s F hs hc hR
  unfold mayFail
  cases hf : s.fails with
  | nil => exact ⟨true, s, by simp, fun _ => rfl, hs, hc, le_refl _, rfl, fun _ _ => rfl, fun _ _ => rfl⟩
  | cons b bs =>
    refine ⟨!b, { s with fails := bs }, by simp, ?_, hs, ?_, le_refl _, rfl, fun _ _ => rfl,
      fun _ _ => rfl⟩
    · intro h
      rw [hc h b (hf ▸ List.mem_cons_self)]
      rfl
    · intro h x hx
      exact hc h x (hf ▸ List.mem_cons_of_mem _ hx)

theorem vec_tri : Tri (V := V) c W 0 vec (fun _ => 0) (fun b => c = true → b = true) := mayFail_tri

/-- the address a successful allocation brings -/
def addr : Option Nat → Multiset Nat
  | some a => {a}
  | none => 0

theorem newCell_tri : Tri (V := V) c W 0
    (fun s => some (some s.next,
      { s with next := s.next + 1, live := s.next :: s.live,
               data := fun p => if p = .heap s.next then s.gen s.next else s.data p }))
    addr (fun r => r ≠ none) := by
  intro s F hs hc hR
  obtain ⟨h1, h2, h3⟩ := hs
  rw [zero_add] at h1 h2 h3
  refine ⟨some s.next, _, rfl, by simp, ⟨?_, ?_, ?_⟩, hc, Nat.le_succ _, rfl, ?_, ?_⟩
  · show ((s.next :: s.live : List Nat) : Multiset Nat) = {s.next} + F
    rw [← Multiset.cons_coe, h1, Multiset.singleton_add]
  · show (({s.next} : Multiset Nat) + F).Nodup
    rw [Multiset.singleton_add, Multiset.nodup_cons]
    exact ⟨fun h => Nat.lt_irrefl _ (h3 _ h), h2⟩
  · intro a ha
    show a < s.next + 1
    rcases Multiset.mem_add.mp ha with h | h
    · rw [Multiset.mem_singleton.mp h]; exact Nat.lt_succ_self _
    · exact Nat.lt_succ_of_lt (h3 a h)
  · intro k _
    rfl
  · intro a ha
    show (if Ptr.heap a = Ptr.heap s.next then _ else _) = _
    rw [if_neg]
    intro h
    cases h
    exact Nat.lt_irrefl _ (h3 _ ha)

theorem new_tri : Tri (V := V) c W 0 new addr (fun r => c = true → r ≠ none) := by
  unfold new
  refine Tri.bind mayFail_tri ?_
  intro b hb
  cases b with
  | true => exact newCell_tri.conseq rfl (fun a h => ⟨rfl, fun _ => h⟩)
  | false => exact Tri.pure rfl (fun h => by cases hb h)

theorem free_tri {a : Nat} : Tri (V := V) c W {a} (free a) (fun _ => 0) (fun _ => True) := by
  intro s F hs hc hR
  obtain ⟨h1, h2, h3⟩ := hs
  have hm : a ∈ s.live := by
    have : a ∈ (s.live : Multiset Nat) := by rw [h1]; simp
    simpa using this
  refine ⟨(), { s with live := s.live.erase a }, ?_, trivial, ⟨?_, ?_, ?_⟩, hc, le_refl _, rfl,
    fun _ _ => rfl, fun _ _ => rfl⟩
  · unfold free; rw [if_pos hm]
  · show ((s.live.erase a : List Nat) : Multiset Nat) = 0 + F
    rw [← Multiset.coe_erase, h1, Multiset.singleton_add, Multiset.erase_cons_head, zero_add]
  · rw [zero_add]
    exact (Multiset.nodup_add.mp h2).2.1
  · intro x hx
    rw [zero_add] at hx
    exact h3 x (Multiset.mem_add.mpr (.inr hx))

/-- not a pointer of the caller -/
def NU (p : Option Ptr) : Prop := ∀ k, p ≠ some (.user k)

theorem NU.none : NU none := by intro k; simp
theorem NU.heap {a : Nat} : NU (some (.heap a)) := by intro k; simp

theorem delete_tri {p : Option Ptr} (h : NU p) :
    Tri (V := V) c W (hp p) (delete p) (fun _ => 0) (fun _ => True) := by
  rcases p with _ | ⟨k | a⟩
  · exact Tri.pure rfl trivial
  · exact absurd rfl (h k)
  · exact free_tri

@[simp] theorem hps_nil : hps [] = 0 := rfl
@[simp] theorem hps_cons (p : Option Ptr) (ps : List (Option Ptr)) : hps (p :: ps) = hp p + hps ps := by
  simp [hps]
@[simp] theorem hps_append (ps qs : List (Option Ptr)) : hps (ps ++ qs) = hps ps + hps qs := by
  simp [hps]
@[simp] theorem hp_none : hp none = 0 := rfl
@[simp] theorem hps_replicate_none (n : Nat) : hps (List.replicate n none) = 0 := by
  induction n with
  | zero => rfl
  | succ n ih => rw [List.replicate_succ, hps_cons, ih]; rfl

theorem deleteAll_tri {ps : List (Option Ptr)} (h : ∀ p ∈ ps, NU p) :
    Tri (V := V) c W (hps ps) (deleteAll ps) (fun _ => 0) (fun _ => True) := by
  induction ps with
  | nil => exact Tri.pure rfl trivial
  | cons p ps ih =>
    unfold deleteAll
    refine Tri.seq (delete_tri (h p List.mem_cons_self)) (G := hps ps) (hps_cons _ _) ?_
    intro _ _
    exact (ih (fun q hq => h q (List.mem_cons_of_mem _ hq))).conseq (by abel) (fun _ _ => ⟨rfl, trivial⟩)

theorem tryNew_tri (k : Nat) : Tri (V := V) c W 0 (tryNew k) (fun r => hps r.2)
    (fun r => r.2.length = k ∧ (∀ p ∈ r.2, NU p) ∧ (c = true → r.1 = true)) := by
  induction k with
  | zero => exact Tri.pure rfl ⟨rfl, by simp, fun _ => rfl⟩
  | succ k ih =>
    unfold tryNew
    refine Tri.bind new_tri ?_
    intro r hr
    rcases r with _ | a
    · refine Tri.pure (by simp [addr, List.replicate_succ]) ⟨by simp, ?_, fun h => absurd rfl (hr h)⟩
      intro p hp'
      rw [(List.mem_replicate.mp hp').2]
      exact NU.none
    · refine Tri.seq ih (G := {a}) (by simp [addr]) ?_
      intro r hr
      refine Tri.pure (by simp [hp, add_comm]) ⟨by simp [hr.1], ?_, hr.2.2⟩
      intro p hp'
      rcases List.mem_cons.mp hp' with rfl | h
      · exact NU.heap
      · exact hr.2.1 p h

/-- reading needs the array to be there -/
theorem readP_tri {p : Option Ptr} (h : ∀ a, p = some (.heap a) → a ∈ L ∨ W.r a) :
    Tri (V := V) c W L (readP p) (fun _ => L) (fun _ => True) := by
  intro s F hs hc hR
  rcases p with _ | ⟨k | a⟩
  · exact ⟨none, s, rfl, trivial, hs, hc, le_refl _, rfl, fun _ _ => rfl, fun _ _ => rfl⟩
  · exact ⟨_, s, rfl, trivial, hs, hc, le_refl _, rfl, fun _ _ => rfl, fun _ _ => rfl⟩
  · have hm : a ∈ s.live := by
      have : a ∈ (s.live : Multiset Nat) := by
        rw [hs.1]; exact Multiset.mem_add.mpr ((h a rfl).imp id (hR a))
      simpa using this
    refine ⟨some (s.data (.heap a)), s, ?_, trivial, hs, hc, le_refl _, rfl, fun _ _ => rfl, fun _ _ => rfl⟩
    show (if a ∈ s.live then _ else _) = _
    rw [if_pos hm]

theorem touch_tri {ps : List (Option Ptr)} (h : ∀ a, some (.heap a) ∈ ps → a ∈ L ∨ W.r a) :
    Tri (V := V) c W L (touch ps) (fun _ => L) (fun _ => True) := by
  induction ps with
  | nil => exact Tri.pure rfl trivial
  | cons p ps ih =>
    unfold touch
    refine Tri.bind (readP_tri (fun a ha => h a (ha ▸ List.mem_cons_self))) ?_
    intro _ _
    exact ih (fun a ha => h a (List.mem_cons_of_mem _ ha))

/-- writing: an array of the library that is owned, or one of the caller in `W` -/
theorem writeP_tri {p : Option Ptr} {v : V} (h : ∀ a, p = some (.heap a) → a ∈ L)
    (hu : ∀ k, p = some (.user k) → W.w k) :
    Tri c W L (writeP p v) (fun _ => L) (fun _ => True) := by
  intro s F hs hc hR
  rcases p with _ | ⟨k | a⟩
  · exact ⟨(), s, rfl, trivial, hs, hc, le_refl _, rfl, fun _ _ => rfl, fun _ _ => rfl⟩
  · refine ⟨(), _, rfl, trivial, hs, hc, le_refl _, rfl, ?_, ?_⟩
    · intro j hj
      show (if Ptr.user j = Ptr.user k then _ else _) = _
      rw [if_neg]
      intro e
      cases e
      exact hj (hu _ rfl)
    · intro a _
      rfl
  · have hL : a ∈ L := h a rfl
    have hm : a ∈ s.live := by
      have : a ∈ (s.live : Multiset Nat) := by rw [hs.1]; exact Multiset.mem_add.mpr (.inl hL)
      simpa using this
    refine ⟨(), { s with data := fun p => if p = .heap a then v else s.data p }, ?_, trivial, hs, hc,
      le_refl _, rfl, ?_, ?_⟩
    · show (if a ∈ s.live then _ else _) = _
      rw [if_pos hm]
    · intro j _
      rfl
    · intro b hb
      show (if Ptr.heap b = Ptr.heap a then _ else _) = _
      rw [if_neg]
      intro e
      cases e
      exact (Multiset.disjoint_left.mp (Multiset.nodup_add.mp hs.2.1).2.2) hL hb

/-! ### Objects -/

/-- an object is well formed: its own arrays are the library's, or all are the caller's -/
structure ObjOk (o : Obj) : Prop where
  own : o.internal = true → ∀ p ∈ o.arrs, NU p
  users : o.internal = false → ∀ p ∈ o.arrs, ∀ a, p ≠ some (.heap a)
  idx : NU o.idiag ∧ NU o.iurow ∧ NU o.diagVal

theorem delObj_tri {o : Obj} (h : ObjOk o) :
    Tri (V := V) c W (objOwn o) (delObj o) (fun _ => 0) (fun _ => True) := by
  unfold delObj
  have hx : ∀ p ∈ [o.idiag, o.iurow, o.diagVal], NU p := by
    intro p hp'
    simp only [List.mem_cons, List.not_mem_nil, or_false] at hp'
    rcases hp' with rfl | rfl | rfl
    · exact h.idx.1
    · exact h.idx.2.1
    · exact h.idx.2.2
  have tail : Tri (V := V) c W ({o.self} + hps [o.idiag, o.iurow, o.diagVal])
      (do deleteAll [o.idiag, o.iurow, o.diagVal]; free o.self) (fun _ => 0) (fun _ => True) := by
    refine Tri.seq (deleteAll_tri hx) (G := {o.self}) (by abel) ?_
    intro _ _
    exact free_tri.conseq (by abel) (fun _ _ => ⟨rfl, trivial⟩)
  cases hi : o.internal with
  | true =>
    simp only [if_true]
    refine Tri.seq (deleteAll_tri (h.own hi)) (G := {o.self} + hps [o.idiag, o.iurow, o.diagVal]) ?_ ?_
    · simp only [objOwn, hi, if_true]; abel
    · intro _ _
      exact tail.conseq (by abel) (fun _ _ => ⟨rfl, trivial⟩)
  | false =>
    simp only [Bool.false_eq_true, if_false]
    refine tail.conseq ?_ (fun _ _ => ⟨rfl, trivial⟩)
    simp only [objOwn, hi, Bool.false_eq_true, if_false]; abel

/-- what is known of a fresh object of the library -/
structure Fresh (kind : Kind) (n : Nat) (o : Obj) : Prop where
  ok : ObjOk o
  kind : o.kind = kind
  internal : o.internal = true
  opt : o.opt = false
  len : o.arrs.length = n
  idiag : o.idiag = none
  iurow : o.iurow = none
  diagVal : o.diagVal = none

theorem newObj_tri (kind : Kind) (k e : Nat) : Tri (V := V) c W 0 (newObj kind k e) objOwn?
    (fun r => (∀ o, r = some o → Fresh kind (k + e) o ∧ ∀ i, k ≤ i → o.arrs.getD i none = none) ∧
      (c = true → r ≠ none)) := by
  unfold newObj
  refine Tri.bind new_tri ?_
  intro r hr
  rcases r with _ | a
  · exact Tri.pure rfl ⟨by simp, fun h => absurd rfl (hr h)⟩
  · refine Tri.seq (tryNew_tri k) (G := {a}) (by simp [addr]) ?_
    intro q hq
    refine Tri.ite (fun h => ?_) (fun h => ?_)
    · refine Tri.pure (by simp [objOwn?, objOwn, add_comm]) ⟨?_, by simp⟩
      intro o ho
      cases ho
      refine ⟨⟨⟨?_, by simp, NU.none, NU.none, NU.none⟩, rfl, rfl, rfl, by simp [hq.1], rfl, rfl, rfl⟩, ?_⟩
      · intro _ p hp'
        rcases List.mem_append.mp hp' with h | h
        · exact hq.2.1 p h
        · rw [(List.mem_replicate.mp h).2]; exact NU.none
      · intro i hi
        simp only [List.getD_eq_getElem?_getD]
        rw [List.getElem?_append_right (by omega)]
        cases hx : (List.replicate e (none : Option Ptr))[i - q.2.length]? with
        | none => rfl
        | some x => exact (List.mem_replicate.mp (List.mem_of_getElem? hx)).2 ▸ rfl
    · refine Tri.seq (deleteAll_tri hq.2.1) (G := {a}) rfl ?_
      intro _ _
      refine Tri.seq free_tri (G := 0) (by abel) ?_
      intro _ _
      exact Tri.pure (by simp [objOwn?]) ⟨by simp, fun hc => absurd (hq.2.2 hc) h⟩

theorem newCsr_tri (full : Bool) : Tri (V := V) c W 0 (newCsr full) objOwn?
    (fun r => (∀ o, r = some o → Fresh .csr 3 o ∧
        (full = false → o.arrs.getD 1 none = none ∧ o.arrs.getD 2 none = none)) ∧
      (c = true → r ≠ none)) := by
  unfold newCsr
  cases full
  · exact (newObj_tri .csr 1 2).conseq rfl (fun r h => ⟨rfl, fun o ho =>
      ⟨(h.1 o ho).1, fun _ => ⟨(h.1 o ho).2 1 (by omega), (h.1 o ho).2 2 (by omega)⟩⟩, h.2⟩)
  · exact (newObj_tri .csr 3 0).conseq rfl (fun r h => ⟨rfl, fun o ho =>
      ⟨(h.1 o ho).1, fun h' => by cases h'⟩, h.2⟩)

theorem hps_users (us : List Nat) : ∀ p ∈ us.map (fun k => some (Ptr.user k)), ∀ a, p ≠ some (.heap a) := by
  intro p hp' a
  obtain ⟨k, _, rfl⟩ := List.mem_map.mp hp'
  simp

theorem newUser_tri (kind : Kind) (us : List Nat) : Tri (V := V) c W 0 (newUser kind us) objOwn?
    (fun r => ∀ o, r = some o → ObjOk o ∧ o.kind = kind ∧ o.internal = false ∧ o.opt = false ∧
      o.arrs = us.map (fun k => some (.user k)) ∧ o.idiag = none ∧ o.iurow = none) := by
  unfold newUser
  refine Tri.bind new_tri ?_
  intro r _
  rcases r with _ | a
  · exact Tri.pure rfl (by simp)
  · refine Tri.pure (by simp [addr, objOwn?, objOwn]) ?_
    intro o ho
    cases ho
    exact ⟨⟨by simp, fun _ => hps_users us, NU.none, NU.none, NU.none⟩, rfl, rfl, rfl, rfl, rfl, rfl⟩

theorem len_two {r : List (Option Ptr)} (h : r.length = 2) : r = [r.getD 0 none, r.getD 1 none] := by
  match r, h with
  | [a, b], _ => rfl

theorem len_three {r : List (Option Ptr)} (h : r.length = 3) :
    r = [r.getD 0 none, r.getD 1 none, r.getD 2 none] := by
  match r, h with
  | [a, b, d], _ => rfl

theorem hps_two {r : List (Option Ptr)} (h : r.length = 2) :
    hps r = hp (r.getD 0 none) + hp (r.getD 1 none) := by
  conv_lhs => rw [len_two h]
  simp

theorem hps_three {r : List (Option Ptr)} (h : r.length = 3) :
    hps r = hp (r.getD 0 none) + hp (r.getD 1 none) + hp (r.getD 2 none) := by
  conv_lhs => rw [len_three h]
  simp only [hps_cons, hps_nil]; abel

theorem NU.getD {r : List (Option Ptr)} (h : ∀ p ∈ r, NU p) (i : Nat) : NU (r.getD i Option.none) := by
  rw [List.getD_eq_getElem?_getD]
  cases hx : r[i]? with
  | none => exact NU.none
  | some x => exact h x (List.mem_of_getElem? hx)

theorem newTcsr_tri (us : List Nat) : Tri (V := V) c W 0 (newTcsr us) objOwn?
    (fun r => ∀ o, r = some o → ObjOk o ∧ o.kind = .tcsr ∧ o.internal = false ∧
      o.arrs = us.map (fun k => some (.user k))) := by
  unfold newTcsr
  refine Tri.bind new_tri ?_
  intro r hr
  rcases r with _ | a
  · exact Tri.pure rfl (by simp)
  · refine Tri.seq (tryNew_tri 2) (G := {a}) (by simp [addr]) ?_
    intro q hq
    refine Tri.ite (fun h => ?_) (fun h => ?_)
    · refine Tri.pure ?_ ?_
      · simp only [objOwn?, objOwn, hps_two hq.1, Bool.false_eq_true, if_false, hps_cons, hps_nil, hp_none]
        abel
      · intro o ho
        cases ho
        exact ⟨⟨by simp, fun _ => hps_users us, NU.getD hq.2.1 0, NU.getD hq.2.1 1, NU.none⟩, rfl, rfl, rfl⟩
    · refine Tri.seq (deleteAll_tri hq.2.1) (G := {a}) rfl ?_
      intro _ _
      refine Tri.seq free_tri (G := 0) (by abel) ?_
      intro _ _
      exact Tri.pure (by simp [objOwn?]) (by simp)

/-! ### Handles -/

/-- a handle is well formed -/
structure HOk (h : Handle) : Prop where
  objs : ∀ o, some o ∈ h.mats → ObjOk o
  /-- no objects at all, or a first one; if it is not of the kind csr then none is -/
  shape : h.mats = [] ∨ ∃ o ms, h.mats = some o :: ms ∧
    (o.kind = .csr ∨ ∀ p, some p ∈ h.mats → p.kind ≠ .csr) ∧
    (o.kind = .csr → o.opt = false → o.idiag = none ∧ o.iurow = none)
  ilu : h.iluReady = false → h.iluDiag = none ∧ h.iluVal = none
  iluNU : NU h.iluDiag ∧ NU h.iluVal

def matsOwn (ms : List (Option Obj)) : Multiset Nat := (ms.map objOwn?).sum

@[simp] theorem matsOwn_nil : matsOwn [] = 0 := rfl
@[simp] theorem matsOwn_cons (m : Option Obj) (ms : List (Option Obj)) :
    matsOwn (m :: ms) = objOwn? m + matsOwn ms := by simp [matsOwn]
@[simp] theorem matsOwn_append (ms ns : List (Option Obj)) :
    matsOwn (ms ++ ns) = matsOwn ms + matsOwn ns := by simp [matsOwn]

theorem handleOwn_eq (h : Handle) : handleOwn h =
    {h.self} + (h.hints : Multiset Nat) + hps [h.iluDiag, h.iluVal] + matsOwn h.mats := rfl

theorem delMats_tri {ms : List (Option Obj)} (h : ∀ o, some o ∈ ms → ObjOk o) :
    Tri (V := V) c W (matsOwn ms) (delMats ms) (fun _ => 0) (fun _ => True) := by
  induction ms with
  | nil => exact Tri.pure rfl trivial
  | cons m ms ih =>
    have ih := ih (fun o ho => h o (List.mem_cons_of_mem _ ho))
    rcases m with _ | o
    · exact ih.conseq (by simp [objOwn?]) (fun _ _ => ⟨rfl, trivial⟩)
    · unfold delMats
      refine Tri.seq (delObj_tri (h o List.mem_cons_self)) (G := matsOwn ms) (by simp [objOwn?]) ?_
      intro _ _
      exact ih.conseq (by abel) (fun _ _ => ⟨rfl, trivial⟩)

theorem delHints_tri {l : List Nat} :
    Tri (V := V) c W (l : Multiset Nat) (delHints l) (fun _ => 0) (fun _ => True) := by
  induction l with
  | nil => exact Tri.pure rfl trivial
  | cons a l ih =>
    unfold delHints
    refine Tri.seq free_tri (G := (l : Multiset Nat)) ?_ ?_
    · rw [Multiset.singleton_add, Multiset.cons_coe]
    · intro _ _
      exact ih.conseq (by abel) (fun _ _ => ⟨rfl, trivial⟩)

theorem destroyH_tri {h : Handle} (ho : ∀ o, some o ∈ h.mats → ObjOk o) (hi : NU h.iluDiag ∧ NU h.iluVal) :
    Tri (V := V) c W (handleOwn h) (destroyH h) (fun _ => 0) (fun _ => True) := by
  unfold destroyH
  rw [handleOwn_eq]
  simp only [hps_cons, hps_nil]
  refine Tri.seq delHints_tri (G := {h.self} + hp h.iluDiag + hp h.iluVal + matsOwn h.mats) (by abel) ?_
  intro _ _
  refine Tri.seq (delete_tri hi.1) (G := {h.self} + hp h.iluVal + matsOwn h.mats) (by abel) ?_
  intro _ _
  refine Tri.seq (delete_tri hi.2) (G := {h.self} + matsOwn h.mats) (by abel) ?_
  intro _ _
  refine Tri.seq (delMats_tri ho) (G := {h.self}) (by abel) ?_
  intro _ _
  exact free_tri.conseq (by abel) (fun _ _ => ⟨rfl, trivial⟩)

end Own
end Proofs
end Verif
