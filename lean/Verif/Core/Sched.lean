/-
Threads that run concurrently, one access to shared memory at a time.

A thread is a program whose steps are reads and writes of shared memory cells; everything else it does is
local.  A configuration consists of the rest of the program of each thread and of the memory.  In a
step, any one thread performs its next access.  An access to a cell that does not exist is undefined
behaviour, and so is a data race: two threads about to access the same cell, at least one of them to
write it.
-/
import Verif.Core.Mem
import Verif.Core.Team
import Mathlib.Logic.Relation
import Mathlib.Logic.Function.Basic
import Mathlib.Algebra.BigOperators.Group.Finset.Basic

namespace Verif

/-- a thread: `L` are the cells, `V` their contents, `α` the local result -/
inductive ThP (L V α : Type) : Type
  | ret (a : α)
  | fail
  | read (l : L) (k : V → ThP L V α)
  | write (l : L) (v : V) (k : ThP L V α)

namespace ThP
variable {L V α β : Type}

def bind : ThP L V α → (α → ThP L V β) → ThP L V β
  | .ret a, f => f a
  | .fail, _ => .fail
  | .read l k, f => .read l fun v => bind (k v) f
  | .write l v k, f => .write l v (bind k f)

instance : Monad (ThP L V) where
  pure := .ret
  bind := .bind

/-- a local computation -/
def lift : Option α → ThP L V α
  | some a => .ret a
  | none => .fail

/-- `n` iterations of a counting loop starting at `i` -/
def forPN (f : Int → α → ThP L V α) : Nat → Int → α → ThP L V α
  | 0, _, s => .ret s
  | n + 1, i, s => (f i s).bind (forPN f n (i + 1))

/-- `for(i = lo; i < hi; ++i) f i` -/
def forP (lo hi : Int) (f : Int → α → ThP L V α) (s : α) : ThP L V α :=
  forPN f (hi - lo).toNat lo s

/-- the cell that the next step accesses, and whether it is written -/
def next : ThP L V α → Option (L × Bool)
  | .read l _ => some (l, false)
  | .write l _ _ => some (l, true)
  | _ => none

end ThP

variable {L V : Type} [DecidableEq L]

/-- threads and memory -/
structure PCfg (L V : Type) where
  th : Nat → ThP L V Unit
  mem : L → Option V

/-- thread `t` performs its next access -/
inductive PStep : PCfg L V → PCfg L V → Prop
  | read {c : PCfg L V} (t : Nat) {l : L} {k : V → ThP L V Unit} {v : V} (h : c.th t = .read l k)
      (hv : c.mem l = some v) : PStep c ⟨Function.update c.th t (k v), c.mem⟩
  | write {c : PCfg L V} (t : Nat) {l : L} {v : V} {k : ThP L V Unit} (h : c.th t = .write l v k)
      (hv : c.mem l ≠ none) :
      PStep c ⟨Function.update c.th t k, Function.update c.mem l (some v)⟩

/-- `n` steps, of any threads in any order -/
inductive PRun : Nat → PCfg L V → PCfg L V → Prop
  | zero (c : PCfg L V) : PRun 0 c c
  | succ {n : Nat} {c d e : PCfg L V} (h : PRun n c d) (h' : PStep d e) : PRun (n + 1) c e

/-- a thread is about to do something undefined -/
def PUndef (c : PCfg L V) : Prop :=
  ∃ t, c.th t = .fail ∨ ∃ l w, (c.th t).next = some (l, w) ∧ c.mem l = none

/-- two threads are about to access the same cell, at least one of them to write it -/
def PRace (c : PCfg L V) : Prop :=
  ∃ t t' l w w', t ≠ t' ∧ (c.th t).next = some (l, w) ∧ (c.th t').next = some (l, w') ∧
    (w = true ∨ w' = true)

/-- all threads have finished -/
def PDone (c : PCfg L V) : Prop := ∀ t, c.th t = .ret ()

/-- However the threads `th`, started on the memory `m0`, are interleaved: nothing undefined and no
race happens, threads that are not done can go on, all runs end within `N` steps, and at the end the memory is
`m1`. -/
structure AllSchedules (th : Nat → ThP L V Unit) (m0 m1 : L → Option V) : Prop where
  safe : ∀ n c, PRun n ⟨th, m0⟩ c → ¬ PUndef c ∧ ¬ PRace c
  ends : ∃ N, (∀ n c, PRun n ⟨th, m0⟩ c → n ≤ N) ∧ ∃ c, PRun N ⟨th, m0⟩ c
  goes : ∀ n c, PRun n ⟨th, m0⟩ c → PDone c ∨ ∃ d, PStep c d
  result : ∀ n c, PRun n ⟨th, m0⟩ c → PDone c → c.mem = m1

/-- The program, run alone from the memory `m`, does nothing undefined, writes only cells in `own`, reads
only cells in `own` or `ro`, and ends with a result and a memory that satisfy `Q`. -/
def ThP.wp {α : Type} (own ro : L → Prop) : ThP L V α → (L → Option V) → (α → (L → Option V) → Prop) → Prop
  | .ret a, m, Q => Q a m
  | .fail, _, _ => False
  | .read l k, m, Q => (own l ∨ ro l) ∧ ∃ v, m l = some v ∧ wp own ro (k v) m Q
  | .write l v k, m, Q => own l ∧ m l ≠ none ∧ wp own ro k (Function.update m l (some v)) Q

/-- the number of accesses of the program, run alone -/
def ThP.len {α : Type} : ThP L V α → (L → Option V) → Nat
  | .ret _, _ => 0
  | .fail, _ => 0
  | .read l k, m => match m l with
    | some v => (k v).len m + 1
    | none => 0
  | .write l v k, m => k.len (Function.update m l (some v)) + 1

namespace ThP
variable {α β : Type} {own ro : L → Prop}

theorem wp_bind (p : ThP L V α) (f : α → ThP L V β) (m : L → Option V) (Q : β → (L → Option V) → Prop) :
    (p.bind f).wp own ro m Q ↔ p.wp own ro m (fun a m' => (f a).wp own ro m' Q) := by
  induction p generalizing m with
  | ret a => rfl
  | fail => rfl
  | read l k ih =>
    show (_ ∧ ∃ v, _ ∧ _) ↔ (_ ∧ ∃ v, _ ∧ _)
    simp only [ih]
  | write l v k ih =>
    show (_ ∧ _ ∧ _) ↔ (_ ∧ _ ∧ _)
    rw [ih]

theorem wp_mono {p : ThP L V α} {m : L → Option V} {Q Q' : α → (L → Option V) → Prop}
    (h : ∀ a m', Q a m' → Q' a m') (hp : p.wp own ro m Q) : p.wp own ro m Q' := by
  induction p generalizing m with
  | ret a => exact h a m hp
  | fail => exact hp
  | read l k ih => exact ⟨hp.1, hp.2.choose, hp.2.choose_spec.1, ih _ hp.2.choose_spec.2⟩
  | write l v k ih => exact ⟨hp.1, hp.2.1, ih hp.2.2⟩

/-- a larger region -/
theorem wp_own {own' ro' : L → Prop} {p : ThP L V α} {m : L → Option V} {Q : α → (L → Option V) → Prop}
    (ho : ∀ l, own l → own' l) (hr : ∀ l, ro l → own' l ∨ ro' l) (hp : p.wp own ro m Q) :
    p.wp own' ro' m Q := by
  induction p generalizing m with
  | ret a => exact hp
  | fail => exact hp
  | read l k ih =>
    obtain ⟨h1, v, h2, h3⟩ := hp
    refine ⟨h1.elim (fun h => .inl (ho l h)) (hr l), v, h2, ih v h3⟩
  | write l v k ih => exact ⟨ho l hp.1, hp.2.1, ih hp.2.2⟩

/-- the memory outside the region matters neither for the run nor for its length -/
theorem wp_agree {p : ThP L V α} {m m' : L → Option V} {Q : α → (L → Option V) → Prop}
    (hQ : ∀ a m m', (∀ l, own l ∨ ro l → m l = m' l) → Q a m → Q a m')
    (he : ∀ l, own l ∨ ro l → m l = m' l) (hp : p.wp own ro m Q) :
    p.wp own ro m' Q ∧ p.len m' = p.len m := by
  induction p generalizing m m' with
  | ret a => exact ⟨hQ a m m' he hp, rfl⟩
  | fail => exact ⟨hp, rfl⟩
  | read l k ih =>
    obtain ⟨h1, v, h2, h3⟩ := hp
    have h2' : m' l = some v := by rw [← he l h1, h2]
    obtain ⟨i1, i2⟩ := ih v he h3
    refine ⟨⟨h1, v, h2', i1⟩, ?_⟩
    simp only [len, h2, h2', i2]
  | write l v k ih =>
    obtain ⟨h1, h2, h3⟩ := hp
    obtain ⟨i1, i2⟩ := ih (m' := Function.update m' l (some v)) (fun x hx => by
      by_cases e : x = l
      · subst e; simp
      · rw [Function.update_of_ne e, Function.update_of_ne e]; exact he x hx) h3
    refine ⟨⟨h1, by rw [← he l (.inl h1)]; exact h2, i1⟩, ?_⟩
    simp only [len, i2]

end ThP

theorem prun_trans_one {n : Nat} {c d e : PCfg L V} (h : PStep c d) (h' : PRun n d e) : PRun (n + 1) c e := by
  induction h' with
  | zero => exact .succ (.zero c) h
  | succ _ hs ih => exact .succ (ih h) hs

/-- **Threads with disjoint regions.**  If thread `t < T`, alone on the initial memory, writes only cells in
`own t`, reads only those and cells that no thread owns, and leaves `m1` in its cells, then every
interleaving is free of races and of undefined behaviour and ends with `m1`. -/
theorem all_schedules {T : Nat} {th : Nat → ThP L V Unit} {m0 m1 : L → Option V} {own : Nat → L → Prop}
    (hrest : ∀ t, T ≤ t → th t = .ret ()) (hdisj : ∀ t t' l, own t l → own t' l → t = t')
    (hT : ∀ t l, own t l → t < T)
    (hwp : ∀ t, t < T → (th t).wp (own t) (fun l => ∀ t', ¬ own t' l) m0
      (fun _ m => ∀ l, own t l → m l = m1 l))
    (hun : ∀ l, (∀ t, ¬ own t l) → m0 l = m1 l) : AllSchedules th m0 m1 := by
  -- what holds at every moment
  let Inv : Nat → PCfg L V → Prop := fun n c =>
    (∀ t, T ≤ t → c.th t = .ret ()) ∧
    (∀ t, t < T → (c.th t).wp (own t) (fun l => ∀ t', ¬ own t' l) c.mem
      (fun _ m => ∀ l, own t l → m l = m1 l)) ∧
    (∀ l, (∀ t, ¬ own t l) → c.mem l = m1 l) ∧
    n + ∑ t ∈ Finset.range T, (c.th t).len c.mem = ∑ t ∈ Finset.range T, (th t).len m0
  have hQ : ∀ t, ∀ (_ : Unit) (m m' : L → Option V),
      (∀ l, own t l ∨ (∀ t', ¬ own t' l) → m l = m' l) → (∀ l, own t l → m l = m1 l) →
      ∀ l, own t l → m' l = m1 l := fun t _ m m' h h1 l hl => by rw [← h l (.inl hl), h1 l hl]
  have hstep : ∀ n c d, Inv n c → PStep c d → Inv (n + 1) d := by
    rintro n c d ⟨i1, i2, i3, i4⟩ hs
    cases hs with
    | read t h hv =>
      rename_i l k v
      have ht : t < T := by
        by_contra hn
        rw [i1 t (by omega)] at h
        cases h
      have hw := i2 t ht
      rw [h] at hw
      obtain ⟨-, v', hv', hw'⟩ := hw
      rw [hv] at hv'
      cases hv'
      refine ⟨?_, ?_, i3, ?_⟩
      · intro t' ht'
        show Function.update c.th t (k v) t' = _
        rw [Function.update_of_ne (by omega)]
        exact i1 t' ht'
      · intro t' ht'
        show (Function.update c.th t (k v) t').wp _ _ _ _
        by_cases e : t' = t
        · subst e; rw [Function.update_self]; exact hw'
        · rw [Function.update_of_ne e]; exact i2 t' ht'
      · rw [← i4]
        have hm : t ∈ Finset.range T := Finset.mem_range.mpr ht
        rw [← Finset.add_sum_erase _ _ hm, ← Finset.add_sum_erase (Finset.range T)
          (fun t => (c.th t).len c.mem) hm]
        have e1 : (Function.update c.th t (k v) t).len c.mem + 1 = (c.th t).len c.mem := by
          rw [Function.update_self, h]
          simp only [ThP.len, hv]
        have e2 : ∑ x ∈ (Finset.range T).erase t, (Function.update c.th t (k v) x).len c.mem
            = ∑ x ∈ (Finset.range T).erase t, (c.th x).len c.mem := by
          refine Finset.sum_congr rfl fun x hx => ?_
          rw [Function.update_of_ne (Finset.ne_of_mem_erase hx)]
        show n + 1 + ((Function.update c.th t (k v) t).len c.mem + _) = _
        rw [e2]
        omega
    | write t h hv =>
      rename_i l v k
      have ht : t < T := by
        by_contra hn
        rw [i1 t (by omega)] at h
        cases h
      have hw := i2 t ht
      rw [h] at hw
      obtain ⟨ho, -, hw'⟩ := hw
      have hoth : ∀ t', t' < T → t' ≠ t → _ := fun t' ht' e =>
        ThP.wp_agree (m' := Function.update c.mem l (some v)) (hQ t') (fun x hx => by
          have : x ≠ l := by
            rintro rfl
            rcases hx with hx | hx
            · exact e (hdisj _ _ _ hx ho)
            · exact hx t ho
          rw [Function.update_of_ne this]) (i2 t' ht')
      refine ⟨?_, ?_, ?_, ?_⟩
      · intro t' ht'
        show Function.update c.th t k t' = _
        rw [Function.update_of_ne (by omega)]
        exact i1 t' ht'
      · intro t' ht'
        show (Function.update c.th t k t').wp _ _ _ _
        by_cases e : t' = t
        · subst e; rw [Function.update_self]; exact hw'
        · rw [Function.update_of_ne e]; exact (hoth t' ht' e).1
      · intro x hx
        show Function.update c.mem l (some v) x = _
        rw [Function.update_of_ne (by rintro rfl; exact hx t ho)]
        exact i3 x hx
      · rw [← i4]
        have hm : t ∈ Finset.range T := Finset.mem_range.mpr ht
        rw [← Finset.add_sum_erase _ _ hm, ← Finset.add_sum_erase (Finset.range T)
          (fun t => (c.th t).len c.mem) hm]
        have e1 : (Function.update c.th t k t).len (Function.update c.mem l (some v)) + 1
            = (c.th t).len c.mem := by
          rw [Function.update_self, h]
          rfl
        have e2 : ∑ x ∈ (Finset.range T).erase t,
              (Function.update c.th t k x).len (Function.update c.mem l (some v))
            = ∑ x ∈ (Finset.range T).erase t, (c.th x).len c.mem := by
          refine Finset.sum_congr rfl fun x hx => ?_
          have hne := Finset.ne_of_mem_erase hx
          rw [Function.update_of_ne hne]
          exact (hoth x (Finset.mem_range.mp (Finset.mem_of_mem_erase hx)) hne).2
        show n + 1 + ((Function.update c.th t k t).len (Function.update c.mem l (some v)) + _) = _
        rw [e2]
        omega
  have hinv : ∀ n c, PRun n ⟨th, m0⟩ c → Inv n c := by
    intro n c h
    generalize hc : (⟨th, m0⟩ : PCfg L V) = c0 at h
    induction h with
    | zero c => subst hc; exact ⟨hrest, hwp, hun, by simp⟩
    | succ h hs ih => exact hstep _ _ _ (ih hc) hs
  -- a thread that is not done can go on
  have hgo : ∀ n c, Inv n c → ∀ t, c.th t = .ret () ∨ ∃ d, PStep c d := by
    rintro n c ⟨i1, i2, i3, i4⟩ t
    by_cases ht : t < T
    · have hw := i2 t ht
      cases h : c.th t with
      | ret a => exact .inl rfl
      | fail => rw [h] at hw; exact hw.elim
      | read l k =>
        rw [h] at hw
        obtain ⟨-, v, hv, -⟩ := hw
        exact .inr ⟨_, .read t h hv⟩
      | write l v k =>
        rw [h] at hw
        exact .inr ⟨_, .write t h hw.2.1⟩
    · exact .inl (i1 t (by omega))
  have hgoes : ∀ n c, Inv n c → PDone c ∨ ∃ d, PStep c d := by
    intro n c hi
    by_cases h : ∃ d, PStep c d
    · exact .inr h
    · exact .inl fun t => (hgo n c hi t).resolve_right h
  refine ⟨?_, ?_, fun n c h => hgoes n c (hinv n c h), ?_⟩
  · intro n c h
    obtain ⟨i1, i2, i3, i4⟩ := hinv n c h
    have hacc : ∀ t l w, (c.th t).next = some (l, w) → c.mem l ≠ none ∧
        (own t l ∨ (∀ t', ¬ own t' l) ∧ w = false) := by
      intro t l w hn
      have ht : t < T := by
        by_contra hcon
        rw [i1 t (by omega)] at hn
        simp [ThP.next] at hn
      have hw := i2 t ht
      cases hp : c.th t with
      | ret a => rw [hp] at hn; simp [ThP.next] at hn
      | fail => rw [hp] at hn; simp [ThP.next] at hn
      | read l' k =>
        rw [hp] at hw hn
        simp only [ThP.next, Option.some.injEq, Prod.mk.injEq] at hn
        obtain ⟨rfl, rfl⟩ := hn
        obtain ⟨ho, v, hv, -⟩ := hw
        exact ⟨by rw [hv]; simp, ho.imp id fun h => ⟨h, rfl⟩⟩
      | write l' v k =>
        rw [hp] at hw hn
        simp only [ThP.next, Option.some.injEq, Prod.mk.injEq] at hn
        obtain ⟨rfl, rfl⟩ := hn
        exact ⟨hw.2.1, .inl hw.1⟩
    constructor
    · rintro ⟨t, hf | ⟨l, w, hn, hm⟩⟩
      · by_cases ht : t < T
        · have hw := i2 t ht
          rw [hf] at hw
          exact hw
        · rw [i1 t (by omega)] at hf
          cases hf
      · exact (hacc t l w hn).1 hm
    · rintro ⟨t, t', l, w, w', hne, hn, hn', hww⟩
      rcases (hacc t l w hn).2 with h1 | ⟨h1, rfl⟩
      · rcases (hacc t' l w' hn').2 with h2 | ⟨h2, -⟩
        · exact hne (hdisj _ _ _ h1 h2)
        · exact h2 t h1
      · rcases (hacc t' l w' hn').2 with h2 | ⟨-, rfl⟩
        · exact h1 t' h2
        · simp at hww
  · refine ⟨∑ t ∈ Finset.range T, (th t).len m0, fun n c h => ?_, ?_⟩
    · have := (hinv n c h).2.2.2
      omega
    · have key : ∀ k n c, Inv n c → n + k = ∑ t ∈ Finset.range T, (th t).len m0 →
          ∃ e, PRun k c e := by
        intro k
        induction k with
        | zero => exact fun n c _ _ => ⟨c, .zero c⟩
        | succ k ih =>
          intro n c hi hk
          rcases hgoes n c hi with hd | ⟨d, hd⟩
          · have h4 := hi.2.2.2
            have : ∑ t ∈ Finset.range T, (c.th t).len c.mem = 0 :=
              Finset.sum_eq_zero fun t _ => by rw [hd t]; rfl
            omega
          · obtain ⟨e, he⟩ := ih (n + 1) d (hstep n c d hi hd) (by omega)
            exact ⟨e, prun_trans_one hd he⟩
      exact key _ 0 _ ⟨hrest, hwp, hun, by simp⟩ (by omega)
  · intro n c h hd
    obtain ⟨i1, i2, i3, i4⟩ := hinv n c h
    funext l
    by_cases ho : ∃ t, own t l
    · obtain ⟨t, ho⟩ := ho
      have hw := i2 t (hT t l ho)
      rw [hd t] at hw
      exact hw l ho
    · exact i3 l fun t h => ho ⟨t, h⟩

/-! ### teams -/

/-- the rows of thread `t`, as in `threadRows`: one access at a time -/
def threadP {lam : Type} (w : Nat) (T : Nat) (m : Int) (loc : lam) (body : Int → lam → ThP L V lam) (t : Nat) :
    ThP L V Unit :=
  (ThP.lift (Model.chk w (m * t))).bind fun a =>
  (ThP.lift (Model.chk w (m * (t + 1)))).bind fun b =>
  (ThP.forP (a.tdiv T) (b.tdiv T) body loc).bind fun _ => .ret ()

/-- the threads of a team -/
def teamP {lam : Type} (w : Nat) (T : Nat) (m : Int) (loc : lam) (body : Int → lam → ThP L V lam) (t : Nat) :
    ThP L V Unit :=
  if t < T then threadP w T m loc body t else .ret ()

/-- loops -/
theorem ThP.wp_forPN {α : Type} {own ro : L → Prop} {f : Int → α → ThP L V α}
    (J : Int → α → (L → Option V) → Prop) (n : Nat) (lo : Int) (s : α) (m : L → Option V) (h0 : J lo s m)
    (hs : ∀ i s m, lo ≤ i → i < lo + n → J i s m → (f i s).wp own ro m (fun s' m' => J (i + 1) s' m')) :
    (ThP.forPN f n lo s).wp own ro m (fun s' m' => J (lo + n) s' m') := by
  induction n generalizing lo s m with
  | zero => simpa [ThP.forPN, ThP.wp] using h0
  | succ n ih =>
    show ((f lo s).bind _).wp own ro m _
    rw [ThP.wp_bind]
    refine ThP.wp_mono ?_ (hs lo s m (by omega) (by omega) h0)
    intro s' m' hJ
    have := ih (lo + 1) s' m' hJ (fun i s m h1 h2 => hs i s m (by omega) (by omega))
    rwa [show lo + 1 + (n : Int) = lo + ((n + 1 : Nat) : Int) by omega] at this

theorem ThP.wp_forP {α : Type} {own ro : L → Prop} {f : Int → α → ThP L V α} {lo hi : Int}
    (J : Int → α → (L → Option V) → Prop) {s : α} {m : L → Option V} (hle : lo ≤ hi) (h0 : J lo s m)
    (hs : ∀ i s m, lo ≤ i → i < hi → J i s m → (f i s).wp own ro m (fun s' m' => J (i + 1) s' m')) :
    (ThP.forP lo hi f s).wp own ro m (fun s' m' => J hi s' m') := by
  have := ThP.wp_forPN (own := own) (ro := ro) (f := f) J (hi - lo).toNat lo s m h0
    (fun i s m h1 h2 => hs i s m h1 (by omega))
  rwa [show lo + ((hi - lo).toNat : Int) = hi by omega] at this

/-- **Teams whose rows have disjoint regions.**  `P S` says of the memory that the rows in `S` are done. -/
theorem team_schedules {lam : Type} {w T m : Nat} {loc : lam} {body : Int → lam → ThP L V lam}
    {m0 m1 : L → Option V} (hT : 0 < T) (hov : (m : Int) * T ≤ Model.intMax w) (own : Nat → L → Prop)
    (hdisj : ∀ r r' l, r < m → r' < m → own r l → own r' l → r = r')
    (P : (Nat → Prop) → (L → Option V) → Prop) (Q : Nat → lam → Prop)
    (h0 : P (fun _ => False) m0) (hQ : ∀ i, Q i loc)
    (hP : ∀ S S' mem, (∀ r, S r ↔ S' r) → P S mem → P S' mem)
    (step : ∀ S i mem l, i < m → ¬ S i → P S mem → Q i l →
      (body (i : Int) l).wp (own i) (fun x => ∀ r < m, ¬ own r x) mem
        (fun l' mem' => P (fun r => S r ∨ r = i) mem' ∧ Q (i + 1) l'))
    (hfin : ∀ S mem, P S mem → ∀ r < m, S r → ∀ x, own r x → mem x = m1 x)
    (hun : ∀ x, (∀ r < m, ¬ own r x) → m0 x = m1 x) :
    AllSchedules (teamP w T m loc body) m0 m1 := by
  refine all_schedules (T := T) (own := fun t x => t < T ∧ ∃ r, chunk m T t r ∧ own r x) ?_ ?_ ?_ ?_ ?_
  · intro t ht
    unfold teamP
    rw [if_neg (by omega)]
  · rintro t t' x ⟨ht, r, hr, hx⟩ ⟨ht', r', hr', hx'⟩
    have := hdisj r r' x (chunk_lt ht hr) (chunk_lt ht' hr') hx hx'
    subst this
    exact chunk_disjoint hr hr'
  · exact fun t x h => h.1
  · intro t ht
    have h1 : (m : Int) * (t : Int) ≤ (m : Int) * T := Int.mul_le_mul_of_nonneg_left (by omega) (by omega)
    have h2 : (m : Int) * ((t : Int) + 1) ≤ (m : Int) * T :=
      Int.mul_le_mul_of_nonneg_left (by omega) (by omega)
    unfold teamP threadP
    rw [if_pos ht, chk_of_le (Int.mul_nonneg (by omega) (by omega)) (by omega),
      chk_of_le (Int.mul_nonneg (by omega) (by omega)) (by omega)]
    have e1 : ((m : Int) * (t : Int)).tdiv T = ((m * t / T : Nat) : Int) := by
      rw [Int.tdiv_eq_ediv_of_nonneg (Int.mul_nonneg (by omega) (by omega))]; simp
    have e2 : ((m : Int) * ((t : Int) + 1)).tdiv T = ((m * (t + 1) / T : Nat) : Int) := by
      rw [Int.tdiv_eq_ediv_of_nonneg (Int.mul_nonneg (by omega) (by omega))]; simp
    have hle : m * t / T ≤ m * (t + 1) / T :=
      Nat.div_le_div_right (Nat.mul_le_mul_left _ (by omega))
    show ((ThP.forP _ _ body loc).bind _).wp _ _ _ _
    rw [e1, e2, ThP.wp_bind]
    refine ThP.wp_mono ?_ (ThP.wp_forP
      (J := fun k l mem => ∃ n : Nat, k = (n : Int) ∧ m * t / T ≤ n ∧
        P (fun r => m * t / T ≤ r ∧ r < n) mem ∧ Q n l) (by omega)
      ⟨m * t / T, rfl, le_refl _, hP _ _ _ (fun r => ⟨fun h => h.elim, fun h => absurd h.2 (by have := h.1; omega)⟩) h0,
        hQ _⟩ ?_)
    · rintro l mem ⟨n, hn, hn1, hp, -⟩
      have hn' : n = m * (t + 1) / T := by omega
      subst hn'
      show ∀ x, _ → mem x = m1 x
      rintro x ⟨-, r, hr, hx⟩
      exact hfin _ _ hp r (chunk_lt ht hr) hr x hx
    · rintro k l mem hk1 hk2 ⟨n, rfl, hn, hp, hq⟩
      have hc : chunk m T t n := ⟨hn, by omega⟩
      have hnm := chunk_lt ht hc
      refine ThP.wp_mono ?_ (ThP.wp_own (own := own n) (ro := fun x => ∀ r < m, ¬ own r x)
        (fun x hx => ⟨ht, n, hc, hx⟩)
        (fun x hx => .inr fun t' h => by
          obtain ⟨ht', r, hr, ho⟩ := h
          exact hx r (chunk_lt ht' hr) ho)
        (step _ n mem l hnm (by omega) hp hq))
      rintro l' mem' ⟨hp', hq'⟩
      exact ⟨n + 1, by omega, by omega, hP _ _ _ (fun r => by omega) hp', hq'⟩
  · intro x hx
    refine hun x fun r hr ho => ?_
    obtain ⟨t, ht, hc⟩ := chunk_cover hr hT
    exact hx t ⟨ht, r, hc, ho⟩

end Verif
