/-
Threads that meet in one critical section.

Every thread first works on private data, then enters the section, accesses shared memory there one access
at a time, and leaves it.  A thread can enter only while no other one is inside.
-/
import Verif.Core.SchedRows
import Mathlib.Data.List.Nodup

namespace Verif

/-- a thread: before the section, with the program it will run inside; inside, with the rest of that
program; or finished (also: it never enters) -/
inductive CrTh (L V : Type) : Type
  | out (p : ThP L V Unit)
  | ins (p : ThP L V Unit)
  | fin

/-- threads and memory -/
structure CrCfg (L V : Type) where
  th : Nat → CrTh L V
  mem : L → Option V

/-- one step of any thread -/
inductive CrStep {L V : Type} [DecidableEq L] : CrCfg L V → CrCfg L V → Prop
  | enter {c : CrCfg L V} (t : Nat) {p : ThP L V Unit} (h : c.th t = .out p)
      (free : ∀ t' p', c.th t' ≠ .ins p') : CrStep c ⟨Function.update c.th t (.ins p), c.mem⟩
  | read {c : CrCfg L V} (t : Nat) {l : L} {k : V → ThP L V Unit} {v : V} (h : c.th t = .ins (.read l k))
      (hv : c.mem l = some v) : CrStep c ⟨Function.update c.th t (.ins (k v)), c.mem⟩
  | write {c : CrCfg L V} (t : Nat) {l : L} {v : V} {k : ThP L V Unit} (h : c.th t = .ins (.write l v k))
      (hv : c.mem l ≠ none) :
      CrStep c ⟨Function.update c.th t (.ins k), Function.update c.mem l (some v)⟩
  | leave {c : CrCfg L V} (t : Nat) (h : c.th t = .ins (.ret ())) :
      CrStep c ⟨Function.update c.th t .fin, c.mem⟩

/-- `n` steps, of any threads in any order -/
inductive CrRun {L V : Type} [DecidableEq L] : Nat → CrCfg L V → CrCfg L V → Prop
  | zero (c : CrCfg L V) : CrRun 0 c c
  | succ {n : Nat} {c d e : CrCfg L V} (h : CrRun n c d) (h' : CrStep d e) : CrRun (n + 1) c e

/-- a thread did or is about to do something undefined -/
def CrUndef {L V : Type} (c : CrCfg L V) : Prop :=
  ∃ t, c.th t = .out .fail ∨ c.th t = .ins .fail ∨
    ∃ p l w, c.th t = .ins p ∧ p.next = some (l, w) ∧ c.mem l = none

/-- two threads are about to access the same cell, at least one of them to write it -/
def CrRace {L V : Type} (c : CrCfg L V) : Prop :=
  ∃ t t' p p' l w w', t ≠ t' ∧ c.th t = .ins p ∧ c.th t' = .ins p' ∧ p.next = some (l, w) ∧
    p'.next = some (l, w') ∧ (w = true ∨ w' = true)

/-- all threads have finished -/
def CrDone {L V : Type} (c : CrCfg L V) : Prop := ∀ t, c.th t = .fin

/-- The threads `ts` of `th`, started on the memory `m0`.  However they are interleaved: nothing undefined
and no race happens, all runs end, threads that are not done can go on (there is no deadlock), and at the
end the memory is `res ord` for some order `ord` of the threads; every order is possible. -/
structure CritOrders {L V : Type} [DecidableEq L] (ts : List Nat) (th : Nat → CrTh L V) (m0 : L → Option V)
    (res : List Nat → L → Option V) : Prop where
  safe : ∀ n c, CrRun n ⟨th, m0⟩ c → ¬ CrUndef c ∧ ¬ CrRace c
  ends : ∃ N, ∀ n c, CrRun n ⟨th, m0⟩ c → n ≤ N
  goes : ∀ n c, CrRun n ⟨th, m0⟩ c → CrDone c ∨ ∃ d, CrStep c d
  result : ∀ n c, CrRun n ⟨th, m0⟩ c → CrDone c → ∃ ord, ord.Perm ts ∧ c.mem = res ord
  every : ∀ ord, ord.Perm ts → ∃ n c, CrRun n ⟨th, m0⟩ c ∧ CrDone c ∧ c.mem = res ord

/-- the program makes `k` accesses, whatever it reads -/
def ThP.Steps {L V α : Type} : ThP L V α → Nat → Prop
  | .ret _, k => k = 0
  | .fail, _ => True
  | .read _ f, k => ∃ k', k = k' + 1 ∧ ∀ v, (f v).Steps k'
  | .write _ _ p, k => ∃ k', k = k' + 1 ∧ p.Steps k'

theorem ThP.Steps.bind {L V α β : Type} {p : ThP L V α} {f : α → ThP L V β} {k j : Nat} (hp : p.Steps k)
    (hf : ∀ a, (f a).Steps j) : (p.bind f).Steps (k + j) := by
  induction p generalizing k with
  | ret a =>
    have : k = 0 := hp
    subst this
    rw [Nat.zero_add]
    exact hf a
  | fail => trivial
  | read l g ih =>
    obtain ⟨k', rfl, h⟩ := hp
    exact ⟨k' + j, by omega, fun v => ih v (h v)⟩
  | write l v g ih =>
    obtain ⟨k', rfl, h⟩ := hp
    exact ⟨k' + j, by omega, ih h⟩

theorem ThP.Steps.lift {L V α β : Type} (o : Option α) {f : α → ThP L V β} {j : Nat} (hf : ∀ a, (f a).Steps j) :
    ((ThP.lift o : ThP L V α).bind f).Steps j := by
  cases o with
  | none => trivial
  | some a => exact hf a

theorem ThP.Steps.forPN {L V α : Type} {f : Int → α → ThP L V α} {j : Nat} (hf : ∀ i s, (f i s).Steps j) :
    ∀ (n : Nat) (i : Int) (s : α), (ThP.forPN f n i s).Steps (n * j)
  | 0, _, _ => by show 0 * j = 0; omega
  | n + 1, i, s => by
    have := ThP.Steps.bind (hf i s) (f := ThP.forPN f n (i + 1)) (fun a => ThP.Steps.forPN hf n (i + 1) a)
    rw [show (n + 1) * j = j + n * j by ring]
    exact this

section
variable {R : Type} {ts : List Nat} {Q : Nat → ThP Int R Unit} {C0 : List R}

/-- the threads `ts`, those of `dn` finished -/
def crSt (ts : List Nat) (Q : Nat → ThP Int R Unit) (dn : List Nat) (t : Nat) : CrTh Int R :=
  if t ∈ ts ∧ t ∉ dn then .out (Q t) else .fin

/-- the sections one after another -/
def crSeq (Q : Nat → ThP Int R Unit) (ord : List Nat) (C0 : List R) : Option (List R) :=
  ord.foldlM (fun C t => (Q t).exec1 C) C0

theorem crSeq_snoc (dn : List Nat) (s : Nat) {C : List R} (h : crSeq Q dn C0 = some C) :
    crSeq Q (dn ++ [s]) C0 = (Q s).exec1 C := by
  unfold crSeq at *
  rw [List.foldlM_append, h]
  show ((Q s).exec1 C).bind (fun C => some C) = _
  cases (Q s).exec1 C <;> rfl

/-- a thread inside and the others before or after the section -/
inductive CrInv (ts : List Nat) (Q : Nat → ThP Int R Unit) (k : Nat) (C0 : List R) : Nat → CrCfg Int R → Prop
  | free {n : Nat} (dn : List Nat) (C : List R) (hn : dn.Nodup) (hd : ∀ t ∈ dn, t ∈ ts) (hl : C.length = C0.length)
      (hs : crSeq Q dn C0 = some C) (hc : n + (ts.length - dn.length) * (k + 2) = ts.length * (k + 2)) :
      CrInv ts Q k C0 n ⟨crSt ts Q dn, rd C⟩
  | busy {n : Nat} (dn : List Nat) (s : Nat) (p : ThP Int R Unit) (k' : Nat) (C : List R) (hn : dn.Nodup)
      (hd : ∀ t ∈ dn, t ∈ ts) (hs : s ∈ ts) (hsd : s ∉ dn) (hl : C.length = C0.length)
      (hp : p.Safe (fun x => 0 ≤ x ∧ x < (C0.length : Int)) (fun _ => True)) (hk : p.Steps k')
      (he : crSeq Q (dn ++ [s]) C0 = p.exec1 C)
      (hc : n + (ts.length - (dn.length + 1)) * (k + 2) + k' + 1 = ts.length * (k + 2)) :
      CrInv ts Q k C0 n ⟨Function.update (crSt ts Q dn) s (.ins p), rd C⟩

theorem crSt_ins (dn : List Nat) (t : Nat) (p : ThP Int R Unit) : crSt ts Q dn t ≠ .ins p := by
  unfold crSt
  split <;> simp

theorem crSt_out {dn : List Nat} {t : Nat} {p : ThP Int R Unit} (h : crSt ts Q dn t = .out p) :
    t ∈ ts ∧ t ∉ dn ∧ p = Q t := by
  unfold crSt at h
  split at h
  · rename_i g
    injection h with h
    exact ⟨g.1, g.2, h.symm⟩
  · cases h

theorem crSt_fin (dn : List Nat) (s : Nat) : Function.update (crSt ts Q dn) s .fin = crSt ts Q (dn ++ [s]) := by
  funext t
  by_cases h : t = s
  · subst h
    rw [Function.update_self]
    unfold crSt
    rw [if_neg (by simp)]
  · rw [Function.update_of_ne h]
    unfold crSt
    simp [h]

theorem upd_ins {dn : List Nat} {s t : Nat} {p q : ThP Int R Unit}
    (h : Function.update (crSt ts Q dn) s (.ins p) t = .ins q) : t = s ∧ q = p := by
  by_cases e : t = s
  · subst e
    rw [Function.update_self] at h
    injection h with h
    exact ⟨rfl, h.symm⟩
  · rw [Function.update_of_ne e] at h
    exact absurd h (crSt_ins _ _ _)

theorem dn_short {dn : List Nat} {s : Nat} (hts : ts.Nodup) (hn : dn.Nodup) (hd : ∀ t ∈ dn, t ∈ ts) (hs : s ∈ ts)
    (hsd : s ∉ dn) : dn.length + 1 ≤ ts.length := by
  have : (s :: dn).length ≤ ts.length := by
    refine List.Subperm.length_le (List.subperm_of_subset (List.nodup_cons.2 ⟨hsd, hn⟩) ?_)
    intro x hx
    rcases List.mem_cons.1 hx with rfl | hx
    · exact hs
    · exact hd x hx
  simpa using this

theorem crInv_enter (hts : ts.Nodup) {k : Nat}
    (hsafe : ∀ t ∈ ts, (Q t).Safe (fun x => 0 ≤ x ∧ x < (C0.length : Int)) (fun _ => True))
    (hlen : ∀ t ∈ ts, (Q t).Steps k) {n : Nat} {dn : List Nat} {C : List R} (hn : dn.Nodup) (hd : ∀ t ∈ dn, t ∈ ts)
    (hl : C.length = C0.length) (hs : crSeq Q dn C0 = some C)
    (hc : n + (ts.length - dn.length) * (k + 2) = ts.length * (k + 2)) {t : Nat} (ht : t ∈ ts) (htd : t ∉ dn) :
    CrInv ts Q k C0 (n + 1) ⟨Function.update (crSt ts Q dn) t (.ins (Q t)), rd C⟩ := by
  refine .busy dn t (Q t) k C hn hd ht htd hl (hsafe t ht) (hlen t ht) (crSeq_snoc dn t hs) ?_
  have h1 := dn_short hts hn hd ht htd
  obtain ⟨d, hd'⟩ : ∃ d, ts.length = dn.length + 1 + d := ⟨_, (Nat.add_sub_cancel' h1).symm⟩
  rw [hd'] at hc ⊢
  rw [show dn.length + 1 + d - dn.length = d + 1 by omega] at hc
  rw [show dn.length + 1 + d - (dn.length + 1) = d by omega]
  rw [Nat.succ_mul] at hc
  omega

theorem crInv_step (hts : ts.Nodup) {k : Nat}
    (hsafe : ∀ t ∈ ts, (Q t).Safe (fun x => 0 ≤ x ∧ x < (C0.length : Int)) (fun _ => True))
    (hlen : ∀ t ∈ ts, (Q t).Steps k) {n : Nat} {c d : CrCfg Int R} (h : CrInv ts Q k C0 n c) (hs : CrStep c d) :
    CrInv ts Q k C0 (n + 1) d := by
  cases h with
  | free dn C hn hd hl hsq hc =>
    cases hs with
    | enter t h free =>
      obtain ⟨h1, h2, rfl⟩ := crSt_out h
      exact crInv_enter hts hsafe hlen hn hd hl hsq hc h1 h2
    | read t h hv => exact absurd h (crSt_ins _ _ _)
    | write t h hv => exact absurd h (crSt_ins _ _ _)
    | leave t h => exact absurd h (crSt_ins _ _ _)
  | busy dn s p k' C hn hd hs' hsd hl hp hk he hc =>
    cases hs with
    | enter t h free => exact absurd (Function.update_self ..) (free s p)
    | @read t l f v h hv =>
      obtain ⟨rfl, rfl⟩ := upd_ins h
      obtain ⟨k1, rfl, hk1⟩ := hk
      have e : Function.update (Function.update (crSt ts Q dn) t (.ins (.read l f))) t (.ins (f v))
          = Function.update (crSt ts Q dn) t (CrTh.ins (f v)) := by rw [Function.update_idem]
      show CrInv ts Q k C0 (n + 1) ⟨Function.update (Function.update (crSt ts Q dn) t _) t _, rd C⟩
      rw [e]
      have hv : rd C l = some v := hv
      refine .busy dn t (f v) k1 C hn hd hs' hsd hl (hp.2 v) (hk1 v) ?_ (by omega)
      rw [he, ThP.exec1_read, hv]; rfl
    | @write t l v f h hv =>
      obtain ⟨rfl, rfl⟩ := upd_ins h
      obtain ⟨k1, rfl, hk1⟩ := hk
      have e : Function.update (Function.update (crSt ts Q dn) t (.ins (.write l v f))) t (.ins f)
          = Function.update (crSt ts Q dn) t (CrTh.ins f) := by rw [Function.update_idem]
      show CrInv ts Q k C0 (n + 1) ⟨Function.update (Function.update (crSt ts Q dn) t _) t _, _⟩
      rw [e]
      obtain ⟨C', hw⟩ : ∃ C', wr C l v = some C' := by
        have := hp.1
        exact ⟨_, wr_some_iff.2 ⟨by omega, by omega, rfl⟩⟩
      have em : Function.update (rd C) l (some v) = rd C' := ThP.rd_update hw
      show CrInv ts Q k C0 (n + 1) ⟨_, Function.update (rd C) l (some v)⟩
      rw [em]
      refine .busy dn t f k1 C' hn hd hs' hsd ?_ hp.2 hk1 ?_ (by omega)
      · rw [(wr_some_iff.1 hw).2.2]; simpa using hl
      · rw [he, ThP.exec1_write, hw]; rfl
    | leave t h =>
      obtain ⟨rfl, rfl⟩ := upd_ins h
      have e : Function.update (Function.update (crSt ts Q dn) t (.ins (.ret ()))) t .fin
          = crSt ts Q (dn ++ [t]) := by rw [Function.update_idem, crSt_fin]
      show CrInv ts Q k C0 (n + 1) ⟨Function.update (Function.update (crSt ts Q dn) t _) t _, rd C⟩
      rw [e]
      have hk0 : k' = 0 := hk
      subst hk0
      refine .free (dn ++ [t]) C ?_ ?_ hl (by rw [he]; rfl) (by simpa using by omega)
      · rw [List.nodup_append]
        refine ⟨hn, by simp, ?_⟩
        intro a ha b hb
        have : b = t := by simpa using hb
        subst this
        rintro rfl
        exact hsd ha
      · intro x hx
        rcases List.mem_append.1 hx with hx | hx
        · exact hd x hx
        · have : x = t := by simpa using hx
          subst this; exact hs'

/-- from any point inside the section the thread gets to its end -/
theorem crRun_inside {dn : List Nat} {s : Nat} {c0 : CrCfg Int R} : ∀ (p : ThP Int R Unit) {n : Nat} {C C' : List R},
    CrRun n c0 ⟨Function.update (crSt ts Q dn) s (.ins p), rd C⟩ → p.exec1 C = some C' →
    ∃ n', CrRun n' c0 ⟨crSt ts Q (dn ++ [s]), rd C'⟩
  | .ret (), n, C, C', h, he => by
    cases he
    refine ⟨n + 1, ?_⟩
    have := CrRun.succ h (CrStep.leave s (Function.update_self ..))
    rw [Function.update_idem, crSt_fin] at this
    exact this
  | .fail, n, C, C', h, he => by cases he
  | .read l f, n, C, C', h, he => by
    rw [ThP.exec1_read] at he
    obtain ⟨v, hv, he⟩ := Option.bind_eq_some_iff.1 he
    have := CrRun.succ h (CrStep.read s (Function.update_self ..) hv)
    rw [Function.update_idem] at this
    exact crRun_inside (f v) this he
  | .write l v f, n, C, C', h, he => by
    rw [ThP.exec1_write] at he
    obtain ⟨C1, hw, he⟩ := Option.bind_eq_some_iff.1 he
    have := CrRun.succ h (CrStep.write s (Function.update_self ..) (by
      show rd C l ≠ none
      have := wr_some_iff.1 hw
      exact Option.isSome_iff_ne_none.1 (rd_isSome_iff.2 ⟨this.1, this.2.1⟩)))
    rw [Function.update_idem] at this
    have em : Function.update (rd C) l (some v) = rd C1 := ThP.rd_update hw
    simp only [em] at this
    exact crRun_inside f this he

theorem crSeq_total (hsafe : ∀ t ∈ ts, (Q t).Safe (fun x => 0 ≤ x ∧ x < (C0.length : Int)) (fun _ => True)) :
    ∀ (ord : List Nat) (C : List R), (∀ t ∈ ord, t ∈ ts) → C.length = C0.length →
      ∃ C1, crSeq Q ord C = some C1 ∧ C1.length = C0.length
  | [], C, _, hl => ⟨C, rfl, hl⟩
  | t :: ord, C, h, hl => by
    obtain ⟨a, C', e, -, hl', -⟩ := (hsafe t (h t (.head _))).run (C := C) (by intro x hx; rw [hl]; exact hx)
    obtain ⟨C1, e1, h1⟩ := crSeq_total hsafe ord C' (fun x hx => h x (.tail _ hx)) (by omega)
    refine ⟨C1, ?_, h1⟩
    unfold crSeq at *
    rw [List.foldlM_cons]
    show ((Q t).exec1 C).bind _ = _
    unfold ThP.exec1
    rw [e]
    exact e1

theorem crRun_order {c0 : CrCfg Int R} {C1 : List R} : ∀ (l dn : List Nat) {n : Nat} {C : List R},
    CrRun n c0 ⟨crSt ts Q dn, rd C⟩ → (dn ++ l).Nodup → (∀ t ∈ l, t ∈ ts) → crSeq Q l C = some C1 →
    ∃ n', CrRun n' c0 ⟨crSt ts Q (dn ++ l), rd C1⟩
  | [], dn, n, C, h, _, _, he => by
    cases he
    exact ⟨n, by rwa [List.append_nil]⟩
  | s :: l, dn, n, C, h, hnd, hin, he => by
    have he' : ((Q s).exec1 C).bind (crSeq Q l) = some C1 := by
      unfold crSeq at he ⊢
      rw [List.foldlM_cons] at he
      exact he
    obtain ⟨C', e1, e2⟩ := Option.bind_eq_some_iff.1 he'
    have hsd : s ∉ dn := by
      have := (List.nodup_append.1 hnd).2.2
      intro hs
      exact this s hs s (.head _) rfl
    have h1 := CrRun.succ h (CrStep.enter s (p := Q s) (by
      show crSt ts Q dn s = _
      unfold crSt
      rw [if_pos ⟨hin s (.head _), hsd⟩]) (fun t' p' => crSt_ins _ _ _))
    obtain ⟨n', h2⟩ := crRun_inside (Q s) h1 e1
    have ea : dn ++ s :: l = dn ++ [s] ++ l := by simp
    rw [ea] at hnd ⊢
    exact crRun_order l (dn ++ [s]) h2 hnd (fun x hx => hin x (.tail _ hx)) e2

/-- **One critical section.** -/
theorem crit_orders (hts : ts.Nodup) {k : Nat}
    (hsafe : ∀ t ∈ ts, (Q t).Safe (fun x => 0 ≤ x ∧ x < (C0.length : Int)) (fun _ => True))
    (hlen : ∀ t ∈ ts, (Q t).Steps k) :
    CritOrders ts (fun t => if t ∈ ts then .out (Q t) else .fin) (rd C0)
      (fun ord => rd ((crSeq Q ord C0).getD [])) := by
  have h0 : (fun t => if t ∈ ts then CrTh.out (Q t) else .fin) = crSt ts Q [] := by
    funext t; unfold crSt; simp
  rw [h0]
  have hinv : ∀ n c, CrRun n ⟨crSt ts Q [], rd C0⟩ c → CrInv ts Q k C0 n c := by
    intro n c h
    generalize hc0 : (⟨crSt ts Q [], rd C0⟩ : CrCfg Int R) = c0 at h
    induction h with
    | zero c =>
      subst hc0
      exact .free [] C0 (by simp) (by simp) rfl rfl (by simp)
    | succ h h' ih => exact crInv_step hts hsafe hlen (ih hc0) h'
  have hdone : ∀ dn (C : List R), CrDone (⟨crSt ts Q dn, rd C⟩ : CrCfg Int R) → ∀ t ∈ ts, t ∈ dn := by
    intro dn C h t ht
    by_contra hd
    have := h t
    unfold crSt at this
    simp [ht, hd] at this
  refine ⟨?_, ⟨ts.length * (k + 2), ?_⟩, ?_, ?_, ?_⟩
  · intro n c h
    cases hinv n c h with
    | free dn C hn hd hl hs hc =>
      refine ⟨?_, ?_⟩
      · rintro ⟨t, h | h | ⟨p, l, w, h, -⟩⟩
        · obtain ⟨h1, -, h2⟩ := crSt_out h
          have := hsafe t h1
          rw [← h2] at this
          exact this
        · exact crSt_ins _ _ _ h
        · exact crSt_ins _ _ _ h
      · rintro ⟨t, t', p, p', l, w, w', -, h, -⟩
        exact crSt_ins _ _ _ h
    | busy dn s p k' C hn hd hs hsd hl hp hk he hc =>
      refine ⟨?_, ?_⟩
      · rintro ⟨t, h | h | ⟨q, l, w, h, hnx, hm⟩⟩
        · have h : Function.update (crSt ts Q dn) s (.ins p) t = .out .fail := h
          by_cases e : t = s
          · subst e
            rw [Function.update_self] at h
            cases h
          · rw [Function.update_of_ne e] at h
            obtain ⟨h1, -, h2⟩ := crSt_out h
            have := hsafe t h1
            rw [← h2] at this
            exact this
        · obtain ⟨-, rfl⟩ := upd_ins h
          exact hp
        · obtain ⟨-, rfl⟩ := upd_ins h
          have hm : rd C l = none := hm
          have hlt : 0 ≤ l ∧ l < (C.length : Int) := by
            rw [hl]
            cases q with
            | ret a => cases hnx
            | fail => cases hnx
            | read l' f => cases hnx; exact hp.1
            | write l' v f => cases hnx; exact hp.1
          exact Option.isSome_iff_ne_none.1 (rd_isSome_iff.2 hlt) hm
      · rintro ⟨t, t', q, q', l, w, w', hne, h, h', -⟩
        exact hne ((upd_ins h).1.trans (upd_ins h').1.symm)
  · intro n c h
    cases hinv n c h with
    | free dn C hn hd hl hs hc => omega
    | busy dn s p k' C hn hd hs hsd hl hp hk he hc => omega
  · intro n c h
    cases hinv n c h with
    | free dn C hn hd hl hs hc =>
      by_cases hall : ∀ t ∈ ts, t ∈ dn
      · left
        intro t
        show crSt ts Q dn t = .fin
        unfold crSt
        rw [if_neg fun g => g.2 (hall t g.1)]
      · right
        push Not at hall
        obtain ⟨t, ht, htd⟩ := hall
        exact ⟨_, CrStep.enter t (p := Q t) (by
          show crSt ts Q dn t = _
          unfold crSt
          rw [if_pos ⟨ht, htd⟩]) (fun t' p' => crSt_ins _ _ _)⟩
    | busy dn s p k' C hn hd hs hsd hl hp hk he hc =>
      right
      cases p with
      | ret a => exact ⟨_, CrStep.leave s (Function.update_self ..)⟩
      | fail => exact hp.elim
      | read l f =>
        obtain ⟨v, hv⟩ := Option.isSome_iff_exists.1 (rd_isSome_iff (a := C).2 (by rw [hl]; exact hp.1))
        exact ⟨_, CrStep.read s (Function.update_self ..) hv⟩
      | write l v f =>
        exact ⟨_, CrStep.write s (Function.update_self ..)
          (Option.isSome_iff_ne_none.1 (rd_isSome_iff (a := C).2 (by rw [hl]; exact hp.1)))⟩
  · intro n c h hd
    cases hinv n c h with
    | free dn C hn hdn hl hs hc =>
      refine ⟨dn, ?_, ?_⟩
      · rw [List.perm_ext_iff_of_nodup hn hts]
        exact fun t => ⟨hdn t, hdone dn C hd t⟩
      · show rd C = rd ((crSeq Q dn C0).getD [])
        rw [hs]; rfl
    | busy dn s p k' C hn hdn hs hsd hl hp hk he hc =>
      have := hd s
      have : Function.update (crSt ts Q dn) s (CrTh.ins p) s = .fin := this
      rw [Function.update_self] at this
      cases this
  · intro ord hord
    obtain ⟨C1, e1, -⟩ := crSeq_total hsafe ord C0 (fun t ht => hord.mem_iff.1 ht) rfl
    obtain ⟨n, hr⟩ := crRun_order ord [] (.zero (⟨crSt ts Q [], rd C0⟩ : CrCfg Int R)) (by
      simpa using hord.nodup_iff.2 hts) (fun t ht => hord.mem_iff.1 ht) e1
    refine ⟨n, _, hr, ?_, ?_⟩
    · intro t
      show crSt ts Q ([] ++ ord) t = .fin
      unfold crSt
      rw [if_neg fun g => g.2 (by simpa using hord.mem_iff.2 g.1)]
    · show rd C1 = rd ((crSeq Q ord C0).getD [])
      rw [e1]; rfl

end

end Verif
