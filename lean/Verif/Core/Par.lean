/-
Parallel loops.  `#pragma omp parallel for` over iterations that share one writable array is
modelled as a set of small programs, one per iteration, whose individual memory accesses may be
interleaved in any order.  A thread executes its iterations one after another, so the executions
of the real loop, for any number of threads, any assignment of iterations to threads and any
timing, are among the interleavings considered here.

Simplification: memory is sequentially consistent at the level of single array elements; since
the programs considered below never touch a common cell (no data race), this is also what the
C++ memory model guarantees.
-/
import Verif.Core.Mem

namespace Verif

variable {V : Type}

/-- The accesses of one iteration to the shared array. -/
inductive Prog (V : Type) : Type where
  | done : Prog V
  | rd (a : Int) (k : V → Prog V) : Prog V
  | wr (a : Int) (v : V) (k : Prog V) : Prog V

namespace Prog

/-- one iteration executed alone -/
def run : Prog V → List V → Option (List V)
  | done, mem => some mem
  | rd a k, mem => (Verif.rd mem a).bind fun v => (k v).run mem
  | wr a v k, mem => (Verif.wr mem a v).bind k.run

/-- every access of the program is to a cell in `C` -/
def Confined (C : Int → Prop) : Prog V → Prop
  | done => True
  | rd a k => C a ∧ ∀ v, (k v).Confined C
  | wr a _ k => C a ∧ k.Confined C

/-- one access of one iteration -/
inductive Step : List (Prog V) × List V → List (Prog V) × List V → Prop
  | rd {pre suf mem a k v} : Verif.rd mem a = some v →
      Step (pre ++ .rd a k :: suf, mem) (pre ++ k v :: suf, mem)
  | wr {pre suf mem a v k mem'} : Verif.wr mem a v = some mem' →
      Step (pre ++ .wr a v k :: suf, mem) (pre ++ k :: suf, mem')

/-- any number of steps -/
inductive Steps : List (Prog V) × List V → List (Prog V) × List V → Prop
  | refl (c) : Steps c c
  | tail {c d e} : Steps c d → Step d e → Steps c e

/-- some iteration is about to access a cell outside the array -/
def Fault (c : List (Prog V) × List V) : Prop :=
  (∃ a k, Prog.rd a k ∈ c.1 ∧ Verif.rd c.2 a = none) ∨
  (∃ a v k, Prog.wr a v k ∈ c.1 ∧ Verif.wr c.2 a v = none)

/-- all iterations have finished -/
def Finished (c : List (Prog V) × List V) : Prop := ∀ p ∈ c.1, p = .done

/-- the iterations executed one after another -/
def seqRun (ps : List (Prog V)) (mem : List V) : Option (List V) :=
  ps.foldlM (fun m p => p.run m) mem

/-- iteration `t` only touches its own cells -/
def Safe (cells : Nat → Int → Prop) (ps : List (Prog V)) : Prop :=
  ∀ (t : Nat) (p : Prog V), ps[t]? = some p → p.Confined (cells t)

theorem run_length : ∀ (p : Prog V) {mem mem' : List V}, p.run mem = some mem' →
    mem'.length = mem.length
  | done, mem, mem', h => by simp [run] at h; rw [h]
  | rd a k, mem, mem', h => by
    simp only [run, Option.bind_eq_some_iff] at h
    obtain ⟨v, _, h⟩ := h
    exact run_length (k v) h
  | wr a v k, mem, mem', h => by
    simp only [run, Option.bind_eq_some_iff] at h
    obtain ⟨m, h1, h⟩ := h
    rw [run_length k h, wr_length h1]

theorem run_frame_rd : ∀ (p : Prog V) {C : Int → Prop} {mem mem' : List V} {a : Int},
    p.Confined C → ¬ C a → p.run mem = some mem' → Verif.rd mem' a = Verif.rd mem a
  | done, C, mem, mem', a, _, _, h => by simp [run] at h; rw [h]
  | rd b k, C, mem, mem', a, hc, ha, h => by
    simp only [run, Option.bind_eq_some_iff] at h
    obtain ⟨v, _, h⟩ := h
    exact run_frame_rd (k v) (hc.2 v) ha h
  | wr b v k, C, mem, mem', a, hc, ha, h => by
    simp only [run, Option.bind_eq_some_iff] at h
    obtain ⟨m, h1, h⟩ := h
    have hb : a ≠ b := fun e => ha (e ▸ hc.1)
    rw [run_frame_rd k hc.2 ha h, rd_wr h1, if_neg hb]

theorem wr_comm {mem m1 m2 : List V} {a b : Int} {v w : V} (hab : a ≠ b)
    (h1 : Verif.wr mem a v = some m1) (h2 : Verif.wr mem b w = some m2) :
    Verif.wr m1 b w = Verif.wr m2 a v := by
  obtain ⟨p1, p2, rfl⟩ := wr_some_iff.1 h1
  obtain ⟨q1, q2, rfl⟩ := wr_some_iff.1 h2
  rw [wr_eq q1 (by simpa using q2), wr_eq p1 (by simpa using p2)]
  rw [List.set_comm]
  omega

theorem run_frame_wr : ∀ (p : Prog V) {C : Int → Prop} {mem mem' : List V} {a : Int} {v : V},
    p.Confined C → ¬ C a → Verif.wr mem a v = some mem' →
      p.run mem' = (p.run mem).bind fun m => Verif.wr m a v
  | done, C, mem, mem', a, v, _, _, h => by simp [run, h]
  | rd b k, C, mem, mem', a, v, hc, ha, h => by
    have hb : b ≠ a := fun e => ha (e ▸ hc.1)
    simp only [run]
    rw [rd_wr h, if_neg hb]
    cases hr : Verif.rd mem b with
    | none => simp
    | some w => simpa using run_frame_wr (k w) (hc.2 w) ha h
  | wr b w k, C, mem, mem', a, v, hc, ha, h => by
    have hb : b ≠ a := fun e => ha (e ▸ hc.1)
    simp only [run]
    have hlen := wr_length h
    cases hr : Verif.wr mem b w with
    | none =>
      have : Verif.wr mem' b w = none := by
        unfold Verif.wr at hr ⊢
        rw [hlen]
        split at hr
        · simp at hr
        · rename_i hn; rw [if_neg hn]
      simp [this]
    | some m2 =>
      rw [wr_comm (Ne.symm hb) h hr]
      have : ∃ m3, Verif.wr m2 a v = some m3 := by
        obtain ⟨p1, p2, _⟩ := wr_some_iff.1 h
        exact ⟨_, wr_eq p1 (by rw [wr_length hr]; exact p2)⟩
      obtain ⟨m3, h3⟩ := this
      rw [h3]
      simpa using run_frame_wr k hc.2 ha h3

theorem seqRun_append (ps qs : List (Prog V)) (mem : List V) :
    seqRun (ps ++ qs) mem = (seqRun ps mem).bind (seqRun qs) := by
  simp only [seqRun, List.foldlM_append]; rfl

theorem seqRun_cons (p : Prog V) (ps : List (Prog V)) (mem : List V) :
    seqRun (p :: ps) mem = (p.run mem).bind (seqRun ps) := by
  simp only [seqRun, List.foldlM_cons]; rfl

theorem seqRun_length : ∀ (ps : List (Prog V)) {mem mem' : List V},
    seqRun ps mem = some mem' → mem'.length = mem.length
  | [], mem, mem', h => by simp [seqRun] at h; rw [h]
  | p :: ps, mem, mem', h => by
    rw [seqRun_cons, Option.bind_eq_some_iff] at h
    obtain ⟨m, h1, h2⟩ := h
    rw [seqRun_length ps h2, run_length p h1]

theorem seqRun_frame_rd : ∀ (ps : List (Prog V)) {mem mem' : List V} {a : Int},
    (∀ p ∈ ps, ∃ C, p.Confined C ∧ ¬ C a) → seqRun ps mem = some mem' →
      Verif.rd mem' a = Verif.rd mem a
  | [], mem, mem', a, _, h => by simp [seqRun] at h; rw [h]
  | p :: ps, mem, mem', a, hc, h => by
    rw [seqRun_cons, Option.bind_eq_some_iff] at h
    obtain ⟨m, h1, h2⟩ := h
    obtain ⟨C, c1, c2⟩ := hc p (by simp)
    rw [seqRun_frame_rd ps (fun q hq => hc q (by simp [hq])) h2, run_frame_rd p c1 c2 h1]

theorem seqRun_frame_wr : ∀ (ps : List (Prog V)) {mem mem' : List V} {a : Int} {v : V},
    (∀ p ∈ ps, ∃ C, p.Confined C ∧ ¬ C a) → Verif.wr mem a v = some mem' →
      seqRun ps mem' = (seqRun ps mem).bind fun m => Verif.wr m a v
  | [], mem, mem', a, v, _, h => by simp [seqRun, h]
  | p :: ps, mem, mem', a, v, hc, h => by
    obtain ⟨C, c1, c2⟩ := hc p (by simp)
    rw [seqRun_cons, seqRun_cons, run_frame_wr p c1 c2 h]
    cases hr : p.run mem with
    | none => simp
    | some m =>
      obtain ⟨p1, p2, _⟩ := wr_some_iff.1 h
      have h3 := wr_eq (a := m) (v := v) p1 (by rw [run_length p hr]; exact p2)
      simp only [Option.bind_some]
      rw [h3]
      simp only [Option.bind_some]
      exact seqRun_frame_wr ps (fun q hq => hc q (by simp [hq])) h3

/-- One step of one iteration changes neither the confinement nor the final result. -/
theorem step_inv {cells : Nat → Int → Prop} (hd : ∀ s t a, s ≠ t → cells s a → ¬ cells t a)
    {c d : List (Prog V) × List V} (hs : Safe cells c.1) (h : Step c d) :
    Safe cells d.1 ∧ seqRun d.1 d.2 = seqRun c.1 c.2 := by
  have key : ∀ (pre suf : List (Prog V)) (p q : Prog V) (a : Int),
      Safe cells (pre ++ p :: suf) → (p.Confined (cells pre.length) → cells pre.length a ∧
        q.Confined (cells pre.length)) →
      Safe cells (pre ++ q :: suf) ∧ ∀ r ∈ pre, ∃ C, r.Confined C ∧ ¬ C a := by
    intro pre suf p q a hs hq
    have hp := hs pre.length p (by simp)
    refine ⟨?_, ?_⟩
    · intro t r hr
      by_cases ht : t = pre.length
      · subst ht
        simp at hr
        subst hr
        exact (hq hp).2
      · apply hs t r
        rw [← hr]
        by_cases hlt : t < pre.length
        · rw [List.getElem?_append_left hlt, List.getElem?_append_left hlt]
        · rw [List.getElem?_append_right (by omega), List.getElem?_append_right (by omega)]
          obtain ⟨u, hu⟩ : ∃ u, t - pre.length = u + 1 := ⟨t - pre.length - 1, by omega⟩
          simp [hu]
    · intro r hr
      obtain ⟨t, ht, hrt⟩ := List.getElem_of_mem hr
      refine ⟨cells t, hs t r (by rw [List.getElem?_append_left ht, List.getElem?_eq_getElem ht, hrt]), ?_⟩
      exact hd _ _ _ (by omega) (hq hp).1
  cases h with
  | @rd pre suf mem a k v hv =>
    obtain ⟨k1, k2⟩ := key pre suf (.rd a k) (k v) a hs (fun h => ⟨h.1, h.2 v⟩)
    refine ⟨k1, ?_⟩
    simp only
    rw [seqRun_append, seqRun_append]
    cases hr : seqRun pre mem with
    | none => rfl
    | some m1 =>
      simp only [Option.bind_some, seqRun_cons, run]
      rw [seqRun_frame_rd pre k2 hr, hv]
      rfl
  | @wr pre suf mem a v k mem' hw =>
    obtain ⟨k1, k2⟩ := key pre suf (.wr a v k) k a hs (fun h => ⟨h.1, h.2⟩)
    refine ⟨k1, ?_⟩
    simp only
    rw [seqRun_append, seqRun_append, seqRun_frame_wr pre k2 hw]
    cases hr : seqRun pre mem with
    | none => rfl
    | some m1 =>
      simp only [Option.bind_some, seqRun_cons, run]
      cases Verif.wr m1 a v <;> rfl

theorem steps_inv {cells : Nat → Int → Prop} (hd : ∀ s t a, s ≠ t → cells s a → ¬ cells t a)
    {c d : List (Prog V) × List V} (hs : Safe cells c.1) (h : Steps c d) :
    Safe cells d.1 ∧ seqRun d.1 d.2 = seqRun c.1 c.2 := by
  induction h with
  | refl => exact ⟨hs, rfl⟩
  | tail _ h2 ih =>
    obtain ⟨i1, i2⟩ := ih
    obtain ⟨j1, j2⟩ := step_inv hd i1 h2
    exact ⟨j1, j2.trans i2⟩

theorem no_fault {c : List (Prog V) × List V} {fin : List V}
    (h : seqRun c.1 c.2 = some fin) : ¬ Fault c := by
  obtain ⟨ps, mem⟩ := c
  simp only at h
  rintro (⟨a, k, hm, hn⟩ | ⟨a, v, k, hm, hn⟩)
  · obtain ⟨pre, suf, rfl⟩ := List.append_of_mem hm
    rw [seqRun_append, Option.bind_eq_some_iff] at h
    obtain ⟨m1, h1, h2⟩ := h
    rw [seqRun_cons, Option.bind_eq_some_iff] at h2
    obtain ⟨m2, h2, _⟩ := h2
    simp only [run, Option.bind_eq_some_iff] at h2
    obtain ⟨v, h2, _⟩ := h2
    have e1 := (rd_isSome_iff (a := m1) (i := a)).1 (by simp [h2])
    rw [seqRun_length pre h1] at e1
    obtain ⟨w, hw⟩ := rd_exists e1.1 e1.2
    simp only at hn
    rw [hw] at hn
    cases hn
  · obtain ⟨pre, suf, rfl⟩ := List.append_of_mem hm
    rw [seqRun_append, Option.bind_eq_some_iff] at h
    obtain ⟨m1, h1, h2⟩ := h
    rw [seqRun_cons, Option.bind_eq_some_iff] at h2
    obtain ⟨m2, h2, _⟩ := h2
    simp only [run, Option.bind_eq_some_iff] at h2
    obtain ⟨m3, h2, _⟩ := h2
    obtain ⟨e1, e2, _⟩ := wr_some_iff.1 h2
    rw [seqRun_length pre h1] at e2
    simp only at hn
    rw [wr_eq e1 e2] at hn
    cases hn

theorem progress {c : List (Prog V) × List V} (hf : ¬ Fault c) (hn : ¬ Finished c) :
    ∃ d, Step c d := by
  obtain ⟨ps, mem⟩ := c
  have : ∃ p, p ∈ ps ∧ p ≠ .done := by
    apply Classical.byContradiction
    intro hx
    apply hn
    intro p hp
    apply Classical.byContradiction
    intro hne
    exact hx ⟨p, hp, hne⟩
  obtain ⟨p, hp, hne⟩ := this
  obtain ⟨pre, suf, rfl⟩ := List.append_of_mem hp
  cases p with
  | done => exact absurd rfl hne
  | rd a k =>
    cases hr : Verif.rd mem a with
    | none => exact absurd (Or.inl ⟨a, k, hp, hr⟩) hf
    | some v => exact ⟨_, .rd hr⟩
  | wr a v k =>
    cases hr : Verif.wr mem a v with
    | none => exact absurd (Or.inr ⟨a, v, k, hp, hr⟩) hf
    | some m => exact ⟨_, .wr hr⟩

theorem finished_eq {c : List (Prog V) × List V} (h : Finished c) :
    seqRun c.1 c.2 = some c.2 := by
  obtain ⟨ps, mem⟩ := c
  simp only [Finished] at h
  induction ps with
  | nil => rfl
  | cons p ps ih =>
    rw [seqRun_cons, h p (by simp)]
    exact ih (fun q hq => h q (by simp [hq]))

/-- **Schedule independence.**  If every iteration only touches its own cells, then every
interleaving is free of out-of-bounds accesses, never gets stuck, and when it ends the array is
what executing the iterations one after another gives. -/
theorem schedule_independent {cells : Nat → Int → Prop}
    (hd : ∀ s t a, s ≠ t → cells s a → ¬ cells t a)
    {ps : List (Prog V)} {mem fin : List V} (hs : Safe cells ps)
    (hseq : seqRun ps mem = some fin) {c : List (Prog V) × List V} (h : Steps (ps, mem) c) :
    ¬ Fault c ∧ (Finished c → c.2 = fin) ∧ (¬ Finished c → ∃ d, Step c d) := by
  obtain ⟨_, h2⟩ := steps_inv hd (c := (ps, mem)) hs h
  have h3 : seqRun c.1 c.2 = some fin := h2.trans hseq
  have hf := no_fault h3
  refine ⟨hf, ?_, progress hf⟩
  intro hfin
  have := finished_eq hfin
  rw [h3] at this
  exact (Option.some.inj this).symm

end Prog
end Verif
