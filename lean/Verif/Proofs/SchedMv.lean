/- Loops whose iterations touch disjoint cells of `y`: a defined sequential run decides every schedule. -/
import Verif.Model.SchedMv

namespace Verif
open Model

variable {R : Type}

theorem smv_exec_length {α : Type} (p : ThP Int R α) : ∀ {C : List R} {q : α × List R}, p.exec C = some q →
    q.2.length = C.length := by
  induction p with
  | ret a => intro C q h; cases h; rfl
  | fail => intro C q h; cases h
  | read l k ih =>
    intro C q h
    change (rd C l).bind _ = _ at h
    rw [Option.bind_eq_some_iff] at h
    obtain ⟨v, -, h⟩ := h
    exact ih v h
  | write l v k ih =>
    intro C q h
    change (wr C l v).bind _ = _ at h
    rw [Option.bind_eq_some_iff] at h
    obtain ⟨C', h1, h⟩ := h
    rw [ih h, wr_length h1]

theorem smv_exec1_length {p : ThP Int R Unit} {C C' : List R} (h : p.exec1 C = some C') :
    C'.length = C.length := by
  unfold ThP.exec1 at h
  rw [Option.map_eq_some_iff] at h
  obtain ⟨q, h, rfl⟩ := h
  exact smv_exec_length p h

theorem smv_steps {σ : Type} {f : Int → σ → Option σ} (J : σ → Prop) (hJ : ∀ i s s', f i s = some s' → J s → J s')
    (n : Nat) : ∀ (lo : Int) (s s' : σ), forN f n lo s = some s' → J s → ∀ i, lo ≤ i → i < lo + n →
      ∃ t t', f i t = some t' ∧ J t := by
  induction n with
  | zero => intro lo s s' _ _ i h1 h2; omega
  | succ n ih =>
    intro lo s s' h hs i h1 h2
    change (f lo s).bind _ = _ at h
    rw [Option.bind_eq_some_iff] at h
    obtain ⟨t, e, h⟩ := h
    by_cases hi : i = lo
    · subst hi; exact ⟨s, t, e, hs⟩
    · exact ih (lo + 1) t s' h (hJ _ _ _ e hs) i (by omega) (by push_cast at h2; omega)

/-- the loop over `m` iterations `P` ends with `y'` for every team, assignment of iterations and interleaving -/
def SmvEvery (m : Nat) (P : Int → ThP Int R Unit) (y y' : List R) : Prop :=
  ∀ (T : Nat) (asg : Nat → List Nat), Assigns m T asg → AllSchedules (loopP T asg P) (rd y) (rd y')

/-- **A defined sequential run decides every schedule**, if the iterations own disjoint cells. -/
theorem smv_every {β : Type} {m : Nat} {o : Int → Option β} {S : β → Int → ThP Int R Unit} {own : Nat → Int → Prop}
    {y y' : List R} (hrun : forC 0 (m : Int) (fun i y => (smvRow o S i).exec1 y) y = some y')
    (hin : ∀ (r : Nat) b, o r = some b → ∀ C C', (S b r).exec1 C = some C' → ∀ x, own r x → 0 ≤ x ∧ x < (C.length : Int))
    (hdisj : ∀ r r' x, r < m → r' < m → own r x → own r' x → r = r')
    (hsafe : ∀ (r : Nat) b, o r = some b → (S b r).Safe (own r) (fun _ => True)) :
    SmvEvery m (smvRow o S) y y' := by
  have hsteps : ∀ r : Nat, r < m → ∃ b C C', o r = some b ∧ (S b r).exec1 C = some C' ∧ C.length = y.length := by
    intro r hr
    obtain ⟨t, t', e, ht⟩ := smv_steps (fun C => C.length = y.length)
      (fun i s s' h hs => by rw [smv_exec1_length h, hs]) _ 0 y y' hrun rfl (r : Int) (by omega) (by omega)
    unfold smvRow at e
    rw [ThP.exec1_lift, Option.bind_eq_some_iff] at e
    obtain ⟨b, hb, e⟩ := e
    exact ⟨b, t, t', hb, e, ht⟩
  obtain ⟨C1, -, e1, -, -, h⟩ := rows_schedules (m := m) (own := own) (P := smvRow o S) (C0 := y) (by
      intro r x hr hx
      obtain ⟨b, C, C', hb, e, hl⟩ := hsteps r hr
      rw [← hl]
      exact hin r b hb C C' e x hx) hdisj (by
      intro r hr
      obtain ⟨b, C, C', hb, e, hl⟩ := hsteps r hr
      exact ThP.Safe.lift hb (hsafe r b hb))
  rw [hrun] at e1
  cases e1
  exact h

variable [Zero R] [One R] [Add R] [Mul R] [DecidableEq R]

theorem smvStore_exec (alpha beta r : R) (i : Int) (y : List R) :
    (smvStore alpha beta r i).exec1 y = storeRow alpha beta r i y := by
  unfold smvStore storeRow
  by_cases hb : beta ≠ 0
  · simp only [if_pos hb]
    rw [ThP.exec1_read]
    refine congrArg _ (funext fun v => ?_)
    rw [ThP.exec1_write]
    exact Option.bind_fun_some _
  · simp only [if_neg hb]
    rw [ThP.exec1_write]
    exact Option.bind_fun_some _

theorem smvStoreA_exec (alpha beta r : R) (i : Int) (y : List R) :
    (smvStoreA alpha beta r i).exec1 y = storeRowA alpha beta r i y := by
  unfold smvStoreA storeRowA
  by_cases hb : beta ≠ 0
  · simp only [if_pos hb]
    rw [ThP.exec1_read]
    refine congrArg _ (funext fun v => ?_)
    rw [ThP.exec1_write]
    exact Option.bind_fun_some _
  · simp only [if_neg hb]
    rw [ThP.exec1_write]
    exact Option.bind_fun_some _

theorem smvStoreKt_exec (alpha beta r : R) (i : Int) (y : List R) :
    (smvStoreKt alpha beta r i).exec1 y = storeRowKt alpha beta r i y := by
  unfold smvStoreKt storeRowKt
  by_cases hb : beta = 0
  · simp only [if_pos hb]
    rw [ThP.exec1_write]
    exact Option.bind_fun_some _
  · simp only [if_neg hb]
    rw [ThP.exec1_read]
    refine congrArg _ (funext fun v => ?_)
    rw [ThP.exec1_write]
    exact Option.bind_fun_some _

theorem smvPut4_exec (q : R × R × R × R) (j : Int) (y : List R) :
    (smvPut4 q j).exec1 y = (wr y j q.1).bind fun y => (wr y (j + 1) q.2.1).bind fun y =>
      (wr y (j + 2) q.2.2.1).bind fun y => wr y (j + 3) q.2.2.2 := by
  unfold smvPut4
  rw [ThP.exec1_write]
  refine congrArg _ (funext fun y => ?_)
  rw [ThP.exec1_write]
  refine congrArg _ (funext fun y => ?_)
  rw [ThP.exec1_write]
  refine congrArg _ (funext fun y => ?_)
  rw [ThP.exec1_write]
  exact Option.bind_fun_some _

theorem smvStore4_exec (alpha beta : R) (r : R × R × R × R) (j : Int) (y : List R) :
    (smvStore4 alpha beta r j).exec1 y = storeRow4 alpha beta r j y := by
  unfold smvStore4 storeRow4
  rw [show (if alpha ≠ 1 then (alpha * r.1, alpha * r.2.1, alpha * r.2.2.1, alpha * r.2.2.2) else r)
    = smvScale4 alpha r from rfl]
  generalize smvScale4 alpha r = q
  by_cases hb : beta ≠ 0
  · simp only [if_pos hb, ThP.exec1_read, smvPut4_exec, Option.bind_eq_bind, Option.bind_assoc, Option.bind_some]
  · simp only [if_neg hb, smvPut4_exec, Option.bind_eq_bind, Option.bind_some]

omit [Zero R] [One R] [Add R] [Mul R] [DecidableEq R] in
/-- a program that starts by writing or reading cell `i` runs only if the cell exists -/
theorem smv_cell {C : List R} {i : Int} {v : R} {C' : List R} (h : wr C i v = some C') : 0 ≤ i ∧ i < (C.length : Int) := by
  have := (wr_some_iff).1 h
  exact ⟨this.1, this.2.1⟩

theorem storeRow_cell {alpha beta r : R} {i : Int} {y y' : List R} (h : storeRow alpha beta r i y = some y') :
    0 ≤ i ∧ i < (y.length : Int) := by
  unfold storeRow at h
  dsimp only at h
  split at h
  · rw [Option.bind_eq_bind, Option.bind_eq_some_iff] at h
    obtain ⟨v, -, h⟩ := h
    exact smv_cell h
  · exact smv_cell h

theorem storeRowA_cell {alpha beta r : R} {i : Int} {y y' : List R} (h : storeRowA alpha beta r i y = some y') :
    0 ≤ i ∧ i < (y.length : Int) := by
  unfold storeRowA at h
  split at h
  · rw [Option.bind_eq_bind, Option.bind_eq_some_iff] at h
    obtain ⟨v, -, h⟩ := h
    exact smv_cell h
  · exact smv_cell h

theorem storeRowKt_cell {alpha beta r : R} {i : Int} {y y' : List R} (h : storeRowKt alpha beta r i y = some y') :
    0 ≤ i ∧ i < (y.length : Int) := by
  unfold storeRowKt at h
  dsimp only at h
  split at h
  · exact smv_cell h
  · rw [Option.bind_eq_bind, Option.bind_eq_some_iff] at h
    obtain ⟨v, -, h⟩ := h
    exact smv_cell h

theorem storeRow4_cell {alpha beta : R} {r : R × R × R × R} {j : Int} {y y' : List R}
    (h : storeRow4 alpha beta r j y = some y') : 0 ≤ j ∧ j + 3 < (y.length : Int) := by
  rw [← smvStore4_exec] at h
  have key : ∀ q : R × R × R × R, (smvPut4 q j).exec1 y = some y' → 0 ≤ j ∧ j + 3 < (y.length : Int) := by
    intro q h
    simp only [smvPut4_exec, Option.bind_eq_some_iff] at h
    obtain ⟨a, h1, b, h2, c, h3, h4⟩ := h
    have e1 := smv_cell h1
    have e4 := smv_cell h4
    have l1 := wr_length h1
    have l2 := wr_length h2
    have l3 := wr_length h3
    omega
  unfold smvStore4 at h
  split at h
  · simp only [ThP.exec1_read, Option.bind_eq_some_iff] at h
    obtain ⟨_, -, _, -, _, -, _, -, h⟩ := h
    exact key _ h
  · exact key _ h

theorem smvStore_safe (alpha beta r : R) (i : Int) : (smvStore alpha beta r i).Safe (fun x => x = i) (fun _ => True) := by
  unfold smvStore
  split
  · exact ⟨rfl, fun v => ⟨rfl, trivial⟩⟩
  · exact ⟨rfl, trivial⟩

theorem smvStoreA_safe (alpha beta r : R) (i : Int) :
    (smvStoreA alpha beta r i).Safe (fun x => x = i) (fun _ => True) := by
  unfold smvStoreA
  split
  · exact ⟨rfl, fun v => ⟨rfl, trivial⟩⟩
  · exact ⟨rfl, trivial⟩

theorem smvStoreKt_safe (alpha beta r : R) (i : Int) :
    (smvStoreKt alpha beta r i).Safe (fun x => x = i) (fun _ => True) := by
  unfold smvStoreKt
  split
  · exact ⟨rfl, trivial⟩
  · exact ⟨rfl, fun v => ⟨rfl, trivial⟩⟩

theorem smvStore4_safe (alpha beta : R) (r : R × R × R × R) (j : Int) :
    (smvStore4 alpha beta r j).Safe (fun x => j ≤ x ∧ x ≤ j + 3) (fun _ => True) := by
  have put : ∀ q : R × R × R × R, (smvPut4 q j).Safe (fun x => j ≤ x ∧ x ≤ j + 3) (fun _ => True) := fun q =>
    ⟨⟨by omega, by omega⟩, ⟨by omega, by omega⟩, ⟨by omega, by omega⟩, ⟨by omega, by omega⟩, trivial⟩
  unfold smvStore4
  split
  · exact ⟨⟨by omega, by omega⟩, fun _ => ⟨⟨by omega, by omega⟩, fun _ => ⟨⟨by omega, by omega⟩, fun _ =>
      ⟨⟨by omega, by omega⟩, fun _ => put _⟩⟩⟩⟩
  · exact put _

/-- the three ways to store a row -/
inductive SmvSt : (R → R → R → Int → ThP Int R Unit) → (R → R → R → Int → List R → Option (List R)) → Prop
  | plain : SmvSt smvStore storeRow
  | always : SmvSt smvStoreA storeRowA
  | kt : SmvSt smvStoreKt storeRowKt

theorem SmvSt.exec {S : R → R → R → Int → ThP Int R Unit} {s : R → R → R → Int → List R → Option (List R)}
    (h : SmvSt S s) (alpha beta r : R) (i : Int) (y : List R) : (S alpha beta r i).exec1 y = s alpha beta r i y := by
  cases h
  · exact smvStore_exec ..
  · exact smvStoreA_exec ..
  · exact smvStoreKt_exec ..

theorem SmvSt.cell {S : R → R → R → Int → ThP Int R Unit} {s : R → R → R → Int → List R → Option (List R)}
    (h : SmvSt S s) {alpha beta r : R} {i : Int} {y y' : List R} (e : s alpha beta r i y = some y') :
    0 ≤ i ∧ i < (y.length : Int) := by
  cases h
  · exact storeRow_cell e
  · exact storeRowA_cell e
  · exact storeRowKt_cell e

theorem SmvSt.safe {S : R → R → R → Int → ThP Int R Unit} {s : R → R → R → Int → List R → Option (List R)}
    (h : SmvSt S s) (alpha beta r : R) (i : Int) : (S alpha beta r i).Safe (fun x => x = i) (fun _ => True) := by
  cases h
  · exact smvStore_safe ..
  · exact smvStoreA_safe ..
  · exact smvStoreKt_safe ..

/-- loops that write one element per iteration, `at` it -/
theorem smv_rows {β : Type} {S : R → R → R → Int → ThP Int R Unit} {s : R → R → R → Int → List R → Option (List R)}
    (hs : SmvSt S s) {m : Nat} {o : Int → Option β} {res : β → R} {cell : β → Int → Int} {alpha beta : R} {y y' : List R}
    (hrun : forC 0 (m : Int) (fun i y => (o i).bind fun b => s alpha beta (res b) (cell b i) y) y = some y')
    (hinj : ∀ r r' : Nat, r < m → r' < m → ∀ b b', o r = some b → o r' = some b' → cell b r = cell b' r' → r = r') :
    SmvEvery m (smvRow o fun b i => S alpha beta (res b) (cell b i)) y y' := by
  refine smv_every (own := fun r x => ∃ b, o r = some b ∧ x = cell b r) ?_ ?_ ?_ ?_
  · rw [← hrun]
    refine forC_congr fun i _ _ y => ?_
    unfold smvRow
    rw [ThP.exec1_lift]
    exact congrArg _ (funext fun b => hs.exec ..)
  · rintro r b hb C C' e x ⟨b', hb', rfl⟩
    rw [hb] at hb'
    cases hb'
    rw [hs.exec] at e
    exact hs.cell e
  · rintro r r' x hr hr' ⟨b, hb, rfl⟩ ⟨b', hb', e⟩
    exact hinj r r' hr hr' b b' hb hb' e
  · intro r b hb
    have := hs.safe alpha beta (res b) (cell b r)
    rw [show (fun x => ∃ b, o r = some b ∧ x = cell b r) = fun x => x = cell b r from funext fun x => propext
      ⟨fun ⟨b', hb', e⟩ => by rw [hb] at hb'; cases hb'; exact e, fun e => ⟨b, hb, e⟩⟩]
    exact this

/-- loops that write four elements per iteration -/
theorem smv_blocks {m : Nat} {o : Int → Option (R × R × R × R)} {alpha beta : R} {y y' : List R}
    (hrun : forC 0 (m : Int) (fun i y => (o i).bind fun b => storeRow4 alpha beta b (i * 4) y) y = some y') :
    SmvEvery m (smvRow o fun b i => smvStore4 alpha beta b (i * 4)) y y' := by
  refine smv_every (own := fun r x => (r : Int) * 4 ≤ x ∧ x ≤ (r : Int) * 4 + 3) ?_ ?_ ?_ ?_
  · rw [← hrun]
    refine forC_congr fun i _ _ y => ?_
    unfold smvRow
    rw [ThP.exec1_lift]
    exact congrArg _ (funext fun b => smvStore4_exec ..)
  · rintro r b hb C C' e x ⟨h1, h2⟩
    rw [smvStore4_exec] at e
    have := storeRow4_cell e
    omega
  · rintro r r' x hr hr' ⟨h1, h2⟩ ⟨h3, h4⟩
    omega
  · intro r b hb
    exact smvStore4_safe ..

/-! ### the shared status -/

section race
variable {L V α : Type} [DecidableEq L]

/-- a thread runs alone to the end of its first part -/
theorem smv_solo {own ro : L → Prop} (t : Nat) (p : ThP L V α) (k : α → ThP L V Unit) :
    ∀ (c : PCfg L V) (Q : α → (L → Option V) → Prop), c.th t = p.bind k → p.wp own ro c.mem Q →
      ∃ n a c', PRun n c c' ∧ c'.th t = k a ∧ (∀ t', t' ≠ t → c'.th t' = c.th t') ∧
        (∀ l, ¬ own l → c'.mem l = c.mem l) ∧ Q a c'.mem := by
  induction p with
  | ret a => intro c Q h hw; exact ⟨0, a, c, .zero c, h, fun _ _ => rfl, fun _ _ => rfl, hw⟩
  | fail => intro c Q h hw; exact hw.elim
  | read l f ih =>
    intro c Q h hw
    obtain ⟨-, v, hv, hw⟩ := hw
    obtain ⟨n, a, c', hr, h1, h2, h4, h3⟩ := ih v ⟨Function.update c.th t ((f v).bind k), c.mem⟩ Q (by simp) hw
    refine ⟨n + 1, a, c', prun_trans_one (.read t h hv) hr, h1, fun t' ht => ?_, h4, h3⟩
    rw [h2 t' ht]
    simp [Function.update_of_ne ht]
  | write l v f ih =>
    intro c Q h hw
    obtain ⟨ho, hv, hw⟩ := hw
    obtain ⟨n, a, c', hr, h1, h2, h4, h3⟩ := ih ⟨Function.update c.th t (f.bind k), Function.update c.mem l (some v)⟩ Q
      (by simp) hw
    refine ⟨n + 1, a, c', prun_trans_one (.write t h hv) hr, h1, fun t' ht => ?_, fun l' hl => ?_, h3⟩
    · rw [h2 t' ht]
      simp [Function.update_of_ne ht]
    · rw [h4 l' hl]
      exact Function.update_of_ne (fun e : l' = l => hl (by rw [e]; exact ho)) _ _

theorem smv_run_trans {n n' : Nat} {c d e : PCfg L V} (h : PRun n c d) (h' : PRun n' d e) : PRun (n + n') c e := by
  induction h' with
  | zero => exact h
  | succ _ s ih => exact .succ (ih h) s
end race

end Verif
