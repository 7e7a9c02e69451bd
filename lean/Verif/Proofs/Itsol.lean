/-
The reverse-communication interface with the CG solver refines the dialogue of Spec/Cg, call by call.
-/
import Verif.Model.Itsol
import Verif.Proofs.Cg

namespace Verif
namespace Proofs
open Model Spec

section
variable {R Q : Type} [Zero R] [Neg R] [Add R] [Sub R] [Mul R] [Div R] [LinearOrder Q] {n : Nat}

/-- the options say: CG, with these parameters -/
structure CgOpts (Rg : Registry Q) (o : CgOpt Q) : Prop where
  method : Rg.getKey "iterative method".toList = some (some 1)
  pre : ∃ k, Rg.getKey "cg preconditioner".toList = some (some k) ∧ (k = 0 ↔ o.pre = false)
  rtol : Rg.getReal "cg rel tolerance".toList = some o.rtol
  atol : Rg.getReal "cg abs tolerance".toList = some o.atol
  maxit : Rg.getInt "cg iteration limit".toList = some o.maxit

/-- a handle with a right-hand side and no solve under way; the CG data may be left from earlier solves -/
structure IdleH (b : Fin n → R) (Rg : Registry Q) (H : ItH R Q) : Prop where
  size : H.n = n
  b : H.b = some (List.ofFn b)
  solving : H.solving = false
  opts : H.opts = Rg ∨ H.opts = Rg.lock
  data : ∀ cg, H.cg = some cg → cg.r.length = n ∧ cg.z.length = n ∧ cg.p.length = n ∧ cg.q.length = n

/-- a handle in a CG solve -/
structure BusyH (b : Fin n → R) (Rg : Registry Q) (H : ItH R Q) : Prop where
  size : H.n = n
  b : H.b = some (List.ofFn b)
  solving : H.solving = true
  solver : H.solver = 1
  opts : H.opts = Rg.lock

variable (num : Num R Q) (gnum : GNum R Q)

/-- a call that got as far as the dialogue -/
def After (o : CgOpt Q) (b : Fin n → R) (t : List R) (Rg : Registry Q) (O : CgOut n R Q) (q : Status × RciSt R Q) :
    Prop :=
  match O with
  | .ask a V => q.1 = .success ∧ BusyH b Rg q.2.H ∧
      ∃ cg, q.2.H.cg = some cg ∧ Holds num o b t a V ⟨cg, q.2.c, q.2.x, q.2.rinfo⟩
  | .done st V => q.1 = st ∧ q.2.c.job = .stop ∧ IdleH b Rg q.2.H ∧ q.2.H.opts = Rg ∧
      ∃ cg, q.2.H.cg = some cg ∧ Ended num t V ⟨cg, q.2.c, q.2.x, q.2.rinfo⟩

variable {num} {o : CgOpt Q} {b : Fin n → R} {t : List R} {Rg : Registry Q}

theorem getKey_lock (R : Registry Q) (s : Str) : R.lock.getKey s = R.getKey s := rfl
theorem getReal_lock (R : Registry Q) (s : Str) : R.lock.getReal s = R.getReal s := rfl
theorem getInt_lock (R : Registry Q) (s : Str) : R.lock.getInt s = R.getInt s := rfl

/-- from the solver to the interface -/
theorem finish_after {S : RciSt R Q} (hB : BusyH b Rg S.H) (hu : Rg.readonly = false) {cg : CgData R Q}
    (hcg : S.H.cg = some cg)
    {O : CgOut n R Q} {r : Status × CgSt R Q} (hr : cgRci num n (List.ofFn b) ⟨cg, S.c, S.x, S.rinfo⟩ = some r)
    (hM : Matches num o b t O r) :
    ∃ q, rciSwitch num gnum S = some q ∧ After num o b t Rg O (rciFinish q) := by
  unfold rciSwitch
  rw [if_pos hB.solver, hcg, hB.b, hB.size]
  dsimp only
  rw [hr]
  refine ⟨_, rfl, ?_⟩
  unfold rciFinish
  dsimp only
  cases O with
  | ask a V =>
    obtain ⟨h1, h2⟩ := hM
    have hj : r.2.c.job ≠ .stop := by
      rw [h2.comm]; cases a <;> simp
    rw [if_neg (show ¬ r.1 ≠ .success from fun e => e h1), if_neg hj]
    exact ⟨h1, ⟨hB.size, hB.b, hB.solving, hB.solver, hB.opts⟩, _, rfl, h2⟩
  | done st V =>
    obtain ⟨h1, h2, h3⟩ := hM
    have hun : S.H.opts.unlock = Rg := by
      rw [hB.opts]
      cases Rg
      simp only at hu
      subst hu
      rfl
    have hj : (if r.1 ≠ .success then ({ r.2.c with job := .stop } : Comm) else r.2.c).job = .stop := by
      split
      · rfl
      · rename_i h
        exact h2.resolve_left h
    rw [if_pos hj]
    refine ⟨h1, hj, ⟨hB.size, hB.b, rfl, Or.inl hun, ?_⟩, hun, _, rfl, ?_⟩
    · intro cg' hcg'
      cases hcg'
      exact ⟨h3.rlen, h3.zlen, h3.plen, h3.qlen⟩
    · exact ⟨h3.x, h3.info, h3.i0, h3.i1, h3.i30, h3.rlen, h3.zlen, h3.plen, h3.qlen⟩

/-- what the options make of the data -/
def prepared (k : Int) (o : CgOpt Q) (cg0 : CgData R Q) : CgData R Q :=
  { cg0 with task := .start, precond := k, rtol := o.rtol, atol := o.atol, maxit := o.maxit }

/-- the initialisation of a solve -/
theorem init_eq {H : ItH R Q} (hI : IdleH b Rg H) (hO : CgOpts Rg o) (g : Nat → R) (gq : Q) (w : Int) :
    ∃ k cg0, Rg.getKey "cg preconditioner".toList = some (some k) ∧ (k = 0 ↔ o.pre = false) ∧
      (cg0.r.length = n ∧ cg0.z.length = n ∧ cg0.p.length = n ∧ cg0.q.length = n) ∧
      solverInit gnum g gq w H = some (.success, { H with solver := 1, cg := some (prepared k o cg0) }) := by
  obtain ⟨k, hk, hk0⟩ := hO.pre
  have hkey : ∀ s, H.opts.getKey s = Rg.getKey s := by
    intro s; rcases hI.opts with h | h <;> rw [h]; rfl
  have hreal : ∀ s, H.opts.getReal s = Rg.getReal s := by
    intro s; rcases hI.opts with h | h <;> rw [h]; rfl
  have hint : ∀ s, H.opts.getInt s = Rg.getInt s := by
    intro s; rcases hI.opts with h | h <;> rw [h]; rfl
  obtain ⟨cg0, hcg0, hl⟩ : ∃ cg0 : CgData R Q, cgDataOf g gq { H with solver := 1 } = cg0 ∧
      cg0.r.length = n ∧ cg0.z.length = n ∧ cg0.p.length = n ∧ cg0.q.length = n := by
    unfold cgDataOf
    cases hc : H.cg with
    | some cg => exact ⟨cg, rfl, hI.data cg hc⟩
    | none => exact ⟨_, rfl, by simp [cgDataInit, alloc, hI.size]⟩
  refine ⟨k, cg0, hk, hk0, hl, ?_⟩
  unfold solverInit
  rw [hkey, hO.method]
  simp only [Option.bind_eq_bind, Option.bind_some, Option.getD_some, if_true]
  unfold cgPrepare cgDataOptions
  rw [hcg0]
  dsimp only
  rw [hkey, hk, hreal, hreal, hint, hO.rtol, hO.atol, hO.maxit]
  rfl

/-- the first call of a solve whose data are prepared -/
theorem prepared_after {S : RciSt R Q} {x : Fin n → R} (hB : BusyH b Rg S.H) (hu : Rg.readonly = false) {k : Int}
    {cg0 : CgData R Q} (hk0 : k = 0 ↔ o.pre = false)
    (hl : cg0.r.length = n ∧ cg0.z.length = n ∧ cg0.p.length = n ∧ cg0.q.length = n)
    (hcg : S.H.cg = some (prepared k o cg0)) (hx : S.x = List.ofFn x ++ t) (hinfo : S.rinfo.length = 100) :
    ∃ q, rciSwitch num gnum S = some q ∧ After num o b t Rg (cgBegin num b x) (rciFinish q) := by
  obtain ⟨r, hr, hM⟩ := start_matches (num := num) (o := o) (b := b) (t := t)
    (S := ⟨prepared k o cg0, S.c, S.x, S.rinfo⟩) (x := x) rfl hx hinfo hl.1 hl.2.1 hl.2.2.1 hl.2.2.2 rfl rfl rfl hk0
  exact finish_after gnum hB hu hcg hr hM

/-- the first call of a solve -/
theorem first_after {S : RciSt R Q} {x : Fin n → R} (hI : IdleH b Rg S.H) (hu : Rg.readonly = false)
    (hO : CgOpts Rg o) (hx : S.x = List.ofFn x ++ t) (hinfo : S.rinfo.length = 100) (g : Nat → R) (gq : Q) (w : Int) :
    ∃ q, rciSolve num gnum g gq w S = some q ∧ After num o b t Rg (cgBegin num b x) q := by
  obtain ⟨k, cg0, -, hk0, hl, hinit⟩ := init_eq gnum hI hO g gq w
  have hlock : S.H.opts.lock = Rg.lock := by rcases hI.opts with h | h <;> rw [h]; rfl
  obtain ⟨q, hq, hA⟩ := prepared_after (num := num) gnum (S := { S with H := { S.H with
      solver := 1, cg := some (prepared k o cg0), solving := true, opts := S.H.opts.lock } }) (Rg := Rg) (b := b)
    ⟨hI.size, hI.b, rfl, rfl, hlock⟩ hu hk0 hl rfl hx hinfo
  refine ⟨rciFinish q, ?_, hA⟩
  unfold rciSolve
  rw [if_pos hI.solving, hinit]
  simp only [Option.bind_eq_bind, Option.bind_some]
  rw [if_neg (fun e : Status.success ≠ Status.success => e rfl), hq]
  rfl

theorem ended_of_holds {a : CgAsk} {V : CgV n R Q} {S : CgSt R Q} (h : Holds num o b t a V S) (c : Comm) :
    Ended num t V { S with c := c } :=
  ⟨h.x, h.info, h.i0, h.i1, h.i30, by rw [h.r]; cases a <;> simp, h.zlen, by rw [h.p]; cases a <;> simp, h.qlen⟩

/-- a later call -/
theorem next_after {q : Status × RciSt R Q} {a : CgAsk} {V : CgV n R Q} (hA : After num o b t Rg (.ask a V) q)
    (hu : Rg.readonly = false) (rep : Reply n R) (g : Nat → R) (gq : Q) (w : Int) :
    ∃ q', rciSolve num gnum g gq w (userReply rep.stop (List.ofFn rep.w) q.2) = some q' ∧
      After num o b t Rg (cgNext num o b (.ask a V) rep) q' := by
  obtain ⟨st, S⟩ := q
  obtain ⟨h1, hB, cg, hcg, hH⟩ := hA
  dsimp only at h1 hB hcg hH ⊢
  have hbusy : ∀ S' : RciSt R Q, BusyH b Rg S'.H → rciSolve num gnum g gq w S' =
      (rciSwitch num gnum S').map rciFinish := by
    intro S' hB'
    unfold rciSolve
    rw [if_neg (by rw [hB'.solving]; simp)]
    cases rciSwitch num gnum S' <;> rfl
  have fin : ∀ (S' : RciSt R Q) (cg' : CgData R Q) (O : CgOut n R Q), BusyH b Rg S'.H → S'.H.cg = some cg' →
      (∃ r, cgRci num n (List.ofFn b) ⟨cg', S'.c, S'.x, S'.rinfo⟩ = some r ∧ Matches num o b t O r) →
      ∃ q', rciSolve num gnum g gq w S' = some q' ∧ After num o b t Rg O q' := by
    rintro S' cg' O hB' hc' ⟨r, hr, hM⟩
    obtain ⟨q, hq, hA⟩ := finish_after gnum hB' hu hc' hr hM
    exact ⟨rciFinish q, by rw [hbusy S' hB', hq]; rfl, hA⟩
  unfold userReply cgNext
  by_cases hs : rep.stop = true
  · rw [if_pos hs]
    dsimp only
    rw [if_pos hs]
    refine fin _ cg _ ⟨hB.size, hB.b, hB.solving, hB.solver, hB.opts⟩ hcg ?_
    refine ⟨(.userStop, ⟨cg, { S.c with job := .stop }, S.x, S.rinfo⟩), ?_, rfl, Or.inl (by simp),
      ended_of_holds hH _⟩
    unfold cgRci
    rw [if_pos ⟨by rw [hH.task]; cases a <;> simp, rfl⟩]
  · rw [if_neg hs]
    dsimp only
    rw [if_neg hs, hcg]
    have hcomm := hH.comm
    have htask : S.c.job ≠ .interrupt := by
      dsimp only at hcomm
      rw [hcomm]; cases a <;> simp
    have hBc : ∀ cg' : CgData R Q, BusyH b Rg { S.H with cg := some cg' } := fun cg' =>
      ⟨hB.size, hB.b, hB.solving, hB.solver, hB.opts⟩
    dsimp only at hcomm
    cases a with
    | product0 =>
      have hv : S.c.v = .q := by rw [hcomm]
      rw [hv]
      exact fin _ _ _ (hBc { cg with q := List.ofFn rep.w }) rfl (initRes_matches hH rep.w S.c.job htask)
    | monitor =>
      have hv : S.c.v = .null := by rw [hcomm]
      rw [hv]
      exact fin _ _ _ hB hcg (monitor_matches hH rep.w S.c.job htask)
    | precond =>
      have hv : S.c.v = .z := by rw [hcomm]
      rw [hv]
      exact fin _ _ _ (hBc { cg with z := List.ofFn rep.w }) rfl (precond_matches hH rep.w S.c.job htask)
    | product =>
      have hv : S.c.v = .q := by rw [hcomm]
      rw [hv]
      exact fin _ _ _ (hBc { cg with q := List.ofFn rep.w }) rfl (product_matches hH rep.w S.c.job htask)

/-- all calls of a solve -/
theorem talk_after (hu : Rg.readonly = false) (g : Nat → R) (gq : Q) (w : Int) (reps : List (Reply n R))
    {S : RciSt R Q} {O : CgOut n R Q} {q : Status × RciSt R Q} (hq : rciSolve num gnum g gq w S = some q)
    (hA : After num o b t Rg O q) :
    ∃ L, rciTalk num gnum g gq w S (reps.map fun r => (r.stop, List.ofFn r.w)) = some L ∧
      List.Forall₂ (After num o b t Rg) (cgTalk num o b O reps) L := by
  induction reps generalizing S O q with
  | nil =>
    refine ⟨[q], ?_, ?_⟩
    · simp only [List.map_nil, rciTalk, hq, Option.bind_eq_bind, Option.bind_some]
    · unfold cgTalk
      cases O <;> exact .cons hA .nil
  | cons rep reps ih =>
    cases O with
    | done st V =>
      refine ⟨[q], ?_, ?_⟩
      · simp only [List.map_cons, rciTalk, hq, Option.bind_eq_bind, Option.bind_some]
        rw [if_pos hA.2.1]
      · unfold cgTalk
        exact .cons hA .nil
    | ask a V =>
      obtain ⟨q', hq', hA'⟩ := next_after gnum hA hu rep g gq w
      obtain ⟨L, hL, hF⟩ := ih hq' hA'
      have hj : q.2.c.job ≠ .stop := by
        obtain ⟨-, -, cg, -, hH⟩ := hA
        have := hH.comm
        dsimp only at this
        rw [this]; cases a <;> simp
      refine ⟨q :: L, ?_, ?_⟩
      · simp only [List.map_cons, rciTalk, hq, Option.bind_eq_bind, Option.bind_some]
        rw [if_neg hj, hL]
        rfl
      · rw [cgTalk]
        exact .cons hA hF

end
end Proofs
end Verif
