/-
The calls of one GMRES solve through the interface.
-/
import Verif.Proofs.GmTalk

namespace Verif
namespace Proofs
open Model Spec

section
variable {R Q : Type} [Zero R] [Neg R] [Add R] [Sub R] [Mul R] [Div R] [LinearOrder Q]

/-- the solver's part of a state -/
def gmPart (S : RciSt R Q) (gm : GmData R Q) : GmSt R Q := ⟨gm, S.c, S.x, S.rinfo⟩

/-- the interface in a GMRES solve, waiting for the answer to `a` -/
structure GmWait (num : GNum R Q) (o : GmOpt Q) (n m j : Nat) (b : List R) (Rg : Registry Q) (a : GmAsk)
    (gm : GmData R Q) (S : RciSt R Q) : Prop where
  size : S.H.n = n
  b : S.H.b = some b
  solving : S.H.solving = true
  solver : S.H.solver = 2
  opts : S.H.opts = Rg.lock
  data : S.H.gm = some gm
  st : GmIn num o n m j a (gmPart S gm)

/-- the interface after a solve -/
structure GmOver (n m : Nat) (b : List R) (Rg : Registry Q) (q : Status × RciSt R Q) : Prop where
  job : q.2.c.job = .stop
  size : q.2.H.n = n
  b : q.2.H.b = some b
  solving : q.2.H.solving = false
  opts : q.2.H.opts = Rg
  info : q.2.rinfo.length = 100
  data : ∃ gm, q.2.H.gm = some gm ∧ (q.1 = .numericalError ∨ ∃ j, j < m ∧ GmSz n m j gm)

variable (num : Num R Q) {gnum : GNum R Q} {o : GmOpt Q} {n m j : Nat} {b : List R} {Rg : Registry Q} {a : GmAsk}
variable {gm : GmData R Q} {S : RciSt R Q}

theorem unlock_lock (hu : Rg.readonly = false) : Rg.lock.unlock = Rg := by
  cases Rg
  simp only at hu
  subst hu
  rfl

/-- a call in a solve is a call of the solver -/
theorem gm_call (hw : GmWait gnum o n m j b Rg a gm S) (g : Nat → R) (gq : Q) (w : Int) (c : Comm)
    {r : Status × GmSt R Q} (hr : gmRci gnum n b { gmPart S gm with c := c } = some r) :
    rciSolve num gnum g gq w { S with c := c } =
      some (rciFinish (r.1, ⟨{ S.H with gm := some r.2.gm }, r.2.c, r.2.x, r.2.rinfo⟩)) := by
  unfold rciSolve
  dsimp only
  rw [if_neg (by rw [hw.solving]; simp)]
  unfold rciSwitch
  dsimp only
  rw [if_neg (by rw [hw.solver]; omega), if_pos hw.solver, hw.data, hw.b, hw.size]
  dsimp only
  unfold gmPart at hr
  dsimp only at hr
  rw [hr]
  rfl

/-- one call with an answer, through the interface -/
theorem gm_next (hb : b.length = n) (hu : Rg.readonly = false) (hw : GmWait gnum o n m j b Rg a gm S) (g : Nat → R)
    (gq : Q) (w : Int) :
    ∃ q r, gmRci gnum n b (gmPart S gm) = some r ∧ GmStepOk gnum o n m j a (gmPart S gm) r ∧
      rciSolve num gnum g gq w S = some q ∧ q.2.x = r.2.x ∧ q.2.rinfo = r.2.rinfo ∧ q.2.H.gm = some r.2.gm ∧
      q.1 = r.1 ∧
      (∀ a' j', r.1 = .success → GmIn gnum o n m j' a' r.2 → GmWait gnum o n m j' b Rg a' r.2.gm q.2 ∧
        gmPart q.2 r.2.gm = r.2) ∧
      (GmEnd n m r.1 r.2 → GmOver n m b Rg q) := by
  obtain ⟨r, hr, hs⟩ := gm_step (num := gnum) (b := b) hb hw.st
  have hc := gm_call num hw g gq w S.c (r := r) hr
  refine ⟨_, r, hr, hs, hc, ?_, ?_, ?_, ?_, ?_, ?_⟩
  · unfold rciFinish; dsimp only; split <;> split <;> rfl
  · unfold rciFinish; dsimp only; split <;> split <;> rfl
  · unfold rciFinish; dsimp only; split <;> split <;> rfl
  · unfold rciFinish; dsimp only; split <;> split <;> rfl
  · intro a' j' h1 h2
    have hj : r.2.c.job ≠ .stop := by rw [h2.comm]; exact comm_ne_stop a'
    unfold rciFinish
    dsimp only
    rw [if_neg (show ¬ r.1 ≠ .success from fun e => e h1), if_neg hj]
    exact ⟨⟨hw.size, hw.b, hw.solving, hw.solver, hw.opts, rfl, h2⟩, rfl⟩
  · intro h2
    have hj : (if r.1 ≠ .success then ({ r.2.c with job := .stop } : Comm) else r.2.c).job = .stop := by
      split
      · rfl
      · rename_i h
        exact h2.stop.resolve_left h
    unfold rciFinish
    dsimp only
    rw [if_pos hj]
    exact ⟨hj, hw.size, hw.b, rfl, by rw [hw.opts]; exact unlock_lock hu, h2.info, r.2.gm, rfl, h2.left⟩

/-- a call after a request to stop -/
theorem gm_stopped (hu : Rg.readonly = false) (hw : GmWait gnum o n m j b Rg a gm S) (g : Nat → R) (gq : Q) (w : Int) :
    ∃ q, rciSolve num gnum g gq w (userStop S) = some q ∧ q.1 = .userStop ∧ q.2.x = S.x ∧ q.2.rinfo = S.rinfo ∧
      q.2.H.gm = S.H.gm ∧ GmOver n m b Rg q := by
  have hr := gm_step_stop (num := gnum) (b := b) hw.st
  have hc := gm_call num hw g gq w { S.c with job := .interrupt } hr
  refine ⟨_, hc, rfl, rfl, rfl, hw.data.symm, rfl, hw.size, hw.b, rfl, ?_, hw.st.info, gm, rfl, Or.inr ⟨j, hw.st.jlt, hw.st.sz⟩⟩
  show S.H.opts.unlock = Rg
  rw [hw.opts]; exact unlock_lock hu

/-- an answer -/
theorem gm_answer (hw : GmWait gnum o n m j b Rg a gm S) (hm : a ≠ .monitor) :
    ∃ u, gm.vec n S.x S.c.u = some u ∧ u.length = n ∧ ∀ v : List R, v.length = n → ∃ gm' S',
      gmWrite v S = some S' ∧ gm.put S.c.v v = some gm' ∧ GmWait gnum o n m j b Rg a gm' S' ∧
      S' = { S with H := { S.H with gm := some gm' } } ∧
      gm'.vec n S.x S.c.u = some u ∧ gm'.vec n S.x S.c.v = some v := by
  obtain ⟨u, h1, h2, h3⟩ := gm_vec hw.st hm
  refine ⟨u, h1, h2, ?_⟩
  intro v hv
  obtain ⟨gm', e1, e2, e3, e4⟩ := h3 v hv
  refine ⟨gm', { S with H := { S.H with gm := some gm' } }, ?_, e1, ⟨hw.size, hw.b, hw.solving, hw.solver, hw.opts, rfl, e2⟩, rfl, e3, e4⟩
  unfold gmWrite
  rw [hw.data]
  simp only [Option.bind_eq_bind, Option.bind_some]
  have e1' : gm.put S.c.v v = some gm' := e1
  rw [e1']
  rfl

/-- the data of a new solve -/
def gmReady (o : GmOpt Q) (gm : GmData R Q) : GmData R Q :=
  { gm with task := .start, precond := o.pre, rtol := o.rtol, atol := o.atol, maxit := o.maxit }

theorem gm_init {it : Int} {w : Int} (hI : GmIdle n m w b Rg o j it S.H) (hO : GmOpts Rg o) (g : Nat → R) (gq : Q) :
    ∃ gm0 : GmData R Q, GmSz n m j gm0 ∧ gm0.niter = it ∧
      solverInit gnum g gq w S.H = some (.success, { S.H with solver := 2, gm := some (gmReady o gm0) }) := by
  have hkey : ∀ s, S.H.opts.getKey s = Rg.getKey s := by
    intro s; rcases hI.opts with h | h <;> rw [h]; rfl
  have hreal : ∀ s, S.H.opts.getReal s = Rg.getReal s := by
    intro s; rcases hI.opts with h | h <;> rw [h]; rfl
  have hint : ∀ s, S.H.opts.getInt s = Rg.getInt s := by
    intro s; rcases hI.opts with h | h <;> rw [h]; rfl
  rcases hI.data with ⟨h0, h1, hj0, hit0, h3, h4⟩ | ⟨gm, h0, h1, h2⟩
  · obtain ⟨gm0, hgm0, hz0, hit1⟩ : ∃ gm0 : GmData R Q, gmDataInit gnum gq w S.H.n m = .ok gm0 ∧ GmSz n m 0 gm0 ∧
        gm0.niter = 0 := by
      refine ⟨_, by unfold gmDataInit; rw [hI.size, if_neg (by omega)], ⟨?_, ?_, ?_, ?_, ?_, ?_, rfl, rfl⟩, rfl⟩
      · simp only [List.length_replicate]
        have : ((m : Int) + 1) * n = (((m + 1) * n : Nat) : Int) := by push_cast; ring
        rw [this, Int.toNat_natCast]
      · simp only [List.length_replicate]
        have : ((m : Int) + 1) * n = (((m + 1) * n : Nat) : Int) := by push_cast; ring
        rw [this, Int.toNat_natCast]
      · simp only [List.length_replicate]
        have : (m : Int) * m = ((m * m : Nat) : Int) := by push_cast; ring
        rw [this, Int.toNat_natCast]
      · simp only [List.length_replicate]
        omega
      · simp
      · simp
    refine ⟨gm0, by rw [hj0]; exact hz0, by rw [hit0]; exact hit1, ?_⟩
    unfold solverInit
    rw [hkey, hO.method]
    simp only [Option.bind_eq_bind, Option.bind_some, Option.getD_some]
    rw [if_neg (by omega), if_pos trivial]
    unfold gmPrepare
    dsimp only
    rw [h0, hint, hO.restart]
    dsimp only
    rw [h1, hgm0]
    dsimp only
    unfold gmDataOptions
    dsimp only
    rw [hkey, hO.pre, hreal, hreal, hint, hO.rtol, hO.atol, hO.maxit]
    rfl
  · refine ⟨gm, h1, h2, ?_⟩
    unfold solverInit
    rw [hkey, hO.method]
    simp only [Option.bind_eq_bind, Option.bind_some, Option.getD_some]
    rw [if_neg (by omega), if_pos trivial]
    unfold gmPrepare
    dsimp only
    rw [h0]
    dsimp only
    unfold gmDataOptions
    dsimp only
    rw [hkey, hO.pre, hreal, hreal, hint, hO.rtol, hO.atol, hO.maxit]
    rfl

/-- the first call of a solve -/
theorem gm_first {it : Int} {w : Int} (hI : GmIdle n m w b Rg o j it S.H) (hO : GmOpts Rg o) (hx : n ≤ S.x.length)
    (hinfo : S.rinfo.length = 100) (g : Nat → R) (gq : Q) :
    ∃ q gm, rciSolve num gnum g gq w S = some q ∧ q.1 = .success ∧ GmWait gnum o n m j b Rg .residual gm q.2 ∧
      gm.niter = it ∧ q.2.x = S.x ∧ q.2.rinfo = S.rinfo := by
  obtain ⟨gm0, hz, hit, hinit⟩ := gm_init (gnum := gnum) hI hO g gq
  have hlock : S.H.opts.lock = Rg.lock := by rcases hI.opts with h | h <;> rw [h]; rfl
  have hz' : GmSz n m j (gmReady o gm0) := ⟨hz.v, hz.z, hz.h, hz.g, hz.s, hz.c, hz.restart, hz.j⟩
  obtain ⟨h1, h2⟩ := gm_step_start (num := gnum) (b := b) (o := o) (S := ⟨gmReady o gm0, S.c, S.x, S.rinfo⟩) hz' hI.jlt
    rfl hx hinfo rfl rfl rfl rfl
  refine ⟨(.success, ⟨{ S.H with
      solver := 2, gm := some { gmReady o gm0 with task := .initRes }, solving := true, opts := S.H.opts.lock }, ⟨.mv, .x, .gv 0⟩, S.x, S.rinfo⟩), { gmReady o gm0 with task := .initRes }, ?_, rfl,
    ⟨hI.size, hI.rhs, rfl, rfl, hlock, rfl, h2⟩, hit, rfl, rfl⟩
  unfold rciSolve
  rw [if_pos hI.solving, hinit]
  simp only [Option.bind_eq_bind, Option.bind_some]
  rw [if_neg (fun e : Status.success ≠ Status.success => e rfl)]
  unfold rciSwitch
  dsimp only
  rw [if_neg (by omega), if_pos rfl, hI.rhs, hI.size]
  dsimp only
  rw [h1]
  rfl

end
end Proofs
end Verif
