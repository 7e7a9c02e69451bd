/-
C52 — the GMRES solver with reverse communication: every call is defined and asks for something the user can do, in a
fixed order; the number of calls is bounded; a request to stop is honoured.
-/
import Verif.Proofs.GmRunInv

namespace Verif
namespace Props
open Model Spec Proofs

section
variable {R Q : Type} [Zero R] [Neg R] [Add R] [Sub R] [Mul R] [Div R] [LinearOrder Q]
variable {num : Num R Q} {gnum : GNum R Q} {o : GmOpt Q} {n m j : Nat} {b : List R} {Rg : Registry Q} {it w : Int}
variable {S : RciSt R Q} {g : Nat → R} {gq : Q} {ans : Job → List R → List R → Prop} {k : Nat}
variable {q q' : Status × RciSt R Q}

/-- Every call of a solve, whatever the user answered before: the solver has stopped and the handle is free, or it
asks for something.  What it asks for can be done: the vector is `n` entries, there is room for the answer, and the
answer does not overwrite the vector.  Whatever is answered, the next call is defined; and a request to stop ends
the solve at once with `x` as it is.  Entries of `x` after the first `n` are never written, and the options are
locked exactly while the solve lasts. -/
theorem C52_calls (hI : GmIdle n m w b Rg o j it S.H) (hO : GmOpts Rg o) (hu : Rg.readonly = false)
    (hx : n ≤ S.x.length) (hinfo : S.rinfo.length = 100) (h : GmRun num gnum g gq w ans S k q) :
    q.2.x.length = S.x.length ∧ (∀ p, n ≤ p → q.2.x[p]? = S.x[p]?) ∧ q.2.rinfo.length = 100 ∧
    ((q.2.c.job = .stop ∧ q.2.H.solving = false ∧ q.2.H.opts = Rg) ∨
     (q.1 = .success ∧ q.2.H.solving = true ∧ q.2.H.opts = Rg.lock ∧
      ∃ (a : GmAsk) (gm : GmData R Q), a.ok o m ∧ q.2.c = a.comm o n m ∧ q.2.H.gm = some gm ∧
      (a ≠ .monitor → ∃ u, gm.vec n q.2.x q.2.c.u = some u ∧ u.length = n ∧ ∀ v : List R, v.length = n →
        ∃ gm' S' q', gmWrite v q.2 = some S' ∧ S'.H.gm = some gm' ∧ gm'.vec n q.2.x q.2.c.u = some u ∧
          gm'.vec n q.2.x q.2.c.v = some v ∧ rciSolve num gnum g gq w S' = some q' ∧ q'.1 ≠ .userStop ∧
          (q'.2.x = q.2.x ∨ q'.2.c.job = .crit)) ∧
      (a = .monitor → ∃ q', rciSolve num gnum g gq w q.2 = some q' ∧ q'.1 ≠ .userStop ∧ q'.2.x = q.2.x) ∧
      (∃ q', rciSolve num gnum g gq w (userStop q.2) = some q' ∧ q'.1 = .userStop ∧ q'.2.c.job = .stop ∧
        q'.2.x = q.2.x))) := by
  obtain ⟨⟨t1, t2⟩, cyc, hc, ⟨a, i, gm, h1, hw, h3, -, h5⟩ | ⟨h1, -⟩⟩ := gm_run hI.blen hu hI hO hx hinfo h
  · refine ⟨t1, t2, hw.st.info, Or.inr ⟨h1, hw.solving, hw.opts, a, gm, hw.st.ok, hw.st.comm, hw.data, ?_, ?_, ?_⟩⟩
    · intro hm
      obtain ⟨u, u1, u2, u3⟩ := gm_answer hw hm
      refine ⟨u, u1, u2, ?_⟩
      intro v hv
      obtain ⟨gm', S', w1, w2, w3, w4, w5, w6⟩ := u3 v hv
      have hn : gm'.niter = gm.niter := by
        revert w2
        unfold GmData.put
        intro w2
        split at w2
        all_goals first
          | (simp only [Option.map_eq_some_iff] at w2
             obtain ⟨_, _, rfl⟩ := w2
             rfl)
          | simp at w2
      obtain ⟨q', e1, -, e3, e4⟩ := gmAt_next (num := num) (x0 := S.x) hI.blen hu hI.jlt w3
        (by rw [w4]; exact ⟨t1, t2⟩) hc (by rw [hn]; exact h3) h5 g gq w
      refine ⟨gm', S', q', w1, w3.data, w5, w6, e1, e3, ?_⟩
      rw [w4] at e4
      rcases e4 with e4 | e4
      · exact Or.inl e4
      · exact Or.inr e4.1
    · intro hm
      obtain ⟨q', e1, -, e3, e4⟩ := gmAt_next (num := num) (x0 := S.x) hI.blen hu hI.jlt hw ⟨t1, t2⟩ hc h3 h5 g gq w
      refine ⟨q', e1, e3, ?_⟩
      rcases e4 with e4 | e4
      · exact e4
      · exact absurd hm e4.2
    · obtain ⟨q', e1, e2, e3, -, -, e6⟩ := gm_stopped num hu hw g gq w
      exact ⟨q', e1, e2, e6.job, e3⟩
  · exact ⟨t1, t2, h1.info, Or.inl ⟨h1.job, h1.solving, h1.opts⟩⟩

/-- The order of the requests: with data that hold no inner iterations (always so after a new right-hand side), call
number `k` asks for what stands at place `k mod (m·p + 2)` of a cycle: the product with `x`; then, for each of the `m`
inner iterations, the preconditioner (if there is one) and the product; then the monitoring step. -/
theorem C52_order (hI : GmIdle n m w b Rg o 0 it S.H) (hO : GmOpts Rg o) (hu : Rg.readonly = false)
    (hx : n ≤ S.x.length) (hinfo : S.rinfo.length = 100) (h : GmRun num gnum g gq w ans S k q)
    (hj : q.2.c.job ≠ .stop) :
    ∃ a : GmAsk, a.ok o m ∧ q.2.c = a.comm o n m ∧ a.pos o m = k % o.cycle m ∧
      (a = .monitor → q.2.rinfo[30]? = some (gnum.ofInt (it + (k / o.cycle m + 1 : Nat) * m))) := by
  obtain ⟨-, cyc, hc, ⟨a, i, gm, h1, hw, h3, h4, h5⟩ | ⟨h1, -⟩⟩ := gm_run hI.blen hu hI hO hx hinfo h
  · have hlt := pos_lt (o := o) (m := m) hw.st.ok
    have hpos : k = cyc * o.cycle m + a.pos o m := by
      rcases h5 with ⟨rfl, rfl, rfl, -⟩ | ⟨h5, -⟩
      · simp [GmAsk.pos]
      · omega
    have hmod : k % o.cycle m = a.pos o m := by
      rw [hpos, Nat.mul_comm, Nat.mul_add_mod, Nat.mod_eq_of_lt (by omega)]
    have hdiv : k / o.cycle m = cyc := by
      rw [hpos, Nat.mul_comm, Nat.mul_add_div (by omega), Nat.div_eq_of_lt (by omega)]
      omega
    refine ⟨a, hw.st.ok, hw.st.comm, hmod.symm, ?_⟩
    intro hm
    rw [(h4 hm).2, h3, if_pos hm, hdiv]
  · exact absurd h1.job hj

/-- The number of calls is bounded by the iteration limit, whatever is answered: at most
`⌈maxit / m⌉` cycles of `m·p + 2` calls, and one more call. -/
theorem C52_terminates (hI : GmIdle n m w b Rg o j it S.H) (hO : GmOpts Rg o) (hu : Rg.readonly = false)
    (hx : n ≤ S.x.length) (hinfo : S.rinfo.length = 100) (hmax : 0 < o.maxit)
    (h : GmRun num gnum g gq w ans S k q) : k ≤ ((o.maxit.toNat - 1) / m + 1) * o.cycle m := by
  obtain ⟨-, cyc, hc, hd⟩ := gm_run hI.blen hu hI hO hx hinfo h
  have hcyc : cyc ≤ (o.maxit.toNat - 1) / m := by
    have hm : 0 < m := by have := hI.jlt; omega
    rcases hc hmax with h | h
    · rw [h]; exact Nat.zero_le _
    · rw [Nat.le_div_iff_mul_le hm]
      have h1 := hI.itPos
      have h2 : ((cyc * m : Nat) : Int) < o.maxit := by push_cast; omega
      omega
  have hle : (cyc + 1) * o.cycle m ≤ ((o.maxit.toNat - 1) / m + 1) * o.cycle m :=
    Nat.mul_le_mul_right _ (by omega)
  rcases hd with ⟨a, i, gm, h1, hw, -, -, h5⟩ | ⟨-, h2, -⟩
  · have hlt := pos_lt (o := o) (m := m) hw.st.ok
    have e : (cyc + 1) * o.cycle m = cyc * o.cycle m + o.cycle m := by ring
    rcases h5 with ⟨rfl, -⟩ | ⟨h5, -⟩
    · omega
    · omega
  · omega

/-- The status maxit means that the limit is reached. -/
theorem C52_maxit (hI : GmIdle n m w b Rg o j it S.H) (hO : GmOpts Rg o) (hu : Rg.readonly = false)
    (hx : n ≤ S.x.length) (hinfo : S.rinfo.length = 100) (h : GmRun num gnum g gq w ans S k q)
    (hst : q.1 = .maxit) : q.2.c.job = .stop ∧ ∃ gm, q.2.H.gm = some gm ∧ o.maxit ≤ gm.niter := by
  obtain ⟨-, cyc, hc, ⟨a, i, gm, h1, -⟩ | ⟨h1, -, h2, -⟩⟩ := gm_run hI.blen hu hI hO hx hinfo h
  · rw [h1] at hst; simp at hst
  · exact ⟨h1.job, h2 hst⟩

/-- A handle after a solve (other than one that ended with a numerical error) can be used for the next solve. -/
theorem C52_again (hI : GmIdle n m w b Rg o j it S.H) (hO : GmOpts Rg o) (hu : Rg.readonly = false)
    (hx : n ≤ S.x.length) (hinfo : S.rinfo.length = 100) (h : GmRun num gnum g gq w ans S k q)
    (hst : q.2.c.job = .stop) (hne : q.1 ≠ .numericalError) (w' : Int) :
    ∃ j' it', GmIdle n m w' b Rg o j' it' q.2.H := by
  obtain ⟨-, cyc, hc, ⟨a, i, gm, h1, hw, -⟩ | ⟨h1, -, -, gm2, h2, h3⟩⟩ := gm_run hI.blen hu hI hO hx hinfo h
  · exact absurd hst (wait_job hw).2.2.1
  · obtain ⟨gm, hgm, hd⟩ := h1.data
    obtain ⟨j', hj', hz⟩ := hd.resolve_left hne
    rw [h2] at hgm
    cases hgm
    have hp : 0 ≤ gm2.niter := by have := hI.itPos; omega
    exact ⟨j', gm2.niter, h1.size, h1.b, hI.blen, h1.solving, Or.inl h1.opts, hj', hp, Or.inr ⟨gm2, h2, hz, rfl⟩⟩

end
end Props
end Verif
