/-
C52, the direct interface: a call is a dialogue with the answers of the environment.
-/
import Verif.Props.Gmres
import Verif.Props.CgDirect

namespace Verif
namespace Props
open Model Spec Proofs

section
variable {R Q : Type} [Zero R] [Neg R] [Add R] [Sub R] [Mul R] [Div R] [LinearOrder Q]
variable {num : Num R Q} {gnum : GNum R Q} {o : GmOpt Q} {n m j : Nat} {b : List R} {Rg : Registry Q} {it w : Int}
variable {S : RciSt R Q} {g : Nat → R} {gq : Q} {ans : Job → List R → List R → Prop} {k : Nat}
variable {q q' : Status × RciSt R Q} {τ : Type} {E : Env R Q τ} {I : τ → Prop}

/-- what the direct interface needs of its environment (`I`: what holds of the environment between calls): the product
succeeds with an answer of length `n`; the preconditioner the options ask for exists and gives `n` entries; the
monitor does not write to rinfo -/
structure GmEnv (E : Env R Q τ) (n : Nat) (pre : Int) (ans : Job → List R → List R → Prop) (I : τ → Prop) : Prop where
  mv : ∀ t u v, I t → u.length = n → v.length = n →
    ∃ a t', E.mv t u v = some (.success, a, t') ∧ a.length = n ∧ ans .mv u a ∧ I t'
  user : pre = 1 → ∃ f, E.precond = some f ∧ ∀ t u v, I t → u.length = n → v.length = n →
    ∃ fl a t', f t n u v = some (fl, a, t') ∧ a.length = n ∧ ans .precond u a ∧ I t'
  builtin : pre = 2 → ∀ t u v, I t → u.length = n → v.length = n →
    ∃ st a t', E.builtin t u v = some (st, a, t') ∧ a.length = n ∧ ans .precond u a ∧ I t'
  copy : pre ≠ 1 → pre ≠ 2 → ∀ u, u.length = n → ans .precond u u
  monit : ∀ f, E.monit = some f → ∀ t u v info, I t → ∃ fl t', f t n u v info = some (fl, info, t') ∧ I t'

/-- a callback of the user gave something other than 0 -/
def CallbackStops (E : Env R Q τ) (n : Nat) : Prop :=
  (∃ f t u v fl a t', E.precond = some f ∧ f t n u v = some (fl, a, t') ∧ fl ≠ 0) ∨
  (∃ f t u v info fl info' t', E.monit = some f ∧ f t n u v info = some (fl, info', t') ∧ fl ≠ 0)

/-- a list of length `n` as a function -/
theorem list_fn {u : List R} (hu : u.length = n) : ∃ f : Fin n → R, u = List.ofFn f := by
  subst hu
  exact ⟨u.get, (List.ofFn_get u).symm⟩

/-- copy of a vector -/
theorem copy_id {u v : List R} (hu : u.length = n) (hv : v.length = n) : forC 0 (n : Int) (idBody u) v = some u := by
  obtain ⟨f, rfl⟩ := list_fn hu
  obtain ⟨h, rfl⟩ := list_fn hv
  refine forC_ofFn' h f _ fun i h' _ => ?_
  unfold idBody
  rw [rd_ofFn', Option.bind_eq_bind, Option.bind_some, wr_ofFn']

theorem put_vec {gm gm' : GmData R Q} {p : Vp} {v x : List R} (hv : v.length = n) (h : gm.put p v = some gm') :
    ∃ v0, gm.vec n x p = some v0 ∧ v0.length = n := by
  have key : ∀ (a : List R) (off : Int) (c : List R), overwrite a off v = some c →
      ∃ v0, window a off n = some v0 ∧ v0.length = n := by
    intro a off c e
    unfold overwrite at e
    split at e
    · rename_i hh
      unfold window
      rw [if_pos (by omega)]
      exact ⟨_, rfl, by simp; omega⟩
    · simp at e
  unfold GmData.put at h
  split at h
  · simp only [Option.map_eq_some_iff] at h
    obtain ⟨c, e, -⟩ := h
    exact key _ _ _ e
  · simp only [Option.map_eq_some_iff] at h
    obtain ⟨c, e, -⟩ := h
    exact key _ _ _ e
  · simp at h

/-- what a request of the product or the preconditioner does in the direct interface -/
theorem serve_ask {a : GmAsk} {gm : GmData R Q} (hE : GmEnv E n o.pre ans I) (hw : GmWait gnum o n m j b Rg a gm S)
    (hm : a ≠ .monitor) {t : τ} (ht : I t) :
    ∃ u v S' t' fl, gm.vec n S.x S.c.u = some u ∧ v.length = n ∧ ans S.c.job u v ∧ gmWrite v S = some S' ∧ I t' ∧
      (fl ≠ 0 → CallbackStops E n) ∧
      gmServe E ⟨S, t⟩ = some (.ok ⟨if fl = (0 : Int) then S' else userStop S', t'⟩) := by
  obtain ⟨u, h1, h2, h3⟩ := gm_answer hw hm
  obtain ⟨gm0, S0, -, p0, -⟩ := h3 u h2
  obtain ⟨v0, k1, k2⟩ := put_vec (x := S.x) h2 p0
  unfold gmServe
  simp only [hw.data, hw.size]
  rcases (wait_job hw).2.1.2 hm with hc | hc
  · obtain ⟨a, t', e1, e2, e3, e4⟩ := hE.mv t u v0 ht h2 k2
    obtain ⟨gm', S', w1, w2, -, w4, -⟩ := h3 a e2
    refine ⟨u, a, S', t', 0, h1, e2, by rw [hc]; exact e3, w1, e4, fun e => absurd rfl e, ?_⟩
    simp only [hc, h1, k1, e1, w2, w4, hw.size, Option.bind_eq_bind, Option.bind_some, ne_eq, not_true, if_false, if_true]
  · simp only [hc, h1, k1, Option.bind_eq_bind, Option.bind_some]
    have hp : gm.precond = o.pre := hw.st.pre
    unfold gmPrecondStep
    simp only [hp, hw.size]
    by_cases c1 : o.pre = 1
    · obtain ⟨f, hf, hfv⟩ := hE.user c1
      obtain ⟨fl, a, t', e1, e2, e3, e4⟩ := hfv t u v0 ht h2 k2
      obtain ⟨gm', S', w1, w2, -, w4, -⟩ := h3 a e2
      refine ⟨u, a, S', t', fl, rfl, e2, e3, w1, e4, fun e => Or.inl ⟨f, _, _, _, _, _, _, hf, e1, e⟩, ?_⟩
      simp only [c1, if_true, hf, e1, w2, w4, hw.size, Option.bind_eq_bind, Option.bind_some]
      by_cases h0 : fl = 0
      · simp only [h0, ne_eq, not_true, if_false, if_true]
      · simp only [h0, ne_eq, not_false_iff, if_false, if_true, userStop]
    · by_cases c2 : o.pre = 2
      · obtain ⟨st, a, t', e1, e2, e3, e4⟩ := hE.builtin c2 t u v0 ht h2 k2
        obtain ⟨gm', S', w1, w2, -, w4, -⟩ := h3 a e2
        refine ⟨u, a, S', t', 0, rfl, e2, e3, w1, e4, fun e => absurd rfl e, ?_⟩
        simp only [c1, c2, if_true, if_false, e1, w2, w4, hw.size, Option.bind_eq_bind, Option.bind_some]
        simp
      · obtain ⟨gm', S', w1, w2, -, w4, -⟩ := h3 u h2
        refine ⟨u, u, S', t, 0, rfl, h2, hE.copy c1 c2 u h2, w1, ht, fun e => absurd rfl e, ?_⟩
        simp only [c1, c2, if_true, if_false, copy_id h2 k2, w2, w4, hw.size, Option.bind_eq_bind, Option.bind_some]

/-- what the monitoring step does in the direct interface -/
theorem serve_monitor {gm : GmData R Q} (hE : GmEnv E n o.pre ans I) (hw : GmWait gnum o n m j b Rg .monitor gm S)
    {t : τ} (ht : I t) :
    ∃ t' fl, I t' ∧ (fl ≠ 0 → CallbackStops E n) ∧
      gmServe E ⟨S, t⟩ = some (.ok ⟨if fl = (0 : Int) then S else userStop S, t'⟩) := by
  have hc : S.c.job = .crit := (wait_job hw).1.2 rfl
  unfold gmServe
  simp only [hw.data, hc, hw.size]
  cases hf : E.monit with
  | none => exact ⟨t, 0, ht, fun e => absurd rfl e, rfl⟩
  | some f =>
    obtain ⟨fl, t', e1, e2⟩ := hE.monit f hf t (gm.vec n S.x S.c.u) (gm.vec n S.x S.c.v) S.rinfo ht
    refine ⟨t', fl, e2, fun e => Or.inr ⟨f, _, _, _, _, _, _, _, hf, e1, e⟩, ?_⟩
    simp only [e1, Option.bind_eq_bind, Option.bind_some]
    by_cases h0 : fl = 0
    · simp only [h0, ne_eq, not_true, if_false, if_true]
      rw [← hc]
    · simp only [h0, ne_eq, not_false_iff, if_false, if_true]
      rfl

/-- the loop of the direct interface, from a call that is a call of a solve -/
theorem loop_run (hE : GmEnv E n o.pre ans I) (hI : GmIdle n m w b Rg o j it S.H) (hO : GmOpts Rg o)
    (hu : Rg.readonly = false) (hx : n ≤ S.x.length) (hinfo : S.rinfo.length = 100) {N : Nat}
    (hN : ∀ k q, GmRun num gnum g gq w ans S k q → k ≤ N) {fuel : Nat} {D : DirSt R Q τ} (ht : I D.t)
    (h : GmRun num gnum g gq w ans S k q) (hs : rciSolve num gnum g gq w D.S = some q) (hf : N - k < fuel) :
    ∃ st D' k' q', gmLoop num gnum E g gq w fuel D = some (st, D') ∧ GmRun num gnum g gq w ans S k' q' ∧
      D'.S.x = q'.2.x ∧ I D'.t ∧ D'.S.H.opts = Rg ∧
      ((q'.2.c.job = .stop ∧ st = q'.1 ∧ D'.S = q'.2) ∨
       (q'.2.c.job ≠ .stop ∧ st = .userStop ∧ CallbackStops E n)) ∧
      (st ≠ .numericalError → ∀ w', ∃ j' it', GmIdle n m w' b Rg o j' it' D'.S.H) := by
  induction fuel generalizing k q D with
  | zero => omega
  | succ fuel ih =>
    rw [gmLoop, hs]
    simp only [Option.bind_eq_bind, Option.bind_some]
    by_cases hj : q.2.c.job = .stop
    · rw [if_pos hj]
      have ho : q.2.H.opts = Rg := by
        obtain ⟨-, -, -, ⟨-, -, h4⟩ | ⟨-, -, -, a', gm2, -, h6, -⟩⟩ := C52_calls hI hO hu hx hinfo h
        · exact h4
        · rw [h6] at hj
          revert hj
          cases a' <;> simp [GmAsk.comm]
      exact ⟨_, _, k, q, rfl, h, rfl, ht, ho, Or.inl ⟨hj, rfl, rfl⟩,
        fun hne w' => C52_again hI hO hu hx hinfo h hj hne w'⟩
    rw [if_neg hj]
    obtain ⟨a, i, gm, h1, hw⟩ := gmAt_wait (gm_run hI.blen hu hI hO hx hinfo h) hj
    rw [if_neg (by rw [h1]; simp)]
    have hstop : ∀ {gm' : GmData R Q} {S' : RciSt R Q} {t' : τ}, GmWait gnum o n m i b Rg a gm' S' → S'.x = q.2.x →
        0 ≤ gm'.niter → I t' → CallbackStops E n → ∃ st D' k' q',
        gmLoop num gnum E g gq w fuel ⟨userStop S', t'⟩ = some (st, D') ∧
        GmRun num gnum g gq w ans S k' q' ∧
        D'.S.x = q'.2.x ∧ I D'.t ∧ D'.S.H.opts = Rg ∧
        ((q'.2.c.job = .stop ∧ st = q'.1 ∧ D'.S = q'.2) ∨
         (q'.2.c.job ≠ .stop ∧ st = .userStop ∧ CallbackStops E n)) ∧
        (st ≠ .numericalError → ∀ w', ∃ j' it', GmIdle n m w' b Rg o j' it' D'.S.H) := by
      intro gm' S' t' hw' hxx hit ht' hcb
      obtain ⟨qs, s1, -⟩ := gm_stopped num hu hw g gq w
      have hk := hN _ _ (.next h (.stop hj s1))
      obtain ⟨f, rfl⟩ : ∃ f, fuel = f + 1 := ⟨fuel - 1, by omega⟩
      obtain ⟨q2, r1, r2, r3, -, r5, r6⟩ := gm_stopped num hu hw' g gq w
      rw [gmLoop, r1]
      simp only [Option.bind_eq_bind, Option.bind_some]
      rw [if_pos r6.job]
      refine ⟨_, _, k, q, rfl, h, r3.trans hxx, ht', r6.opts, Or.inr ⟨hj, r2, hcb⟩, fun _ w' => ?_⟩
      rw [hw'.data] at r5
      exact ⟨i, gm'.niter, r6.size, r6.b, hI.blen, r6.solving, Or.inl r6.opts, hw'.st.jlt, hit,
        Or.inr ⟨gm', r5, hw'.st.sz, rfl⟩⟩
    have hpos : 0 ≤ gm.niter := by
      obtain ⟨-, cyc, -, ⟨a', i', gm2, -, hw2, h3, -⟩ | ⟨h1, -⟩⟩ := gm_run hI.blen hu hI hO hx hinfo h
      · have := hw2.data
        rw [hw.data] at this
        cases this
        rw [h3]
        have := hI.itPos
        have : (0 : Int) ≤ ((cyc + if a' = GmAsk.monitor then 1 else 0 : Nat) : Int) * m := by
          apply Int.mul_nonneg <;> omega
        omega
      · exact absurd h1.job hj
    by_cases hm : a = .monitor
    · subst hm
      obtain ⟨t', fl, e1, e2, e3⟩ := serve_monitor hE hw ht
      rw [e3]
      simp only [Option.bind_some]
      by_cases h0 : fl = 0
      · rw [if_pos h0]
        obtain ⟨-, -, -, ⟨h4, -⟩ | ⟨-, -, -, a', gm2, -, h6, -, -, h7, -⟩⟩ := C52_calls hI hO hu hx hinfo h
        · exact absurd h4 hj
        have hcj := (wait_job hw).1.2 rfl
        have ha' : a' = .monitor := by
          rw [h6] at hcj
          revert hcj
          cases a' <;> simp [GmAsk.comm]
        obtain ⟨q2, r1, -⟩ := h7 ha'
        have hr : GmRun num gnum g gq w ans S (k + 1) q2 := .next h (.goOn hcj r1)
        have hk := hN _ _ hr
        exact ih e1 hr r1 (by omega)
      · rw [if_neg h0]
        exact hstop hw rfl hpos e1 (e2 h0)
    · obtain ⟨u, v, S', t', fl, e1, e2, e3, e4, e5, e6, e7⟩ := serve_ask hE hw hm ht
      rw [e7]
      simp only [Option.bind_some]
      by_cases h0 : fl = 0
      · rw [if_pos h0]
        obtain ⟨-, -, -, ⟨h4, -⟩ | ⟨-, -, -, a', gm2, -, h6, h6', h7, -⟩⟩ := C52_calls hI hO hu hx hinfo h
        · exact absurd h4 hj
        have hcj := (wait_job hw).2.1.2 hm
        have ha' : a' ≠ .monitor := by
          rintro rfl
          rw [h6] at hcj
          simp [GmAsk.comm] at hcj
        obtain ⟨u', -, -, h8⟩ := h7 ha'
        obtain ⟨gm', S2, q2, r1, -, -, -, r5, -⟩ := h8 v e2
        rw [e4] at r1
        cases r1
        have hr : GmRun num gnum g gq w ans S (k + 1) q2 :=
          .next h (.answer hcj hw.data (by rw [hw.size]; exact e1) e3 (by rw [hw.size, e2]) e4 r5)
        have hk := hN _ _ hr
        exact ih e5 hr r5 (by omega)
      · rw [if_neg h0]
        obtain ⟨u', h1', h2', h3'⟩ := gm_answer hw hm
        obtain ⟨gm', S2, w1, w2, w3, w4, -⟩ := h3' v e2
        rw [e4] at w1
        cases w1
        refine hstop w3 (by rw [w4]) ?_ e5 (e6 h0)
        have hn : gm'.niter = gm.niter := by
          revert w2
          unfold GmData.put
          intro w2
          split at w2
          all_goals first
            | (simp only [Option.map_eq_some_iff] at w2
               obtain ⟨_, _, rfl⟩ := w2
               rfl)
            | simp at w2
        rw [hn]; exact hpos

/-- **C52**, the direct interface.  For a matrix of the right size, arrays that fit the index type, and an environment
that multiplies, applies the preconditioner and monitors, a call from any state of the handle returns.  It is a solve
with reverse communication with the answers of the environment, up to its end, with the status, x and rinfo of its
last call; or up to a callback that gives something other than 0, with the status user_stop and the x of that moment.
Then no solve is under way and the options are unlocked and the same. -/
theorem C52_direct (hE : GmEnv E n o.pre ans I) (hO : GmOpts Rg o) (hu : Rg.readonly = false) (hmax : 0 < o.maxit)
    (hr : o.restart = m) (hm : 0 < m) (hw1 : ((m : Int) + 1) * n ≤ w) (hw2 : (m : Int) * m ≤ w) (b : Fin n → R)
    (tb : List R) (g : Nat → R) (gq : Q) (dtype dfill ddiag : Nat) {optimize : τ → Option (Status × τ)}
    (fullDiag : τ → Bool) (D : DirSt R Q τ) {tt : τ} (hopt : optimize D.t = some (.success, tt)) (hI : I tt)
    (hopts : D.S.H.opts = Rg ∨ D.S.H.opts = Rg.lock) (hx : n ≤ D.S.x.length) (hinfo : D.S.rinfo.length = 100)
    {fuel : Nat} (hfuel : ((o.maxit.toNat - 1) / m + 1) * o.cycle m < fuel) :
    ∃ st D' S0 k q,
      itsolSolve num gnum E g gq w fuel n n dtype dfill ddiag optimize fullDiag (gmSolve num gnum E g gq w fuel n n) n
        (some (List.ofFn b ++ tb)) D = some (st, D') ∧
      GmIdle n m w (List.ofFn b) Rg o 0 0 S0.H ∧ S0.x = D.S.x ∧ S0.rinfo.length = 100 ∧
      GmRun num gnum g gq w ans S0 k q ∧ D'.S.x = q.2.x ∧
      ((q.2.c.job = .stop ∧ st = q.1 ∧ D'.S.rinfo = q.2.rinfo) ∨
       (q.2.c.job ≠ .stop ∧ st = .userStop ∧ CallbackStops E n)) ∧
      I D'.t ∧ D'.S.H.solving = false ∧ D'.S.H.opts = Rg := by
  obtain ⟨H', i1, i2, i3, i4, i5⟩ := C41_input g D.S.H b tb Rg hopts
  have hId : GmIdle n m w (List.ofFn b) Rg o 0 0 H' :=
    ⟨i2.size, i2.b, by simp, i2.solving, i2.opts, hm, le_refl _, Or.inl ⟨i4, hr, rfl, rfl, hw1, hw2⟩⟩
  set S0 : RciSt R Q := ⟨H', ⟨.start, .null, .null⟩, D.S.x, List.replicate 100 num.zeroQ⟩ with hS0
  obtain ⟨gm0, -, -, hinit⟩ := gm_init (gnum := gnum) (S := S0) hId hO g gq
  replace hinit : solverInit gnum g gq w H' = some (.success, { H' with solver := 2, gm := some (gmReady o gm0) }) := hinit
  obtain ⟨q0, gmq, f1, f2, -⟩ := gm_first num (gnum := gnum) (S := S0) hId hO hx List.length_replicate g gq
  have hfirst : rciSolve num gnum g gq w
      ⟨{ H' with solver := 2, gm := some (gmReady o gm0), solving := true, opts := H'.opts.lock },
        ⟨.start, .null, .null⟩, D.S.x, List.replicate 100 num.zeroQ⟩ = some q0 := by
    rw [← f1]
    unfold rciSolve
    rw [if_neg (by simp), if_pos hId.solving]
    show _ = (solverInit gnum g gq w H').bind _
    rw [hinit, Option.bind_some]
    exact (if_neg (fun e : Status.success ≠ .success => e rfl)).symm
  obtain ⟨st, D', k, q, l1, l2, l3, l4, l5, l6, -⟩ := loop_run (num := num) (E := E) (S := S0) (w := w) (g := g) (gq := gq)
    hE hId hO hu hx List.length_replicate (fun k q h => C52_terminates (S := S0) hId hO hu hx List.length_replicate hmax h) (k := 0) (q := q0)
    (fuel := fuel) (D := ⟨⟨{ H' with solver := 2, gm := some (gmReady o gm0), solving := true, opts := H'.opts.lock },
        ⟨.start, .null, .null⟩, D.S.x, List.replicate 100 num.zeroQ⟩, tt⟩) hI (.first f1) hfirst (by omega)
  refine ⟨st, { D' with S := { D'.S with H := { D'.S.H with solving := false, opts := D'.S.H.opts.unlock } } }, S0, k, q,
    ?_, hId, rfl, List.length_replicate, l2, l3, ?_, l4, rfl, ?_⟩
  · unfold itsolSolve
    simp only [clearInfo_eq num hinfo, Option.bind_eq_bind, Option.bind_some, i1]
    rw [if_neg (fun e : Status.success ≠ .success => e rfl)]
    simp only [hinit, Option.bind_some]
    rw [if_neg (fun e : Status.success ≠ .success => e rfl)]
    simp only [hopt, Option.bind_some]
    rw [if_neg (fun e : Status.success ≠ .success => e rfl), if_neg (by omega), if_pos trivial]
    have hs : gmSolve num gnum E g gq w fuel n n
        ⟨⟨{ H' with solver := 2, gm := some (gmReady o gm0), solving := true, opts := H'.opts.lock }, D.S.c, D.S.x,
          List.replicate 100 num.zeroQ⟩, tt⟩ = some (st, D') := by
      unfold gmSolve
      dsimp only
      rw [if_neg (by rw [i2.size]; simp), if_neg ?_]
      · exact l1
      · rintro ⟨e1, e2⟩
        obtain ⟨f, hf, -⟩ := hE.user e1
        rw [hf] at e2
        simp at e2
    rw [hs]
    rfl
  · rcases l6 with ⟨e1, e2, e3⟩ | e
    · exact Or.inl ⟨e1, e2, by rw [e3]⟩
    · exact Or.inr e
  · show D'.S.H.opts.unlock = Rg
    rw [l5]
    cases Rg
    simp only at hu
    subst hu
    rfl

end
end Props
end Verif
