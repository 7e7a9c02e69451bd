/-
The calls of one GMRES solve: invariant, order of the requests.
-/
import Verif.Proofs.GmStep
import Verif.Proofs.Itsol
import Verif.Spec.Gmres

namespace Verif
namespace Proofs
open Model Spec

section
variable {R Q : Type}

/-- the task that goes with a request -/
def GmTaskOf (a : GmAsk) (t : GmTask) : Prop :=
  match a with
  | .residual => t = .initRes
  | .precond _ => t = .initPrecond ∨ t = .endIter
  | .product _ => t = .startIter
  | .monitor => t = .restartCycle ∨ t = .convergenceCheck

/-- the number of inner iterations done, at a request -/
def GmAskJ (a : GmAsk) (j : Nat) : Prop :=
  match a with
  | .residual => True
  | .precond i => j = i
  | .product i => j = i
  | .monitor => j = 0

/-- the solve has ended: `left`: the data can be used again -/
structure GmEnd (n m : Nat) (st : Status) (S : GmSt R Q) : Prop where
  stop : st ≠ .success ∨ S.c.job = .stop
  left : st = .numericalError ∨ ∃ j, j < m ∧ GmSz n m j S.gm
  x : n ≤ S.x.length
  info : S.rinfo.length = 100

/-- the order of the requests -/
inductive GmNext (o : GmOpt Q) (m j : Nat) : GmAsk → GmAsk → Prop where
  | begin : o.pre ≠ 0 → GmNext o m j .residual (.precond j)
  | begin0 : o.pre = 0 → GmNext o m j .residual (.product j)
  | mul {i} : o.pre ≠ 0 → GmNext o m j (.precond i) (.product i)
  | more {i} : o.pre ≠ 0 → i + 1 < m → GmNext o m j (.product i) (.precond (i + 1))
  | more0 {i} : o.pre = 0 → i + 1 < m → GmNext o m j (.product i) (.product (i + 1))
  | last {i} : i + 1 = m → GmNext o m j (.product i) .monitor
  | again : GmNext o m j .monitor .residual

variable [Zero R] [Neg R] [Add R] [Sub R] [Mul R] [Div R]

/-- the solver waits for the answer to `a` -/
structure GmIn (num : GNum R Q) (o : GmOpt Q) (n m j : Nat) (a : GmAsk) (S : GmSt R Q) : Prop where
  sz : GmSz n m j S.gm
  jlt : j < m
  ok : a.ok o m
  ja : GmAskJ a j
  task : GmTaskOf a S.gm.task
  comm : S.c = a.comm o n m
  mon : a = .monitor → S.gm.task = if gmDone num S.gm then .convergenceCheck else .restartCycle
  x : n ≤ S.x.length
  info : S.rinfo.length = 100
  pre : S.gm.precond = o.pre
  rtol : S.gm.rtol = o.rtol
  atol : S.gm.atol = o.atol
  maxit : S.gm.maxit = o.maxit

/-- what one call of the solver does -/
structure GmStepOk (num : GNum R Q) (o : GmOpt Q) (n m j : Nat) (a : GmAsk) (S : GmSt R Q) (r : Status × GmSt R Q) :
    Prop where
  out : (∃ a' j', r.1 = .success ∧ GmNext o m j a a' ∧ GmIn num o n m j' a' r.2 ∧ (a' = .residual → j' = 0) ∧
      r.2.gm.niter = S.gm.niter + (if a' = .monitor then (m : Int) else 0) ∧
      (a = .monitor → gmDone num S.gm = false) ∧
      (a' = .monitor → r.2.rinfo[0]? = some r.2.gm.rnorm2 ∧ r.2.rinfo[30]? = some (num.ofInt r.2.gm.niter)) ∧
      (a' ≠ .monitor → r.2.x = S.x)) ∨
    (GmEnd n m r.1 r.2 ∧ r.2.x = S.x ∧ S.gm.niter ≤ r.2.gm.niter ∧ (r.1 = .userStop → False) ∧
      (r.1 = .maxit → a = .monitor ∧ maxReached S.gm = true))
  tail : r.2.x.length = S.x.length ∧ ∀ p, n ≤ p → r.2.x[p]? = S.x[p]?

variable {num : GNum R Q} {o : GmOpt Q} {n m j : Nat} {b : List R} {S : GmSt R Q}

theorem comm_ne_interrupt (a : GmAsk) : (a.comm o n m).job ≠ .interrupt := by cases a <;> simp [GmAsk.comm]
theorem comm_ne_stop (a : GmAsk) : (a.comm o n m).job ≠ .stop := by cases a <;> simp [GmAsk.comm]

theorem info0 {α : Type} {a : List α} {x y : α} (h : a.length = 100) : ((a.set 30 y).set 0 x)[0]? = some x := by
  rw [List.getElem?_set_self (by simp; omega)]

theorem info30 {α : Type} {a : List α} {x y : α} (h : a.length = 100) : ((a.set 30 y).set 0 x)[30]? = some y := by
  rw [List.getElem?_set_ne (by omega), List.getElem?_set_self (by omega)]

theorem gm_step_residual (hb : b.length = n) (h : GmIn num o n m j .residual S) :
    ∃ r, gmInitRes num n b S = some r ∧ GmStepOk num o n m j .residual S r := by
  obtain ⟨bn, -, hc⟩ := initRes_shape (num := num) hb h.sz h.info
  rcases hc with ⟨-, e⟩ | ⟨-, -, e⟩ | ⟨-, -, v1, g0, -, -, l1, hc⟩
  · refine ⟨_, e, Or.inr ⟨⟨Or.inl (by simp), Or.inr ⟨j, h.jlt, ?_⟩, h.x, h.info⟩, rfl, le_refl _, by simp, by simp⟩,
      rfl, fun _ _ => rfl⟩
    exact ⟨h.sz.v, h.sz.z, h.sz.h, h.sz.g, h.sz.s, h.sz.c, h.sz.restart, h.sz.j⟩
  · refine ⟨_, e, Or.inr ⟨⟨Or.inl (by simp), Or.inr ⟨j, h.jlt, ?_⟩, h.x, by simp [h.info]⟩, rfl, le_refl _, by simp,
      by simp⟩, rfl, fun _ _ => rfl⟩
    exact ⟨h.sz.v, h.sz.z, h.sz.h, h.sz.g, h.sz.s, h.sz.c, h.sz.restart, h.sz.j⟩
  · rcases hc with ⟨-, e⟩ | ⟨-, v2, -, l2, e⟩
    · refine ⟨_, e, Or.inr ⟨⟨Or.inr rfl, Or.inr ⟨j, h.jlt, ?_⟩, h.x, by simp [scaled, h.info]⟩, rfl, le_refl _,
        by simp, by simp⟩, rfl, fun _ _ => rfl⟩
      exact ⟨l1, h.sz.z, h.sz.h, by simp [scaled, h.sz.g], h.sz.s, h.sz.c, h.sz.restart, h.sz.j⟩
    · refine ⟨_, e, ?_, ?_⟩
      · left
        have hsz : GmSz n m j (scaled (num := num) v2 bn g0 S).gm :=
          ⟨l2, h.sz.z, h.sz.h, by simp [scaled, h.sz.g], h.sz.s, h.sz.c, h.sz.restart, h.sz.j⟩
        have hp : (scaled (num := num) v2 bn g0 S).gm.precond = o.pre := h.pre
        unfold gmAfterInit
        rw [hp]
        by_cases h0 : o.pre = 0
        · rw [if_pos h0]
          refine ⟨.product j, j, rfl, .begin0 h0, ⟨?_, h.jlt, h.jlt, rfl, rfl, ?_, by simp, h.x, by simp [scaled, gmInitPrecond, h.info],
            hp, h.rtol, h.atol, h.maxit⟩, by simp, by simp [gmInitPrecond, scaled], by simp, by simp, fun _ => rfl⟩
          · exact ⟨hsz.v, hsz.z, hsz.h, hsz.g, hsz.s, hsz.c, hsz.restart, hsz.j⟩
          · simp only [gmInitPrecond, hp, hsz.j, GmAsk.comm]
        · rw [if_neg h0]
          refine ⟨.precond j, j, rfl, .begin h0, ⟨?_, h.jlt, ⟨h0, h.jlt⟩, rfl, Or.inl rfl, ?_, by simp, h.x, by simp [scaled, h.info],
            hp, h.rtol, h.atol, h.maxit⟩, by simp, by simp [scaled], by simp, by simp, fun _ => rfl⟩
          · exact ⟨hsz.v, hsz.z, hsz.h, hsz.g, hsz.s, hsz.c, hsz.restart, hsz.j⟩
          · simp only [hsz.j, GmAsk.comm]
      · unfold gmAfterInit
        split <;> exact ⟨rfl, fun _ _ => rfl⟩

theorem gm_step_precond {i : Nat} (h : GmIn num o n m j (.precond i) S) :
    GmStepOk num o n m j (.precond i) S (gmInitPrecond n S) := by
  have hij : j = i := h.ja
  subst hij
  refine ⟨Or.inl ⟨.product j, j, rfl, .mul h.ok.1, ⟨?_, h.jlt, h.jlt, rfl, rfl, ?_, by simp, h.x, h.info, h.pre, h.rtol, h.atol,
    h.maxit⟩, by simp, by simp [gmInitPrecond], by simp, by simp, fun _ => rfl⟩, rfl, fun _ _ => rfl⟩
  · exact ⟨h.sz.v, h.sz.z, h.sz.h, h.sz.g, h.sz.s, h.sz.c, h.sz.restart, h.sz.j⟩
  · simp only [gmInitPrecond, h.pre, h.sz.j, GmAsk.comm]

theorem gm_step_product {i : Nat} (h : GmIn num o n m j (.product i) S) :
    ∃ r, gmStartIter num n S = some r ∧ GmStepOk num o n m j (.product i) S r := by
  have hij : j = i := h.ja
  subst hij
  obtain ⟨h1, v1, -, -, l1, l2, hc⟩ := startIter_shape (num := num) h.sz h.jlt h.info
  rcases hc with ⟨hh, -, -, e⟩ | ⟨hh, v2, h2, -, -, -, -, l3, l4, e⟩
  · refine ⟨_, e, Or.inr ⟨⟨Or.inr rfl, Or.inr ⟨j, h.jlt, ?_⟩, h.x, by simp [h.info]⟩, rfl, ?_, by simp, by simp⟩,
      rfl, fun _ _ => rfl⟩
    · exact ⟨l2, h.sz.z, l1, h.sz.g, h.sz.s, h.sz.c, h.sz.restart, h.sz.j⟩
    · show S.gm.niter ≤ S.gm.niter + (j + 1); omega
  · have hsz := turned_sz (num := num) (hh := hh) h.sz l3 l4
    have hp : (turned num j m hh v2 h2 S).gm.precond = o.pre := h.pre
    have hinfo : (turned num j m hh v2 h2 S).rinfo.length = 100 := by simp [turned, h.info]
    rw [e]
    unfold afterTurn
    rw [hsz.j]
    by_cases hlast : j + 1 = m
    · rw [if_pos (by omega)]
      have hsz' : GmSz n m m { (turned num j m hh v2 h2 S).gm with task := .xUpdate } :=
        ⟨hsz.v, hsz.z, hsz.h, hsz.g, hsz.s, hsz.c, hsz.restart, by rw [← hlast]; exact hsz.j⟩
      obtain ⟨bs, -, l5, hx⟩ := xUpdate_shape (num := num) (S := { turned num j m hh v2 h2 S with
        gm := { (turned num j m hh v2 h2 S).gm with task := .xUpdate } }) hsz' hinfo h.x
      rcases hx with ⟨-, e2⟩ | ⟨x', -, -, lx, fx, S', rfl, e2⟩
      · refine ⟨_, e2, Or.inr ⟨⟨Or.inl (by simp), Or.inl rfl, h.x, hinfo⟩, rfl, le_refl _, by simp, by simp⟩,
          rfl, fun _ _ => rfl⟩
      · refine ⟨_, e2, Or.inl ⟨.monitor, 0, rfl, .last hlast, ?_, by simp, ?_, by simp, ?_, by simp⟩, ?_⟩
        · refine ⟨?_, by omega, trivial, rfl, ?_, ?_, ?_, ?_, ?_, ?_, ?_, ?_, ?_⟩
          · split <;> exact ⟨hsz.v, hsz.z, hsz.h, hsz.g, l5, hsz.c, hsz.restart, rfl⟩
          · split
            · exact Or.inr rfl
            · exact Or.inl rfl
          · have hc : S.c = _ := h.comm
            have e1 : ((m : Int) - 1) = j := by omega
            have e2 : ((j : Int) + 1) = m := by omega
            have : ({ S.c with job := .crit } : Comm) = GmAsk.monitor.comm o n m := by
              rw [hc]
              simp only [GmAsk.comm, e1, e2]
            split <;> exact this
          · intro _
            split
            · rename_i hd
              exact (if_pos hd).symm
            · rename_i hd
              exact (if_neg hd).symm
          · have lx' : n ≤ x'.length := by rw [lx]; exact h.x
            split <;> exact lx'
          · split <;> simp [cycled, hinfo]
          · split <;> exact h.pre
          · split <;> exact h.rtol
          · split <;> exact h.atol
          · split <;> exact h.maxit
        · rw [if_pos rfl]
          split <;> rfl
        · intro _
          split <;> exact ⟨info0 hinfo, info30 hinfo⟩
        · split <;> exact ⟨lx, fx⟩
    · have hjm : j + 1 < m := by have := h.jlt; omega
      rw [if_neg (by omega), hp]
      by_cases h0 : o.pre = 0
      · rw [if_pos h0]
        refine ⟨_, rfl, Or.inl ⟨.product (j + 1), j + 1, rfl, .more0 h0 hjm, ⟨?_, hjm, hjm, rfl, rfl, ?_, by simp, h.x, hinfo,
          h.pre, h.rtol, h.atol, h.maxit⟩, by simp, by simp [gmInitPrecond, turned], by simp, by simp,
          fun _ => rfl⟩, rfl, fun _ _ => rfl⟩
        · exact ⟨hsz.v, hsz.z, hsz.h, hsz.g, hsz.s, hsz.c, hsz.restart, hsz.j⟩
        · simp only [gmInitPrecond, hp, hsz.j, GmAsk.comm]
      · rw [if_neg h0]
        refine ⟨_, rfl, Or.inl ⟨.precond (j + 1), j + 1, rfl, .more h0 hjm, ⟨?_, hjm, ⟨h0, hjm⟩, rfl, Or.inr rfl, ?_,
          by simp, h.x, hinfo, h.pre, h.rtol, h.atol, h.maxit⟩, by simp, by simp [turned], by simp, by simp,
          fun _ => rfl⟩, rfl, fun _ _ => rfl⟩
        · exact ⟨hsz.v, hsz.z, hsz.h, hsz.g, hsz.s, hsz.c, hsz.restart, hsz.j⟩
        · simp only [GmAsk.comm]

theorem gm_step_restart (h : GmIn num o n m j .monitor S) (hd : gmDone num S.gm = false) :
    GmStepOk num o n m j .monitor S (gmRestart S) := by
  have hj : j = 0 := h.ja
  subst hj
  exact ⟨Or.inl ⟨.residual, 0, rfl, .again, ⟨⟨h.sz.v, h.sz.z, h.sz.h, h.sz.g, h.sz.s, h.sz.c, h.sz.restart, h.sz.j⟩,
    h.jlt, trivial, trivial, rfl, rfl, by simp, h.x, h.info, h.pre, h.rtol, h.atol, h.maxit⟩, fun _ => rfl,
    by simp [gmRestart], fun _ => hd, by simp, fun _ => rfl⟩, rfl, fun _ _ => rfl⟩

theorem gm_step_check (h : GmIn num o n m j .monitor S) (hd : gmDone num S.gm = true) :
    GmStepOk num o n m j .monitor S (gmConvCheck num S) := by
  unfold gmConvCheck
  by_cases h1 : belowAbs num S.gm = true
  · rw [if_pos h1]
    exact ⟨Or.inr ⟨⟨Or.inr rfl, Or.inr ⟨j, h.jlt, h.sz⟩, h.x, h.info⟩, rfl, le_refl _, by simp, by simp⟩, rfl,
      fun _ _ => rfl⟩
  rw [if_neg h1]
  by_cases h2 : belowRel num S.gm = true
  · rw [if_pos h2]
    exact ⟨Or.inr ⟨⟨Or.inr rfl, Or.inr ⟨j, h.jlt, h.sz⟩, h.x, h.info⟩, rfl, le_refl _, by simp, by simp⟩, rfl,
      fun _ _ => rfl⟩
  rw [if_neg h2]
  have h3 : maxReached S.gm = true := by
    unfold gmDone at hd
    simpa [h1, h2] using hd
  rw [if_pos h3]
  exact ⟨Or.inr ⟨⟨Or.inr rfl, Or.inr ⟨j, h.jlt, h.sz⟩, h.x, h.info⟩, rfl, le_refl _, by simp, fun _ => ⟨rfl, h3⟩⟩, rfl,
      fun _ _ => rfl⟩

/-- one call with an answer -/
theorem gm_step (hb : b.length = n) {a : GmAsk} (h : GmIn num o n m j a S) :
    ∃ r, gmRci num n b S = some r ∧ GmStepOk num o n m j a S r := by
  have hi : ¬ (S.gm.task ≠ .start ∧ S.c.job = .interrupt) := by
    rw [h.comm]; exact fun e => comm_ne_interrupt a e.2
  unfold gmRci
  rw [if_neg hi]
  cases a with
  | residual =>
    have ht : S.gm.task = .initRes := h.task
    rw [ht]
    exact gm_step_residual hb h
  | precond i =>
    have ht : S.gm.task = .initPrecond ∨ S.gm.task = .endIter := h.task
    rcases ht with ht | ht <;> rw [ht] <;> exact ⟨_, rfl, gm_step_precond h⟩
  | product i =>
    have ht : S.gm.task = .startIter := h.task
    rw [ht]
    exact gm_step_product h
  | monitor =>
    have ht := h.mon rfl
    by_cases hd : gmDone num S.gm = true
    · rw [if_pos hd] at ht
      rw [ht]
      exact ⟨_, rfl, gm_step_check h hd⟩
    · rw [if_neg hd] at ht
      rw [ht]
      exact ⟨_, rfl, gm_step_restart h (by simpa using hd)⟩

/-- one call after a request to stop -/
theorem gm_step_stop {a : GmAsk} (h : GmIn num o n m j a S) :
    gmRci num n b { S with c := { S.c with job := .interrupt } } =
      some (.userStop, { S with c := { S.c with job := .stop } }) := by
  have ht : S.gm.task ≠ .start := by
    have := h.task
    intro e
    rw [e] at this
    cases a <;> simp [GmTaskOf] at this
  unfold gmRci
  rw [if_pos ⟨ht, rfl⟩]

/-- the first call -/
theorem gm_step_start (ho : GmSz n m j S.gm) (hj : j < m) (ht : S.gm.task = .start) (hx : n ≤ S.x.length)
    (hinfo : S.rinfo.length = 100) (h1 : S.gm.precond = o.pre) (h2 : S.gm.rtol = o.rtol) (h3 : S.gm.atol = o.atol)
    (h4 : S.gm.maxit = o.maxit) :
    gmRci num n b S = some (gmStart S) ∧ GmIn num o n m j .residual (gmStart S).2 := by
  refine ⟨?_, ⟨ho.v, ho.z, ho.h, ho.g, ho.s, ho.c, ho.restart, ho.j⟩, hj, trivial, trivial, rfl, rfl, by simp, hx,
    hinfo, h1, h2, h3, h4⟩
  unfold gmRci
  rw [if_neg (fun e => e.1 ht), ht]

/-- the pointers of a request point to `n` entries, and the answer has a place of its own -/
theorem gm_vec {a : GmAsk} (h : GmIn num o n m j a S) (hm : a ≠ .monitor) :
    ∃ u, S.gm.vec n S.x S.c.u = some u ∧ u.length = n ∧ ∀ w : List R, w.length = n →
      ∃ gm', S.gm.put S.c.v w = some gm' ∧ GmIn num o n m j a { S with gm := gm' } ∧
        gm'.vec n S.x S.c.u = some u ∧ gm'.vec n S.x S.c.v = some w := by
  have hwin : ∀ (l : List R) (i : Nat), l.length = (m + 1) * n → i ≤ m →
      window l ((i : Int) * n) n = some ((l.drop (i * n)).take n) ∧ ((l.drop (i * n)).take n).length = n := by
    intro l i hl hi
    have := row_le (n := n) hi
    have e : (i : Int) * n = ((i * n : Nat) : Int) := by push_cast; ring
    unfold window
    rw [e, if_pos (by omega)]
    exact ⟨by rw [Int.toNat_natCast, Int.toNat_natCast], by simp; omega⟩
  have hover : ∀ (l : List R) (i : Nat) (w : List R), l.length = (m + 1) * n → i ≤ m → w.length = n →
      ∃ l', overwrite l ((i : Int) * n) w = some l' ∧ l'.length = (m + 1) * n ∧
        window l' ((i : Int) * n) n = some w ∧
        ∀ i', i' ≤ m → i' ≠ i → window l' ((i' : Int) * n) n = window l ((i' : Int) * n) n := by
    intro l i w hl hi hw
    have hr := row_le (n := n) hi
    have e : (i : Int) * n = ((i * n : Nat) : Int) := by push_cast; ring
    have hlen : (l.take (i * n) ++ w ++ l.drop (i * n + w.length)).length = (m + 1) * n := by simp; omega
    refine ⟨l.take (i * n) ++ w ++ l.drop (i * n + w.length), ?_, hlen, ?_, ?_⟩
    · unfold overwrite
      rw [e, if_pos (by omega), Int.toNat_natCast]
    · rw [(hwin _ i hlen hi).1, List.append_assoc, List.drop_append_of_le_length (by simp; omega),
        List.drop_of_length_le (by simp), List.nil_append, List.take_append_of_le_length (by omega),
        List.take_of_length_le (by omega)]
    · intro i' hi' hne
      rw [(hwin _ i' hlen hi').1, (hwin _ i' hl hi').1]
      congr 1
      apply List.ext_getElem?
      intro p
      simp only [List.getElem?_take, List.getElem?_drop]
      split
      · rename_i hp
        rcases Nat.lt_or_ge i' i with h | h
        · have h2 : i' * n + n ≤ i * n := by
            have := Nat.mul_le_mul_right n (show i' + 1 ≤ i from h)
            have e : (i' + 1) * n = i' * n + n := by ring
            omega
          rw [List.append_assoc, List.getElem?_append_left (by simp; omega), List.getElem?_take, if_pos (by omega)]
        · have h2 : i * n + n ≤ i' * n := by
            have := Nat.mul_le_mul_right n (show i + 1 ≤ i' by omega)
            have e : (i + 1) * n = i * n + n := by ring
            omega
          rw [List.getElem?_append_right (by simp; omega), List.getElem?_drop]
          congr 1
          simp
          omega
      · rfl
  have hV := h.sz.v
  have hZ := h.sz.z
  have keepV : ∀ l' : List R, l'.length = (m + 1) * n → GmIn num o n m j a
      { S with gm := { S.gm with v := l' }, c := a.comm o n m } :=
    fun l' hl => ⟨⟨hl, h.sz.z, h.sz.h, h.sz.g, h.sz.s, h.sz.c, h.sz.restart, h.sz.j⟩, h.jlt, h.ok, h.ja, h.task, rfl,
      h.mon, h.x, h.info, h.pre, h.rtol, h.atol, h.maxit⟩
  have keepZ : ∀ l' : List R, l'.length = (m + 1) * n → GmIn num o n m j a
      { S with gm := { S.gm with z := l' }, c := a.comm o n m } :=
    fun l' hl => ⟨⟨h.sz.v, hl, h.sz.h, h.sz.g, h.sz.s, h.sz.c, h.sz.restart, h.sz.j⟩, h.jlt, h.ok, h.ja, h.task, rfl,
      h.mon, h.x, h.info, h.pre, h.rtol, h.atol, h.maxit⟩
  rw [h.comm]
  cases a with
  | residual =>
    have hx := h.x
    have e0 : ((0 : Nat) : Int) * (n : Int) = 0 := by simp
    refine ⟨S.x.take n, ?_, by simp; omega, ?_⟩
    · show window S.x 0 n = _
      unfold window
      rw [if_pos (by omega)]
      simp
    · intro w hw
      obtain ⟨l', h1, h2, h3, -⟩ := hover S.gm.v 0 w hV (by omega) hw
      rw [e0] at h1 h3
      refine ⟨{ S.gm with v := l' }, ?_, keepV l' h2, ?_, h3⟩
      · show (overwrite S.gm.v 0 w).map _ = _
        rw [h1]; rfl
      · show window S.x 0 n = _
        unfold window
        rw [if_pos (by omega)]
        simp
  | precond i =>
    have hi : i < m := h.ok.2
    refine ⟨(S.gm.v.drop (i * n)).take n, (hwin _ i hV (by omega)).1, (hwin _ i hV (by omega)).2, ?_⟩
    intro w hw
    obtain ⟨l', h1, h2, h3, -⟩ := hover S.gm.z i w hZ (by omega) hw
    refine ⟨{ S.gm with z := l' }, ?_, keepZ l' h2, (hwin _ i hV (by omega)).1, h3⟩
    show (overwrite S.gm.z ((i : Int) * n) w).map _ = _
    rw [h1]; rfl
  | product i =>
    have hi : i < m := h.ok
    have e1 : ((i : Int) + 1) * (n : Int) = ((i + 1 : Nat) : Int) * n := by push_cast; ring
    by_cases h0 : o.pre = 0
    · refine ⟨(S.gm.v.drop (i * n)).take n, ?_, (hwin _ i hV (by omega)).2, ?_⟩
      · simp only [GmAsk.comm, if_pos h0]
        exact (hwin _ i hV (by omega)).1
      · intro w hw
        obtain ⟨l', h1, h2, h3, h4⟩ := hover S.gm.v (i + 1) w hV (by omega) hw
        refine ⟨{ S.gm with v := l' }, ?_, keepV l' h2, ?_, ?_⟩
        · show (overwrite S.gm.v (((i : Int) + 1) * n) w).map _ = _
          rw [e1, h1]; rfl
        · simp only [GmAsk.comm, if_pos h0]
          exact (h4 i (by omega) (by omega)).trans (hwin _ i hV (by omega)).1
        · show window l' (((i : Int) + 1) * n) n = _
          rw [e1, h3]
    · refine ⟨(S.gm.z.drop (i * n)).take n, ?_, (hwin _ i hZ (by omega)).2, ?_⟩
      · simp only [GmAsk.comm, if_neg h0]
        exact (hwin _ i hZ (by omega)).1
      · intro w hw
        obtain ⟨l', h1, h2, h3, h4⟩ := hover S.gm.v (i + 1) w hV (by omega) hw
        refine ⟨{ S.gm with v := l' }, ?_, keepV l' h2, ?_, ?_⟩
        · show (overwrite S.gm.v (((i : Int) + 1) * n) w).map _ = _
          rw [e1, h1]; rfl
        · simp only [GmAsk.comm, if_neg h0]
          exact (hwin _ i hZ (by omega)).1
        · show window l' (((i : Int) + 1) * n) n = _
          rw [e1, h3]
  | monitor => exact absurd rfl hm

end
end Proofs
end Verif
