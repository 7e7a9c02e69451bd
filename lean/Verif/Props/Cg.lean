/-
C41: the conjugate gradient solver with reverse communication.
-/
import Verif.Proofs.Itsol
import Verif.Props.Opts
import Mathlib.LinearAlgebra.Matrix.DotProduct

namespace Verif
namespace Props
open Model Spec Proofs

section
variable {R Q : Type} [Zero R] [Neg R] [Add R] [Sub R] [Mul R] [Div R] [LinearOrder Q] {n : Nat}

/-- what the user sees after a call: status, job, `u`, x (with the entries `t` after it), rinfo; while the solve goes
on, `v` is an array of n entries where an answer is needed; the options are locked exactly while the solve goes
on -/
structure Sees (t : List R) (Rg : Registry Q) (O : CgObs n R Q) (q : Status × RciSt R Q) : Prop where
  st : q.1 = O.st
  job : q.2.c.job = O.job
  u : ∀ u, O.u = some u → ∃ cg, q.2.H.cg = some cg ∧ cg.vec q.2.x q.2.c.u = some (List.ofFn u)
  v : O.job = .mv ∨ O.job = .precond → ∃ cg a, q.2.H.cg = some cg ∧ cg.vec q.2.x q.2.c.v = some a ∧ a.length = n
  x : q.2.x = List.ofFn O.x ++ t
  info : q.2.rinfo.length = 100
  res : q.2.rinfo[0]? = some O.res
  rhs : q.2.rinfo[1]? = some O.rhs
  iter : q.2.rinfo[30]? = some O.iter
  solving : q.2.H.solving = true ↔ O.job ≠ .stop
  opts : q.2.H.opts = if O.job = .stop then Rg else Rg.lock

variable {num : Num R Q} {o : CgOpt Q} {b : Fin n → R} {t : List R} {Rg : Registry Q}

theorem sees_of_after {O : CgOut n R Q} {q : Status × RciSt R Q} (h : After num o b t Rg O q) :
    Sees t Rg (O.obs num) q := by
  cases O with
  | ask a V =>
    obtain ⟨h1, h2, cg, hcg, h3⟩ := h
    have hc := h3.comm
    dsimp only at hc
    refine ⟨h1, ?_, ?_, ?_, h3.x, h3.info, h3.i0, h3.i1, h3.i30, ?_, ?_⟩
    · rw [hc]; cases a <;> rfl
    · intro u hu
      simp only [CgOut.obs, Option.some.injEq] at hu
      subst hu
      refine ⟨cg, hcg, ?_⟩
      have hr := h3.r
      have hp := h3.p
      rw [hc]
      cases a <;> simp_all [CgData.vec, CgAsk.u]
    · intro hj
      rw [hc]
      cases a
      · exact ⟨cg, _, hcg, rfl, h3.qlen⟩
      · simp [CgOut.obs, CgAsk.job] at hj
      · exact ⟨cg, _, hcg, rfl, h3.zlen⟩
      · exact ⟨cg, _, hcg, rfl, h3.qlen⟩
    · rw [h2.solving]; cases a <;> simp [CgOut.obs, CgAsk.job]
    · rw [h2.opts]; cases a <;> simp [CgOut.obs, CgAsk.job]
  | done st V =>
    obtain ⟨h1, hj, h2, h3, cg, hcg, h4⟩ := h
    refine ⟨h1, hj, ?_, ?_, h4.x, h4.info, h4.i0, h4.i1, h4.i30, ?_, ?_⟩
    · intro u hu; cases hu
    · intro hj; simp [CgOut.obs] at hj
    · rw [h2.solving]; simp [CgOut.obs]
    · rw [h3]; simp [CgOut.obs]

/-- **C41**, the dialogue.  Start from any handle with a right-hand side and no solve under way, whatever earlier
solves left in it and whatever is in fresh memory, and answer in any way.  Every call returns without undefined
behaviour, and what the user sees, call by call, is the dialogue of Spec/Cg.  When the solve has ended the handle is
again one with no solve under way, with the same right-hand side and options. -/
theorem C41_talk (gnum : GNum R Q) (g : Nat → R) (gq : Q) (w : Int) {S : RciSt R Q} {x : Fin n → R}
    (hI : IdleH b Rg S.H) (hu : Rg.readonly = false) (hO : CgOpts Rg o) (hx : S.x = List.ofFn x ++ t)
    (hinfo : S.rinfo.length = 100) (reps : List (Reply n R)) :
    ∃ L, rciTalk num gnum g gq w S (reps.map fun r => (r.stop, List.ofFn r.w)) = some L ∧
      List.Forall₂ (Sees t Rg) ((cgTalk num o b (cgBegin num b x) reps).map (CgOut.obs num)) L ∧
      ∀ q, L.getLast? = some q → q.2.c.job = .stop → IdleH b Rg q.2.H := by
  obtain ⟨q, hq, hA⟩ := first_after (num := num) gnum hI hu hO hx hinfo g gq w
  obtain ⟨L, hL, hF⟩ := talk_after gnum hu g gq w reps hq hA
  refine ⟨L, hL, ?_, ?_⟩
  · rw [List.forall₂_map_left_iff]
    exact hF.imp fun _ _ h => sees_of_after h
  · intro q hq hj
    have hm := List.mem_of_mem_getLast? hq
    obtain ⟨O, hO, hA⟩ : ∃ O ∈ cgTalk num o b (cgBegin num b x) reps, After num o b t Rg O q := by
      clear hL hq
      generalize cgTalk num o b (cgBegin num b x) reps = T at hF ⊢
      induction hF with
      | nil => cases hm
      | cons h _ ih =>
        rcases List.mem_cons.1 hm with rfl | hm
        · exact ⟨_, by simp, h⟩
        · obtain ⟨O, hO, h⟩ := ih hm
          exact ⟨O, List.mem_cons_of_mem _ hO, h⟩
    cases O with
    | ask a V =>
      have := (sees_of_after hA).job
      rw [hj] at this
      cases a <;> cases this
    | done st V => exact hA.2.2.1

/-! ### the dialogue -/

/-- induction along a dialogue -/
theorem talk_inv (P : CgOut n R Q → Prop) (hP : ∀ a V rep, P (.ask a V) → P (cgNext num o b (.ask a V) rep))
    {O : CgOut n R Q} (h : P O) (reps : List (Reply n R)) : ∀ O' ∈ cgTalk num o b O reps, P O' := by
  induction reps generalizing O with
  | nil => cases O <;> simpa [cgTalk] using h
  | cons rep reps ih =>
    cases O with
    | done st V => simpa [cgTalk] using h
    | ask a V =>
      rw [cgTalk]
      intro O' hO'
      rcases List.mem_cons.1 hO' with rfl | hO'
      · exact h
      · exact ih (hP a V rep h) O' hO'

theorem talk_head (O : CgOut n R Q) (reps : List (Reply n R)) : ∃ l, cgTalk num o b O reps = O :: l := by
  cases reps <;> cases O <;> exact ⟨_, rfl⟩

theorem residual_cases (V : CgV n R Q) : (∃ V', cgResidual num o V = .ask .monitor V') ∨
    ∃ st V', cgResidual num o V = .done st V' := by
  unfold cgResidual cgTest
  cases num.nrm (List.ofFn V.r) with
  | none => exact Or.inr ⟨_, _, rfl⟩
  | some rn =>
    dsimp only
    split
    · exact Or.inr ⟨_, _, rfl⟩
    · split
      · exact Or.inr ⟨_, _, rfl⟩
      · exact Or.inl ⟨_, rfl⟩

theorem direction_cases (V : CgV n R Q) : (∃ V', cgDirection num V = .ask .product V') ∨
    ∃ st V', cgDirection num V = .done st V' := by
  unfold cgDirection
  split
  · exact Or.inr ⟨_, _, rfl⟩
  · exact Or.inl ⟨_, rfl⟩

theorem next_follows (a : CgAsk) (V : CgV n R Q) (rep : Reply n R) :
    Follows o.pre (.ask a V) (cgNext num o b (.ask a V) rep) := by
  unfold cgNext
  dsimp only
  split
  · cases a <;> trivial
  · cases a with
    | product0 =>
      rcases residual_cases (num := num) (o := o)
        { V with r := fun i => -b i + rep.w i, p := fun _ => 0, rz := num.rz0 } with ⟨V', h⟩ | ⟨st, V', h⟩ <;>
      · rw [cgAnswer, h]; trivial
    | monitor =>
      rw [cgAnswer]
      cases hp : o.pre with
      | true => rfl
      | false =>
        rw [if_neg (by simp)]
        rcases direction_cases (num := num) { V with k := V.k + 1, z := V.r } with ⟨V', h⟩ | ⟨st, V', h⟩ <;>
        · rw [h]; trivial
    | precond =>
      rw [cgAnswer]
      rcases direction_cases (num := num) { V with z := rep.w } with ⟨V', h⟩ | ⟨st, V', h⟩ <;>
      · rw [h]; trivial
    | product =>
      rw [cgAnswer]
      split
      · trivial
      · rcases residual_cases (num := num) (o := o) { V with
          x := fun i => V.x i + V.rz / dot V.p rep.w * V.p i
          r := fun i => V.r i + V.rz / dot V.p rep.w * rep.w i } with ⟨V', h⟩ | ⟨st, V', h⟩ <;>
        · rw [h]; trivial

/-- **C41**, the order of the requests, for any answers. -/
theorem C41_order (x : Fin n → R) (reps : List (Reply n R)) :
    List.IsChain (Follows o.pre) (cgTalk num o b (cgBegin num b x) reps) ∧
    ((∃ V l, cgTalk num o b (cgBegin num b x) reps = .ask .product0 V :: l) ∨
      ∃ V, cgTalk num o b (cgBegin num b x) reps = [.done .invalidValue V]) := by
  constructor
  · generalize cgBegin num b x = O
    induction reps generalizing O with
    | nil => cases O <;> exact List.isChain_singleton _
    | cons rep reps ih =>
      cases O with
      | done st V => exact List.isChain_singleton _
      | ask a V =>
        rw [cgTalk]
        have h1 := ih (cgNext num o b (.ask a V) rep)
        obtain ⟨l, hl⟩ := talk_head (num := num) (o := o) (b := b) (cgNext num o b (.ask a V) rep) reps
        rw [hl] at h1 ⊢
        exact List.isChain_cons_cons.2 ⟨next_follows a V rep, h1⟩
  · unfold cgBegin
    cases num.nrm (List.ofFn b) with
    | none =>
      refine Or.inr ⟨⟨x, fun _ => 0, fun _ => 0, fun _ => 0, 0, 0, num.zeroQ, num.zeroQ⟩, ?_⟩
      cases reps <;> rfl
    | some bn =>
      obtain ⟨l, hl⟩ := talk_head (num := num) (o := o) (b := b)
        (.ask .product0 ⟨x, fun _ => 0, fun _ => 0, fun _ => 0, 0, 0, num.zeroQ, bn⟩) reps
      exact Or.inl ⟨_, l, hl⟩

/-- how far the solve has got -/
def clock : CgOut n R Q → Nat
  | .ask .product0 _ => 0
  | .ask .monitor V => 3 * V.k + 1
  | .ask .precond V => 3 * V.k - 1
  | .ask .product V => 3 * V.k
  | .done _ _ => 0

/-- a dialogue within the iteration limit -/
def Within (o : CgOpt Q) : CgOut n R Q → Prop
  | .ask .product0 V => V.k = 0
  | .ask .monitor V => (V.k : Int) ≤ o.maxit
  | .ask .precond V => 1 ≤ V.k ∧ (V.k : Int) ≤ o.maxit + 1
  | .ask .product V => 1 ≤ V.k ∧ (V.k : Int) ≤ o.maxit + 1
  | .done _ V => (V.k : Int) ≤ o.maxit + 1

theorem residual_within (hm : 0 < o.maxit) {V : CgV n R Q} (h : (V.k : Int) ≤ o.maxit + 1) :
    Within o (cgResidual num o V) ∧ (∀ V', cgResidual num o V = .ask .monitor V' → V'.k = V.k) := by
  unfold cgResidual cgTest
  cases num.nrm (List.ofFn V.r) with
  | none => exact ⟨h, by simp⟩
  | some rn =>
    dsimp only
    split
    · exact ⟨h, by simp⟩
    · split
      · exact ⟨h, by simp⟩
      · rename_i h2
        refine ⟨?_, ?_⟩
        · show (V.k : Int) ≤ o.maxit
          by_contra hc
          exact h2 ⟨hm, by omega⟩
        · intro V' e
          cases e
          rfl

theorem direction_within {V : CgV n R Q} (h1 : 1 ≤ V.k) (h : (V.k : Int) ≤ o.maxit + 1) :
    Within o (cgDirection num V) ∧ (∀ V', cgDirection num V = .ask .product V' → V'.k = V.k) := by
  unfold cgDirection
  split
  · exact ⟨h, by simp⟩
  · exact ⟨⟨h1, h⟩, by intro V' e; cases e; rfl⟩

theorem next_within (hm : 0 < o.maxit) (a : CgAsk) (V : CgV n R Q) (rep : Reply n R) (h : Within o (.ask a V)) :
    Within o (cgNext num o b (.ask a V) rep) ∧
    ((∃ st V', cgNext num o b (.ask a V) rep = .done st V') ∨
      clock (.ask a V) < clock (cgNext num o b (.ask a V) rep)) := by
  have hk : (V.k : Int) ≤ o.maxit + 1 := by
    cases a <;> simp only [Within] at h <;> omega
  unfold cgNext
  dsimp only
  split
  · exact ⟨hk, Or.inl ⟨_, _, rfl⟩⟩
  · cases a with
    | product0 =>
      simp only [Within] at h
      obtain ⟨h1, h2⟩ := residual_within (num := num) hm
        (V := { V with r := fun i => -b i + rep.w i, p := fun _ => 0, rz := num.rz0 }) hk
      refine ⟨h1, ?_⟩
      rcases residual_cases (num := num) (o := o)
        { V with r := fun i => -b i + rep.w i, p := fun _ => 0, rz := num.rz0 } with ⟨V', e⟩ | e
      · right
        rw [cgAnswer, e]
        simp [clock]
      · exact Or.inl e
    | monitor =>
      simp only [Within] at h
      rw [cgAnswer]
      split
      · refine ⟨?_, Or.inr ?_⟩
        · simp only [Within]; omega
        · simp only [clock]; omega
      · obtain ⟨h1, h2⟩ := direction_within (num := num) (o := o) (V := { V with k := V.k + 1, z := V.r })
          (by show 1 ≤ V.k + 1; omega) (by show ((V.k + 1 : Nat) : Int) ≤ _; omega)
        refine ⟨h1, ?_⟩
        rcases direction_cases (num := num) { V with k := V.k + 1, z := V.r } with ⟨V', e⟩ | e
        · right
          have : V'.k = _ := h2 V' e
          dsimp only at this
          rw [e]
          simp only [clock]
          omega
        · exact Or.inl e
    | precond =>
      simp only [Within] at h
      rw [cgAnswer]
      obtain ⟨h1, h2⟩ := direction_within (num := num) (o := o) (V := { V with z := rep.w }) h.1 h.2
      refine ⟨h1, ?_⟩
      rcases direction_cases (num := num) { V with z := rep.w } with ⟨V', e⟩ | e
      · right
        have : V'.k = _ := h2 V' e
        dsimp only at this
        rw [e]
        simp only [clock]
        omega
      · exact Or.inl e
    | product =>
      simp only [Within] at h
      rw [cgAnswer]
      split
      · exact ⟨hk, Or.inl ⟨_, _, rfl⟩⟩
      · obtain ⟨h1, h2⟩ := residual_within (num := num) hm (V := { V with
          x := fun i => V.x i + V.rz / dot V.p rep.w * V.p i
          r := fun i => V.r i + V.rz / dot V.p rep.w * rep.w i }) hk
        refine ⟨h1, ?_⟩
        rcases residual_cases (num := num) (o := o) { V with
          x := fun i => V.x i + V.rz / dot V.p rep.w * V.p i
          r := fun i => V.r i + V.rz / dot V.p rep.w * rep.w i } with ⟨V', e⟩ | e
        · right
          have : V'.k = _ := h2 V' e
          dsimp only at this
          rw [e]
          simp only [clock]
          omega
        · exact Or.inl e

theorem clock_le {O : CgOut n R Q} (hm : 0 < o.maxit) (h : Within o O) : (clock O : Int) ≤ 3 * o.maxit + 3 := by
  cases O with
  | done st V => simp only [clock]; omega
  | ask a V => cases a <;> simp only [Within] at h <;> simp only [clock] <;> omega

/-- **C41**, termination.  Whatever the answers are, the iteration count stays within the limit plus one, and the
solve ends after at most 3·maxit + 5 calls. -/
theorem C41_terminates (hm : 0 < o.maxit) (x : Fin n → R) (reps : List (Reply n R)) :
    ((cgTalk num o b (cgBegin num b x) reps).length : Int) ≤ 3 * o.maxit + 5 ∧
    (∀ O ∈ cgTalk num o b (cgBegin num b x) reps, (O.vars.k : Int) ≤ o.maxit + 1) ∧
    (3 * o.maxit + 4 ≤ reps.length →
      ∃ st V, (cgTalk num o b (cgBegin num b x) reps).getLast? = some (.done st V)) := by
  have hb : Within o (cgBegin num b x) := by
    unfold cgBegin
    cases num.nrm (List.ofFn b) with
    | none => show ((0 : Nat) : Int) ≤ _; omega
    | some bn => rfl
  have key : ∀ (reps : List (Reply n R)) (O : CgOut n R Q), Within o O →
      ((cgTalk num o b O reps).length : Int) ≤ 3 * o.maxit + 5 - clock O ∧
      (3 * o.maxit + 4 - clock O ≤ reps.length → ∃ st V, (cgTalk num o b O reps).getLast? = some (.done st V)) := by
    intro reps
    induction reps with
    | nil =>
      intro O h
      have := clock_le hm h
      cases O with
      | done st V => exact ⟨by simp [cgTalk, clock]; omega, fun _ => ⟨_, _, rfl⟩⟩
      | ask a V => exact ⟨by simp [cgTalk]; omega, fun hc => by simp at hc; omega⟩
    | cons rep reps ih =>
      intro O h
      cases O with
      | done st V => exact ⟨by simp [cgTalk, clock]; omega, fun _ => ⟨_, _, rfl⟩⟩
      | ask a V =>
        obtain ⟨h1, h2⟩ := next_within (num := num) (b := b) hm a V rep h
        obtain ⟨h3, h4⟩ := ih _ h1
        have hc := clock_le hm h
        rw [cgTalk]
        obtain ⟨l, hl⟩ := talk_head (num := num) (o := o) (b := b) (cgNext num o b (.ask a V) rep) reps
        rcases h2 with ⟨st, V', e⟩ | h2
        · have : cgTalk num o b (cgNext num o b (.ask a V) rep) reps = [.done st V'] := by
            rw [e]; cases reps <;> rfl
          rw [this]
          exact ⟨by simp; omega, fun _ => ⟨st, V', rfl⟩⟩
        · refine ⟨by simp only [List.length_cons]; push_cast; omega, fun hr => ?_⟩
          simp only [List.length_cons] at hr
          obtain ⟨st, V', e⟩ := h4 (by push_cast at hr; omega)
          refine ⟨st, V', ?_⟩
          rw [hl] at e ⊢
          rw [List.getLast?_cons_cons, e]
  obtain ⟨h1, h2⟩ := key reps _ hb
  have h0 : clock (cgBegin num b x) = 0 := by
    unfold cgBegin
    cases num.nrm (List.ofFn b) <;> rfl
  rw [h0] at h1 h2
  refine ⟨by simpa using h1, ?_, by simpa using h2⟩
  intro O hO
  have := talk_inv (num := num) (o := o) (b := b) (Within o)
    (fun a V rep h => (next_within hm a V rep h).1) hb reps O hO
  cases O with
  | done st V => exact this
  | ask a V => cases a <;> simp only [Within] at this <;> simp only [CgOut.vars] <;> omega

/-- induction along a dialogue, with the answers given -/
theorem talk_inv' (P : CgOut n R Q → Prop) {O : CgOut n R Q} (h : P O) (reps : List (Reply n R))
    (hP : ∀ a V, ∀ rep ∈ reps, P (.ask a V) → P (cgNext num o b (.ask a V) rep)) :
    ∀ O' ∈ cgTalk num o b O reps, P O' := by
  induction reps generalizing O with
  | nil => cases O <;> simpa [cgTalk] using h
  | cons rep reps ih =>
    cases O with
    | done st V => simpa [cgTalk] using h
    | ask a V =>
      rw [cgTalk]
      intro O' hO'
      rcases List.mem_cons.1 hO' with rfl | hO'
      · exact h
      · exact ih (hP a V rep (by simp) h) (fun a V r hr => hP a V r (List.mem_cons_of_mem _ hr)) O' hO'

/-- what is true when a call returns: how each status is earned -/
def Earned (num : Num R Q) (o : CgOpt Q) (b : Fin n → R) (reps : List (Reply n R)) : CgOut n R Q → Prop
  | .ask .product0 V => num.nrm (List.ofFn b) = some V.bnorm ∧ V.k = 0
  | .ask .monitor V => num.nrm (List.ofFn b) = some V.bnorm ∧ num.nrm (List.ofFn V.r) = some V.rnorm ∧
      ¬ converged num o V ∧ ¬ (0 < o.maxit ∧ o.maxit < V.k)
  | .ask _ V => num.nrm (List.ofFn b) = some V.bnorm ∧ num.nrm (List.ofFn V.r) = some V.rnorm ∧
      ¬ converged num o V ∧ ¬ (0 < o.maxit ∧ o.maxit + 1 < V.k)
  | .done .success V => num.nrm (List.ofFn b) = some V.bnorm ∧ num.nrm (List.ofFn V.r) = some V.rnorm ∧
      converged num o V
  | .done .maxit V => num.nrm (List.ofFn b) = some V.bnorm ∧ num.nrm (List.ofFn V.r) = some V.rnorm ∧
      ¬ converged num o V ∧ 0 < o.maxit ∧ (V.k : Int) = o.maxit + 1
  | .done .userStop _ => ∃ rep ∈ reps, rep.stop = true
  | .done .numericalError V => num.nrm (List.ofFn V.r) = none ∨ num.isBad V.rz = true ∨
      ∃ rep ∈ reps, (num.isBad (dot V.p rep.w) || num.isZero (dot V.p rep.w)) = true
  | .done .invalidValue _ => num.nrm (List.ofFn b) = none
  | .done _ _ => False

theorem residual_earned {reps : List (Reply n R)} {V : CgV n R Q} (hb : num.nrm (List.ofFn b) = some V.bnorm)
    (hk : ¬ (0 < o.maxit ∧ o.maxit + 1 < V.k)) : Earned num o b reps (cgResidual num o V) := by
  unfold cgResidual cgTest
  cases hn : num.nrm (List.ofFn V.r) with
  | none => exact Or.inl hn
  | some rn =>
    dsimp only
    split
    · rename_i hc
      exact ⟨hb, hn, hc⟩
    · rename_i hc
      split
      · rename_i hm
        exact ⟨hb, hn, hc, hm.1, by dsimp only at hm ⊢; omega⟩
      · rename_i hm
        exact ⟨hb, hn, hc, hm⟩

theorem direction_earned {reps : List (Reply n R)} {V : CgV n R Q} (hb : num.nrm (List.ofFn b) = some V.bnorm)
    (hr : num.nrm (List.ofFn V.r) = some V.rnorm) (hc : ¬ converged num o V)
    (hk : ¬ (0 < o.maxit ∧ o.maxit + 1 < V.k)) : Earned num o b reps (cgDirection num V) := by
  unfold cgDirection
  split
  · rename_i h
    exact Or.inr (Or.inl h)
  · exact ⟨hb, hr, hc, hk⟩

/-- **C41**, the statuses.  For any answers: success means that the residual of the recursion has a norm within a
tolerance; maxit that it has not and maxit + 1 iterations were made; userStop that the user asked for it;
numericalError that a norm is NaN, or r·z or p·q are bad; invalidValue that the norm of b is NaN.  The solve goes on
only when none of the first two is the case. -/
theorem C41_status (x : Fin n → R) (reps : List (Reply n R)) :
    ∀ O ∈ cgTalk num o b (cgBegin num b x) reps, Earned num o b reps O := by
  refine talk_inv' (Earned num o b reps) ?_ reps ?_
  · unfold cgBegin
    cases hb : num.nrm (List.ofFn b) with
    | none => exact hb
    | some bn => exact ⟨hb, rfl⟩
  · intro a V rep hrep h
    unfold cgNext
    dsimp only
    split
    · rename_i hs
      exact ⟨rep, hrep, hs⟩
    · cases a with
      | product0 => exact residual_earned h.1 (by rintro ⟨h1, h2⟩; have := h.2; dsimp only at h2; omega)
      | monitor =>
        obtain ⟨h1, h2, h3, h4⟩ := h
        rw [cgAnswer]
        split
        · exact ⟨h1, h2, h3, by
            rintro ⟨h5, h6⟩
            exact h4 ⟨h5, by dsimp only at h6; push_cast at h6; omega⟩⟩
        · exact direction_earned h1 h2 h3 (by
            rintro ⟨h5, h6⟩
            exact h4 ⟨h5, by dsimp only at h6; push_cast at h6; omega⟩)
      | precond =>
        obtain ⟨h1, h2, h3, h4⟩ := h
        exact direction_earned h1 h2 h3 h4
      | product =>
        obtain ⟨h1, h2, h3, h4⟩ := h
        rw [cgAnswer]
        split
        · rename_i hbad
          exact Or.inr (Or.inr ⟨rep, hrep, hbad⟩)
        · exact residual_earned h1 h4

/-- one call after the other; in particular a stop takes effect at the next call and changes nothing -/
theorem C41_step (O : CgOut n R Q) (reps : List (Reply n R)) {i : Nat} {a : CgAsk} {V : CgV n R Q} {rep : Reply n R}
    (h : (cgTalk num o b O reps)[i]? = some (.ask a V)) (hr : reps[i]? = some rep) :
    (cgTalk num o b O reps)[i + 1]? =
      some (if rep.stop then .done .userStop V else cgAnswer num o b a V rep.w) := by
  induction reps generalizing O i with
  | nil => simp at hr
  | cons r reps ih =>
    cases O with
    | done st W =>
      cases i with
      | zero => simp [cgTalk] at h
      | succ i => simp [cgTalk] at h
    | ask a' W =>
      rw [cgTalk] at h ⊢
      cases i with
      | zero =>
        simp only [List.getElem?_cons_zero, Option.some.injEq] at h hr
        cases h
        subst hr
        obtain ⟨l, hl⟩ := talk_head (num := num) (o := o) (b := b) (cgNext num o b (.ask a V) r) reps
        rw [hl]
        rfl
      | succ i =>
        simp only [List.getElem?_cons_succ] at h hr ⊢
        exact ih _ h hr

end
end Props
end Verif
