/-
GMRES in exact arithmetic: the calls of one solve.
-/
import Verif.Proofs.GmKrylov
import Verif.Proofs.GmRunInv

namespace Verif
namespace Proofs
open Model Spec Finset Matrix

section
variable {R : Type} [Field R] [LinearOrder R] [IsStrictOrderedRing R] {num : Num R R} {gnum : GNum R R} {n m j : Nat}
variable {A M : Matrix (Fin n) (Fin n) R} {P : Prop} {o : GmOpt R} {bl : List R} {Rg : Registry R}

theorem window_row {l u : List R} {i : Nat} (h : window l ((i : Int) * n) n = some u) : rowV n l i = vecOf n u := by
  unfold window at h
  split at h
  · cases h
    funext t
    have e : (i : Int) * n = ((i * n : Nat) : Int) := by push_cast; ring
    simp only [rowV, vecOf, e, Int.toNat_natCast, List.getD_eq_getElem?_getD, List.getElem?_take, List.getElem?_drop,
      if_pos t.2]
  · simp at h

theorem overwrite_row {l w l' : List R} {i : Nat} (hw : w.length = n) (h : overwrite l ((i : Int) * n) w = some l') :
    ∀ k, k ≠ i → rowV n l' k = rowV n l k := by
  intro k hk
  unfold overwrite at h
  have e : (i : Int) * n = ((i * n : Nat) : Int) := by push_cast; ring
  rw [e, Int.toNat_natCast] at h
  split at h
  · rename_i hc
    cases h
    refine row_congr fun t ht => ?_
    rw [List.getD_eq_getElem?_getD, List.getD_eq_getElem?_getD]
    congr 1
    rcases Nat.lt_or_ge k i with h | h
    · have h2 := at_row_lt (n := n) h ht
      rw [List.append_assoc, List.getElem?_append_left (by simp; omega), List.getElem?_take, if_pos (by omega)]
    · have h2 : i * n + n ≤ k * n := by
        have := Nat.mul_le_mul_right n (show i + 1 ≤ k by omega)
        have e : (i + 1) * n = i * n + n := by ring
        omega
      rw [List.getElem?_append_right (by simp; omega), List.getElem?_drop]
      congr 1
      simp
      omega
  · simp at h

/-- the solver's data while it waits for the answer to `a` -/
def GmExW (A M : Matrix (Fin n) (Fin n) R) (P : Prop) (b : Fin n → R) (o : GmOpt R) (m : Nat) (bn : R) (a : GmAsk)
    (j : Nat) (gm : GmData R R) (x : Fin n → R) : Prop :=
  match a with
  | .residual => j = 0 ∧ b - A *ᵥ x ≠ 0
  | .precond i => GmEx A b m i gm x ∧ gm.brtol = o.rtol * bn ∧
      (P → ∀ l, l < i → rowV n (gmZ gm) l = M *ᵥ rowV n gm.v l)
  | .product i => GmEx A b m i gm x ∧ gm.brtol = o.rtol * bn ∧
      (P → ∀ l, l < i + 1 → rowV n (gmZ gm) l = M *ᵥ rowV n gm.v l)
  | .monitor => 0 < gm.rnorm2 ∧ gm.rnorm2 ^ 2 = resSq A b x ∧ gm.brtol = o.rtol * bn

/-- the answer is there -/
def GmAns (A M : Matrix (Fin n) (Fin n) R) (P : Prop) (a : GmAsk) (gm : GmData R R) (x : Fin n → R) : Prop :=
  match a with
  | .residual => rowV n gm.v 0 = A *ᵥ x
  | .precond i => P → rowV n gm.z i = M *ᵥ rowV n gm.v i
  | .product i => rowV n gm.v (i + 1) = A *ᵥ rowV n (gmZ gm) i
  | .monitor => True

/-- preconditioner `M`: none and the identity, or the user multiplies with `M` -/
def LinAns (o : GmOpt R) (M : Matrix (Fin n) (Fin n) R) (ans : Job → List R → List R → Prop) : Prop :=
  (o.pre = 0 → M = 1) ∧ ∀ u a, ans .precond u a → vecOf n a = M *ᵥ vecOf n u

variable {ans : Job → List R → List R → Prop} {b : Fin n → R} {bn : R} {a : GmAsk} {S : GmSt R R}

theorem ex_write (hans : ∀ u v, ans .mv u v → vecOf n v = A *ᵥ vecOf n u) (hP : P → LinAns o M ans)
    (hIn : GmIn gnum o n m j a S) (hm : a ≠ .monitor) (hx : GmExW A M P b o m bn a j S.gm (vecOf n S.x))
    {u w : List R} {gm' : GmData R R} (hu : S.gm.vec n S.x S.c.u = some u) (hw : w.length = n)
    (ha : ans S.c.job u w) (hput : S.gm.put S.c.v w = some gm') (hv : gm'.vec n S.x S.c.v = some w)
    (hu' : gm'.vec n S.x S.c.u = some u) :
    GmExW A M P b o m bn a j gm' (vecOf n S.x) ∧ GmAns A M P a gm' (vecOf n S.x) ∧
      ∀ i, a = .product i → ∀ l, l ≤ i → rowV n (gmZ gm') l = rowV n (gmZ S.gm) l := by
  rw [hIn.comm] at hu ha hput hv hu'
  cases a with
  | residual =>
    refine ⟨hx, ?_, by simp⟩
    have h1 : rowV n gm'.v 0 = vecOf n w := window_row (i := 0) (by simpa [GmAsk.comm, GmData.vec] using hv)
    have h2 : vecOf n S.x = vecOf n u := by
      rw [vecOf_row S.x]
      exact window_row (i := 0) (by simpa [GmAsk.comm, GmData.vec] using hu)
    show rowV n gm'.v 0 = A *ᵥ vecOf n S.x
    rw [h1, h2]
    exact hans u w ha
  | precond i =>
    have hpre : o.pre ≠ 0 := hIn.ok.1
    have hpz : ∀ gm : GmData R R, gm.precond = o.pre → gmZ gm = gm.z := fun gm e => by
      unfold gmZ; rw [if_neg (by rw [e]; exact hpre)]
    have hput' : (overwrite S.gm.z ((i : Int) * n) w).map (fun l => { S.gm with z := l }) = some gm' := hput
    obtain ⟨l', e1, e2⟩ := Option.map_eq_some_iff.1 hput'
    have hz : gm'.z = l' := by rw [← e2]
    have hvv : gm'.v = S.gm.v := by rw [← e2]
    have hpg : gm'.precond = o.pre := by rw [← e2]; exact hIn.pre
    have hrow := overwrite_row hw e1
    have hzz : ∀ l, l < i → rowV n (gmZ gm') l = rowV n (gmZ S.gm) l := by
      intro l hl
      rw [hpz _ hpg, hpz _ hIn.pre, hz, hrow l (by omega)]
    obtain ⟨x1, x2, x3⟩ := hx
    refine ⟨⟨x1.congr (fun l _ => by rw [hvv]) hzz (by rw [← e2]) (by rw [← e2]) (by rw [← e2]) (by rw [← e2]),
      by rw [← e2]; exact x2, ?_⟩, ?_, by simp⟩
    · intro hp l hl
      rw [hzz l hl, hvv]
      exact x3 hp l hl
    · intro hp
      have h1 : rowV n gm'.z i = vecOf n w := window_row hv
      have h2 : rowV n gm'.v i = vecOf n u := window_row hu'
      rw [h1, h2]
      exact (hP hp).2 u w ha
  | product i =>
    have e1 : ((i : Int) + 1) * (n : Int) = ((i + 1 : Nat) : Int) * n := by push_cast; ring
    have hput' : (overwrite S.gm.v (((i : Int) + 1) * n) w).map (fun l => { S.gm with v := l }) = some gm' := hput
    rw [e1] at hput'
    obtain ⟨l', e2, e3⟩ := Option.map_eq_some_iff.1 hput'
    have hrow := overwrite_row hw e2
    have hvv : ∀ l, l ≤ i → rowV n gm'.v l = rowV n S.gm.v l := by
      intro l hl
      rw [← e3]
      exact hrow l (by omega)
    have hzz : ∀ l, l ≤ i → rowV n (gmZ gm') l = rowV n (gmZ S.gm) l := by
      intro l hl
      unfold gmZ
      rw [show gm'.precond = S.gm.precond by rw [← e3]]
      split
      · exact hvv l hl
      · rw [← e3]
    obtain ⟨x1, x2, x3⟩ := hx
    refine ⟨⟨x1.congr hvv (fun l hl => hzz l (by omega)) (by rw [← e3]) (by rw [← e3]) (by rw [← e3]) (by rw [← e3]),
      by rw [← e3]; exact x2, ?_⟩, ?_, ?_⟩
    · intro hp l hl
      rw [hzz l (by omega), hvv l (by omega)]
      exact x3 hp l hl
    · have h1 : rowV n gm'.v (i + 1) = vecOf n w := by
        refine window_row ?_
        rw [← e1]
        exact hv
      have h2 : rowV n (gmZ gm') i = vecOf n u := by
        refine window_row ?_
        have hp : gm'.precond = o.pre := by rw [← e3]; exact hIn.pre
        unfold gmZ
        rw [hp]
        simp only [GmAsk.comm] at hu'
        split
        · rename_i h0
          rw [if_pos h0] at hu'
          exact hu'
        · rename_i h0
          rw [if_neg h0] at hu'
          exact hu'
      show rowV n gm'.v (i + 1) = A *ᵥ rowV n (gmZ gm') i
      rw [h1, h2]
      exact hans u w ha
    · intro i' e
      cases e
      exact hzz
  | monitor => exact absurd rfl hm

/-- the part of the code a call runs -/
theorem rci_at (h : GmIn gnum o n m j a S) : gmRci gnum n bl S = (match a with
    | .residual => gmInitRes gnum n bl S
    | .precond _ => some (gmInitPrecond n S)
    | .product _ => gmStartIter gnum n S
    | .monitor => if gmDone gnum S.gm then some (gmConvCheck gnum S) else some (gmRestart S)) := by
  have hi : ¬ (S.gm.task ≠ .start ∧ S.c.job = .interrupt) := by
    rw [h.comm]; exact fun e => comm_ne_interrupt a e.2
  unfold gmRci
  rw [if_neg hi]
  cases a with
  | residual => rw [show S.gm.task = .initRes from h.task]
  | precond i => rcases (show S.gm.task = .initPrecond ∨ S.gm.task = .endIter from h.task) with ht | ht <;> rw [ht]
  | product i => rw [show S.gm.task = .startIter from h.task]
  | monitor =>
    have ht := h.mon rfl
    by_cases hd : gmDone gnum S.gm = true
    · rw [if_pos hd] at ht
      rw [ht]
      exact (if_pos hd).symm
    · rw [if_neg hd] at ht
      rw [ht]
      exact (if_neg hd).symm

/-- one call: the invariant -/
theorem ex_next (hE : ExactG gnum) (hb : bl.length = n) (hP : P → LinAns o M ans) (hat : 0 < o.atol ∨ 0 < o.rtol * gnum.nrm (bl.take n))
    (hIn : GmIn gnum o n m j a S)
    (hx : GmExW A M P (vecOf n bl) o m (gnum.nrm (bl.take n)) a j S.gm (vecOf n S.x))
    (hA : GmAns A M P a S.gm (vecOf n S.x)) {r : Status × GmSt R R} (hr : gmRci gnum n bl S = some r)
    (hs : r.1 = .success) {a' : GmAsk} {j' : Nat} (hn : GmNext o m j a a') (hin : GmIn gnum o n m j' a' r.2)
    (hres : a' = .residual → j' = 0) :
    GmExW A M P (vecOf n bl) o m (gnum.nrm (bl.take n)) a' j' r.2.gm (vecOf n r.2.x) := by
  have hjob : r.2.c.job ≠ .stop := by rw [hin.comm]; exact comm_ne_stop a'
  rw [rci_at hIn] at hr
  cases a with
  | residual =>
    obtain ⟨rfl, hne⟩ := hx
    obtain ⟨hxx, ⟨-, h2, h3, h4⟩ | ⟨h1, -⟩⟩ := ex_residual hE hb hIn hA hne hr hs
    · cases hn with
      | begin hp => exact ⟨h2, by rw [h4, ← h3], fun _ l hl => absurd hl (by omega)⟩
      | begin0 hp =>
        refine ⟨h2, by rw [h4, ← h3], fun hp' l hl => ?_⟩
        unfold gmZ
        rw [if_pos (by rw [hin.pre]; exact hp), (hP hp').1 hp, Matrix.one_mulVec]
    · exact absurd h1 hjob
  | precond i =>
    cases hr
    obtain ⟨x1, x2, x3⟩ := hx
    cases hn with
    | mul hp =>
      have hij : j = i := hIn.ja
      subst hij
      refine ⟨x1.congr (fun _ _ => rfl) (fun _ _ => rfl) rfl rfl rfl rfl, x2, ?_⟩
      intro hp' l hl
      have hz : gmZ (gmInitPrecond n S).2.gm = S.gm.z := by
        unfold gmZ
        rw [if_neg (by rw [hin.pre]; exact hp)]
        rfl
      have hz2 : gmZ S.gm = S.gm.z := by
        unfold gmZ
        rw [if_neg (by rw [hIn.pre]; exact hp)]
      rw [hz]
      rcases Nat.lt_succ_iff_lt_or_eq.1 hl with hl | rfl
      · rw [← hz2]
        exact x3 hp' l hl
      · exact hA hp'
  | product i =>
    have hij : j = i := hIn.ja
    subst hij
    obtain ⟨x1, x2, x3⟩ := hx
    rcases ex_product hE hIn (by rw [x2]; exact hat) x1 hA hr with (h | h) | ⟨h1, h2, h3, h4, h5, h6, h7⟩ | ⟨h1, h2, h3, h4, -⟩
    · exact absurd h hjob
    · exact absurd hs h
    · have hzr : ∀ l, l < j + 1 → rowV n (gmZ r.2.gm) l = rowV n (gmZ S.gm) l := by
        intro l hl
        unfold gmZ
        rw [h6]
        split
        · exact h7 l (by omega)
        · rw [h5]
      cases hn with
      | more hp _ =>
        refine ⟨by rw [h2]; exact h4, by rw [h3]; exact x2, ?_⟩
        intro hp' l hl
        rw [hzr l hl, h7 l (by omega)]
        exact x3 hp' l hl
      | more0 hp _ =>
        refine ⟨by rw [h2]; exact h4, by rw [h3]; exact x2, ?_⟩
        intro hp' l hl
        unfold gmZ
        rw [if_pos (by rw [hin.pre]; exact hp), (hP hp').1 hp, Matrix.one_mulVec]
      | last hm => omega
    · cases hn with
      | more hp _ => omega
      | more0 hp _ => omega
      | last hm => exact ⟨h3, h4, by rw [h2]; exact x2⟩
  | monitor =>
    cases hn with
    | again =>
      refine ⟨hres rfl, ?_⟩
      obtain ⟨x1, x2, x3⟩ := hx
      dsimp only at hr
      split at hr
      · cases hr
        rename_i hd
        exfalso
        revert hjob hs
        unfold gmConvCheck
        split
        · simp
        split
        · simp
        split
        · simp
        · rename_i k1 k2 k3
          unfold gmDone at hd
          simp only [Bool.not_eq_true] at k1 k2 k3
          simp [k1, k2, k3] at hd
      · rename_i hd
        cases hr
        show vecOf n bl - A *ᵥ vecOf n S.x ≠ 0
        intro h0
        rw [resSq, h0, zero_dotProduct] at x2
        have hz : S.gm.rnorm2 = 0 := by simpa using x2
        exact (ne_of_gt x1) hz

/-- one call: an end with success after the request for the residual or after the monitoring step -/
theorem ex_stop (hE : ExactG gnum) (hb : bl.length = n)
    (hIn : GmIn gnum o n m j a S)
    (hx : GmExW A M P (vecOf n bl) o m (gnum.nrm (bl.take n)) a j S.gm (vecOf n S.x))
    (hA : GmAns A M P a S.gm (vecOf n S.x)) {r : Status × GmSt R R} (hr : gmRci gnum n bl S = some r)
    (hs : r.1 = .success) (hj : r.2.c.job = .stop) (ha : a = .residual ∨ a = .monitor) :
    ∃ ρ, 0 ≤ ρ ∧ ρ ^ 2 = resSq A (vecOf n bl) (vecOf n r.2.x) ∧
      (ρ ≤ o.atol ∨ ρ ≤ o.rtol * gnum.nrm (bl.take n)) := by
  rw [rci_at hIn] at hr
  rcases ha with rfl | rfl
  · obtain ⟨rfl, hne⟩ := hx
    obtain ⟨hxx, ⟨h1, -⟩ | ⟨-, ρ, h2, h3, h4, h5⟩⟩ := ex_residual hE hb hIn hA hne hr hs
    · exact absurd hj h1
    · rw [hxx]
      exact ⟨ρ, h2, h3, h4⟩
  · obtain ⟨x1, x2, x3⟩ := hx
    dsimp only at hr
    split at hr
    · cases hr
      have hxx : (gmConvCheck gnum S).2.x = S.x := by
        unfold gmConvCheck
        split
        · rfl
        split
        · rfl
        split <;> rfl
      rw [hxx]
      refine ⟨S.gm.rnorm2, le_of_lt x1, x2, ?_⟩
      rename_i hd
      revert hs
      unfold gmConvCheck
      split
      · rename_i k
        intro _
        unfold belowAbs at k
        rw [hE.lt, hE.le] at k
        simp only [Bool.and_eq_true, decide_eq_true_eq] at k
        left
        rw [← show S.gm.atol = o.atol from hIn.atol]
        exact k.2
      split
      · rename_i k
        intro _
        unfold belowRel at k
        rw [hE.lt, hE.le] at k
        simp only [Bool.and_eq_true, decide_eq_true_eq] at k
        right
        rw [← x3]
        exact k.2
      split
      · simp
      · rename_i k1 k2 k3
        unfold gmDone at hd
        simp only [Bool.not_eq_true] at k1 k2 k3
        simp [k1, k2, k3] at hd
    · cases hr
      simp [gmRestart] at hj

variable {g : Nat → R} {gq : R} {w : Int}

/-- a call through the interface -/
theorem ex_call (hb : bl.length = n) (hu : Rg.readonly = false)
    (hans : ∀ u v, ans .mv u v → vecOf n v = A *ᵥ vecOf n u) (hP : P → LinAns o M ans) {q q' : Status × RciSt R R}
    {gm : GmData R R} (hw : GmWait gnum o n m j bl Rg a gm q.2)
    (hx : GmExW A M P b o m bn a j gm (vecOf n q.2.x)) (hc : GmCall num gnum g gq w ans q q') :
    (q'.1 = .userStop ∧ q'.2.x = q.2.x ∧ q'.2.c.job = .stop) ∨
    ∃ gm' r, GmIn gnum o n m j a (gmPart q.2 gm') ∧ GmExW A M P b o m bn a j gm' (vecOf n q.2.x) ∧
      GmAns A M P a gm' (vecOf n q.2.x) ∧
      (∀ i, a = .product i → ∀ l, l ≤ i → rowV n (gmZ gm') l = rowV n (gmZ gm) l) ∧
      gmRci gnum n bl (gmPart q.2 gm') = some r ∧ GmStepOk gnum o n m j a (gmPart q.2 gm') r ∧ q'.2.x = r.2.x ∧
      q'.2.rinfo = r.2.rinfo ∧ q'.1 = r.1 ∧
      (∀ a' j', r.1 = .success → GmIn gnum o n m j' a' r.2 → GmWait gnum o n m j' bl Rg a' r.2.gm q'.2) ∧
      (GmEnd n m r.1 r.2 → q'.2.c.job = .stop) := by
  cases hc with
  | @answer gm0 u v S' hj hgm hu' ha hl hwr hs =>
    right
    have hm := (wait_job hw).2.1.1 hj
    have hgm' := hw.data
    rw [hgm] at hgm'
    cases hgm'
    obtain ⟨u', u1, u2, u3⟩ := gm_answer hw hm
    rw [hw.size, u1] at hu'
    cases hu'
    have hlen : v.length = n := by have := hw.size; omega
    obtain ⟨gm', S'', w1, w2, w3, w4, w5, w6⟩ := u3 v hlen
    rw [hwr] at w1
    cases w1
    have hgp : GmIn gnum o n m j a (gmPart q.2 gm') := by
      have := w3.st
      rw [w4] at this
      exact this
    obtain ⟨k1, k2, k3⟩ := ex_write (S := gmPart q.2 gm) (gm' := gm') hans hP hw.st hm hx u1 hlen ha w2 w6 w5
    obtain ⟨q2, r, r1, r2, r3, r4, r5, r6, r7, r8, r9⟩ := gm_next num hb hu w3 g gq w
    rw [hs] at r3
    cases r3
    have hpart : gmPart S' gm' = gmPart q.2 gm' := by rw [w4]; rfl
    rw [hpart] at r1 r2
    exact ⟨gm', r, hgp, k1, k2, k3, r1, r2, r4, r5, r7, fun a' j' h1 h2 => (r8 a' j' h1 h2).1,
      fun h => (r9 h).job⟩
  | goOn hj hs =>
    right
    have hm := (wait_job hw).1.1 hj
    subst hm
    obtain ⟨q2, r, r1, r2, r3, r4, r5, r6, r7, r8, r9⟩ := gm_next num hb hu hw g gq w
    rw [hs] at r3
    cases r3
    exact ⟨gm, r, hw.st, hx, trivial, by simp, r1, r2, r4, r5, r7, fun a' j' h1 h2 => (r8 a' j' h1 h2).1,
      fun h => (r9 h).job⟩
  | stop hj hs =>
    left
    obtain ⟨q2, e1, e2, e3, e4, e5, e6⟩ := gm_stopped num hu hw g gq w
    rw [hs] at e1
    cases e1
    exact ⟨e2, e3, e6.job⟩

/-- all calls of a solve -/
theorem ex_run (hE : ExactG gnum) (hb : bl.length = n) (hu : Rg.readonly = false)
    (hans : ∀ u v, ans .mv u v → vecOf n v = A *ᵥ vecOf n u) (hP : P → LinAns o M ans) {it : Int} {S : RciSt R R}
    (hI : GmIdle n m w bl Rg o 0 it S.H) (hO : GmOpts Rg o) (hx : n ≤ S.x.length) (hinfo : S.rinfo.length = 100)
    (hat : 0 < o.atol ∨ 0 < o.rtol * gnum.nrm (bl.take n)) (hne : vecOf n bl - A *ᵥ vecOf n S.x ≠ 0) {k : Nat} {q : Status × RciSt R R}
    (h : GmRun num gnum g gq w ans S k q) (hj : q.2.c.job ≠ .stop) :
    ∃ a j gm, GmWait gnum o n m j bl Rg a gm q.2 ∧
      GmExW A M P (vecOf n bl) o m (gnum.nrm (bl.take n)) a j gm (vecOf n q.2.x) := by
  induction h with
  | first h =>
    obtain ⟨q', gm, e1, e2, e3, e4, e5, e6⟩ := gm_first num (gnum := gnum) hI hO hx hinfo g gq
    rw [e1] at h
    cases h
    exact ⟨.residual, 0, gm, e3, rfl, by rw [e5]; exact hne⟩
  | @next k q q' h hc ih =>
    have hjq : q.2.c.job ≠ .stop := by
      cases hc with
      | answer hj _ _ _ _ _ _ => rcases hj with hj | hj <;> rw [hj] <;> simp
      | goOn hj _ => rw [hj]; simp
      | stop hj _ => exact hj
    obtain ⟨a, j, gm, hw, hex⟩ := ih hjq
    rcases ex_call hb hu hans hP hw hex hc with ⟨-, -, h3⟩ | ⟨gm', r, k1, k2, k3, -, k4, k5, k6, -, k7, k8, k9⟩
    · exact absurd h3 hj
    rcases k5.out with ⟨a', j', h1, hn, hin, hres, -⟩ | ⟨hEnd, -⟩
    · refine ⟨a', j', r.2.gm, k8 a' j' h1 hin, ?_⟩
      rw [k6]
      exact ex_next hE hb hP hat k1 k2 k3 k4 h1 hn hin hres
    · exact absurd (k9 hEnd) hj

end
end Proofs
end Verif
