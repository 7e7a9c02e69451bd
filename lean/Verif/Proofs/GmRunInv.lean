/-
Invariant of the calls of one GMRES solve.
-/
import Verif.Proofs.GmTalk2

namespace Verif
namespace Proofs
open Model Spec

section
variable {R Q : Type} [Zero R] [Neg R] [Add R] [Sub R] [Mul R] [Div R] [LinearOrder Q]
variable {num : Num R Q} {gnum : GNum R Q} {o : GmOpt Q} {n m j0 : Nat} {b : List R} {Rg : Registry Q} {it : Int}

theorem per_pos : 1 ≤ o.per ∧ (o.pre = 0 → o.per = 1) ∧ (o.pre ≠ 0 → o.per = 2) := by
  unfold GmOpt.per
  split <;> simp [*]

theorem pos_lt {a : GmAsk} (h : a.ok o m) : a.pos o m + 1 ≤ o.cycle m := by
  have hp := (per_pos (o := o)).1
  unfold GmOpt.cycle
  cases a with
  | residual => simp [GmAsk.pos]
  | precond i =>
    have hi : i < m := h.2
    have := Nat.mul_le_mul_right o.per (show i ≤ m by omega)
    simp only [GmAsk.pos]; omega
  | product i =>
    have hi : i < m := h
    have := Nat.mul_le_mul_right o.per (show i + 1 ≤ m by omega)
    have e : (i + 1) * o.per = i * o.per + o.per := by ring
    simp only [GmAsk.pos]; omega
  | monitor => simp only [GmAsk.pos]; omega

/-- the clock of a solve -/
theorem next_pos {a a' : GmAsk} {j : Nat} (h : GmNext o m j a a') :
    (a = .residual → a'.pos o m = 1 + j * o.per ∧ a' ≠ .monitor) ∧
    (a = .monitor → a' = .residual ∧ a.pos o m + 1 = o.cycle m) ∧
    (a ≠ .residual → a ≠ .monitor → a'.pos o m = a.pos o m + 1) ∧ (a' = .residual → a = .monitor) := by
  obtain ⟨-, h0, h2⟩ := per_pos (o := o)
  cases h with
  | begin hp => simp [GmAsk.pos]
  | begin0 hp => simp [GmAsk.pos, h0 hp]
  | mul hp =>
    refine ⟨by simp, by simp, fun _ _ => ?_, by simp⟩
    simp only [GmAsk.pos]
    rw [h2 hp]; omega
  | more hp _ =>
    refine ⟨by simp, by simp, fun _ _ => ?_, by simp⟩
    simp only [GmAsk.pos]
    rw [h2 hp]; omega
  | more0 hp _ =>
    refine ⟨by simp, by simp, fun _ _ => ?_, by simp⟩
    simp only [GmAsk.pos]
    rw [h0 hp]; omega
  | last hm =>
    refine ⟨by simp, by simp, fun _ _ => ?_, by simp⟩
    simp only [GmAsk.pos, ← hm]
    ring
  | again =>
    refine ⟨by simp, fun _ => ⟨rfl, ?_⟩, by simp, fun _ => rfl⟩
    simp only [GmAsk.pos, GmOpt.cycle]
    ring

/-- the state after call `k` -/
def GmAt (gnum : GNum R Q) (o : GmOpt Q) (n m j0 : Nat) (it : Int) (b : List R) (Rg : Registry Q) (x0 : List R)
    (k : Nat) (q : Status × RciSt R Q) : Prop :=
  (q.2.x.length = x0.length ∧ ∀ p, n ≤ p → q.2.x[p]? = x0[p]?) ∧
  ∃ cyc : Nat, (0 < o.maxit → cyc = 0 ∨ it + cyc * m < o.maxit) ∧
   ((∃ a j gm, q.1 = .success ∧ GmWait gnum o n m j b Rg a gm q.2 ∧
      gm.niter = it + ((cyc + if a = .monitor then 1 else 0 : Nat) : Int) * m ∧
      (a = .monitor → q.2.rinfo[0]? = some gm.rnorm2 ∧ q.2.rinfo[30]? = some (gnum.ofInt gm.niter)) ∧
      ((k = 0 ∧ a = .residual ∧ cyc = 0 ∧ j = j0) ∨
       (k + j0 * o.per = cyc * o.cycle m + a.pos o m ∧ (a = .residual → j = 0)))) ∨
    (GmOver n m b Rg q ∧ k + j0 * o.per ≤ (cyc + 1) * o.cycle m ∧
      (q.1 = .maxit → ∃ gm, q.2.H.gm = some gm ∧ o.maxit ≤ gm.niter) ∧
      ∃ gm, q.2.H.gm = some gm ∧ it ≤ gm.niter))

theorem gmAt_wait {x0 : List R} {k : Nat} {q : Status × RciSt R Q} (h : GmAt gnum o n m j0 it b Rg x0 k q)
    (hj : q.2.c.job ≠ .stop) : ∃ a j gm, q.1 = .success ∧ GmWait gnum o n m j b Rg a gm q.2 := by
  obtain ⟨-, cyc, -, ⟨a, j, gm, h1, h2, -⟩ | ⟨h1, -⟩⟩ := h
  · exact ⟨a, j, gm, h1, h2⟩
  · exact absurd h1.job hj

theorem wait_job {a : GmAsk} {j : Nat} {gm : GmData R Q} {S : RciSt R Q} (h : GmWait gnum o n m j b Rg a gm S) :
    (S.c.job = .crit ↔ a = .monitor) ∧ (S.c.job = .mv ∨ S.c.job = .precond ↔ a ≠ .monitor) ∧ S.c.job ≠ .stop ∧
      S.c = a.comm o n m := by
  have := h.st.comm
  have hc : S.c = a.comm o n m := this
  refine ⟨?_, ?_, ?_, hc⟩ <;> rw [hc] <;> cases a <;> simp [GmAsk.comm]

theorem pos_end {a : GmAsk} (hok : a.ok o m) {k cyc : Nat} {j0 : Nat} (hj : j0 < m)
    (h : (k = 0 ∧ a = .residual ∧ cyc = 0) ∨ k + j0 * o.per = cyc * o.cycle m + a.pos o m) :
    k + 1 + j0 * o.per ≤ (cyc + 1) * o.cycle m := by
  have e : (cyc + 1) * o.cycle m = cyc * o.cycle m + o.cycle m := by ring
  have := pos_lt hok
  rcases h with ⟨rfl, -, rfl⟩ | h
  · have h1 := Nat.mul_le_mul_right o.per (show j0 ≤ m by omega)
    have h2 : o.cycle m = m * o.per + 2 := rfl
    simp only [Nat.zero_mul, Nat.zero_add, Nat.one_mul]
    omega
  · omega

/-- one call with an answer keeps the invariant -/
theorem gmAt_next (hb : b.length = n) (hu : Rg.readonly = false) (hj0 : j0 < m) {x0 : List R} {k : Nat} {a : GmAsk}
    {j : Nat} {gm : GmData R Q} {S : RciSt R Q} (hw : GmWait gnum o n m j b Rg a gm S)
    (hx : S.x.length = x0.length ∧ ∀ p, n ≤ p → S.x[p]? = x0[p]?) {cyc : Nat}
    (hcyc : 0 < o.maxit → cyc = 0 ∨ it + cyc * m < o.maxit)
    (hit : gm.niter = it + ((cyc + if a = .monitor then 1 else 0 : Nat) : Int) * m)
    (hpos : (k = 0 ∧ a = .residual ∧ cyc = 0 ∧ j = j0) ∨
       (k + j0 * o.per = cyc * o.cycle m + a.pos o m ∧ (a = .residual → j = 0))) (g : Nat → R) (gq : Q) (w : Int) :
    ∃ q, rciSolve num gnum g gq w S = some q ∧ GmAt gnum o n m j0 it b Rg x0 (k + 1) q ∧ q.1 ≠ .userStop ∧
      (q.2.x = S.x ∨ (q.2.c.job = .crit ∧ a ≠ .monitor)) := by
  obtain ⟨q, r, hr, hs, hq, e1, e2, e3, e4, hcont, hend⟩ := gm_next num hb hu hw g gq w
  refine ⟨q, hq, ?_⟩
  have htail : q.2.x.length = x0.length ∧ ∀ p, n ≤ p → q.2.x[p]? = x0[p]? := by
    rw [e1]
    exact ⟨hs.tail.1.trans hx.1, fun p hp => (hs.tail.2 p hp).trans (hx.2 p hp)⟩
  rcases hs.out with ⟨a', j', h1, hn, hin, hres, hni, hdone, hinfo, hxx⟩ | ⟨hE, hxE, hni, hst, hmx⟩
  · obtain ⟨hw', hpart⟩ := hcont a' j' h1 hin
    have hjob := wait_job hw'
    obtain ⟨n1, n2, n3, n4⟩ := next_pos hn
    have hni' : r.2.gm.niter = gm.niter + (if a' = .monitor then (m : Int) else 0) := hni
    refine ⟨⟨htail, ?_⟩, by rw [e4, h1]; simp, ?_⟩
    · by_cases ham : a = .monitor
      · obtain ⟨hr', hp'⟩ := n2 ham
        subst hr'
        rw [if_pos ham] at hit
        rw [if_neg (by simp)] at hni'
        have hd := hdone ham
        refine ⟨cyc + 1, ?_, Or.inl ⟨.residual, j', r.2.gm, by rw [e4, h1], hw', ?_, by simp, Or.inr ⟨?_, hres⟩⟩⟩
        · intro hmx
          right
          have hd2 : maxReached gm = false := by
            have hd' : gmDone gnum gm = false := hd
            unfold gmDone at hd'
            simp only [Bool.or_eq_false_iff] at hd'
            exact hd'.2
          unfold maxReached at hd2
          have hmax : gm.maxit = o.maxit := hw.st.maxit
          rw [hmax] at hd2
          simp only [Bool.and_eq_false_iff, decide_eq_false_iff_not] at hd2
          rw [hit] at hd2
          push_cast at hd2 ⊢
          rcases hd2 with h | h
          · exact absurd hmx h
          · omega
        · rw [hni', hit, if_neg (by simp)]
          push_cast
          ring
        · rcases hpos with ⟨-, h, -⟩ | ⟨h, -⟩
          · rw [ham] at h; simp at h
          · have : GmAsk.residual.pos o m = 0 := rfl
            have e : (cyc + 1) * o.cycle m = cyc * o.cycle m + o.cycle m := by ring
            rw [this]
            omega
      · rw [if_neg ham] at hit
        refine ⟨cyc, hcyc, Or.inl ⟨a', j', r.2.gm, by rw [e4, h1], hw', ?_, ?_, Or.inr ⟨?_, hres⟩⟩⟩
        · rw [hni', hit]
          split <;> push_cast <;> ring
        · intro h
          rw [e2]
          exact hinfo h
        · rcases hpos with ⟨hk, h, hc, hj⟩ | ⟨h, hj⟩
          · subst hk hc hj
            rw [(n1 h).1]
            omega
          · by_cases hre : a = .residual
            · have hp : a.pos o m = 0 := by rw [hre]; rfl
              rw [hp] at h
              rw [(n1 hre).1, hj hre]
              omega
            · rw [n3 hre ham]
              omega
    · by_cases ha' : a' = .monitor
      · right
        refine ⟨hjob.1.2 ha', ?_⟩
        intro h
        have := (n2 h).1
        rw [ha'] at this
        simp at this
      · left
        rw [e1]
        exact hxx ha'
  · have hO := hend hE
    refine ⟨⟨htail, cyc, hcyc, Or.inr ⟨hO, ?_, ?_, r.2.gm, e3, ?_⟩⟩, by rw [e4]; exact hst, Or.inl (by rw [e1]; exact hxE)⟩
    · refine pos_end hw.st.ok hj0 ?_
      rcases hpos with ⟨h1, h2, h3, -⟩ | ⟨h, -⟩
      · exact Or.inl ⟨h1, h2, h3⟩
      · exact Or.inr h
    · intro hst
      rw [e4] at hst
      obtain ⟨-, hmax⟩ := hmx hst
      refine ⟨r.2.gm, e3, ?_⟩
      unfold maxReached at hmax
      simp only [Bool.and_eq_true, decide_eq_true_eq] at hmax
      have h1 : (gmPart S gm).gm.maxit = o.maxit := hw.st.maxit
      omega
    · have hni' : gm.niter ≤ r.2.gm.niter := hni
      rw [hit] at hni'
      have : (0 : Int) ≤ ((cyc + if a = .monitor then 1 else 0 : Nat) : Int) * m :=
          Int.mul_nonneg (Int.natCast_nonneg _) (Int.natCast_nonneg _)
      omega

/-- all calls -/
theorem gm_run (hb : b.length = n) (hu : Rg.readonly = false) {w : Int} {S : RciSt R Q}
    (hI : GmIdle n m w b Rg o j0 it S.H) (hO : GmOpts Rg o) (hx : n ≤ S.x.length) (hinfo : S.rinfo.length = 100)
    {g : Nat → R} {gq : Q} {ans : Job → List R → List R → Prop} {k : Nat} {q : Status × RciSt R Q}
    (h : GmRun num gnum g gq w ans S k q) : GmAt gnum o n m j0 it b Rg S.x k q := by
  induction h with
  | first h =>
    obtain ⟨q', gm, e1, e2, e3, e4, e5, e6⟩ := gm_first num (gnum := gnum) hI hO hx hinfo g gq
    rw [e1] at h
    cases h
    refine ⟨by rw [e5]; exact ⟨rfl, fun _ _ => rfl⟩, 0, fun _ => Or.inl rfl,
      Or.inl ⟨.residual, j0, gm, e2, e3, by simp [e4], by simp, Or.inl ⟨rfl, rfl, rfl, rfl⟩⟩⟩
  | @next k q q' h hcall ih =>
   cases hcall with
   | @answer gm u a S' hj hgm hu' ha hl hwr hs =>
     obtain ⟨hx', cyc, hc, ⟨ask, j, gm', h1, hw, h3, -, h5⟩ | ⟨h1, -⟩⟩ := ih
     · have hm := (wait_job hw).2.1.1 hj
       obtain ⟨u', -, -, hans⟩ := gm_answer hw hm
       obtain ⟨gm'', S'', w1, w2, w3, w4, -⟩ := hans a (by have := hw.size; omega)
       rw [hwr] at w1
       cases w1
       have hn : gm''.niter = gm'.niter := by
         revert w2
         unfold GmData.put
         intro w2
         split at w2
         all_goals first
           | (simp only [Option.map_eq_some_iff] at w2
              obtain ⟨_, _, rfl⟩ := w2
              rfl)
           | simp at w2
       obtain ⟨q'', e1, e2, -⟩ := gmAt_next (num := num) hb hu hI.jlt w3 (by rw [w4]; exact hx') hc (by rw [hn]; exact h3)
         h5 g gq w
       rw [e1] at hs
       cases hs
       exact e2
     · rcases hj with hj | hj <;> rw [h1.job] at hj <;> simp at hj
   | goOn hj hs =>
     obtain ⟨hx', cyc, hc, ⟨ask, j, gm', h1, hw, h3, -, h5⟩ | ⟨h1, -⟩⟩ := ih
     · obtain ⟨q'', e1, e2, -⟩ := gmAt_next (num := num) hb hu hI.jlt hw hx' hc h3 h5 g gq w
       rw [e1] at hs
       cases hs
       exact e2
     · rw [h1.job] at hj; simp at hj
   | stop hj hs =>
     obtain ⟨hx', cyc, hc, ⟨ask, j, gm', h1, hw, h3, -, h5⟩ | ⟨h1, -⟩⟩ := ih
     · obtain ⟨q'', e1, e2, e3, e4, e5, e6⟩ := gm_stopped num hu hw g gq w
       rw [e1] at hs
       cases hs
       refine ⟨by rw [e3]; exact hx', cyc, hc, Or.inr ⟨e6, ?_, by rw [e2]; simp, gm', by rw [e5]; exact hw.data, ?_⟩⟩
       rotate_left
       · rw [h3]
         have : (0 : Int) ≤ ((cyc + if ask = .monitor then 1 else 0 : Nat) : Int) * m :=
           Int.mul_nonneg (Int.natCast_nonneg _) (Int.natCast_nonneg _)
         omega
       refine pos_end hw.st.ok hI.jlt ?_
       rcases h5 with ⟨h1, h2, h3, -⟩ | ⟨h, -⟩
       · exact Or.inl ⟨h1, h2, h3⟩
       · exact Or.inr h
     · exact absurd h1.job hj

end
end Proofs
end Verif
