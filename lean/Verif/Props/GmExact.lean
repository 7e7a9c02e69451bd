/-
C52 — the GMRES solver in exact arithmetic: the reported residual is the residual, each cycle ends with the best
solution in its Krylov space, and an end at a monitoring step means that the solution is good; but the cycle that
finds the solution before its last inner iteration ends with success and without an update.
-/
import Verif.Proofs.GmExRun
import Verif.Props.Gmres

namespace Verif
namespace Props
open Model Spec Proofs Finset Matrix

section
variable {R : Type} [Field R] [LinearOrder R] [IsStrictOrderedRing R] {num : Num R R} {gnum : GNum R R} {n m : Nat}
variable {A M : Matrix (Fin n) (Fin n) R} {o : GmOpt R} {b : List R} {Rg : Registry R} {it w : Int}
variable {S : RciSt R R} {g : Nat → R} {gq : R} {k : Nat} {q q' : Status × RciSt R R}
variable {ans : Job → List R → List R → Prop}

theorem tol_pos (hE : ExactG gnum) (hb : b.length = n) (h : 0 < o.atol ∨ 0 < o.rtol ∧ vecOf n b ≠ 0) :
    0 < o.atol ∨ 0 < o.rtol * gnum.nrm (b.take n) := by
  refine h.imp id fun ⟨h1, h2⟩ => mul_pos h1 ?_
  have := nrm_row (n := n) (v := b) (i := 0) hE (by omega)
  rw [Nat.zero_mul, List.drop_zero, ← vecOf_row] at this
  refine lt_of_le_of_ne (hE.nrm_nonneg _) fun e => h2 ?_
  rw [← e] at this
  exact dotProduct_self_eq_zero.1 (by rw [← this]; ring)

/-- At every monitoring step rinfo[0] is the norm of the residual of the current `x`. -/
theorem C52_residual (hE : ExactG gnum) (hI : GmIdle n m w b Rg o 0 it S.H) (hO : GmOpts Rg o)
    (hu : Rg.readonly = false) (hx : n ≤ S.x.length) (hinfo : S.rinfo.length = 100) (hat : 0 < o.atol ∨ 0 < o.rtol ∧ vecOf n b ≠ 0)
    (hne : resSq A (vecOf n b) (vecOf n S.x) ≠ 0) (h : GmRun num gnum g gq w (exactAnswers A) S k q)
    (hj : q.2.c.job = .crit) :
    ∃ ρ, q.2.rinfo[0]? = some ρ ∧ 0 < ρ ∧ ρ ^ 2 = resSq A (vecOf n b) (vecOf n q.2.x) := by
  have hne' : vecOf n b - A *ᵥ vecOf n S.x ≠ 0 := fun e => hne (by rw [resSq, e, zero_dotProduct])
  obtain ⟨a, j, gm, hw, hex⟩ := ex_run (M := 1) (P := False) hE hI.blen hu (fun u v h => h rfl) (fun e => e.elim) hI hO hx
    hinfo (tol_pos hE hI.blen hat) hne' h (by rw [hj]; simp)
  have ha := (wait_job hw).1.1 hj
  subst ha
  obtain ⟨-, cyc, hc, ⟨a', i, gm', h1, hw', -, h4, -⟩ | ⟨h1, -⟩⟩ := gm_run hI.blen hu hI hO hx hinfo h
  · have ha' := (wait_job hw').1.1 hj
    have hgm := hw'.data
    rw [hw.data] at hgm
    cases hgm
    exact ⟨gm.rnorm2, (h4 ha').1, hex.1, hex.2.1⟩
  · rw [h1.job] at hj; simp at hj

/-- what a call into a monitoring step does -/
theorem mon_call {P : Prop} (hE : ExactG gnum) (hI : GmIdle n m w b Rg o 0 it S.H) (hO : GmOpts Rg o)
    (hu : Rg.readonly = false) (hx : n ≤ S.x.length) (hinfo : S.rinfo.length = 100) (hat : 0 < o.atol ∨ 0 < o.rtol ∧ vecOf n b ≠ 0)
    (hans : ∀ u v, ans .mv u v → vecOf n v = A *ᵥ vecOf n u) (hP : P → LinAns o M ans)
    (hne : resSq A (vecOf n b) (vecOf n S.x) ≠ 0) (h : GmRun num gnum g gq w ans S k q)
    (hc : GmCall num gnum g gq w ans q q') :
    (q'.2.x = q.2.x ∧ q'.2.c.job ≠ .crit) ∨ ∃ gm T, q.2.H.gm = some gm ∧ gm.precond = o.pre ∧ GmSz n m (m - 1) gm ∧
      GmEx A (vecOf n b) m m T (vecOf n q.2.x) ∧
      (∀ i, i < m → rowV n (gmZ T) i = rowV n (gmZ gm) i) ∧
      (P → ∀ i, i < m → rowV n (gmZ T) i = M *ᵥ rowV n T.v i) ∧
      (∃ y : Nat → R, vecOf n q'.2.x = vecOf n q.2.x + ∑ i ∈ range m, y i • rowV n (gmZ gm) i) ∧
      ∀ y : Nat → R, resSq A (vecOf n b) (vecOf n q'.2.x) ≤
        resSq A (vecOf n b) (vecOf n q.2.x + ∑ i ∈ range m, y i • rowV n (gmZ gm) i) := by
  have hne' : vecOf n b - A *ᵥ vecOf n S.x ≠ 0 := fun e => hne (by rw [resSq, e, zero_dotProduct])
  have hjq : q.2.c.job ≠ .stop := by
    cases hc with
    | answer hj _ _ _ _ _ _ => rcases hj with hj | hj <;> rw [hj] <;> simp
    | goOn hj _ => rw [hj]; simp
    | stop hj _ => exact hj
  obtain ⟨a, j, gm, hw, hex⟩ := ex_run hE hI.blen hu hans hP hI hO hx hinfo (tol_pos hE hI.blen hat) hne' h hjq
  rcases ex_call hI.blen hu hans hP hw hex hc with ⟨-, h3, h3'⟩ | ⟨gm', r, k1, k2, k3, k3', k4, k5, k6, -, k7, k8, k9⟩
  · exact Or.inl ⟨h3, by rw [h3']; simp⟩
  rcases k5.out with ⟨a', j', h1, hn, hin, hres, -, -, -, hxx⟩ | ⟨hEnd, hxx, -⟩
  · by_cases ha' : a' = .monitor
    · right
      subst ha'
      cases hn with
      | @last i him =>
        have hij : j = i := k1.ja
        subst hij
        obtain ⟨x1, x2, x3⟩ := k2
        rw [rci_at k1] at k4
        have hjob : r.2.c.job ≠ .stop := by rw [hin.comm]; simp [GmAsk.comm]
        have hzz := k3' j rfl
        have hsum : ∀ y : Nat → R, ∑ i ∈ range m, y i • rowV n (gmZ gm') i = ∑ i ∈ range m, y i • rowV n (gmZ gm) i := by
          intro y
          refine sum_congr rfl fun i hi => ?_
          rw [mem_range] at hi
          rw [hzz i (by omega)]
        rcases ex_product hE k1 (by show 0 < o.atol ∨ 0 < gm'.brtol; rw [x2]; exact tol_pos hE hI.blen hat) x1 k3 k4 with (h | h) | ⟨h, -⟩ | ⟨h1, h2, h3, h4, ⟨T, t1, t2⟩, ⟨y, h5⟩, h6⟩
        · exact absurd h hjob
        · exact absurd h1 h
        · omega
        · refine ⟨gm, T, hw.data, hw.st.pre, ?_, t1, ?_, ?_, ⟨y, ?_⟩, ?_⟩
          · have := hw.st.sz
            rw [show m - 1 = j by omega]
            exact this
          · intro i hi
            rw [(t2 i hi).2]
            exact hzz i (by omega)
          · intro hp i hi
            rw [(t2 i hi).2, (t2 i hi).1]
            exact x3 hp i (by omega)
          · rw [k6, ← hsum]
            exact h5
          · intro y
            rw [k6, ← hsum]
            exact h6 y
    · left
      rw [k6]
      exact ⟨hxx ha', fun e => ha' ((wait_job (k8 a' j' h1 hin)).1.1 e)⟩
  · left
    rw [k6, k9 hEnd]
    exact ⟨hxx, by simp⟩

/-- A cycle ends with the best solution that can be made from the vectors the user multiplied in it (whatever
preconditioner was used): let `us i` be the vector of the product of inner iteration `i`, at the call before the
monitoring step.  The new `x` is the old `x` plus a combination of these, and no combination has a smaller
residual. -/
theorem C52_minimal (hE : ExactG gnum) (hI : GmIdle n m w b Rg o 0 it S.H) (hO : GmOpts Rg o)
    (hu : Rg.readonly = false) (hx : n ≤ S.x.length) (hinfo : S.rinfo.length = 100) (hat : 0 < o.atol ∨ 0 < o.rtol ∧ vecOf n b ≠ 0)
    (hne : resSq A (vecOf n b) (vecOf n S.x) ≠ 0) (h : GmRun num gnum g gq w (exactAnswers A) S k q)
    (hc : GmCall num gnum g gq w (exactAnswers A) q q') (hxx : q'.2.c.job = .crit) :
    ∃ (gm : GmData R R) (us : Nat → List R), q.2.H.gm = some gm ∧
      (∀ i, i < m → gm.vec n q.2.x ((GmAsk.product i).comm o n m).u = some (us i)) ∧
      (∃ y : Nat → R, vecOf n q'.2.x = vecOf n q.2.x + ∑ i ∈ range m, y i • vecOf n (us i)) ∧
      ∀ y : Nat → R, resSq A (vecOf n b) (vecOf n q'.2.x) ≤
        resSq A (vecOf n b) (vecOf n q.2.x + ∑ i ∈ range m, y i • vecOf n (us i)) := by
  obtain h1 | ⟨gm, T, h1, h2, h3, -, -, -, h6, h7⟩ := mon_call (M := 1) (P := False) hE hI hO hu hx hinfo hat
    (fun u v h => h rfl) (fun e => e.elim) hne h hc
  · exact absurd hxx h1.2
  have hZ : (gmZ gm).length = (m + 1) * n := by
    unfold gmZ
    split
    · exact h3.v
    · exact h3.z
  have hwin : ∀ i, i < m → window (gmZ gm) ((i : Int) * n) n = some (((gmZ gm).drop (i * n)).take n) := by
    intro i hi
    have := row_le (n := n) (show i ≤ m by omega)
    have e : (i : Int) * n = ((i * n : Nat) : Int) := by push_cast; ring
    unfold window
    rw [e, if_pos (by omega), Int.toNat_natCast, Int.toNat_natCast]
  have hsum : ∀ y : Nat → R, ∑ i ∈ range m, y i • rowV n (gmZ gm) i =
      ∑ i ∈ range m, y i • vecOf n (((gmZ gm).drop (i * n)).take n) := by
    intro y
    refine sum_congr rfl fun i hi => ?_
    rw [window_row (hwin i (mem_range.1 hi))]
  refine ⟨gm, fun i => ((gmZ gm).drop (i * n)).take n, h1, ?_, ?_, ?_⟩
  · intro i hi
    have := hwin i hi
    unfold gmZ at this ⊢
    rw [h2] at this ⊢
    simp only [GmAsk.comm]
    split
    · rename_i h0
      rw [if_pos h0] at this
      exact this
    · rename_i h0
      rw [if_neg h0] at this
      exact this
  · obtain ⟨y, e⟩ := h6
    exact ⟨y, by rw [e, hsum]⟩
  · intro y
    rw [← hsum]
    exact h7 y

/-- With a preconditioner that multiplies with `M` (none: the identity), a cycle ends with the solution of smallest
residual in x + M·K, where K is the Krylov space of A M and the residual, of dimension up to `m`. -/
theorem C52_krylov (hE : ExactG gnum) (hI : GmIdle n m w b Rg o 0 it S.H) (hO : GmOpts Rg o)
    (hu : Rg.readonly = false) (hx : n ≤ S.x.length) (hinfo : S.rinfo.length = 100) (hat : 0 < o.atol ∨ 0 < o.rtol ∧ vecOf n b ≠ 0)
    (hM : o.pre = 0 → M = 1)
    (hne : resSq A (vecOf n b) (vecOf n S.x) ≠ 0) (h : GmRun num gnum g gq w (exactBoth A M) S k q)
    (hc : GmCall num gnum g gq w (exactBoth A M) q q') (hxx : q'.2.c.job = .crit) {r : Fin n → R}
    (hr : r = vecOf n b - A *ᵥ vecOf n q.2.x) :
    (∃ y : Nat → R, vecOf n q'.2.x = vecOf n q.2.x + ∑ i ∈ range m, y i • M *ᵥ ((A * M) ^ i *ᵥ r)) ∧
      ∀ y : Nat → R, resSq A (vecOf n b) (vecOf n q'.2.x) ≤
        resSq A (vecOf n b) (vecOf n q.2.x + ∑ i ∈ range m, y i • M *ᵥ ((A * M) ^ i *ᵥ r)) := by
  obtain h1 | ⟨gm, T, h1, h2, h3, h4, h5, h5', h6, h7⟩ := mon_call (M := M) (P := True) hE hI hO hu hx hinfo hat
    (fun u v h => h.1 rfl) (fun _ => ⟨hM, fun u a h => h.2 rfl⟩) hne h hc
  · exact absurd hxx h1.2
  have hm : 0 < m := by have := hI.jlt; omega
  have hZ : ∀ i, i < m → rowV n (gmZ gm) i = M *ᵥ rowV n T.v i := fun i hi => by
    rw [← h5 i hi]; exact h5' trivial i hi
  obtain ⟨β, hβ⟩ := h4.start
  rw [← hr] at hβ
  have hk := krylov (B := A * M) (V := rowV n T.v) (r := r) hβ (by rw [hr]; exact h4.nz) (J := m) (by
    intro i hi
    obtain ⟨a, hh, e1, e2⟩ := h4.arn i hi
    refine ⟨a, hh, e1, ?_⟩
    rw [← e2, h5' trivial i hi, Matrix.mulVec_mulVec])
  have hsum : ∀ y : Nat → R, ∑ i ∈ range m, y i • rowV n (gmZ gm) i = M *ᵥ ∑ i ∈ range m, y i • rowV n T.v i := by
    intro y
    rw [Matrix.mulVec_sum]
    refine sum_congr rfl fun i hi => ?_
    rw [Matrix.mulVec_smul, hZ i (mem_range.1 hi)]
  have hsumK : ∀ y : Nat → R, ∑ i ∈ range m, y i • M *ᵥ ((A * M) ^ i *ᵥ r) =
      M *ᵥ ∑ i ∈ range m, y i • ((A * M) ^ i *ᵥ r) := by
    intro y
    rw [Matrix.mulVec_sum]
    exact sum_congr rfl fun i hi => by rw [Matrix.mulVec_smul]
  constructor
  · obtain ⟨y, e⟩ := h6
    have hc : Comb (fun i => (A * M) ^ i *ᵥ r) m (∑ i ∈ range m, y i • rowV n T.v i) :=
      Comb.sum m y _ fun i hi => (hk i (by omega)).1.mono (by omega)
    obtain ⟨z, ez⟩ := hc
    exact ⟨z, by rw [e, hsum, ez, hsumK]⟩
  · intro y
    have hc : Comb (rowV n T.v) m (∑ i ∈ range m, y i • ((A * M) ^ i *ᵥ r)) :=
      Comb.sum m y _ fun i hi => (hk i (by omega)).2.mono (by omega)
    obtain ⟨z, ez⟩ := hc
    have := h7 z
    rw [hsum, ← ez, ← hsumK] at this
    exact this

/-- No call makes the residual larger. -/
theorem C52_monotone (hE : ExactG gnum) (hI : GmIdle n m w b Rg o 0 it S.H) (hO : GmOpts Rg o)
    (hu : Rg.readonly = false) (hx : n ≤ S.x.length) (hinfo : S.rinfo.length = 100) (hat : 0 < o.atol ∨ 0 < o.rtol ∧ vecOf n b ≠ 0)
    (hne : resSq A (vecOf n b) (vecOf n S.x) ≠ 0) (h : GmRun num gnum g gq w (exactAnswers A) S k q)
    (hc : GmCall num gnum g gq w (exactAnswers A) q q') :
    resSq A (vecOf n b) (vecOf n q'.2.x) ≤ resSq A (vecOf n b) (vecOf n q.2.x) := by
  obtain h1 | ⟨gm, T, h1, h2, h3, -, -, -, h6, h7⟩ := mon_call (M := 1) (P := False) hE hI hO hu hx hinfo hat
    (fun u v h => h rfl) (fun e => e.elim) hne h hc
  · rw [h1.1]
  · have := h7 0
    simpa using this

/-- An end with success right after the product with `x` or after a monitoring step: the residual is within the
absolute tolerance, or within the relative tolerance of the norm of the right-hand side. -/
theorem C52_success (hE : ExactG gnum) (hI : GmIdle n m w b Rg o 0 it S.H) (hO : GmOpts Rg o)
    (hu : Rg.readonly = false) (hx : n ≤ S.x.length) (hinfo : S.rinfo.length = 100) (hat : 0 < o.atol ∨ 0 < o.rtol ∧ vecOf n b ≠ 0)
    (hne : resSq A (vecOf n b) (vecOf n S.x) ≠ 0) (h : GmRun num gnum g gq w (exactAnswers A) S k q)
    (hc : GmCall num gnum g gq w (exactAnswers A) q q') (hq : q.2.c.u = .x ∨ q.2.c.job = .crit)
    (hs : q'.1 = .success) (hj : q'.2.c.job = .stop) :
    ∃ ρ β, 0 ≤ ρ ∧ ρ ^ 2 = resSq A (vecOf n b) (vecOf n q'.2.x) ∧ 0 ≤ β ∧ β ^ 2 = vecOf n b ⬝ᵥ vecOf n b ∧
      (ρ ≤ o.atol ∨ ρ ≤ o.rtol * β) := by
  have hne' : vecOf n b - A *ᵥ vecOf n S.x ≠ 0 := fun e => hne (by rw [resSq, e, zero_dotProduct])
  have hjq : q.2.c.job ≠ .stop := by
    cases hc with
    | answer hj _ _ _ _ _ _ => rcases hj with hj | hj <;> rw [hj] <;> simp
    | goOn hj _ => rw [hj]; simp
    | stop hj _ => exact hj
  obtain ⟨a, j, gm, hw, hex⟩ := ex_run (M := 1) (P := False) hE hI.blen hu (fun u v h => h rfl) (fun e => e.elim) hI hO hx
    hinfo (tol_pos hE hI.blen hat) hne' h hjq
  have ha : a = .residual ∨ a = .monitor := by
    have hc := (wait_job hw).2.2.2
    rcases hq with hq | hq
    · rw [hc] at hq
      cases a with
      | residual => exact Or.inl rfl
      | precond i => simp [GmAsk.comm] at hq
      | product i => simp only [GmAsk.comm] at hq; split at hq <;> simp at hq
      | monitor => exact Or.inr rfl
    · exact Or.inr ((wait_job hw).1.1 hq)
  rcases ex_call (P := False) hI.blen hu (fun u v h => h rfl) (fun e => e.elim) hw hex hc with
    ⟨h3, -⟩ | ⟨gm', r, k1, k2, k3, -, k4, k5, k6, -, k7, k8, -⟩
  · rw [h3] at hs; simp at hs
  rw [k7] at hs
  have hstop : r.2.c.job = .stop := by
    rcases k5.out with ⟨a', j', h1, hn, hin, -⟩ | ⟨hEnd, -⟩
    · have := (wait_job (k8 a' j' h1 hin)).2.2.1
      exact absurd hj this
    · exact hEnd.stop.resolve_left (fun e => e hs)
  obtain ⟨ρ, r1, r2, r3⟩ := ex_stop hE hI.blen k1 k2 k3 k4 hs hstop ha
  refine ⟨ρ, gnum.nrm (b.take n), r1, by rw [k6]; exact r2, hE.nrm_nonneg _, ?_, r3⟩
  have := nrm_row (n := n) (v := b) (i := 0) hE (by rw [hI.blen]; omega)
  rw [Nat.zero_mul, List.drop_zero] at this
  rw [this, vecOf_row]

/-- With a restart parameter of at least `n` the solver never
updates `x` and never comes to a monitoring step: there are no n+1 orthonormal vectors, so every cycle ends early, and
an early end leaves `x` as it is.  (Finding F82: the status is success.) -/
theorem C52_no_update (hE : ExactG gnum) (hI : GmIdle n m w b Rg o 0 it S.H) (hO : GmOpts Rg o)
    (hu : Rg.readonly = false) (hx : n ≤ S.x.length) (hinfo : S.rinfo.length = 100) (hat : 0 < o.atol ∨ 0 < o.rtol ∧ vecOf n b ≠ 0)
    (hne : resSq A (vecOf n b) (vecOf n S.x) ≠ 0) (hm : n ≤ m)
    (h : GmRun num gnum g gq w (exactAnswers A) S k q) : q.2.x = S.x ∧ q.2.c.job ≠ .crit := by
  induction h with
  | first h =>
    obtain ⟨q', gm, e1, e2, e3, e4, e5, e6⟩ := gm_first num (gnum := gnum) hI hO hx hinfo g gq
    rw [e1] at h
    cases h
    exact ⟨e5, fun e => by have := (wait_job e3).1.1 e; simp at this⟩
  | next h hc ih =>
    obtain h1 | ⟨gm, T, h1, h2, h3, h4, -⟩ := mon_call (M := 1) (P := False) hE hI hO hu hx hinfo hat
      (fun u v h => h rfl) (fun e => e.elim) hne h hc
    · exact ⟨by rw [h1.1, ih.1], h1.2⟩
    · have := ortho_count h4.ortho
      omega

end
end Props
end Verif
