/-
GMRES in exact arithmetic with a built-in preconditioner that inverts the matrix exactly, or that leaves its output as
it is: the solve ends in its first inner iteration with success, and x is the start vector.
-/
import Verif.Proofs.GmExRun
import Verif.Props.GmExact
import Verif.Props.GmDirect

namespace Verif
namespace Proofs
open Model Spec Finset Matrix Props

section
variable {R Q : Type} [Zero R] [Neg R] [Add R] [Sub R] [Mul R] [Div R] [LinearOrder Q]
variable {num : Num R Q} {gnum : GNum R Q} {o : GmOpt Q} {n m j : Nat} {b : List R} {Rg : Registry Q} {it w : Int}
variable {S : RciSt R Q} {g : Nat → R} {gq : Q} {τ : Type} {E : Env R Q τ} {a : GmAsk} {gm : GmData R Q}

theorem init_zero (hI : GmIdle n m w b Rg o j it S.H) (hO : GmOpts Rg o) (hg : S.H.gm = none) {gm0 : GmData R Q}
    (e : solverInit gnum g gq w S.H = some (.success, { S.H with solver := 2, gm := some (gmReady o gm0) })) :
    gm0.z = List.replicate ((m + 1) * n) 0 := by
  have hkey : ∀ s, S.H.opts.getKey s = Rg.getKey s := by
    intro s; rcases hI.opts with h | h <;> rw [h]; rfl
  have hint : ∀ s, S.H.opts.getInt s = Rg.getInt s := by
    intro s; rcases hI.opts with h | h <;> rw [h]; rfl
  have hreal : ∀ s, S.H.opts.getReal s = Rg.getReal s := by
    intro s; rcases hI.opts with h | h <;> rw [h]; rfl
  rcases hI.data with ⟨h0, h1, hj0, hit0, h3, h4⟩ | ⟨gm, h0, h1, h2⟩
  swap
  · rw [hg] at h0; cases h0
  unfold solverInit at e
  rw [hkey, hO.method] at e
  simp only [Option.bind_eq_bind, Option.bind_some, Option.getD_some] at e
  rw [if_neg (by omega), if_pos trivial] at e
  unfold gmPrepare at e
  dsimp only at e
  rw [h0, hint, hO.restart] at e
  dsimp only at e
  rw [h1] at e
  unfold gmDataInit at e
  rw [hI.size, if_neg (by omega)] at e
  dsimp only at e
  unfold gmDataOptions at e
  dsimp only at e
  rw [hkey, hO.pre, hreal, hreal, hint, hO.rtol, hO.atol, hO.maxit] at e
  have hz : some (some (List.replicate (((m : Int) + 1) * n).toNat 0)) = some (some gm0.z) :=
    congrArg (fun q => q.map fun p => p.2.gm.map GmData.z) e
  rw [← Option.some.inj (Option.some.inj hz)]
  have : ((m : Int) + 1) * n = (((m + 1) * n : Nat) : Int) := by push_cast; ring
  rw [this, Int.toNat_natCast]

theorem first_zero (hI : GmIdle n m w b Rg o j it S.H) (hO : GmOpts Rg o) (hg : S.H.gm = none)
    {q : Status × RciSt R Q} (h : rciSolve num gnum g gq w S = some q) (hw : GmWait gnum o n m j b Rg a gm q.2) :
    gm.z = List.replicate ((m + 1) * n) 0 := by
  obtain ⟨gm0, -, -, hinit⟩ := gm_init (gnum := gnum) hI hO g gq
  have hz := init_zero hI hO hg hinit
  unfold rciSolve at h
  rw [if_pos hI.solving, hinit] at h
  simp only [Option.bind_eq_bind, Option.bind_some] at h
  rw [if_neg (fun e : Status.success ≠ Status.success => e rfl)] at h
  unfold rciSwitch at h
  dsimp only at h
  rw [if_neg (by omega), if_pos rfl, hI.rhs, hI.size] at h
  dsimp only at h
  unfold gmRci at h
  rw [if_neg (by intro e; exact e.1 rfl)] at h
  have hd : some (some gm0.z) = some (some gm.z) := by
    have h1 : some (some gm0.z) = some (q.2.H.gm.map GmData.z) :=
      congrArg (fun q => q.map fun p => p.2.H.gm.map GmData.z) h
    rw [hw.data] at h1
    exact h1
  rw [← Option.some.inj (Option.some.inj hd)]
  exact hz

/-- a product in the direct interface -/
theorem serve_mv {t : τ} {P : List R → List R → Prop} {K : τ → Prop} (hw : GmWait gnum o n m j b Rg a gm S)
    (hc : S.c.job = .mv) (hmv : ∀ u v, u.length = n → v.length = n →
      ∃ y t', E.mv t u v = some (.success, y, t') ∧ y.length = n ∧ P u y ∧ K t') :
    ∃ u y gm' S' t', gm.vec n S.x S.c.u = some u ∧ y.length = n ∧ P u y ∧ K t' ∧ gm.put S.c.v y = some gm' ∧
      S' = { S with H := { S.H with gm := some gm' } } ∧ GmWait gnum o n m j b Rg a gm' S' ∧
      gm'.vec n S.x S.c.v = some y ∧ gmServe E ⟨S, t⟩ = some (.ok ⟨S', t'⟩) := by
  have hm : a ≠ .monitor := by
    rintro rfl
    have := (wait_job hw).1.2 rfl
    rw [hc] at this
    cases this
  obtain ⟨u, h1, h2, h3⟩ := gm_answer hw hm
  obtain ⟨gm0, S0, -, p0, -⟩ := h3 u h2
  obtain ⟨v0, k1, k2⟩ := put_vec (x := S.x) h2 p0
  obtain ⟨y, t', e1, e2, e3, e4⟩ := hmv u v0 h2 k2
  obtain ⟨gm', S', w1, w2, w3, w4, -, w5⟩ := h3 y e2
  refine ⟨u, y, gm', S', t', h1, e2, e3, e4, w2, w4, w3, w5, ?_⟩
  unfold gmServe
  simp only [hw.data, hw.size, hc, h1, k1, e1, w2, w4, Option.bind_eq_bind, Option.bind_some, ne_eq, not_true, if_false]

/-- the built-in preconditioner in the direct interface -/
theorem serve_built {t : τ} {P : List R → List R → List R → Prop} {K : τ → Prop}
    (hw : GmWait gnum o n m j b Rg a gm S) (hc : S.c.job = .precond) (hp : o.pre = 2)
    (hb : ∀ u v : List R, u.length = n → v.length = n →
      ∃ st y t', E.builtin t u v = some (st, y, t') ∧ y.length = n ∧ P u v y ∧ K t') :
    ∃ u v y gm' S' t', gm.vec n S.x S.c.u = some u ∧ gm.vec n S.x S.c.v = some v ∧ P u v y ∧ K t' ∧
      gm.put S.c.v y = some gm' ∧
      S' = { S with H := { S.H with gm := some gm' } } ∧ GmWait gnum o n m j b Rg a gm' S' ∧
      gm'.vec n S.x S.c.v = some y ∧ gmServe E ⟨S, t⟩ = some (.ok ⟨S', t'⟩) := by
  have hm : a ≠ .monitor := by
    rintro rfl
    have := (wait_job hw).1.2 rfl
    rw [hc] at this
    cases this
  obtain ⟨u, h1, h2, h3⟩ := gm_answer hw hm
  obtain ⟨gm0, S0, -, p0, -⟩ := h3 u h2
  obtain ⟨v0, k1, k2⟩ := put_vec (x := S.x) h2 p0
  obtain ⟨st, y, t', e1, e2, e3, e4⟩ := hb u v0 h2 k2
  obtain ⟨gm', S', w1, w2, w3, w4, -, w5⟩ := h3 y e2
  refine ⟨u, v0, y, gm', S', t', h1, k1, e3, e4, w2, w4, w3, w5, ?_⟩
  have hp' : gm.precond = 2 := hw.st.pre.trans hp
  unfold gmServe
  simp only [hw.data, hw.size, hc, h1, k1, Option.bind_eq_bind, Option.bind_some]
  unfold gmPrecondStep
  simp only [hp', e1, w2, w4, Option.bind_eq_bind, Option.bind_some]
  simp

/-- one pass of the loop that goes on -/
theorem loop_pass {fuel : Nat} {D D' : DirSt R Q τ} {q : Status × RciSt R Q}
    (h1 : rciSolve num gnum g gq w D.S = some q) (h2 : q.2.c.job ≠ .stop) (h3 : q.1 = .success)
    (h4 : gmServe E ⟨q.2, D.t⟩ = some (.ok D')) :
    gmLoop num gnum E g gq w (fuel + 1) D = gmLoop num gnum E g gq w fuel D' := by
  rw [gmLoop, h1]
  simp only [Option.bind_eq_bind, Option.bind_some]
  rw [if_neg h2, if_neg (by rw [h3]; simp), h4]
  rfl

theorem loop_end {fuel : Nat} {D : DirSt R Q τ} {q : Status × RciSt R Q}
    (h1 : rciSolve num gnum g gq w D.S = some q) (h2 : q.2.c.job = .stop) :
    gmLoop num gnum E g gq w (fuel + 1) D = some (q.1, ⟨q.2, D.t⟩) := by
  rw [gmLoop, h1]
  simp only [Option.bind_eq_bind, Option.bind_some]
  rw [if_pos h2]

end

section
variable {R : Type} [Field R] [LinearOrder R] [IsStrictOrderedRing R] {num : Num R R} {gnum : GNum R R} {n m : Nat}
variable {A : Matrix (Fin n) (Fin n) R} {o : GmOpt R} {bl : List R} {Rg : Registry R} {it w : Int}

theorem initRes_keeps {S : GmSt R R} {r : Status × GmSt R R} (hb : bl.length = n) (hz : GmSz n m 0 S.gm)
    (hinfo : S.rinfo.length = 100) (hp : S.gm.precond ≠ 0)
    (hnan : gnum.isNan (gnum.nrm (bl.take n)) = false)
    (hnear : (gnum.nearF S.gm.atol && gnum.nearF (gnum.mulF S.gm.rtol (gnum.nrm (bl.take n)))) = false)
    (e : gmInitRes gnum n bl S = some r) :
    r.1 = .success ∧ r.2.x = S.x ∧ r.2.gm.z = S.gm.z ∧
      r.2.gm.brtol = gnum.mulF S.gm.rtol (gnum.nrm (bl.take n)) := by
  obtain ⟨bn, rfl, hc⟩ := initRes_shape (num := gnum) hb hz hinfo
  rcases hc with ⟨h1, -⟩ | ⟨-, h1, -⟩ | ⟨-, -, v1, g0, -, -, -, ⟨-, e'⟩ | ⟨-, v2, -, -, e'⟩⟩
  · rw [hnan] at h1; cases h1
  · rw [hnear] at h1; cases h1
  · rw [e] at e'; cases e'; exact ⟨rfl, rfl, rfl, rfl⟩
  · rw [e] at e'
    cases e'
    unfold gmAfterInit
    rw [if_neg (show ¬ (scaled (num := gnum) v2 _ g0 S).gm.precond = 0 from hp)]
    exact ⟨rfl, rfl, rfl, rfl⟩

/-- an inner iteration whose product is a multiple of the first basis vector -/
theorem startIter_par {S : GmSt R R} {c : R} (hE : ExactG gnum) (hz : GmSz n m 0 S.gm) (hm : 0 < m)
    (hinfo : S.rinfo.length = 100) (hone : rowV n S.gm.v 0 ⬝ᵥ rowV n S.gm.v 0 = 1)
    (hrow : rowV n S.gm.v 1 = c • rowV n S.gm.v 0) (hat : 0 < S.gm.atol ∨ 0 < S.gm.brtol) :
    ∃ S', gmStartIter gnum n S = some (.success, S') ∧ S'.x = S.x ∧ S'.c.job = .stop ∧ S'.rinfo[0]? = some 0 := by
  obtain ⟨h1, v1, e1, e2, l1, l2, hc⟩ := startIter_shape (num := gnum) hz hm hinfo
  obtain ⟨h1', e1', -, c1, -⟩ := hess_loop (num := gnum) hz.v hz.h hm
  rw [e1] at e1'; cases e1'
  obtain ⟨v1', e2', -, c2, -⟩ := orth_loop (num := gnum) hz.v l1 hm
  rw [e2] at e2'; cases e2'
  have hr1 : rowV n v1 1 = 0 := by
    funext t
    have h2 := c2 t t.2
    have h3 := c1 0 (by omega)
    rw [dotv_rows hE, show (0 + 1 : Nat) = 1 from rfl, hrow, smul_dotProduct, hone, smul_eq_mul, mul_one] at h3
    rw [dotv_eq hE] at h2
    simp only [zero_add, range_one, sum_singleton] at h2
    have h4 : S.gm.v.getD (1 * n + t) 0 = c * S.gm.v.getD (0 * n + t) 0 := congrFun hrow t
    show v1.getD (1 * n + t) 0 = 0
    rw [h2, h3, h4, sub_self]
  have hlen : 1 * n + n ≤ v1.length := by
    rw [l2]; have := row_le (n := n) (m := m) (i := 1) (by omega); omega
  have hnrm := nrm_row (n := n) (v := v1) (i := 1) hE hlen
  rw [hr1, zero_dotProduct] at hnrm
  have h0 : gnum.nrm ((v1.drop ((0 + 1) * n)).take n) = 0 := by
    rw [zero_add]; exact pow_eq_zero_iff (two_ne_zero) |>.1 hnrm
  have hlt : (gnum.lt 0 S.gm.atol || gnum.lt 0 S.gm.brtol) = true := by
    rw [hE.lt, hE.lt]; simpa using hat
  rcases hc with ⟨hh, a1, -, a3⟩ | ⟨hh, v2, h2, a1, a2, -⟩
  · rw [h0] at a1; subst a1
    exact ⟨_, a3, rfl, rfl, by simp [hinfo]⟩
  · rw [h0] at a1; subst a1
    rw [hlt] at a2; cases a2

theorem put_gv {gm gm' : GmData R R} {off : Int} {y : List R} (h : gm.put (.gv off) y = some gm') :
    gm'.z = gm.z ∧ gm'.brtol = gm.brtol ∧ gm'.atol = gm.atol := by
  simp only [GmData.put, Option.map_eq_some_iff] at h
  obtain ⟨c, -, rfl⟩ := h
  exact ⟨rfl, rfl, rfl⟩

theorem put_gz {gm gm' : GmData R R} {off : Int} {y : List R} (h : gm.put (.gz off) y = some gm') :
    gm'.brtol = gm.brtol ∧ gm'.atol = gm.atol ∧ gm'.v = gm.v := by
  simp only [GmData.put, Option.map_eq_some_iff] at h
  obtain ⟨c, -, rfl⟩ := h
  exact ⟨rfl, rfl, rfl⟩

theorem row_zeros (k i : Nat) : rowV (R := R) n (List.replicate k 0) i = 0 := by
  funext t
  simp only [rowV, List.getD_eq_getElem?_getD, List.getElem?_replicate, Pi.zero_apply]
  split <;> rfl

variable {S : RciSt R R} {g : Nat → R} {gq : R} {τ : Type} {E : Env R R τ} {K K' : τ → Prop}

/-- the loop of the direct interface when the first product is a multiple of the first basis vector -/
theorem loop_par (hE : ExactG gnum) (hI : GmIdle n m w bl Rg o 0 it S.H) (hg : S.H.gm = none) (hO : GmOpts Rg o)
    (hu : Rg.readonly = false) (hx : n ≤ S.x.length) (hinfo : S.rinfo.length = 100) (hpre : o.pre = 2)
    (hat : 0 < o.atol ∨ 0 < o.rtol ∧ vecOf n bl ≠ 0) (hne : vecOf n bl - A *ᵥ vecOf n S.x ≠ 0)
    (hnan : ∀ a, gnum.isNan a = false) (hnear : ∀ a, gnum.nearF a = true → a = 0)
    (hmv : ∀ t u v, K t → u.length = n → v.length = n →
      ∃ y t', E.mv t u v = some (.success, y, t') ∧ y.length = n ∧ vecOf n y = A *ᵥ vecOf n u ∧ K t')
    (hmv' : ∀ t u v, K' t → u.length = n → v.length = n →
      ∃ y t', E.mv t u v = some (.success, y, t') ∧ y.length = n ∧ vecOf n y = A *ᵥ vecOf n u ∧ K' t')
    (c : R) (hbuilt : ∀ t (u v : List R), K t → u.length = n → v.length = n →
      ∃ st y t', E.builtin t u v = some (st, y, t') ∧ y.length = n ∧
        (vecOf n v = 0 → A *ᵥ vecOf n y = c • vecOf n u) ∧ K' t')
    {D : DirSt R R τ} (hK : K D.t) (hD : rciSolve num gnum g gq w D.S = rciSolve num gnum g gq w S) {fuel : Nat}
    (hf : 3 < fuel) :
    ∃ D', gmLoop num gnum E g gq w fuel D = some (.success, D') ∧ D'.S.x = S.x ∧ (K D'.t ∨ K' D'.t) ∧ D'.S.H.opts = Rg ∧
      ((∃ ρ, 0 ≤ ρ ∧ ρ ^ 2 = (vecOf n bl - A *ᵥ vecOf n S.x) ⬝ᵥ (vecOf n bl - A *ᵥ vecOf n S.x) ∧
        (ρ ≤ o.atol ∨ ρ ≤ o.rtol * gnum.nrm (bl.take n)) ∧ D'.S.rinfo[0]? = some ρ) ∨ D'.S.rinfo[0]? = some 0) := by
  have hat' := tol_pos hE hI.blen hat
  have hp0 : o.pre ≠ 0 := by omega
  obtain ⟨f, rfl⟩ : ∃ f, fuel = f + 1 + 1 + 1 + 1 := ⟨fuel - 4, by omega⟩
  -- the first call
  obtain ⟨q0, gm0, e0, s0, w0, -, x0, -⟩ := gm_first num (gnum := gnum) hI hO hx hinfo g gq
  have z0 := first_zero (num := num) hI hO hg e0 w0
  have c0 : q0.2.c = ⟨.mv, .x, .gv 0⟩ := w0.st.comm
  obtain ⟨u1, y1, gm1, S1, t1, h1, h2, h3, h4, h5, h6, w1, h7, h8⟩ := serve_mv (E := E) (t := D.t)
    (P := fun u y => vecOf n y = A *ᵥ vecOf n u) (K := K) w0 (by rw [c0]) (fun u v a b => hmv D.t u v hK a b)
  rw [loop_pass (hD.trans e0) (by rw [c0]; simp) s0 h8]
  rw [c0] at h1 h5 h7
  have z1 : gm1.z = List.replicate ((m + 1) * n) 0 := (put_gv h5).1.trans z0
  have xS1 : S1.x = S.x := by rw [h6]; exact x0
  have hrow : rowV n gm1.v 0 = A *ᵥ vecOf n S1.x := by
    have k1 : window S1.x ((0 : Nat) * n : Int) n = some u1 := by
      rw [xS1, ← x0, Nat.cast_zero, zero_mul]; exact h1
    have k2 : window gm1.v ((0 : Nat) * n : Int) n = some y1 := by
      rw [Nat.cast_zero, zero_mul]; exact h7
    rw [window_row k2, h3, ← window_row k1, ← vecOf_row]
  -- the residual
  obtain ⟨q1, r1, a1, a2, a3, a4, a5, a6, a7, a8, a9⟩ := gm_next num hI.blen hu w1 g gq w
  rw [rci_at w1.st] at a1
  dsimp only at a1
  have hnr : (gnum.nearF gm1.atol && gnum.nearF (gnum.mulF gm1.rtol (gnum.nrm (bl.take n)))) = false := by
    rw [Bool.eq_false_iff]
    intro h
    rw [Bool.and_eq_true, hE.mulF, show gm1.atol = o.atol from w1.st.atol, show gm1.rtol = o.rtol from w1.st.rtol] at h
    have k1 := hnear _ h.1
    have k2 := hnear _ h.2
    rcases hat' with h | h <;> [rw [k1] at h; rw [k2] at h] <;> exact lt_irrefl _ h
  obtain ⟨b1, b2, b3, b4⟩ := initRes_keeps hI.blen w1.st.sz w1.st.info
    (by rw [show (gmPart S1 gm1).gm.precond = o.pre from w1.st.pre]; exact hp0) (hnan _) hnr a1
  obtain ⟨-, hor⟩ := ex_residual hE hI.blen w1.st hrow (by rw [show (gmPart S1 gm1).x = S.x from xS1]; exact hne) a1 b1
  have xr1 : r1.2.x = S.x := b2.trans xS1
  rcases hor with ⟨hj, hex, -⟩ | ⟨hj, ρ, p1, p2, p3, p4⟩
  swap
  · -- within the tolerances from the start
    have hov := a9 ((a2.out.resolve_left (by
      rintro ⟨a', j', -, -, k3, -⟩
      rw [k3.comm] at hj
      exact comm_ne_stop a' hj)).1)
    rw [loop_end (fuel := f + 1 + 1) (D := ⟨S1, t1⟩) a3 hov.job]
    refine ⟨_, by rw [a7, b1], a4.trans xr1, Or.inl h4, hov.opts, Or.inl ⟨ρ, p1, ?_, p3, ?_⟩⟩
    · rw [show (gmPart S1 gm1).x = S.x from xS1] at p2
      exact p2
    · show q1.2.rinfo[0]? = _
      rw [a5]; exact p4
  obtain ⟨a', j', -, k2, k3, -⟩ := a2.out.resolve_right (by
    rintro ⟨k, -⟩
    exact hj (k.stop.resolve_left (by rw [b1]; simp)))
  obtain rfl : a' = .precond 0 := by
    cases k2 with
    | begin => rfl
    | begin0 h => exact absurd h hp0
  obtain rfl : j' = 0 := k3.ja
  obtain ⟨w2, -⟩ := a8 _ _ b1 k3
  have c2 : q1.2.c = ⟨.precond, .gv ((0 : Nat) * n : Int), .gz ((0 : Nat) * n : Int)⟩ := w2.st.comm
  -- the preconditioner
  obtain ⟨u2, v2, y2, gm2, S2, t2, d0, d1, d7, d2, d3, d4, w3, d5, d6⟩ := serve_built (E := E) (t := t1)
    (P := fun u v y => vecOf n v = 0 → A *ᵥ vecOf n y = c • vecOf n u) (K := K') w2 (by rw [c2]) hpre
    (fun u v a b => hbuilt t1 u v h4 a b)
  rw [loop_pass (D := ⟨S1, t1⟩) a3 (by rw [c2]; simp) (a7.trans b1) d6]
  rw [c2] at d0 d1 d3 d5
  have hv2 : gm2.v = r1.2.gm.v := (put_gz d3).2.2
  have z2 : A *ᵥ rowV n gm2.z 0 = c • rowV n gm2.v 0 := by
    rw [window_row (l := gm2.z) d5, hv2, window_row (l := r1.2.gm.v) d0]
    refine d7 ?_
    rw [← window_row (l := r1.2.gm.z) d1, b3]
    show rowV n gm1.z 0 = 0
    rw [z1, row_zeros]
  have hone : rowV n gm2.v 0 ⬝ᵥ rowV n gm2.v 0 = 1 := by
    rw [hv2, hex.ortho 0 0 (le_refl _) (le_refl _), if_pos rfl]
  obtain ⟨q2, r2, e1, e2, e3, e4, e5, e6, e7, e8, -⟩ := gm_next num hI.blen hu w3 g gq w
  rw [rci_at w3.st] at e1
  dsimp only at e1
  have hr2 : r2 = gmInitPrecond n (gmPart S2 gm2) := (Option.some.inj e1).symm
  have hs2 : r2.1 = .success := by rw [hr2]; rfl
  have hz2 : r2.2.gm.z = gm2.z := by rw [hr2]; rfl
  have hvr2 : r2.2.gm.v = gm2.v := by rw [hr2]; rfl
  have hbr2 : r2.2.gm.brtol = gm2.brtol := by rw [hr2]; rfl
  have hx2 : r2.2.x = S2.x := by rw [hr2]; rfl
  obtain ⟨a', j', -, l2, l3, -⟩ := e2.out.resolve_right (by
    rintro ⟨k, -⟩
    refine absurd (k.stop.resolve_left (by rw [hs2]; simp)) ?_
    rw [hr2]
    exact nofun)
  obtain rfl : a' = .product 0 := by cases l2; rfl
  obtain rfl : j' = 0 := l3.ja
  obtain ⟨w4, -⟩ := e8 _ _ hs2 l3
  have c4 : q2.2.c = ⟨.mv, .gz ((0 : Nat) * n : Int), .gv (((0 : Nat) + 1 : Int) * n)⟩ := by
    rw [show q2.2.c = _ from w4.st.comm, GmAsk.comm, if_neg hp0]
  -- the product
  obtain ⟨u3, y3, gm3, S3, t3, g1, g2, g3, g4, g5, g6, w5, g7, g8⟩ := serve_mv (E := E) (t := t2)
    (P := fun u y => vecOf n y = A *ᵥ vecOf n u) (K := K') w4 (by rw [c4]) (fun u v a b => hmv' t2 u v d2 a b)
  rw [loop_pass (D := ⟨S2, t2⟩) e3 (by rw [c4]; simp) (e7.trans hs2) g8]
  rw [c4] at g1 g5 g7
  have hv30 : rowV n gm3.v 0 = rowV n gm2.v 0 := by
    have hp := g5
    simp only [GmData.put, Option.map_eq_some_iff] at hp
    obtain ⟨cc, hov, rfl⟩ := hp
    have k1 : overwrite r2.2.gm.v ((1 : Nat) * n : Int) y3 = some cc := by
      rw [show ((1 : Nat) : Int) = (0 : Nat) + 1 by simp]; exact hov
    rw [overwrite_row g2 k1 0 (by omega), hvr2]
  have hv3 : rowV n gm3.v 1 = c • rowV n gm3.v 0 := by
    have k1 : window gm3.v ((1 : Nat) * n : Int) n = some y3 := by
      rw [show ((1 : Nat) : Int) = (0 : Nat) + 1 by simp]; exact g7
    rw [window_row k1, g3, ← window_row (l := r2.2.gm.z) g1, hz2, z2, hv30]
  have hb3 : gm3.brtol = o.rtol * gnum.nrm (bl.take n) := by
    rw [(put_gv g5).2.1, hbr2, (put_gz d3).1, b4, hE.mulF]
    show gm1.rtol * _ = _
    rw [show gm1.rtol = o.rtol from w1.st.rtol]
  obtain ⟨S4, i1, i2, i3, i4⟩ := startIter_par (S := gmPart S3 gm3) hE w5.st.sz w5.st.jlt w5.st.info
    (show rowV n gm3.v 0 ⬝ᵥ rowV n gm3.v 0 = 1 by rw [hv30, hone]) hv3 (by
    rw [show (gmPart S3 gm3).gm.atol = o.atol from w5.st.atol, show (gmPart S3 gm3).gm.brtol = _ from hb3]
    exact hat')
  obtain ⟨q3, r3, m1, m2, m3, m4, m5, m6, m7, m8, m9⟩ := gm_next num hI.blen hu w5 g gq w
  rw [rci_at w5.st] at m1
  dsimp only at m1
  rw [i1] at m1
  cases m1
  have hov := m9 ((m2.out.resolve_left (by
    rintro ⟨a', j', -, -, k3, -⟩
    rw [k3.comm] at i3
    exact comm_ne_stop a' i3)).1)
  rw [loop_end (D := ⟨S3, t3⟩) m3 hov.job]
  refine ⟨_, by rw [m7], ?_, Or.inr g4, hov.opts, Or.inr ?_⟩
  · show q3.2.x = S.x
    rw [m4, i2]
    show S3.x = S.x
    rw [g6]
    show q2.2.x = S.x
    rw [e4, hx2, d4]
    exact a4.trans xr1
  · show q3.2.rinfo[0]? = _
    rw [m5]; exact i4

/-- a call of the direct interface when the first product is a multiple of the first basis vector -/
theorem direct_par (hE : ExactG gnum) (hO : GmOpts Rg o) (hu : Rg.readonly = false) (hpre : o.pre = 2)
    (hr : o.restart = m) (hm : 0 < m) (hw1 : ((m : Int) + 1) * n ≤ w) (hw2 : (m : Int) * m ≤ w) (b : Fin n → R)
    (tb : List R) (g : Nat → R) (gq : R) (dtype dfill ddiag : Nat) {optimize : τ → Option (Status × τ)}
    (fullDiag : τ → Bool) (D : DirSt R R τ) {tt : τ} (hopt : optimize D.t = some (.success, tt)) (hK : K tt)
    (hopts : D.S.H.opts = Rg ∨ D.S.H.opts = Rg.lock) (hx : n ≤ D.S.x.length) (hinfo : D.S.rinfo.length = 100)
    (hat : 0 < o.atol ∨ 0 < o.rtol ∧ b ≠ 0) (hne : b - A *ᵥ vecOf n D.S.x ≠ 0)
    (hnan : ∀ a, gnum.isNan a = false) (hnear : ∀ a, gnum.nearF a = true → a = 0)
    (hmv : ∀ t u v, K t → u.length = n → v.length = n →
      ∃ y t', E.mv t u v = some (.success, y, t') ∧ y.length = n ∧ vecOf n y = A *ᵥ vecOf n u ∧ K t')
    (hmv' : ∀ t u v, K' t → u.length = n → v.length = n →
      ∃ y t', E.mv t u v = some (.success, y, t') ∧ y.length = n ∧ vecOf n y = A *ᵥ vecOf n u ∧ K' t')
    (c : R) (hbuilt : ∀ t (u v : List R), K t → u.length = n → v.length = n →
      ∃ st y t', E.builtin t u v = some (st, y, t') ∧ y.length = n ∧
        (vecOf n v = 0 → A *ᵥ vecOf n y = c • vecOf n u) ∧ K' t') {fuel : Nat} (hf : 3 < fuel) :
    ∃ D',
      itsolSolve num gnum E g gq w fuel n n dtype dfill ddiag optimize fullDiag (gmSolve num gnum E g gq w fuel n n) n
        (some (List.ofFn b ++ tb)) D = some (.success, D') ∧ D'.S.x = D.S.x ∧ (K D'.t ∨ K' D'.t) ∧
      D'.S.H.solving = false ∧ D'.S.H.opts = Rg ∧
      ((∃ ρ β, 0 ≤ ρ ∧ ρ ^ 2 = resSq A b (vecOf n D.S.x) ∧ 0 ≤ β ∧ β ^ 2 = b ⬝ᵥ b ∧ (ρ ≤ o.atol ∨ ρ ≤ o.rtol * β) ∧
        D'.S.rinfo[0]? = some ρ) ∨ D'.S.rinfo[0]? = some 0) := by
  have hbv : vecOf n (List.ofFn b) = b := by
    funext i
    simp [vecOf]
  obtain ⟨H', i1, i2, i3, i4, i5⟩ := C41_input g D.S.H b tb Rg hopts
  have hId : GmIdle n m w (List.ofFn b) Rg o 0 0 H' :=
    ⟨i2.size, i2.b, by simp, i2.solving, i2.opts, hm, le_refl _, Or.inl ⟨i4, hr, rfl, rfl, hw1, hw2⟩⟩
  set S0 : RciSt R R := ⟨H', ⟨.start, .null, .null⟩, D.S.x, List.replicate 100 num.zeroQ⟩ with hS0
  obtain ⟨gm0, -, -, hinit⟩ := gm_init (gnum := gnum) (S := S0) hId hO g gq
  replace hinit : solverInit gnum g gq w H' = some (.success, { H' with solver := 2, gm := some (gmReady o gm0) }) := hinit
  have hfirst : rciSolve num gnum g gq w
      ⟨{ H' with solver := 2, gm := some (gmReady o gm0), solving := true, opts := H'.opts.lock },
        ⟨.start, .null, .null⟩, D.S.x, List.replicate 100 num.zeroQ⟩ = rciSolve num gnum g gq w S0 := by
    unfold rciSolve
    rw [if_neg (by simp), if_pos hId.solving]
    show _ = (solverInit gnum g gq w H').bind _
    rw [hinit, Option.bind_some]
    exact (if_neg (fun e : Status.success ≠ .success => e rfl)).symm
  obtain ⟨D', l1, l2, l3, l4, l5⟩ := loop_par (num := num) (E := E) (S := S0) (w := w) (g := g) (gq := gq)
    (A := A) (K := K) (K' := K')
    hE hId i4 hO hu hx List.length_replicate hpre (by rw [hbv]; exact hat) (by rw [hbv]; exact hne) hnan hnear hmv hmv'
    c hbuilt
    (D := ⟨⟨{ H' with solver := 2, gm := some (gmReady o gm0), solving := true, opts := H'.opts.lock },
        ⟨.start, .null, .null⟩, D.S.x, List.replicate 100 num.zeroQ⟩, tt⟩) hK hfirst hf
  refine ⟨{ D' with S := { D'.S with H := { D'.S.H with solving := false, opts := D'.S.H.opts.unlock } } },
    ?_, l2, l3, rfl, ?_, ?_⟩
  · unfold itsolSolve
    simp only [clearInfo_eq num hinfo, Option.bind_eq_bind, Option.bind_some, i1]
    rw [if_neg (fun e : Status.success ≠ .success => e rfl)]
    simp only [hinit, Option.bind_some]
    rw [if_neg (fun e : Status.success ≠ .success => e rfl)]
    simp only [hopt, Option.bind_some]
    rw [if_neg (fun e : Status.success ≠ .success => e rfl), if_neg (by omega), if_pos trivial]
    have hs : gmSolve num gnum E g gq w fuel n n
        ⟨⟨{ H' with solver := 2, gm := some (gmReady o gm0), solving := true, opts := H'.opts.lock }, D.S.c, D.S.x,
          List.replicate 100 num.zeroQ⟩, tt⟩ = some (.success, D') := by
      unfold gmSolve
      dsimp only
      rw [if_neg (by rw [i2.size]; simp), if_neg ?_]
      · exact l1
      · rintro ⟨e1, -⟩
        have : o.pre = 1 := e1
        omega
    rw [hs]
    rfl
  · show D'.S.H.opts.unlock = Rg
    rw [l4]
    cases Rg
    simp only at hu
    subst hu
    rfl
  · refine l5.imp ?_ id
    rintro ⟨ρ, p1, p2, p3, p4⟩
    rw [hbv] at p2
    refine ⟨ρ, _, p1, p2, hE.nrm_nonneg _, ?_, p3, p4⟩
    have := nrm_row (n := n) (num := gnum) (v := List.ofFn b) (i := 0) hE (by simp)
    rw [Nat.zero_mul, List.drop_zero, ← vecOf_row, hbv] at this
    exact this

end
end Proofs
end Verif
