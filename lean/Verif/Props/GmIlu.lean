/-
C57: the direct GMRES solver on a handle, with the built-in ILU(0) preconditioner.
-/
import Verif.Proofs.GmIlu
import Verif.Proofs.GmRefused
import Verif.Props.GmCases
import Verif.Props.GmReal
import Verif.Props.CgGs
import Mathlib.Data.Real.Star

namespace Verif
namespace Props
open Model Spec Proofs Matrix

section
variable {R : Type} [Field R] [DecidableEq R] [StarRing R]

/-- the matrix that the descriptor describes -/
def gmiMat (n : Nat) (ta : Bool) (A : Csr R) (t : MType) (f : Fill) (D : Diag) : Matrix (Fin n) (Fin n) R :=
  of fun i j => operator t f D .none (userMat ta A) i j

/-- a square system that the products of the library serve (see C21) -/
structure GmiSys (E : GsEnv R) (n : Nat) (ta : Bool) (A : Csr R) (t : MType) (f : Fill) (D : Diag) : Prop where
  srt : StdSort E.srt
  sel : E.k.Ok
  rows : A.m = n
  cols : A.n = n
  one : A.OneDiag
  nodup : A.Grouped ∨ A.NoDup
  call : ∀ x y : List R, x.length = n → y.length = n → MvCall E.k ta A t f D .none x y
  sup : MvSupported E.isa E.k ta A t D .none

/-- the calls in which the smoother reports an error without looking at the values: another type of matrix, missing
diagonal entries, rows that are not even partially sorted -/
def IluRefuses {τ : Type} (t : MType) (s : GmiSt R τ) : Prop :=
  t ≠ .general ∨ s.fulldiag = false ∨ s.sort = .unsorted ∨ s.sort = .unknown

variable {E : GsEnv R} {n : Nat} {ta : Bool} {A : Csr R} {t : MType} {f : Fill} {D : Diag} {τ : Type} {nz : R → Bool}

theorem gmi_mv (hS : GmiSys E n ta A t f D) {s : GmiSt R τ} (hH : HandleOk ta A s.H) (h0 : s.H.nulls = 0)
    {u v : List R} (hu : u.length = n) (hv : v.length = n) :
    ∃ a H', gmiMv E ⟨t.code, f.code, D.code, A.base⟩ s u v = some (.success, a, { s with H := H' }) ∧ a.length = n ∧
      vecOf n a = gmiMat n ta A t f D *ᵥ vecOf n u ∧ HandleOk ta A H' ∧ H'.nulls = 0 := by
  obtain ⟨st, y', H', e, h1, -, h3, h4⟩ := C21_mv (isa := E.isa) (alpha := 1) (beta := 0) hS.srt E.g hS.sel
    (hS.call u v hu hv) hH h0
  have hst : st = .success := h4 hS.sup
  subst hst
  have hmv := h3 rfl
  have hrows : opRows .none ta A = n := by cases ta <;> simp [opRows, userRows, userCols, hS.rows, hS.cols]
  have hcols : opCols .none ta A = n := by cases ta <;> simp [opCols, userRows, userCols, hS.rows, hS.cols]
  rw [hrows, hcols] at hmv
  refine ⟨y', H', ?_, hmv.length.trans hv, ?_, h1, (mv_nulls e).trans h0⟩
  · unfold gmiMv gsMv
    have e' : mv E.isa E.k E.srt E.g true 111 (some 1) (some s.H) (some ⟨t.code, f.code, D.code, A.base⟩) (some u)
      (some 0) (some v) = _ := e
    rw [e']
    rfl
  · funext i
    show y'.getD i 0 = ∑ j : Fin n, gmiMat n ta A t f D i j * vecOf n u j
    rw [List.getD_eq_getElem?_getD, hmv.rows i i.2]
    simp [matVec, Finset.sum_range, gmiMat, vecOf]

theorem ilu_refuses {s : GmiSt R τ} (h : IluRefuses t s) (gd : Nat → Int) (f D : Nat) (u v : List R) :
    ∃ st, st ≠ .success ∧ gmiBuiltin nz gd ⟨t.code, f, D, A.base⟩ s u v = some (st, v, s) := by
  obtain ⟨st, h1, h2⟩ := C34_invalid nz gd true 111 (some s.ilu) (some ⟨t.code, f, D, A.base⟩) true (some v) (some u)
    (by
      refine .inr (.inr (.inr (.inr (.inr (.inr (.inr ⟨s.ilu, _, rfl, rfl, ?_⟩))))))
      rcases h with h | h | h | h
      · exact .inr (.inl (by cases t <;> simp_all [MType.code]))
      · exact .inr (.inr (.inl h))
      · exact .inr (.inr (.inr (.inl h)))
      · exact .inr (.inr (.inr (.inr (.inl h)))))
  refine ⟨st, h1, ?_⟩
  unfold gmiBuiltin
  rw [h2]
  rfl

/-- the environment of the solver: products with the matrix of the descriptor, a preconditioner with answers in `P` -/
theorem gmi_env {Q : Type} [LinearOrder Q] {pre : Int} {P : List R → List R → Prop} {J : IluHandle R → Prop}
    {gd : Nat → Int} {precond : Option (τ → Int → List R → List R → Option (Int × List R × τ))}
    {monit : Option (τ → Int → Option (List R) → Option (List R) → List Q → Option (Int × List Q × τ))}
    (hS : GmiSys E n ta A t f D)
    (huser : pre = 1 → ∃ c, precond = some c ∧ ∀ s u v, u.length = n → v.length = n →
      ∃ fl a s', c s n u v = some (fl, a, s') ∧ a.length = n ∧ P u a)
    (hcopy : pre ≠ 1 → pre ≠ 2 → ∀ u : List R, u.length = n → P u u)
    (hbuilt : pre = 2 → ∀ (s : GmiSt R τ) u v, s.H.raw = A.raw ta → J s.ilu → u.length = n → v.length = n →
      ∃ st a I, gmiBuiltin nz gd ⟨t.code, f.code, D.code, A.base⟩ s u v = some (st, a, s.setIlu I) ∧ a.length = n ∧
        P u a ∧ J I ∧ I.raw = A.raw ta ∧ I.sort = s.sort ∧ I.fulldiag = s.fulldiag)
    (hmon : ∀ c, monit = some c → ∀ s u v info, ∃ fl s', c s n u v info = some (fl, info, s')) :
    GmEnv (gmiEnv E nz gd ⟨t.code, f.code, D.code, A.base⟩ precond monit) n pre
      (fun job u a => (job = .mv → vecOf n a = gmiMat n ta A t f D *ᵥ vecOf n u) ∧ (job = .precond → P u a))
      (fun s => HandleOk ta A s.H ∧ s.H.nulls = 0 ∧ (pre = 2 → J s.ilu)) where
  mv := by
    rintro s u v ⟨s1, s2, s3⟩ hu hv
    obtain ⟨a, H', e, h1, h2, h3, h4⟩ := gmi_mv hS s1 s2 hu hv
    refine ⟨a, _, e, h1, ⟨fun _ => h2, nofun⟩, h3, h4, fun hp => ?_⟩
    have : GmiSt.ilu { s with H := H' } = s.ilu := by
      unfold GmiSt.ilu
      dsimp only
      rw [h3.raw, s1.raw]
    rw [this]
    exact s3 hp
  user := by
    intro hp
    obtain ⟨c, rfl, hc⟩ := huser hp
    refine ⟨_, rfl, ?_⟩
    rintro s u v ⟨s1, s2, s3⟩ hu hv
    obtain ⟨fl, a, s', e, h1, h2⟩ := hc s.u u v hu hv
    refine ⟨fl, a, { s with u := s' }, ?_, h1, ⟨nofun, fun _ => h2⟩, s1, s2, s3⟩
    unfold gmiUser
    rw [e]
    rfl
  builtin := by
    rintro hp s u v ⟨s1, s2, s3⟩ hu hv
    obtain ⟨st, a, I, e, h1, h2, h3, h4, h5, h6⟩ := hbuilt hp s u v s1.raw (s3 hp) hu hv
    refine ⟨st, a, _, e, h1, ⟨nofun, fun _ => h2⟩, s1, s2, fun _ => ?_⟩
    have : (s.setIlu I).ilu = I := by
      unfold GmiSt.ilu GmiSt.setIlu
      obtain ⟨_, _, _, _, _, _, _⟩ := I
      dsimp only at h4 h5 h6 ⊢
      rw [s1.raw, h4, h5, h6]
    rw [this]
    exact h3
  copy := fun h1 h2 u hu => ⟨nofun, fun _ => hcopy h1 h2 u hu⟩
  monit := by
    rintro c hc s u v info hs
    cases monit with
    | none => cases hc
    | some c' =>
      cases hc
      obtain ⟨fl, s', e⟩ := hmon c' rfl s.u u v info
      refine ⟨fl, { s with u := s' }, ?_, hs⟩
      unfold gmiMonit
      rw [e]
      rfl

end

section
variable {R : Type} [Field R] [LinearOrder R] [IsStrictOrderedRing R] {num : Num R R} {gnum : GNum R R} {n m : Nat}
variable {A M : Matrix (Fin n) (Fin n) R} {o : GmOpt R} {b : List R} {Rg : Registry R} {it w : Int}
variable {S : RciSt R R} {g : Nat → R} {gq : R} {k : Nat} {q : Status × RciSt R R}

/-- the residual of a solve is never larger than at its start -/
theorem run_residual (hE : ExactG gnum) (hI : GmIdle n m w b Rg o 0 it S.H) (hO : GmOpts Rg o)
    (hu : Rg.readonly = false) (hx : n ≤ S.x.length) (hinfo : S.rinfo.length = 100)
    (hat : 0 < o.atol ∨ 0 < o.rtol ∧ vecOf n b ≠ 0) (hne : resSq A (vecOf n b) (vecOf n S.x) ≠ 0)
    (h : GmRun num gnum g gq w (exactAnswers A) S k q) :
    resSq A (vecOf n b) (vecOf n q.2.x) ≤ resSq A (vecOf n b) (vecOf n S.x) := by
  induction h with
  | first h =>
    obtain ⟨q', gm, e1, -, -, -, e5, -⟩ := gm_first num (gnum := gnum) hI hO hx hinfo g gq
    rw [e1] at h
    cases h
    rw [e5]
  | next h hc ih => exact le_trans (C52_monotone hE hI hO hu hx hinfo hat hne h hc) ih

/-- what a call of the direct solver says of its result: it is a solve with reverse communication with these answers,
to its end or to a callback that gives something other than 0; its x has a residual that is not larger than that of
the start vector; and success means a residual within the tolerances, unless the solve ended inside a cycle (where x
is not updated, see F82) -/
structure GmiResult (num : Num R R) (gnum : GNum R R) (g : Nat → R) (gq : R) (w : Int) (A : Matrix (Fin n) (Fin n) R)
    (ans : Job → List R → List R → Prop) (b : Fin n → R) (x : List R) (o : GmOpt R) (m : Nat) (Rg : Registry R)
    (stops : Prop) (st : Status) (x' rinfo' : List R) : Prop where
  run : ∃ S0 k q, GmIdle n m w (List.ofFn b) Rg o 0 0 S0.H ∧ S0.x = x ∧ S0.rinfo.length = 100 ∧
    GmRun num gnum g gq w ans S0 k q ∧ x' = q.2.x ∧
    ((q.2.c.job = .stop ∧ st = q.1 ∧ rinfo' = q.2.rinfo) ∨ (q.2.c.job ≠ .stop ∧ st = .userStop ∧ stops)) ∧
    (st = .success →
      (∃ ρ β, 0 ≤ ρ ∧ ρ ^ 2 = resSq A b (vecOf n x') ∧ 0 ≤ β ∧ β ^ 2 = b ⬝ᵥ b ∧ (ρ ≤ o.atol ∨ ρ ≤ o.rtol * β)) ∨
      ∃ k' q', k = k' + 1 ∧ GmRun num gnum g gq w ans S0 k' q' ∧ q'.2.c.u ≠ .x ∧ q'.2.c.job ≠ .crit)
  le : resSq A b (vecOf n x') ≤ resSq A b (vecOf n x)

theorem gmi_result (hE : ExactG gnum) (hO : GmOpts Rg o) (hu : Rg.readonly = false)
    {b : Fin n → R} (hat : 0 < o.atol ∨ 0 < o.rtol ∧ b ≠ 0) {x : List R}
    (hne : resSq A b (vecOf n x) ≠ 0) {ans : Job → List R → List R → Prop}
    (hans : ∀ job u a, ans job u a → exactAnswers A job u a) {S0 : RciSt R R}
    (hI : GmIdle n m w (List.ofFn b) Rg o 0 0 S0.H) (hSx : S0.x = x) (hx : n ≤ x.length)
    (hinfo : S0.rinfo.length = 100) (hr : GmRun num gnum g gq w ans S0 k q) {x' : List R} (hx' : x' = q.2.x)
    {st : Status} {rinfo' : List R} {stops : Prop}
    (he : (q.2.c.job = .stop ∧ st = q.1 ∧ rinfo' = q.2.rinfo) ∨ (q.2.c.job ≠ .stop ∧ st = .userStop ∧ stops)) :
    GmiResult num gnum g gq w A ans b x o m Rg stops st x' rinfo' := by
  have hb : vecOf n (List.ofFn b) = b := by
    funext i
    simp [vecOf]
  rw [← hb] at hat hne
  subst hSx
  have hr' := run_mono hans hr
  refine ⟨⟨S0, k, q, hI, rfl, hinfo, hr, hx', he, fun hs => ?_⟩, ?_⟩
  · rcases he with ⟨e1, e2, -⟩ | ⟨-, e, -⟩
    swap
    · rw [hs] at e; cases e
    cases hr with
    | first h =>
      exfalso
      obtain ⟨q', gm, e3, -, e4, -⟩ := gm_first num (gnum := gnum) hI hO hx hinfo g gq
      rw [e3] at h
      cases h
      have := (wait_job e4).2.1.2 (by simp)
      rw [e1] at this
      simp at this
    | next h hc =>
      rename_i k0 q0
      by_cases hin : q0.2.c.u = .x ∨ q0.2.c.job = .crit
      · left
        have hc' : GmCall num gnum g gq w (exactAnswers A) q0 q := by
          cases hc with
          | answer h1 h2 h3 h4 h5 h6 h7 => exact .answer h1 h2 h3 (hans _ _ _ h4) h5 h6 h7
          | goOn h1 h2 => exact .goOn h1 h2
          | stop h1 h2 => exact .stop h1 h2
        have := C52_success hE hI hO hu hx hinfo hat hne (run_mono hans h) hc' hin (e2.symm.trans hs) e1
        rw [hb] at this
        rw [hx']
        exact this
      · right
        push Not at hin
        exact ⟨k0, q0, rfl, h, hin.1, hin.2⟩
  · have := run_residual hE hI hO hu hx hinfo hat hne hr'
    rw [hb] at this
    rw [hx']
    exact this

end

section
variable {R : Type} [Field R] [LinearOrder R] [IsStrictOrderedRing R] [DecidableEq R] [StarRing R]
variable {E : GsEnv R} {n m : Nat} {ta : Bool} {A : Csr R} {t : MType} {f : Fill} {D : Diag} {τ : Type} {nz : R → Bool}
variable {num : Num R R} {gnum : GNum R R} {o : GmOpt R} {Rg : Registry R} {w : Int}
variable {precond : Option (τ → Int → List R → List R → Option (Int × List R × τ))}
  {monit : Option (τ → Int → Option (List R) → Option (List R) → List R → Option (Int × List R × τ))}

/-- **C57**, any matrix.  The direct GMRES solver on any handle with correct copies of a square matrix, for every
descriptor that the products serve, with no preconditioner, the user's, or the built-in ILU(0), in exact arithmetic:
the call returns; it is a solve in which every product is a product with the matrix of the descriptor; the residual of
x is not larger than that of the start vector; success means a residual within the tolerances, unless the solve ended
inside a cycle; and both handles can be used again.  For the built-in preconditioner this is so whether the smoother
succeeds, breaks down on a small pivot, or refuses the matrix: its status is ignored. -/
theorem C57_any (hS : GmiSys E n ta A t f D) (hE : ExactG gnum) (hO : GmOpts Rg o) (hu : Rg.readonly = false)
    (hmax : 0 < o.maxit) (hr : o.restart = m) (hm : 0 < m) (hw1 : ((m : Int) + 1) * n ≤ w) (hw2 : (m : Int) * m ≤ w)
    (huser : o.pre = 1 → ∃ c, precond = some c ∧ ∀ s u v, u.length = n → v.length = n →
      ∃ fl a s', c s n u v = some (fl, a, s') ∧ a.length = n)
    (hmon : ∀ c, monit = some c → ∀ s u v info, ∃ fl s', c s n u v info = some (fl, info, s'))
    (gd : Nat → Int) (b : Fin n → R) (tb : List R) (g : Nat → R) (gq : R) (Ds : DirSt R R (GmiSt R τ))
    (hH : HandleOk ta A Ds.t.H) (h0 : Ds.t.H.nulls = 0)
    (hilu : o.pre = 2 → (IluMat A ∧ (∀ d, nz d = false → d ≠ 0) ∧ IluSafe nz ta A Ds.t.ilu) ∨ IluRefuses t Ds.t)
    (hopts : Ds.S.H.opts = Rg ∨ Ds.S.H.opts = Rg.lock) (hx : n ≤ Ds.S.x.length) (hinfo : Ds.S.rinfo.length = 100)
    (hat : 0 < o.atol ∨ 0 < o.rtol ∧ b ≠ 0) (hne : resSq (gmiMat n ta A t f D) b (vecOf n Ds.S.x) ≠ 0)
    {fuel : Nat} (hfuel : ((o.maxit.toNat - 1) / m + 1) * o.cycle m < fuel) :
    ∃ st D', gmDirect num gnum E nz gd g gq w fuel ⟨t.code, f.code, D.code, A.base⟩ precond monit n
        (some (List.ofFn b ++ tb)) Ds = some (st, D') ∧
      GmiResult num gnum g gq w (gmiMat n ta A t f D) (exactAnswers (gmiMat n ta A t f D)) b Ds.S.x o m Rg
        (CallbackStops (gmiEnv E nz gd ⟨t.code, f.code, D.code, A.base⟩ precond monit) n) st D'.S.x D'.S.rinfo ∧
      HandleOk ta A D'.t.H ∧ D'.t.H.nulls = 0 ∧ D'.S.H.solving = false ∧ D'.S.H.opts = Rg ∧
      (o.pre = 2 → (IluMat A ∧ (∀ d, nz d = false → d ≠ 0) ∧ IluSafe nz ta A D'.t.ilu) ∨ IluRefuses t D'.t) := by
  set J : IluHandle R → Prop := fun I => (IluMat A ∧ (∀ d, nz d = false → d ≠ 0) ∧ IluSafe nz ta A I) ∨
    (t ≠ .general ∨ I.fulldiag = false ∨ I.sort = .unsorted ∨ I.sort = .unknown) with hJ
  have hEnv := gmi_env (nz := nz) (pre := o.pre) (P := fun _ _ => True) (J := J) (gd := gd) (precond := precond)
    (monit := monit) hS
    (fun hp => by
      obtain ⟨c, e, hc⟩ := huser hp
      refine ⟨c, e, fun s u v h1 h2 => ?_⟩
      obtain ⟨fl, a, s', k1, k2⟩ := hc s u v h1 h2
      exact ⟨fl, a, s', k1, k2, trivial⟩)
    (fun _ _ _ _ => trivial)
    (fun _ s u v hs hj hul hvl => by
      rcases hj with ⟨i1, i2, i3⟩ | hj
      · obtain ⟨st, p, x', I, e, h1, h2, h3, h4, -⟩ := ilu_safe i2 i1 i3 gd ⟨t.code, f.code, D.code, A.base⟩
          (x := v) (b := u) (by rw [hS.cols, hvl]) (by rw [hS.cols, hul])
        refine ⟨st, x', I, ?_, h4.trans hvl, trivial, .inl ⟨i1, i2, h1⟩, h1.raw, h2, h3⟩
        unfold gmiBuiltin
        rw [e]
        rfl
      · obtain ⟨st, -, e⟩ := ilu_refuses (A := A) (nz := nz) (t := t) (s := s) hj gd f.code D.code u v
        refine ⟨st, v, s.ilu, e, hvl, trivial, .inr hj, hs, rfl, rfl⟩)
    hmon
  obtain ⟨i, H', c, iu, e1, h1, h2⟩ := csrCscOptimize_spec hS.srt E.g.i E.g.v (hS.call (List.replicate n 0)
    (List.replicate n 0) (by simp) (by simp)).wf hS.one hS.nodup hH
  have hnl := csrCscOptimize_nulls e1
  have hil : GmiSt.ilu { Ds.t with H := H' } = Ds.t.ilu := by
    unfold GmiSt.ilu
    dsimp only
    rw [h1.raw, hH.raw]
  obtain ⟨st, D', S0, k, q, j1, j2, j3, j4, j5, j6, j7, ⟨j8, j9, j10⟩, j11, j12⟩ := C52_direct (num := num)
    (gnum := gnum) hEnv hO hu hmax hr hm hw1 hw2 b tb g gq t.code f.code D.code (optimize := gmiOptimize E)
    (fun t => t.H.fulldiag) Ds (tt := { Ds.t with H := H' }) (by unfold gmiOptimize; rw [e1]; rfl)
    ⟨h1, hnl.trans h0, fun hp => by rw [hil]; exact hilu hp⟩ hopts hx hinfo hfuel
  have hsq : A.m = A.n := hS.rows.trans hS.cols.symm
  have hum := raw_un (R := R) hsq ta
  rw [← hH.raw, hS.cols] at hum
  refine ⟨st, D', ?_, gmi_result hE hO hu hat hne (ans := exactAnswers _) (fun _ _ _ h => h) j2 j3
    hx j4 (run_mono (fun _ _ _ h => h.1) j5) j6 j7, j8, j9, j11, j12, j10⟩
  unfold gmDirect
  rw [hum.1, hum.2]
  exact j1

/-- **C57**, the built-in ILU(0) preconditioner.  For a general matrix with full diagonal that is sorted as the
smoother asks and whose incomplete factorisation does not break down (some factors `v` exist, with product L·U): the
product L·U has an inverse, and every request of the preconditioner in the solve is answered with its product, so that
C52_krylov holds of each cycle with this inverse as the preconditioner.  The handle holds the factors after the first
such request and can be used again. -/
theorem C57_ilu (hS : GmiSys E n ta A .general f D) (hA : IluMat A) (hz : ∀ d, nz d = false → d ≠ 0) (hpos : 0 < n)
    {v : List R} (hv : IluFactors nz A v) (hE : ExactG gnum) (hO : GmOpts Rg o) (hu : Rg.readonly = false)
    (hpre : o.pre = 2)
    (hmax : 0 < o.maxit) (hr : o.restart = m) (hm : 0 < m) (hw1 : ((m : Int) + 1) * n ≤ w) (hw2 : (m : Int) * m ≤ w)
    (hmon : ∀ c, monit = some c → ∀ s u v info, ∃ fl s', c s n u v info = some (fl, info, s'))
    (gd : Nat → Int) (b : Fin n → R) (tb : List R) (g : Nat → R) (gq : R) (Ds : DirSt R R (GmiSt R τ))
    (hH : HandleOk ta A Ds.t.H) (h0 : Ds.t.H.nulls = 0) (hilu : IluOk nz A { Ds.t.ilu with raw := A.raw false })
    (hopts : Ds.S.H.opts = Rg ∨ Ds.S.H.opts = Rg.lock) (hx : n ≤ Ds.S.x.length) (hinfo : Ds.S.rinfo.length = 100)
    (hat : 0 < o.atol ∨ 0 < o.rtol ∧ b ≠ 0) (hne : resSq (gmiMat n ta A .general f D) b (vecOf n Ds.S.x) ≠ 0)
    {fuel : Nat} (hfuel : ((o.maxit.toNat - 1) / m + 1) * o.cycle m < fuel) :
    ∃ M st D', luProduct n (A.withVal v).mat * M = 1 ∧
      gmDirect num gnum E nz gd g gq w fuel ⟨MType.general.code, f.code, D.code, A.base⟩ precond monit n
        (some (List.ofFn b ++ tb)) Ds = some (st, D') ∧
      GmiResult num gnum g gq w (gmiMat n ta A .general f D) (exactBoth (gmiMat n ta A .general f D) M) b Ds.S.x o m Rg
        (CallbackStops (gmiEnv E nz gd ⟨MType.general.code, f.code, D.code, A.base⟩ precond monit) n)
        st D'.S.x D'.S.rinfo ∧
      HandleOk ta A D'.t.H ∧ D'.t.H.nulls = 0 ∧ D'.S.H.solving = false ∧ D'.S.H.opts = Rg ∧
      IluOk nz A { D'.t.ilu with raw := A.raw false } := by
  obtain ⟨M, hM⟩ : ∃ M, luProduct n (A.withVal v).mat * M = 1 :=
    ⟨_, mul_nonsing_inv _ (lu_unit hz hv hS.cols)⟩
  have hsq : A.m = A.n := hS.rows.trans hS.cols.symm
  have hEnv := gmi_env (nz := nz) (pre := o.pre) (P := fun u a => vecOf n a = M *ᵥ vecOf n u)
    (J := fun I => IluOk nz A { I with raw := A.raw false }) (gd := gd) (precond := precond)
    (monit := monit) hS (fun hp => by omega) (fun _ h => absurd hpre h)
    (fun _ s u x hs hj hul hxl => by
      have hun : A.n ≤ u.length := by rw [hS.cols, hul]
      have hxn : A.n ≤ x.length := by rw [hS.cols, hxl]
      have er := ilu_raw (nz := nz) hsq (H := s.ilu) hs gd ⟨MType.general.code, f.code, D.code, A.base⟩ x u
      rcases C34_ilu hz hA hj (by rw [hS.cols]; exact hpos) gd f.code D.code hxn hun with
        ⟨x', H', e, k1, -, k3, -, k5⟩ | ⟨H', e, -, k2⟩
      · rw [show (⟨MType.general.code, f.code, D.code, A.base⟩ : Descr) = ⟨0, f.code, D.code, A.base⟩ from rfl, e] at er
        have hsame := ilu_safe hz hA (IluOk.safe hA hj) gd ⟨0, f.code, D.code, A.base⟩ hxn hun
        rw [e] at hsame
        obtain ⟨_, _, _, _, e', -, s1, s2, -⟩ := hsame
        cases e'
        refine ⟨.success, x', { H' with raw := A.raw ta }, ?_, k5.length.trans hxl, ?_, ?_, rfl, s1, s2⟩
        · unfold gmiBuiltin
          rw [show (⟨MType.general.code, f.code, D.code, A.base⟩ : Descr) = ⟨0, f.code, D.code, A.base⟩ from rfl, er]
          rfl
        · rw [hS.cols] at k5
          refine ilu_inverse k5 ?_
          rw [← ilu_factors_unique hz hA hv k3 hS.cols]
          exact hM
        · have : ({ H' with raw := A.raw false } : IluHandle R) = H' := by
            rw [← k1.raw]
          show IluOk nz A { H' with raw := A.raw false }
          rw [this]
          exact k1
      · exfalso
        have hsame := ilu_safe hz hA (IluOk.safe hA hj) gd ⟨0, f.code, D.code, A.base⟩ hxn hun
        rw [e] at hsame
        obtain ⟨_, _, _, _, e', -, -, -, -, -, s3⟩ := hsame
        cases e'
        exact ilu_no_break hz hA hv (s3 rfl hj.full) k2)
    hmon
  obtain ⟨i, H', c, iu, e1, h1, h2⟩ := csrCscOptimize_spec hS.srt E.g.i E.g.v (hS.call (List.replicate n 0)
    (List.replicate n 0) (by simp) (by simp)).wf hS.one hS.nodup hH
  have hnl := csrCscOptimize_nulls e1
  have hil : GmiSt.ilu { Ds.t with H := H' } = Ds.t.ilu := by
    unfold GmiSt.ilu
    dsimp only
    rw [h1.raw, hH.raw]
  obtain ⟨st, D', S0, k, q, j1, j2, j3, j4, j5, j6, j7, ⟨j8, j9, j10⟩, j11, j12⟩ := C52_direct (num := num)
    (gnum := gnum) hEnv hO hu hmax hr hm hw1 hw2 b tb g gq MType.general.code f.code D.code
    (optimize := gmiOptimize E)
    (fun t => t.H.fulldiag) Ds (tt := { Ds.t with H := H' }) (by unfold gmiOptimize; rw [e1]; rfl)
    ⟨h1, hnl.trans h0, fun hp => by rw [hil]; exact hilu⟩ hopts hx hinfo hfuel
  have hum := raw_un (R := R) hsq ta
  rw [← hH.raw, hS.cols] at hum
  refine ⟨M, st, D', hM, ?_, gmi_result hE hO hu hat hne (fun _ _ _ h => h.1) j2 j3 hx j4 j5 j6 j7, j8, j9, j11, j12,
    j10 hpre⟩
  unfold gmDirect
  rw [hum.1, hum.2]
  exact j1

/-- the calls in which the smoother reports an error: it refuses, or the factorisation breaks down -/
def IluFails (nz : R → Bool) (n : Nat) (t : MType) (A : Csr R) (s : GmiSt R τ) : Prop :=
  IluRefuses t s ∨ (t = .general ∧ 0 < n ∧ IluMat A ∧ (∀ d, nz d = false → d ≠ 0) ∧
    IluOk nz A { s.ilu with raw := A.raw false } ∧ ¬ ∃ v, IluFactors nz A v)

theorem ilu_fails (hS : GmiSys E n ta A t f D) {s : GmiSt R τ} (hs : s.H.raw = A.raw ta) (h : IluFails nz n t A s)
    (gd : Nat → Int) {u x : List R} (hu : u.length = n) (hx : x.length = n) :
    ∃ st s', st ≠ .success ∧
      gmiBuiltin nz gd ⟨t.code, f.code, D.code, A.base⟩ s u x = some (st, x, s') ∧ s'.H = s.H := by
  rcases h with h | ⟨rfl, hpos, hA, hz, hj, hno⟩
  · obtain ⟨st, h1, h2⟩ := ilu_refuses (A := A) (nz := nz) h gd f.code D.code u x
    exact ⟨st, s, h1, h2, rfl⟩
  · have hsq : A.m = A.n := hS.rows.trans hS.cols.symm
    have hun : A.n ≤ u.length := by rw [hS.cols, hu]
    have hxn : A.n ≤ x.length := by rw [hS.cols, hx]
    have er := ilu_raw (nz := nz) hsq (H := s.ilu) hs gd ⟨MType.general.code, f.code, D.code, A.base⟩ x u
    rcases C34_ilu hz hA hj (by rw [hS.cols]; exact hpos) gd f.code D.code hxn hun with
      ⟨x', H', -, -, -, k3, -⟩ | ⟨H', e, -⟩
    · exact absurd ⟨_, k3⟩ hno
    · rw [show (⟨MType.general.code, f.code, D.code, A.base⟩ : Descr) = ⟨0, f.code, D.code, A.base⟩ from rfl, e] at er
      refine ⟨.numericalError, s.setIlu { H' with raw := A.raw ta }, by simp, ?_, rfl⟩
      unfold gmiBuiltin
      rw [show (⟨MType.general.code, f.code, D.code, A.base⟩ : Descr) = ⟨0, f.code, D.code, A.base⟩ from rfl, er]
      rfl

/-- **C57**, a counterexample to "success means that the system is solved" and to "an error of the preconditioner is
reported".  Whenever the built-in preconditioner reports an error — the descriptor is not general, diagonal entries are
missing, the rows are not sorted, or the factorisation breaks down — the solver returns success with x as it was, for
every start vector that is not the solution; and unless the start vector is within the tolerances already, it gives 0
as the norm of the residual. -/
theorem C57_refused (hS : GmiSys E n ta A t f D) (hE : ExactG gnum) (hnan : ∀ a, gnum.isNan a = false)
    (hnear : ∀ a, gnum.nearF a = true → a = 0) (hO : GmOpts Rg o) (hu : Rg.readonly = false) (hpre : o.pre = 2)
    (hr : o.restart = m) (hm : 0 < m) (hw1 : ((m : Int) + 1) * n ≤ w) (hw2 : (m : Int) * m ≤ w)
    (gd : Nat → Int) (b : Fin n → R) (tb : List R) (g : Nat → R) (gq : R) (Ds : DirSt R R (GmiSt R τ))
    (hH : HandleOk ta A Ds.t.H) (h0 : Ds.t.H.nulls = 0) (hfail : IluFails nz n t A Ds.t)
    (hopts : Ds.S.H.opts = Rg ∨ Ds.S.H.opts = Rg.lock) (hx : n ≤ Ds.S.x.length) (hinfo : Ds.S.rinfo.length = 100)
    (hat : 0 < o.atol ∨ 0 < o.rtol ∧ b ≠ 0) (hne : resSq (gmiMat n ta A t f D) b (vecOf n Ds.S.x) ≠ 0)
    {fuel : Nat} (hfuel : 3 < fuel) :
    ∃ D', gmDirect num gnum E nz gd g gq w fuel ⟨t.code, f.code, D.code, A.base⟩ precond monit n
        (some (List.ofFn b ++ tb)) Ds = some (.success, D') ∧ D'.S.x = Ds.S.x ∧
      HandleOk ta A D'.t.H ∧ D'.t.H.nulls = 0 ∧ D'.S.H.solving = false ∧ D'.S.H.opts = Rg ∧
      ((∃ ρ β, 0 ≤ ρ ∧ ρ ^ 2 = resSq (gmiMat n ta A t f D) b (vecOf n Ds.S.x) ∧ 0 ≤ β ∧ β ^ 2 = b ⬝ᵥ b ∧
        (ρ ≤ o.atol ∨ ρ ≤ o.rtol * β) ∧ D'.S.rinfo[0]? = some ρ) ∨ D'.S.rinfo[0]? = some 0) := by
  obtain ⟨i, H', c, iu, e1, h1, h2⟩ := csrCscOptimize_spec hS.srt E.g.i E.g.v (hS.call (List.replicate n 0)
    (List.replicate n 0) (by simp) (by simp)).wf hS.one hS.nodup hH
  have hnl := csrCscOptimize_nulls e1
  have hil : GmiSt.ilu { Ds.t with H := H' } = Ds.t.ilu := by
    unfold GmiSt.ilu
    dsimp only
    rw [h1.raw, hH.raw]
  have hsq : A.m = A.n := hS.rows.trans hS.cols.symm
  obtain ⟨D', j1, j2, j3, j4, j5, j6⟩ := direct_par (num := num) (E := gmiEnv E nz gd ⟨t.code, f.code, D.code, A.base⟩
      precond monit)
    (A := gmiMat n ta A t f D)
    (K := fun s => HandleOk ta A s.H ∧ s.H.nulls = 0 ∧ IluFails nz n t A s)
    (K' := fun s => HandleOk ta A s.H ∧ s.H.nulls = 0)
    hE hO hu hpre hr hm hw1 hw2 b tb g gq t.code f.code D.code (optimize := gmiOptimize E)
    (fun t => t.H.fulldiag) Ds (tt := { Ds.t with H := H' }) (by unfold gmiOptimize; rw [e1]; rfl)
    ⟨h1, hnl.trans h0, by unfold IluFails at hfail ⊢; rw [hil]; exact hfail⟩ hopts hx hinfo hat
    (fun e => hne (by rw [resSq, e, zero_dotProduct])) hnan hnear
    (by
      rintro s u v ⟨s1, s2, s3⟩ hul hvl
      obtain ⟨a, H', e, k1, k2, k3, k4⟩ := gmi_mv hS s1 s2 hul hvl
      have hi : GmiSt.ilu { s with H := H' } = s.ilu := by
        unfold GmiSt.ilu
        dsimp only
        rw [k3.raw, s1.raw]
      exact ⟨a, _, e, k1, k2, k3, k4, by unfold IluFails at s3 ⊢; rw [hi]; exact s3⟩)
    (by
      rintro s u v ⟨s1, s2⟩ hul hvl
      obtain ⟨a, H', e, k1, k2, k3, k4⟩ := gmi_mv hS s1 s2 hul hvl
      exact ⟨a, _, e, k1, k2, k3, k4⟩)
    0
    (by
      rintro s u v ⟨s1, s2, s3⟩ hul hvl
      obtain ⟨st, s', -, k1, k2⟩ := ilu_fails hS s1.raw s3 gd hul hvl
      exact ⟨st, v, s', k1, hvl, fun e => by rw [e, mulVec_zero, zero_smul], by rw [k2]; exact s1, by rw [k2]; exact s2⟩)
    hfuel
  have hum := raw_un (R := R) hsq ta
  rw [← hH.raw, hS.cols] at hum
  refine ⟨D', ?_, j2, j3.elim And.left And.left, j3.elim (fun h => h.2.1) And.right, j4, j5, j6⟩
  unfold gmDirect
  rw [hum.1, hum.2]
  exact j1

/-- **C57**, a second counterexample to "success means that the system is solved".  When the incomplete factorisation
is exact (the product of its factors is the matrix: there is no fill-in outside the pattern, as for tridiagonal
matrices), the solver returns success with x as it was, for every start vector that is not the solution; and unless the
start vector is within the tolerances already, it gives 0 as the norm of the residual. -/
theorem C57_exact (hS : GmiSys E n ta A .general f D) (hA : IluMat A) (hz : ∀ d, nz d = false → d ≠ 0) (hpos : 0 < n)
    {v : List R} (hv : IluFactors nz A v) (hLU : luProduct n (A.withVal v).mat = gmiMat n ta A .general f D)
    (hE : ExactG gnum) (hnan : ∀ a, gnum.isNan a = false)
    (hnear : ∀ a, gnum.nearF a = true → a = 0) (hO : GmOpts Rg o) (hu : Rg.readonly = false) (hpre : o.pre = 2)
    (hr : o.restart = m) (hm : 0 < m) (hw1 : ((m : Int) + 1) * n ≤ w) (hw2 : (m : Int) * m ≤ w)
    (gd : Nat → Int) (b : Fin n → R) (tb : List R) (g : Nat → R) (gq : R) (Ds : DirSt R R (GmiSt R τ))
    (hH : HandleOk ta A Ds.t.H) (h0 : Ds.t.H.nulls = 0) (hilu : IluOk nz A { Ds.t.ilu with raw := A.raw false })
    (hopts : Ds.S.H.opts = Rg ∨ Ds.S.H.opts = Rg.lock) (hx : n ≤ Ds.S.x.length) (hinfo : Ds.S.rinfo.length = 100)
    (hat : 0 < o.atol ∨ 0 < o.rtol ∧ b ≠ 0) (hne : resSq (gmiMat n ta A .general f D) b (vecOf n Ds.S.x) ≠ 0)
    {fuel : Nat} (hfuel : 3 < fuel) :
    ∃ D', gmDirect num gnum E nz gd g gq w fuel ⟨MType.general.code, f.code, D.code, A.base⟩ precond monit n
        (some (List.ofFn b ++ tb)) Ds = some (.success, D') ∧ D'.S.x = Ds.S.x ∧
      HandleOk ta A D'.t.H ∧ D'.t.H.nulls = 0 ∧ D'.S.H.solving = false ∧ D'.S.H.opts = Rg ∧
      ((∃ ρ β, 0 ≤ ρ ∧ ρ ^ 2 = resSq (gmiMat n ta A .general f D) b (vecOf n Ds.S.x) ∧ 0 ≤ β ∧ β ^ 2 = b ⬝ᵥ b ∧
        (ρ ≤ o.atol ∨ ρ ≤ o.rtol * β) ∧ D'.S.rinfo[0]? = some ρ) ∨ D'.S.rinfo[0]? = some 0) := by
  obtain ⟨i, H', c, iu, e1, h1, h2⟩ := csrCscOptimize_spec hS.srt E.g.i E.g.v (hS.call (List.replicate n 0)
    (List.replicate n 0) (by simp) (by simp)).wf hS.one hS.nodup hH
  have hnl := csrCscOptimize_nulls e1
  have hil : GmiSt.ilu { Ds.t with H := H' } = Ds.t.ilu := by
    unfold GmiSt.ilu
    dsimp only
    rw [h1.raw, hH.raw]
  have hsq : A.m = A.n := hS.rows.trans hS.cols.symm
  obtain ⟨M, hM⟩ : ∃ M, luProduct n (A.withVal v).mat * M = 1 :=
    ⟨_, mul_nonsing_inv _ (lu_unit hz hv hS.cols)⟩
  obtain ⟨D', j1, j2, j3, j4, j5, j6⟩ := direct_par (num := num) (E := gmiEnv E nz gd
      ⟨MType.general.code, f.code, D.code, A.base⟩ precond monit)
    (A := gmiMat n ta A .general f D)
    (K := fun s => HandleOk ta A s.H ∧ s.H.nulls = 0 ∧ IluOk nz A { s.ilu with raw := A.raw false })
    (K' := fun s => HandleOk ta A s.H ∧ s.H.nulls = 0)
    hE hO hu hpre hr hm hw1 hw2 b tb g gq MType.general.code f.code D.code (optimize := gmiOptimize E)
    (fun t => t.H.fulldiag) Ds (tt := { Ds.t with H := H' }) (by unfold gmiOptimize; rw [e1]; rfl)
    ⟨h1, hnl.trans h0, by rw [hil]; exact hilu⟩ hopts hx hinfo hat
    (fun e => hne (by rw [resSq, e, zero_dotProduct])) hnan hnear
    (by
      rintro s u v ⟨s1, s2, s3⟩ hul hvl
      obtain ⟨a, H', e, k1, k2, k3, k4⟩ := gmi_mv hS s1 s2 hul hvl
      have hi : GmiSt.ilu { s with H := H' } = s.ilu := by
        unfold GmiSt.ilu
        dsimp only
        rw [k3.raw, s1.raw]
      exact ⟨a, _, e, k1, k2, k3, k4, by rw [hi]; exact s3⟩)
    (by
      rintro s u v ⟨s1, s2⟩ hul hvl
      obtain ⟨a, H', e, k1, k2, k3, k4⟩ := gmi_mv hS s1 s2 hul hvl
      exact ⟨a, _, e, k1, k2, k3, k4⟩)
    1
    (by
      rintro s u x ⟨s1, s2, s3⟩ hul hxl
      have hun : A.n ≤ u.length := by rw [hS.cols, hul]
      have hxn : A.n ≤ x.length := by rw [hS.cols, hxl]
      have er := ilu_raw (nz := nz) hsq (H := s.ilu) s1.raw gd ⟨MType.general.code, f.code, D.code, A.base⟩ x u
      rcases C34_ilu hz hA s3 (by rw [hS.cols]; exact hpos) gd f.code D.code hxn hun with
        ⟨x', H', e, k1, -, k3, -, k5⟩ | ⟨H', e, -, k2⟩
      · rw [show (⟨MType.general.code, f.code, D.code, A.base⟩ : Descr) = ⟨0, f.code, D.code, A.base⟩ from rfl, e] at er
        refine ⟨.success, x', s.setIlu { H' with raw := A.raw ta }, ?_, k5.length.trans hxl, fun _ => ?_, s1, s2⟩
        · show gmiBuiltin nz gd _ s u x = _
          unfold gmiBuiltin
          rw [show (⟨MType.general.code, f.code, D.code, A.base⟩ : Descr) = ⟨0, f.code, D.code, A.base⟩ from rfl, er]
          rfl
        · rw [hS.cols] at k5
          have := ilu_inverse (M := M) k5 (by rw [← ilu_factors_unique hz hA hv k3 hS.cols]; exact hM)
          rw [this, ← hLU, mulVec_mulVec, hM, one_mulVec, one_smul]
      · exfalso
        have hsame := ilu_safe hz hA (IluOk.safe hA s3) gd ⟨0, f.code, D.code, A.base⟩ hxn hun
        rw [e] at hsame
        obtain ⟨_, _, _, _, e', -, -, -, -, -, s3'⟩ := hsame
        cases e'
        exact ilu_no_break hz hA hv (s3' rfl s3.full) k2)
    hfuel
  have hum := raw_un (R := R) hsq ta
  rw [← hH.raw, hS.cols] at hum
  refine ⟨D', ?_, j2, j3.elim And.left And.left, j3.elim (fun h => h.2.1) And.right, j4, j5, j6⟩
  unfold gmDirect
  rw [hum.1, hum.2]
  exact j1

end

/-! ### concrete cases: systems of two equations over the real numbers -/

noncomputable section

/-- the rows (a, b) and (c, d) -/
def gmi2 (a b c d : ℝ) : Csr ℝ := ⟨2, 2, 0, [0, 2, 4], [0, 1, 0, 1], [a, b, c, d]⟩

def gmiE : GsEnv ℝ := ⟨⟨true, false, true⟩,
  ⟨true, true, star, some .avx2, some 4, 2, [1, 0], some (4, vecLanes 4 hsum4l)⟩, insertionSortB,
  ⟨fun k => 7 + k, fun _ => 9, fun _ => 3⟩, .ref, 64⟩

def gmiNz (d : ℝ) : Bool := decide (d = 0)

/-- restart 1, relative tolerance 1/10, absolute tolerance 0, 50 iterations, the built-in preconditioner -/
def gmiReg : Registry ℝ :=
  { realReg with strs := [⟨"iterative method".toList, "gmres".toList, [("cg".toList, 1), ("gmres".toList, 2)]⟩,
      ⟨"gmres preconditioner".toList, "ilu0".toList, [("none".toList, 0), ("user".toList, 1), ("ilu0".toList, 2)]⟩] }

def gmiOpt : GmOpt ℝ := { realOpt with pre := 2 }

theorem gmiReg_opts : GmOpts gmiReg gmiOpt := ⟨rfl, rfl, rfl, rfl, rfl, rfl⟩

/-- the state before the call: a new handle, x = 0 -/
def gmiD (A : Csr ℝ) (sort : MatSort) : DirSt ℝ ℝ (GmiSt ℝ Unit) :=
  ⟨⟨itsolInit gmiReg, ⟨.stop, .null, .null⟩, [0, 0], List.replicate 100 5⟩,
    ⟨.fresh (A.raw false) false, sort, true, false, false, [], [], ()⟩⟩

/-- the call, with b = (5, 0), a matrix type and a rest of b that is not read -/
def gmiCall (num : Num ℝ ℝ) (g : Nat → ℝ) (type : Nat) (D : DirSt ℝ ℝ (GmiSt ℝ Unit)) :
    Option (Status × DirSt ℝ ℝ (GmiSt ℝ Unit)) :=
  gmDirect num gmR gmiE gmiNz (fun _ => 9) g 7 1000 300 ⟨type, 0, 0, 0⟩ none none 2
    (some (List.ofFn (![5, 0] : Fin 2 → ℝ) ++ [8])) D

theorem gmiNz_ok : ∀ d, gmiNz d = false → d ≠ 0 := by
  intro d h
  simpa [gmiNz] using h

theorem gmiE_sel : gmiE.k.Ok :=
  ⟨rfl, fun _ x => rfl, fun _ => rfl, fun g h => by cases h; trivial, fun K h => by cases h; decide, by decide,
    by decide, fun K V h => by cases h; exact vecLanes_ok (by omega) hsum4l_sum⟩

variable (a b c d : ℝ)

theorem gmi2_ok : IluMat (gmi2 a b c d) :=
  ⟨by constructor <;> exact of_decide_eq_true rfl, rfl, of_decide_eq_true rfl, of_decide_eq_true rfl, of_decide_eq_true rfl⟩

theorem gmi2_one : (gmi2 a b c d).OneDiag := of_decide_eq_true rfl

theorem gmi2_sys (t : MType) (h : t = .general ∨ t = .symmetric) :
    GmiSys gmiE 2 false (gmi2 a b c d) t .lower .nonUnit :=
  ⟨insertionSortB_stdSort, gmiE_sel, rfl, rfl, gmi2_one a b c d, .inr (gmi2_ok a b c d).nodup,
    fun x y hx hy => ⟨(gmi2_ok a b c d).wf, fun _ => ⟨gmi2_one a b c d, .inr (gmi2_ok a b c d).nodup⟩,
      by rcases h with rfl | rfl <;> exact nofun, by rcases h with rfl | rfl <;> exact nofun,
      by rcases h with rfl | rfl <;> exact nofun, by rw [hx]; exact le_refl _, by rw [hy]; exact le_refl _⟩,
    ⟨⟨rfl, rfl, rfl, rfl, fun _ => rfl⟩, fun _ => rfl, by rcases h with rfl | rfl <;> exact nofun, by simp⟩⟩

theorem gmi2_mat (i j : Fin 2) : (gmi2 a b c d).mat i j = !![a, b; c, d] i j := by
  have h0 : (gmi2 a b c d).row 0 = [(0, a), (1, b)] := rfl
  have h1 : (gmi2 a b c d).row 1 = [(0, c), (1, d)] := rfl
  fin_cases i <;> fin_cases j <;> simp [Csr.mat, Csr.entry, h0, h1]

theorem gmi2_gmiMat : gmiMat 2 false (gmi2 a b c d) .general .lower .nonUnit = !![a, b; c, d] := by
  ext i j
  exact gmi2_mat a b c d i j

/-- the factors of the matrix with rows (a, b) and (c, d) -/
theorem gmi2_lu (ha : a ≠ 0) : luProduct 2 (gmi2 a b (c / a) (d - c / a * b)).mat = !![a, b; c, d] := by
  have h := gmi2_mat a b (c / a) (d - c / a * b)
  have h00 := h 0 0
  have h01 := h 0 1
  have h10 := h 1 0
  have h11 := h 1 1
  simp only [Fin.coe_ofNat_eq_mod, Nat.zero_mod, Nat.mod_succ] at h00 h01 h10 h11
  ext i j
  fin_cases i <;> fin_cases j <;>
    simp [luProduct, unitLower, upperPart, Matrix.mul_apply, Fin.sum_univ_two, h00, h01, h10, h11] <;> field_simp

theorem gmi2_factors (ha : a ≠ 0) (hd : d - c / a * b ≠ 0) :
    IluFactors gmiNz (gmi2 a b c d) [a, b, c / a, d - c / a * b] := by
  have hw : (gmi2 a b c d).withVal [a, b, c / a, d - c / a * b] = gmi2 a b (c / a) (d - c / a * b) := rfl
  refine ⟨rfl, fun i hi => ⟨fun j hj => ?_, ?_⟩⟩
  · rw [hw]
    have hj' : j < 2 := by
      have := (gmi2_ok a b c d).wf
      have hc : ∀ i < 2, ∀ k ∈ (gmi2 a b c d).cols i, k < 2 := of_decide_eq_true rfl
      have := hc i hi _ hj
      omega
    have h1 : luProduct 2 (gmi2 a b (c / a) (d - c / a * b)).mat ⟨i, hi⟩ ⟨j, hj'⟩ = (gmi2 a b c d).mat i j := by
      rw [gmi2_lu a b c d ha]
      exact (gmi2_mat a b c d ⟨i, hi⟩ ⟨j, hj'⟩).symm
    rw [← h1, luProduct, Matrix.mul_apply, Finset.sum_range]
    rfl
  · rw [hw]
    have h := gmi2_mat a b (c / a) (d - c / a * b) ⟨i, hi⟩ ⟨i, hi⟩
    dsimp only at h
    rw [h]
    have hi' : i = 0 ∨ i = 1 := by have : i < 2 := hi; omega
    rcases hi' with rfl | rfl
    · simpa [gmiNz] using ha
    · simpa [gmiNz] using hd

theorem gmiD_handle (sort : MatSort) : HandleOk false (gmi2 a b c d) (gmiD (gmi2 a b c d) sort).t.H :=
  C21_invariant (isa := gmiE.isa) insertionSortB_stdSort gmiE_sel (gmi2_ok a b c d).wf (gmi2_one a b c d)
    (.inr (gmi2_ok a b c d).nodup) (.create false (by simp))

theorem gmiD_ilu : IluOk gmiNz (gmi2 a b c d)
    { (gmiD (gmi2 a b c d) .fully).t.ilu with raw := (gmi2 a b c d).raw false } :=
  ⟨rfl, .inl rfl, rfl, .inl ⟨rfl, rfl⟩⟩

theorem gmi_b_ne : (![5, 0] : Fin 2 → ℝ) ≠ 0 := fun e => by
  have := congrFun e 0
  norm_num at this

theorem gmi_res_ne (A : Matrix (Fin 2) (Fin 2) ℝ) : resSq A ![5, 0] (vecOf 2 [0, 0]) ≠ 0 := by
  have : vecOf 2 [(0 : ℝ), 0] = 0 := by
    funext i
    fin_cases i <;> rfl
  rw [this, resSq, mulVec_zero, sub_zero]
  simp

/-- the start vector is not within the tolerances -/
theorem gmi_not_small (A : Matrix (Fin 2) (Fin 2) ℝ) {r : ℝ → Prop} :
    ¬ ∃ ρ β, 0 ≤ ρ ∧ ρ ^ 2 = resSq A ![5, 0] (vecOf 2 [0, 0]) ∧ 0 ≤ β ∧ β ^ 2 = (![5, 0] : Fin 2 → ℝ) ⬝ᵥ ![5, 0] ∧
      (ρ ≤ gmiOpt.atol ∨ ρ ≤ gmiOpt.rtol * β) ∧ r ρ := by
  have hv : vecOf 2 [(0 : ℝ), 0] = 0 := by
    funext i
    fin_cases i <;> rfl
  rintro ⟨ρ, β, h1, h2, h3, h4, h5, -⟩
  rw [hv, resSq, mulVec_zero, sub_zero] at h2
  have e1 : ρ = 5 := by
    have : ρ ^ 2 = 25 := by rw [h2]; norm_num [dotProduct, Fin.sum_univ_two]
    nlinarith
  have e2 : β = 5 := by
    have : β ^ 2 = 25 := by rw [h4]; norm_num [dotProduct, Fin.sum_univ_two]
    nlinarith
  rw [e1, e2] at h5
  norm_num [gmiOpt, realOpt] at h5

/-- the hypotheses of C57_any and C57_ilu are met -/
example (num : Num ℝ ℝ) (g : Nat → ℝ) :
    ∃ M st D', !![3, -4; 4, 3] * M = 1 ∧ gmiCall num g 0 (gmiD (gmi2 3 (-4) 4 3) .fully) = some (st, D') ∧
      GmiResult num gmR g 7 1000 !![3, -4; 4, 3] (exactBoth !![3, -4; 4, 3] M) ![5, 0] [0, 0] gmiOpt 1 gmiReg
        (CallbackStops (gmiEnv gmiE gmiNz (fun _ => 9) ⟨0, 0, 0, 0⟩ none none : Env ℝ ℝ (GmiSt ℝ Unit)) 2) st
        D'.S.x D'.S.rinfo ∧ D'.S.H.opts = gmiReg := by
  obtain ⟨M, st, D', h1, h2, h3, -, -, -, h4, -⟩ := C57_ilu (num := num) (gmi2_sys 3 (-4) 4 3 .general (.inl rfl))
    (gmi2_ok _ _ _ _)
    gmiNz_ok (by omega) (gmi2_factors 3 (-4) 4 3 (by norm_num) (by norm_num)) gmR_exact gmiReg_opts rfl rfl
    (by decide) (m := 1) rfl (by omega) (w := 1000) (by norm_num) (by norm_num) (precond := none) (monit := none)
    (fun _ h => by cases h) (fun _ => 9) ![5, 0] [8] g 7 (gmiD (gmi2 3 (-4) 4 3) .fully) (gmiD_handle _ _ _ _ _) rfl
    (gmiD_ilu _ _ _ _) (.inl rfl) (le_refl 2) List.length_replicate
    (.inr ⟨by norm_num [gmiOpt, realOpt], gmi_b_ne⟩) (gmi_res_ne _) (fuel := 300) (by decide)
  rw [gmi2_gmiMat] at h3
  refine ⟨M, st, D', ?_, h2, h3, h4⟩
  rw [← gmi2_lu 3 (-4) 4 3 (by norm_num)]
  exact h1

/-- … and those of C57_exact: the solver answers 0 for 3x - 4y = 5, 4x + 3y = 0, with status success and 0 as the norm
of the residual -/
theorem C57_exact_example (num : Num ℝ ℝ) (g : Nat → ℝ) :
    ∃ D', gmiCall num g 0 (gmiD (gmi2 3 (-4) 4 3) .fully) = some (.success, D') ∧ D'.S.x = [0, 0] ∧
      D'.S.rinfo[0]? = some 0 := by
  obtain ⟨D', h1, h2, -, -, -, -, h3⟩ := C57_exact (num := num) (gmi2_sys 3 (-4) 4 3 .general (.inl rfl))
    (gmi2_ok _ _ _ _)
    gmiNz_ok (by omega) (gmi2_factors 3 (-4) 4 3 (by norm_num) (by norm_num))
    ((gmi2_lu 3 (-4) 4 3 (by norm_num)).trans (gmi2_gmiMat _ _ _ _).symm) gmR_exact (fun _ => rfl)
    (fun a h => by simpa [gmR] using h) gmiReg_opts rfl rfl (m := 1) rfl (by omega) (w := 1000) (by norm_num)
    (by norm_num) (precond := none) (monit := none)
    (fun _ => 9) ![5, 0] [8] g 7 (gmiD (gmi2 3 (-4) 4 3) .fully) (gmiD_handle _ _ _ _ _) rfl
    (gmiD_ilu _ _ _ _) (.inl rfl) (le_refl 2) List.length_replicate
    (.inr ⟨by norm_num [gmiOpt, realOpt], gmi_b_ne⟩) (gmi_res_ne _) (fuel := 300) (by omega)
  refine ⟨D', h1, h2, h3.resolve_left ?_⟩
  exact gmi_not_small _

/-- … and those of C57_refused: an unsorted matrix, a symmetric one, and one with a zero pivot -/
theorem C57_refused_example (num : Num ℝ ℝ) (g : Nat → ℝ) :
    (∃ D', gmiCall num g 0 (gmiD (gmi2 3 (-4) 4 3) .unsorted) = some (.success, D') ∧ D'.S.x = [0, 0] ∧
      D'.S.rinfo[0]? = some 0) ∧
    (∃ D', gmiCall num g 1 (gmiD (gmi2 3 1 1 3) .fully) = some (.success, D') ∧ D'.S.x = [0, 0] ∧
      D'.S.rinfo[0]? = some 0) ∧
    ∃ D', gmiCall num g 0 (gmiD (gmi2 0 1 1 0) .fully) = some (.success, D') ∧ D'.S.x = [0, 0] ∧
      D'.S.rinfo[0]? = some 0 := by
  have key : ∀ (a b c d : ℝ) (t : MType) (ht : t = .general ∨ t = .symmetric) (sort : MatSort),
      IluFails gmiNz 2 t (gmi2 a b c d) (gmiD (gmi2 a b c d) sort).t →
      ∃ D', gmiCall num g t.code (gmiD (gmi2 a b c d) sort) = some (.success, D') ∧ D'.S.x = [0, 0] ∧
        D'.S.rinfo[0]? = some 0 := by
    intro a b c d t ht sort hf
    obtain ⟨D', h1, h2, -, -, -, -, h3⟩ := C57_refused (num := num) (gmi2_sys a b c d t ht) gmR_exact (fun _ => rfl)
      (fun a h => by simpa [gmR] using h) gmiReg_opts rfl rfl (m := 1) rfl (by omega) (w := 1000) (by norm_num)
      (by norm_num) (precond := none) (monit := none)
      (fun _ => 9) ![5, 0] [8] g 7 (gmiD (gmi2 a b c d) sort) (gmiD_handle _ _ _ _ _) rfl
      hf (.inl rfl) (le_refl 2) List.length_replicate
      (.inr ⟨by norm_num [gmiOpt, realOpt], gmi_b_ne⟩) (gmi_res_ne _) (fuel := 300) (by omega)
    exact ⟨D', h1, h2, h3.resolve_left (gmi_not_small _)⟩
  refine ⟨key 3 (-4) 4 3 .general (.inl rfl) _ (.inl (.inr (.inr (.inl rfl)))),
    key 3 1 1 3 .symmetric (.inr rfl) _ (.inl (.inl nofun)),
    key 0 1 1 0 .general (.inl rfl) _ (.inr ⟨rfl, by omega, gmi2_ok _ _ _ _, gmiNz_ok, gmiD_ilu _ _ _ _, ?_⟩)⟩
  rintro ⟨v, hv, h⟩
  obtain ⟨h1, h2⟩ := h 0 (by decide)
  obtain ⟨p, q, r, s, rfl⟩ : ∃ p q r s, v = [p, q, r, s] := by
    match v, hv with
    | [p, q, r, s], _ => exact ⟨p, q, r, s, rfl⟩
  have e := gmi2_mat p q r s 0 0
  have e1 : p = 0 := by
    have := h1 0 (by decide +kernel)
    rw [show ((gmi2 0 1 1 0).withVal [p, q, r, s]) = gmi2 p q r s from rfl, show (gmi2 0 1 1 0).n = 2 from rfl,
      Finset.sum_range_succ, Finset.sum_range_one] at this
    have e0 := gmi2_mat 0 1 1 0 0 0
    simp only [Fin.coe_ofNat_eq_mod, Nat.zero_mod] at e e0
    simp [unitLower, upperPart, e, e0] at this
    exact this
  refine gmiNz_ok _ h2 ?_
  rw [show ((gmi2 0 1 1 0).withVal [p, q, r, s]) = gmi2 p q r s from rfl]
  simp only [Fin.coe_ofNat_eq_mod, Nat.zero_mod] at e
  rw [e]
  simpa using e1

end

/-! ### a solve on a handle, computed: x changes at the end of a cycle -/

/-- create a handle with these arrays and solve; `pre`: the preconditioner.  Status, x, norm of the residual. -/
def gmiRun (pre : String) (A : Csr ℚ) (sort : MatSort) (type : Nat) (b x : List ℚ) :
    Option (Status × List ℚ × Option ℚ) := do
  let Rg ← cgReg [("iterative method", "GMRES"), ("gmres preconditioner", pre), ("gmres restart iterations", "1"),
    ("gmres iteration limit", "1")]
  let q ← gmDirect (cgNum fun v => decide (v ≤ 0)) gmQ gsExE iluNz (fun _ => 9) (fun _ => 7) 7 1000 100
    ⟨type, 0, 0, A.base⟩ none (some fun (u : CgLog) _ r v info => some (0, info, u ++ [(r, v)])) b.length (some b)
    ⟨⟨itsolInit Rg, ⟨.stop, .null, .null⟩, x, List.replicate 100 5⟩,
      ⟨.fresh (A.raw false) false, sort, true, false, false, [], [], []⟩⟩
  some (q.1, q.2.S.x, q.2.S.rinfo.head?)

example :
    gmiRun "none" ⟨2, 2, 0, [0, 2, 4], [1, 0, 1, 0], [-4, 3, 3, 4]⟩ .unsorted 0 [5, 0] [0, 0] =
      some (.maxit, [3 / 5, 0], some 4) ∧
    gmiRun "ILU0" ⟨2, 2, 0, [0, 2, 4], [1, 0, 1, 0], [-4, 3, 3, 4]⟩ .unsorted 0 [5, 0] [0, 0] =
      some (.success, [0, 0], some 0) := by decide +kernel

end Props
end Verif
