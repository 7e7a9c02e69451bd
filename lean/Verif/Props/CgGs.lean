/-
C56: the direct CG solver on a handle, with the built-in symmetric Gauss-Seidel preconditioner.
-/
import Verif.Proofs.CgGs
import Verif.Proofs.SgsSpd
import Verif.Props.CgCases
import Verif.Props.Symgs

namespace Verif
namespace Props
open Model Spec Proofs

/-! ### the preconditioner -/

section
variable {R : Type} [Field R] [DecidableEq R] [StarRing R] {E : GsEnv R} {A : Csr R} {ta : Bool} {H : MvHandle R}
  {D : Diag}

/-- **C56**, the built-in preconditioner.  With a zero-based clean copy in the handle, for general and symmetric
matrices in CSR or CSC, either fill and the diagonal types non-unit and unit, the result is the solution of
(L + D) D⁻¹ (D + U) z = r for the matrix that the descriptor describes, and the handle does not change. -/
theorem C56_precond (hE : GsEnvOk E A) (hA : SgsMat A D) (hH : HandleOk ta A H) (hz : ZeroCopy H) {t : MType}
    (ht : t = .general ∨ t = .symmetric) (f : Fill) (hg : t = .general → D = .nonUnit) {r y z : List R}
    (hr : A.m ≤ r.length) (hy : A.m ≤ y.length) (hzl : A.m ≤ z.length) :
    ∃ y' z', itsolSymgs E H ⟨t.code, f.code, D.code, A.base⟩ r y z = some (.success, y', z', H) ∧
      y'.length = y.length ∧ IsSgs (operator t f D .none (userMat ta A)) A.m r z z' :=
  itsolSymgs_spec hE hA hH hz ht f hg hr hy hzl

/-- **C56**, which clean copies are zero-based.  The copy that a solve makes is zero-based unless the user's arrays
are one-based and can be used in place, that is, are grouped and have a full diagonal. -/
theorem C56_copy_base (hsrt : StdSort E.srt) (hwf : A.WF) (hone : A.OneDiag) (hgr : A.Grouped ∨ A.NoDup)
    (hH : HandleOk ta A H) :
    ∃ i H', csrCscOptimize E.srt E.g.i E.g.v H = some (.ok (i, H')) ∧ HandleOk ta A H' ∧ H'.nulls = H.nulls ∧
      (∃ c iu, H'.mats[i]? = some (.csr c true iu)) ∧ (A.base = 0 → ZeroCopy H') ∧
      (optIdx H.mats = none → (ZeroCopy H' ↔ A.base = 0 ∨ ¬ (A.Grouped ∧ A.FullDiag))) := by
  obtain ⟨i, H', c, iu, e, h1, h2⟩ := csrCscOptimize_spec hsrt E.g.i E.g.v hwf hone hgr hH
  have hmem : some c.base ∈ H'.mats.map optBase := List.mem_map.2 ⟨_, List.mem_of_getElem? h2, rfl⟩
  have h0 : A.base = 0 → ZeroCopy H' := by
    intro hb
    refine ⟨⟨_, hmem⟩, fun b hm => ?_⟩
    obtain ⟨s, hs, hb'⟩ := List.mem_map.1 hm
    obtain ⟨c', iu', rfl, rfl⟩ := optBase_opt hb'
    have := ((h1.all _ hs).2.2.2 rfl).2.1
    omega
  refine ⟨i, H', e, h1, csrCscOptimize_nulls e, ⟨c, iu, h2⟩, h0, fun hno => ?_⟩
  obtain ⟨idl, op, iu0, rest, hf⟩ := hH.first
  obtain ⟨o, eo, -, -, -, hip, hin, -⟩ := C15_clean_copy hsrt E.g.i E.g.v hwf hone hgr
  have hnz : H.raw.nnz = (A.nnz : Int) := by rw [hH.raw]; rfl
  have eo2 : csrOptimize E.srt E.g.i E.g.v (A.raw ta).copy0.m (A.raw ta).copy0.n A.nnz (A.raw ta).copy0.base
      (A.raw ta).copy0.ptr (A.raw ta).copy0.ind (A.raw ta).copy0.val = some (.ok o) := eo
  have hold : ∀ b, some b ∉ H.mats.map optBase := fun b hb => by
    obtain ⟨i, c, iu, e1, -⟩ := optIdx_of_base hb
    rw [hno] at e1
    cases e1
  unfold csrCscOptimize at e
  rw [hno] at e
  dsimp only at e
  rw [hf] at e
  dsimp only at e
  rw [hnz] at e
  simp only [eo2, Option.bind_eq_bind, Option.bind_some] at e
  by_cases hp : o.inPlace = true
  · rw [if_pos hp] at e
    cases e
    constructor
    · intro hz
      exact .inl (hz.2 A.base (List.mem_map.2 ⟨_, List.mem_cons_self, rfl⟩))
    · rintro (hb | hb)
      · exact h0 hb
      · exact absurd (hip.1 hp) hb
  · rw [if_neg hp] at e
    cases e
    refine ⟨fun _ => .inr fun hc => hp (hip.2 hc), fun _ => ⟨⟨_, hmem⟩, fun b hm => ?_⟩⟩
    dsimp only at hm
    rw [List.map_append, List.mem_append] at hm
    rcases hm with hm | hm
    · exact absurd (by rw [hf]; exact hm) (hold b)
    · have hb0 := csrOptimize_base eo (by simpa using hp)
      simp only [List.map_cons, List.map_nil, List.mem_singleton, optBase, Option.some.injEq] at hm
      rw [hm]
      exact hb0

/-- **C56**, the matrices for which the preconditioner reads outside the arrays: when the clean copy is one-based the
scaling between the two solves takes the entry after the diagonal entry, and in the last row there is none. -/
theorem C56_one_based_reads_outside (hE : GsEnvOk E A) (hA : SgsMat A .nonUnit) (hH : HandleOk ta A H) {i : Nat}
    {c : MCopy R} {iu : Option (List Int)} (hi : optIdx H.mats = some i) (hc : H.mats[i]? = some (.csr c true iu))
    (h1 : c.base = 1) {t : MType} (ht : t = .general ∨ t = .symmetric) (f : Fill) {r y z : List R}
    (hr : A.m ≤ r.length) (hy : A.m ≤ y.length) :
    itsolSymgs E H ⟨t.code, f.code, Diag.nonUnit.code, A.base⟩ r y z = none := by
  obtain ⟨f1, o1, s1, -⟩ := sgs_first (D := .nonUnit) ht f (fun _ => rfl) A.base (userMat ta A)
  obtain ⟨y1, H1, e1, -, -⟩ := sgsTrsv_spec hE hA hH f1 o1 hr hy
  have hs := gsTrsv_same hi e1
  subst hs
  unfold itsolSymgs
  rw [hi]
  dsimp only
  rw [if_neg (by rcases ht with rfl | rfl <;> simp [MType.code]), if_neg (by simp [Diag.code])]
  unfold sgsSolves
  rw [s1]
  simp only [e1, Option.bind_eq_bind, Option.bind_some]
  rw [if_neg (fun e : Status.success ≠ .success => e rfl)]
  unfold sgsMid
  rw [if_pos (show (Diag.nonUnit.code) = 0 from rfl), sgsScale_none hA.wf hA.square hA.pos hH hc h1]
  rfl

/-- **C56**, the refusals of the preconditioner: without a clean copy, for other types of matrices and for a zero
diagonal it reports an error and writes nothing. -/
theorem C56_precond_refused (d : Descr) (r y z : List R) :
    (optIdx H.mats = none → itsolSymgs E H d r y z = some (.notImplemented, y, z, H)) ∧
    (∀ i, optIdx H.mats = some i → d.type ≠ 0 ∧ d.type ≠ 1 ∨ d.diag = 2 →
      itsolSymgs E H d r y z = some (.invalidValue, y, z, H)) := by
  constructor
  · intro h
    unfold itsolSymgs
    rw [h]
  · intro i h hd
    unfold itsolSymgs
    rw [h]
    dsimp only
    by_cases h1 : d.type ≠ 0 ∧ d.type ≠ 1
    · rw [if_pos h1]
    · rw [if_neg h1, if_pos (hd.resolve_left h1)]

end

/-! ### the solve -/

section
variable {R Q : Type} [Zero R] [Neg R] [Add R] [Sub R] [Mul R] [Div R] [LinearOrder Q] {n : Nat}
  {num : Num R Q} {o : CgOpt Q} {b : Fin n → R}

/-- further answers after the end change nothing -/
theorem talk_pad {A P : (Fin n → R) → Fin n → R} (ex : List (Reply n R)) : ∀ (reps : List (Reply n R))
    (O : CgOut n R Q) {st : Status} {V : CgV n R Q}, (cgTalk num o b O reps).getLast? = some (.done st V) →
    Truthful num o b A P O reps →
    cgTalk num o b O (reps ++ ex) = cgTalk num o b O reps ∧ Truthful num o b A P O (reps ++ ex)
  | [], .done st' V', st, V, _, _ => by cases ex <;> exact ⟨rfl, trivial⟩
  | [], .ask a V', st, V, h, _ => by cases h
  | _ :: _, .done st' V', st, V, _, _ => ⟨rfl, trivial⟩
  | rep :: reps, .ask a V', st, V, h, ht => by
    have hne : ∀ (O : CgOut n R Q) (l : List (Reply n R)), cgTalk num o b O l ≠ [] := by
      intro O l
      cases O <;> cases l <;> simp [cgTalk]
    have h' : (cgTalk num o b (cgNext num o b (.ask a V') rep) reps).getLast? = some (.done st V) := by
      rw [← h]
      show _ = (CgOut.ask a V' :: cgTalk num o b (cgNext num o b (.ask a V') rep) reps).getLast?
      rw [List.getLast?_cons_of_ne_nil (hne _ _)]
    obtain ⟨h1, h2⟩ := talk_pad ex reps _ h' ht.2
    refine ⟨?_, ht.1, h2⟩
    show CgOut.ask a V' :: cgTalk num o b (cgNext num o b (.ask a V') rep) (reps ++ ex) = _
    rw [h1]
    rfl

end

section
variable {R Q : Type} [Field R] [LinearOrder R] [IsStrictOrderedRing R] [LinearOrder Q] {n : Nat}
  {num : Num R Q} {o : CgOpt Q} {b : Fin n → R}

/-- the end of a solve in exact arithmetic, whatever the number of answers -/
theorem exact_end (hN : ExactNum num o b) {A P : (Fin n → R) →ₗ[R] (Fin n → R)} (hA : Spd A) (hP : Spd P)
    (hid : o.pre = false → P = LinearMap.id) (x : Fin n → R) (reps : List (Reply n R))
    (ht : Truthful num o b A P (cgBegin num b x) reps) (hm : (n : Int) ≤ o.maxit)
    (hs : ∀ rep ∈ reps, rep.stop = false) {st : Status} {V : CgV n R Q}
    (hl : (cgTalk num o b (cgBegin num b x) reps).getLast? = some (.done st V)) :
    st = .success ∧ V.r = A V.x - b ∧ V.k ≤ n ∧ num.nrm (List.ofFn V.r) = some V.rnorm ∧
      num.nrm (List.ofFn b) = some V.bnorm ∧ converged num o V := by
  obtain ⟨h1, h2⟩ := talk_pad (List.replicate (3 * n + 1) ⟨false, 0⟩) reps _ hl ht
  obtain ⟨-, -, h3⟩ := C41_exact hN hA hP hid x _ h2
  obtain ⟨V', e, h⟩ := h3 (by simp) hm (by
    intro rep hr
    rcases List.mem_append.1 hr with hr | hr
    · exact hs rep hr
    · rw [List.eq_of_mem_replicate hr])
  rw [h1, hl] at e
  cases e
  exact ⟨rfl, h⟩

variable [DecidableEq R] [StarRing R]

/-- the matrix of the system -/
def cgMat (n : Nat) (ta : Bool) (A : Csr R) (D : Diag) : Matrix (Fin n) (Fin n) R :=
  Matrix.of fun i j => operator .symmetric .lower D .none (userMat ta A) i j

/-- **C56**, the solve.  The direct CG solver with no preconditioner or the built-in one, on any handle with correct
copies of a square matrix in CSR or CSC, in exact arithmetic, where the symmetric matrix given by the lower triangle
is positive definite and the monitor does not stop: the call succeeds, the vector x satisfies the convergence test
with its residual, after at most n iterations; the entries of rinfo are its norm and that of the right-hand side, and
both handles can be used again.  For the built-in preconditioner the matrix has to be zero-based, or not grouped (or
without full diagonal) with no clean copy made yet; see C56_one_based_reads_outside. -/
theorem C56_solve {E : GsEnv R} {A : Csr R} {ta : Bool} {Dg : Diag} {τ : Type} {Rg : Registry Q} {k : Int} {t : List R}
    (hE : GsEnvOk E A) (hA : SgsMat A Dg) (hn : A.m = n) (hN : ExactNum num o b)
    (hspd : Spd (cgMat n ta A Dg).mulVecLin) (hu : Rg.readonly = false) (hO : CgOpts Rg o)
    (hm : (n : Int) ≤ o.maxit) (hk : Rg.getKey "cg preconditioner".toList = some (some k)) (hk03 : k = 0 ∨ k = 3)
    (monit : Option (τ → Int → Option (List R) → Option (List R) → List Q → Option (Int × List Q × τ)))
    (hmon : ∀ f, monit = some f → ∀ u n v w rinfo, ∃ u', f u n v w rinfo = some (0, rinfo, u'))
    (gnum : GNum R Q) (g : Nat → R) (gq : Q) (w : Int)
    (gmres : DirSt R Q (SgsSt R τ) → Option (Status × DirSt R Q (SgsSt R τ))) (D : DirSt R Q (SgsSt R τ))
    (hH : HandleOk ta A D.t.H) (h0 : D.t.H.nulls = 0) (hy : D.t.y.length = n)
    (hbase : k = 3 → A.base = 0 ∨ (optIdx D.t.H.mats = none ∧ ¬ (A.Grouped ∧ A.FullDiag)))
    (hopts : D.S.H.opts = Rg ∨ D.S.H.opts = Rg.lock) (x : Fin n → R) (hx : D.S.x = List.ofFn x ++ t)
    (hinfo : D.S.rinfo.length = 100) (tb : List R) (fuel : Nat) (hfuel : 3 * o.maxit + 5 ≤ fuel) :
    ∃ V D', cgDirect num gnum E g gq w fuel ⟨MType.symmetric.code, Fill.lower.code, Dg.code, A.base⟩ none monit gmres n
        (some (List.ofFn b ++ tb)) D = some (.success, D') ∧
      D'.S.x = List.ofFn V.x ++ t ∧ V.r = (cgMat n ta A Dg).mulVec V.x - b ∧ V.k ≤ n ∧
      num.nrm (List.ofFn V.r) = some V.rnorm ∧ num.nrm (List.ofFn b) = some V.bnorm ∧ converged num o V ∧
      D'.S.rinfo[0]? = some V.rnorm ∧ D'.S.rinfo[1]? = some V.bnorm ∧
      HandleOk ta A D'.t.H ∧ D'.t.H.nulls = 0 ∧ IdleH b Rg D'.S.H ∧ D'.S.H.opts = Rg := by
  have hmpos : 0 < o.maxit := by have := hA.pos; omega
  obtain ⟨i, H', e1, h1, h2, ⟨c, iu, hci⟩, h3, h4⟩ := C56_copy_base (E := E) hE.srt hA.wf hA.one hA.nodup hH
  have hzc : k = 3 → ZeroCopy H' := by
    intro h
    rcases hbase h with hb | ⟨hb, hb'⟩
    · exact h3 hb
    · exact (h4 hb).2 (.inr hb')
  obtain ⟨P0, hP0, hP0'⟩ := sgs_spd hspd
  -- the preconditioner in use
  obtain ⟨P, hP, hPk, hP3⟩ : ∃ P : (Fin n → R) →ₗ[R] (Fin n → R), Spd P ∧ (k = 0 → P = LinearMap.id) ∧
      (k = 3 → P = P0) := by
    rcases hk03 with h | h
    · refine ⟨LinearMap.id, ⟨fun u v => rfl, fun u hu => ?_⟩, fun _ => rfl, fun h' => by omega⟩
      obtain ⟨j, hj⟩ : ∃ j, u j ≠ 0 := by
        by_contra hc
        push Not at hc
        exact hu (funext hc)
      exact Finset.sum_pos' (fun i _ => mul_self_nonneg _) ⟨j, Finset.mem_univ _, mul_self_pos.2 hj⟩
    · exact ⟨P0, hP0, fun h' => by omega, fun _ => rfl⟩
  have hmvd : ∀ u : Fin n → R, (fun i : Fin n =>
      matVec (operator .symmetric .lower Dg .none (userMat ta A)) n (List.ofFn u) i)
      = (cgMat n ta A Dg).mulVecLin u := by
    intro u
    funext i
    show _ = ∑ j : Fin n, cgMat n ta A Dg i j * u j
    unfold matVec
    rw [Finset.sum_range]
    refine Finset.sum_congr rfl fun j _ => ?_
    simp [cgMat]
  have hEnv : EnvOk (sgsEnv E ⟨MType.symmetric.code, Fill.lower.code, Dg.code, A.base⟩ none monit) k n
      (cgMat n ta A Dg).mulVecLin P
      (fun t => HandleOk ta A t.H ∧ t.H.nulls = 0 ∧ (k = 3 → ZeroCopy t.H) ∧ t.y.length = n) := by
    refine ⟨?_, fun _ f hf => (by cases hf), ?_, ?_⟩
    · rintro s ⟨s1, s2, s3, s4⟩ u v hv
      obtain ⟨H1, m1, m2, m3⟩ := C41_mv (isa := E.isa) (k := E.k) (D := Dg) hE.srt E.g hE.sel hn
        (hA.square.symm.trans hn) hA.wf hA.one hA.nodup ⟨hE.kernels.1, hE.kernels.2.1, hE.kernels.2.2.1,
          hE.kernels.2.2.2, fun h => by cases h⟩ s1 s2 u v hv
      rw [hmvd u] at m1
      have hg : gsMv E 111 1 s.H ⟨MType.symmetric.code, Fill.lower.code, Dg.code, A.base⟩ (List.ofFn u) v =
          some (.success, List.ofFn ((cgMat n ta A Dg).mulVecLin u), H1) := by
        unfold gsMv
        have m1' : mv E.isa E.k E.srt E.g true 111 (some 1) (some s.H)
          (some ⟨MType.symmetric.code, Fill.lower.code, Dg.code, A.base⟩) (some (List.ofFn u)) (some 0) (some v) =
          _ := m1
        rw [m1']
        rfl
      refine ⟨{ s with H := H1 }, ?_, m2, m3, fun hk3 => ?_, s4⟩
      · show sgsMv E _ s _ _ = _
        unfold sgsMv
        rw [hg]
        rfl
      · have hz := s3 hk3
        obtain ⟨j, c', iu', j1, -, -⟩ := hz.first
        exact hz.of_bases (gsMv_bases j1 hg)
    · rintro hk3 s ⟨s1, s2, s3, s4⟩ u v hv
      obtain ⟨y', z', g1, g2, g3⟩ := C56_precond hE hA s1 (s3 hk3) (.inr rfl) .lower (fun h => by cases h)
        (r := List.ofFn u) (y := s.y) (z := v) (by simp [hn]) (by omega) (by omega)
      have hz' : z' = List.ofFn (P u) := by
        rw [hn] at g3
        have := sgsM_mulVec g3
        have e := hP0' _ _ this
        have hu' : (fun i : Fin n => (List.ofFn u).getD i 0) = u := by funext i; simp
        rw [hu'] at e
        rw [hP3 hk3, ← e]
        apply List.ext_getElem
        · rw [g3.length]; simp [hv]
        · intro i i1 i2
          simp [List.getElem?_eq_getElem i1]
      refine ⟨{ s with y := y' }, ?_, s1, s2, s3, by dsimp only; omega⟩
      show sgsBuiltin E _ s _ _ = _
      unfold sgsBuiltin
      rw [g1, hz']
      rfl
    · rintro f hf s hs u rinfo
      cases monit with
      | none => cases hf
      | some f' =>
        cases hf
        obtain ⟨u', e⟩ := hmon f' rfl s.u n (some (List.ofFn u)) none rinfo
        refine ⟨0, { s with u := u' }, ?_, hs⟩
        unfold sgsMonit
        rw [e]
        rfl
  have hq : Quiet (sgsEnv E ⟨MType.symmetric.code, Fill.lower.code, Dg.code, A.base⟩ none monit) k := by
    refine ⟨fun f hf s n u v rinfo q e => ?_, fun _ f hf => by cases hf⟩
    cases monit with
    | none => cases hf
    | some f' =>
      cases hf
      obtain ⟨u', e'⟩ := hmon f' rfl s.u n u v rinfo
      unfold sgsMonit at e
      rw [e'] at e
      cases e
      rfl
  obtain ⟨k', hk', hk0⟩ := hO.pre
  rw [hk] at hk'
  cases hk'
  have hum : D.t.H.raw.um = (n : Int) := by
    have := hA.square
    rw [hH.raw]; cases ta <;> simp [RawMat.um, Csr.raw] <;> omega
  have hun : D.t.H.raw.un = (n : Int) := by
    have := hA.square
    rw [hH.raw]; cases ta <;> simp [RawMat.un, Csr.raw] <;> omega
  obtain ⟨st, V, D', reps, j1, j2, j3, j4, j5, j6, j7, j8, j9, j10⟩ := C41_direct hEnv gnum g gq w hu hO hmpos hk
    (by rcases hk03 with h | h
        · exact .inl h
        · exact .inr (.inr h)) (optimize := sgsOptimize E) (fullDiag := fun t => t.H.fulldiag) Dg.code gmres D
    (tt := { D.t with H := H' }) (by unfold sgsOptimize; rw [e1]; rfl) ⟨h1, h2.trans h0, hzc, hy⟩
    (by
      intro _
      refine ⟨?_, fun e => hA.zero (by revert e; cases Dg <;> simp [Diag.code])⟩
      by_cases hd : Dg = .nonUnit
      · exact .inl ((h1.full _ (List.mem_of_getElem? hci) rfl).2 (hA.diag hd).1)
      · have := hA.zero
        cases Dg
        · exact absurd rfl hd
        · exact .inr rfl
        · exact absurd rfl this)
    hopts x hx hinfo tb fuel hfuel
  obtain ⟨r1, r2, r3, r4, r5, r6⟩ := exact_end hN hspd hP (fun h => hPk (hk0.2 h)) x reps j2 hm (j3 hq) j4
  subst r1
  refine ⟨V, D', ?_, j5, r2, r3, r4, r5, r6, j6, j7, j8.1, j8.2.1, j9, j10⟩
  unfold cgDirect
  rw [hum, hun]
  exact j1

end

/-! ### the hypotheses are met, and an example of the reads outside -/

/-- the lower triangle of [[4, 1, 0], [1, 3, 1], [0, 1, 2]], in order -/
def sgsExA (base : Int) : Csr ℚ := ⟨3, 3, base, [base, base + 1, base + 3, base + 5],
  [base, base, base + 1, base + 1, base + 2], [4, 1, 3, 1, 2]⟩

/-- the same with the diagonal first: not grouped -/
def sgsExU (base : Int) : Csr ℚ := ⟨3, 3, base, [base, base + 1, base + 3, base + 5],
  [base, base + 1, base, base + 2, base + 1], [4, 3, 1, 2, 1]⟩

/-- create a handle and solve with the built-in preconditioner: status, x, entries 0 and 30 of rinfo -/
def sgsExRun (A : Csr ℚ) (diag : Nat) (b x : List ℚ) : Option (Status × List ℚ × List (Option ℚ)) := do
  let Rg ← cgReg [("iterative method", "CG"), ("cg preconditioner", "SYMGS")]
  let q ← cgDirect (cgNum fun v => decide (v ≤ 0)) cgGNum gsExE (fun _ => 7) 7 32 100 ⟨1, 0, diag, A.base⟩ none
    (some fun (u : CgLog) _ r v info => some (0, info, u ++ [(r, v)])) (fun D => some (.notImplemented, D)) 3 (some b)
    ⟨⟨itsolInit Rg, ⟨.stop, .null, .null⟩, x, List.replicate 100 5⟩, ⟨.fresh (A.raw false) false, [0, 0, 0], []⟩⟩
  some (q.1, q.2.S.x, [q.2.S.rinfo[0]?, q.2.S.rinfo[30]?])

/-- zero-based, and one-based arrays that are not in order -/
example : ∀ A ∈ [sgsExA 0, sgsExU 0, sgsExU 1],
    (sgsExRun A 0 [5, 5, 3] [0, 2, 0]).map (fun q => (q.1, q.2.1, q.2.2.head?)) =
      some (.success, [1, 1, 1], some (some 0)) := by decide +kernel

/-- unit diagonal: [[1, 1/2], [1/2, 1]] -/
example : (sgsExRun ⟨3, 3, 0, [0, 0, 1, 1], [0], [1 / 2]⟩ 1 [1, 2, 3] [0, 0, 0]).map (fun q => (q.1, q.2.1)) =
      some (.success, [0, 2, 3]) := by decide +kernel

/-- **C56**, an example of the reads outside: the same system with one-based arrays in order. -/
theorem C56_one_based_example : sgsExRun (sgsExA 1) 0 [5, 5, 3] [0, 2, 0] = none := by decide +kernel

theorem sgsExA_ok : SgsMat (sgsExA 0) .nonUnit :=
  ⟨by constructor <;> decide +kernel, by decide +kernel, .inr (by decide +kernel), rfl, by decide, by decide,
    fun _ => ⟨by decide +kernel, by decide +kernel⟩, by decide⟩

theorem sgsExU_ok : SgsMat (sgsExU 1) .nonUnit :=
  ⟨by constructor <;> decide +kernel, by decide +kernel, .inr (by decide +kernel), rfl, by decide, by decide,
    fun _ => ⟨by decide +kernel, by decide +kernel⟩, by decide⟩

example : ¬ ((sgsExU 1).Grouped ∧ (sgsExU 1).FullDiag) := by decide +kernel

/-- the environment -/
theorem sgsExE_ok (A : Csr ℚ) (h : A.m = 3) : GsEnvOk gsExE A :=
  ⟨gsExE_ok.srt, gsExE_ok.sel, gsExE_ok.kernels, trivial, by rw [h]; decide⟩

/-- the matrix is positive definite -/
example : Spd (cgMat 3 false (sgsExA 0) .nonUnit).mulVecLin := by
  have e : cgMat 3 false (sgsExA 0) .nonUnit = !![4, 1, 0; 1, 3, 1; 0, 1, 2] := by
    have v : ∀ i < 3, ∀ j < 3, operator .symmetric .lower .nonUnit .none (userMat false (sgsExA 0)) i j =
        (([[4, 1, 0], [1, 3, 1], [0, 1, 2]] : List (List ℚ)).getD i []).getD j 0 := by decide +kernel
    ext i j
    refine (v i i.2 j j.2).trans ?_
    fin_cases i <;> fin_cases j <;> rfl
  rw [e]
  constructor
  · intro u v
    simp [dotProduct, Fin.sum_univ_three, Matrix.mulVec]; ring
  · intro u h
    have h2 : 0 < u 0 ^ 2 + u 1 ^ 2 + u 2 ^ 2 := by
      by_contra hc
      push Not at hc
      refine h (funext fun i => ?_)
      have a0 := sq_nonneg (u 0); have a1 := sq_nonneg (u 1); have a2 := sq_nonneg (u 2)
      have : u i ^ 2 = 0 := by fin_cases i <;> simp <;> nlinarith
      exact pow_eq_zero_iff (two_ne_zero) |>.1 this
    simp [dotProduct, Fin.sum_univ_three, Matrix.mulVec]
    nlinarith [sq_nonneg (u 0 + u 1), sq_nonneg (u 1 + u 2)]

/-- a new handle -/
example : HandleOk false (sgsExA 0) (.fresh ((sgsExA 0).raw false) false) ∧
    (MvHandle.fresh ((sgsExA 0).raw false) false).nulls = 0 := 
  ⟨C21_invariant (isa := gsExE.isa) gsExE_ok.srt gsExE_ok.sel sgsExA_ok.wf sgsExA_ok.one sgsExA_ok.nodup
    (.create false (by simp)), rfl⟩

/-- the options -/
example : ∃ Rg o, cgReg [("iterative method", "CG"), ("cg preconditioner", "SYMGS")] = some Rg ∧ CgOpts Rg o ∧
    Rg.getKey "cg preconditioner".toList = some (some 3) ∧ (3 : Int) ≤ o.maxit ∧ o.pre = true ∧
    Rg.readonly = false := by
  obtain ⟨Rg, h⟩ : ∃ Rg, cgReg [("iterative method", "CG"), ("cg preconditioner", "SYMGS")] = some Rg :=
    Option.isSome_iff_exists.1 (by decide +kernel)
  have key : ∀ {β : Type} (f : Registry ℚ → β) (v : β),
      (cgReg [("iterative method", "CG"), ("cg preconditioner", "SYMGS")]).map f = some v → f Rg = v := by
    intro β f v hv
    rw [h] at hv
    simpa using hv
  have h3 := key (fun R => R.getKey "cg preconditioner".toList) (some (some 3)) (by decide +kernel)
  refine ⟨Rg, ⟨1 / 1000000, 0, 500, true⟩, h, ⟨?_, ⟨3, h3, by simp⟩, ?_, ?_, ?_⟩, h3, by simp, rfl, ?_⟩
  · exact key (fun R => R.getKey "iterative method".toList) _ (by decide +kernel)
  · exact key (fun R => R.getReal "cg rel tolerance".toList) _ (by decide +kernel)
  · exact key (fun R => R.getReal "cg abs tolerance".toList) _ (by decide +kernel)
  · exact key (fun R => R.getInt "cg iteration limit".toList) _ (by decide +kernel)
  · exact key (fun R => R.readonly) _ (by decide +kernel)

end Props
end Verif
