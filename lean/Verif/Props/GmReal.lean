/-
C52 in exact arithmetic: the real numbers meet the hypotheses, and a solve over the real numbers in which `x` is
changed.
-/
import Verif.Props.GmExact
import Mathlib.Data.Real.Sqrt

namespace Verif
namespace Props
open Model Spec Proofs

/-- the functions of the solver over the real numbers -/
noncomputable def gmR : GNum ℝ ℝ where
  nrm l := √ (l.map fun a => a * a).sum
  lt a b := decide (a < b)
  le a b := decide (a ≤ b)
  isNan _ := false
  zeroF := 0
  mulF a b := a * b
  invF a := a⁻¹
  negF a := -a
  ofInt i := i
  toR a := a
  smul a b := a * b
  conj a := a
  abs a := |a|
  nearR a := decide (a = 0)
  nearF a := decide (a = 0)
  lartg f g := if f * f + g * g = 0 then (1, 0, 0) else
    (f / √ (f * f + g * g), g / √ (f * f + g * g), √ (f * f + g * g))

theorem sum_sq_nonneg (l : List ℝ) : 0 ≤ (l.map fun a => a * a).sum := by
  induction l with
  | nil => simp
  | cons a l ih => simpa using add_nonneg (mul_self_nonneg a) ih

theorem gmR_exact : ExactG gmR where
  nrm_nonneg l := Real.sqrt_nonneg _
  nrm_sq l := Real.sq_sqrt (sum_sq_nonneg l)
  lt _ _ := rfl
  le _ _ := rfl
  zeroF := rfl
  mulF _ _ := rfl
  invF _ := rfl
  negF _ := rfl
  toR _ := rfl
  smul _ _ := rfl
  conj _ := rfl
  abs _ := rfl
  nearR a h := by simpa [gmR] using h
  lartg_cs f g := by
    by_cases h : f * f + g * g = 0
    · simp [gmR, h]
    · have h0 : 0 ≤ f * f + g * g := add_nonneg (mul_self_nonneg _) (mul_self_nonneg _)
      have := Real.sq_sqrt h0
      simp only [gmR, if_neg h, div_pow, this]
      rw [← add_div, div_eq_one_iff_eq h]
      ring
  lartg_r f g := by
    by_cases h : f * f + g * g = 0
    · have hf : f = 0 := mul_self_eq_zero.1 (by linarith [mul_self_nonneg f, mul_self_nonneg g])
      have hg : g = 0 := mul_self_eq_zero.1 (by linarith [mul_self_nonneg f, mul_self_nonneg g])
      simp [gmR, hf, hg]
    · have h0 : 0 ≤ f * f + g * g := add_nonneg (mul_self_nonneg _) (mul_self_nonneg _)
      have h1 := Real.sq_sqrt h0
      have h2 : √ (f * f + g * g) ≠ 0 := fun e => h (by rw [← h1, e]; ring)
      simp only [gmR, if_neg h]
      rw [div_mul_eq_mul_div, div_mul_eq_mul_div, ← add_div, div_eq_iff h2, ← pow_two √ _, h1]
  lartg_0 f g := by
    by_cases h : f * f + g * g = 0
    · have hf : f = 0 := mul_self_eq_zero.1 (by linarith [mul_self_nonneg f, mul_self_nonneg g])
      have hg : g = 0 := mul_self_eq_zero.1 (by linarith [mul_self_nonneg f, mul_self_nonneg g])
      simp [gmR, hf, hg]
    · simp only [gmR, if_neg h]
      ring

/-- an option table: GMRES, no preconditioner, restart 1, relative tolerance 1/10, absolute tolerance 0, 50 iterations -/
noncomputable def realReg : Registry ℝ where
  readonly := false
  ints := [⟨"gmres iteration limit".toList, 50, 1, .greaterEqual, 0, .pInf⟩, ⟨"gmres restart iterations".toList, 1, 1, .greaterEqual, 0, .pInf⟩]
  reals := [⟨"gmres rel tolerance".toList, 1 / 10, 0, .greaterEqual, 0, .pInf⟩, ⟨"gmres abs tolerance".toList, 0, 0, .greaterEqual, 0, .pInf⟩]
  bools := []
  strs := [⟨"iterative method".toList, "gmres".toList, [("cg".toList, 1), ("gmres".toList, 2)]⟩,
    ⟨"gmres preconditioner".toList, "none".toList, [("none".toList, 0), ("user".toList, 1)]⟩]

noncomputable def realOpt : GmOpt ℝ := ⟨0, 1 / 10, 0, 50, 1⟩

theorem realReg_opts : GmOpts realReg realOpt := ⟨rfl, rfl, rfl, rfl, rfl, rfl⟩

/-- the system 3x - 4y = 5, 4x + 3y = 0 -/
noncomputable def realA : Matrix (Fin 2) (Fin 2) ℝ := !![3, -4; 4, 3]

noncomputable def realS : RciSt ℝ ℝ :=
  ⟨⟨2, some [5, 0], realReg, false, 0, none, none⟩, ⟨.stop, .null, .null⟩, [0, 0], List.replicate 100 0⟩

theorem realS_idle : GmIdle 2 1 1000 [5, 0] realReg realOpt 0 0 realS.H :=
  ⟨rfl, rfl, rfl, rfl, .inl rfl, by omega, by omega, .inl ⟨rfl, rfl, rfl, rfl, by omega, by omega⟩⟩

/-- the data before the first product -/
noncomputable def realG0 : GmData ℝ ℝ where
  v := [0, 0, 0, 0]
  z := [0, 0, 0, 0]
  h := [0]
  g := [0, 0]
  c := [0]
  s := [0]
  rnorm2 := 7
  bnorm2 := 7
  brtol := 7
  task := .initRes
  niter := 0
  j := 0
  restart := 1
  rtol := 1 / 10
  atol := 0
  maxit := 50
  precond := 0

/-- after the residual -/
noncomputable def realG1 : GmData ℝ ℝ :=
  { realG0 with v := [1, 0, 0, 0], g := [5, 0], rnorm2 := 5, bnorm2 := 5, brtol := 1 / 2, task := .startIter }

/-- after the cycle -/
noncomputable def realG2 : GmData ℝ ℝ :=
  { realG1 with v := [1, 0, 0, 1], h := [5], g := [3, -4], c := [3 / 5], s := [3 / 5], rnorm2 := 4,
                task := .restartCycle, niter := 1 }

noncomputable def realH (gm : GmData ℝ ℝ) : ItH ℝ ℝ := ⟨2, some [5, 0], realReg.lock, true, 2, none, some gm⟩

noncomputable def realI1 (I : List ℝ) : List ℝ := ((I.set 1 5).set 1 (1 / 2)).set 0 5
noncomputable def realI2 (I : List ℝ) : List ℝ := (((I.set 30 0).set 0 3).set 30 1).set 0 4

theorem real_call0 (num : Num ℝ ℝ) (g : Nat → ℝ) : rciSolve num gmR g 7 1000 realS =
    some (.success, ⟨realH realG0, ⟨.mv, .x, .gv 0⟩, [0, 0], List.replicate 100 0⟩) := rfl

theorem to1 : Int.toNat 1 = 1 := rfl
theorem to2 : Int.toNat 2 = 2 := rfl
theorem to3 : Int.toNat 3 = 3 := rfl
theorem to30 : Int.toNat 30 = 30 := rfl
theorem sqrt25 : √ (25 : ℝ) = 5 := by rw [show (25 : ℝ) = 5 ^ 2 by norm_num]; exact Real.sqrt_sq (by norm_num)
theorem sqrt16 : √ (16 : ℝ) = 4 := by rw [show (16 : ℝ) = 4 ^ 2 by norm_num]; exact Real.sqrt_sq (by norm_num)

theorem real_init {I : List ℝ} (hI : I.length = 100) :
    gmInitRes gmR 2 [5, 0] ⟨realG0, ⟨.mv, .x, .gv 0⟩, [0, 0], I⟩ =
      some (.success, ⟨realG1, ⟨.mv, .gv 0, .gv 2⟩, [0, 0], realI1 I⟩) := by
  norm_num [to1, to2, to3, to30, gmInitRes, gnrm, gmR, realG0, realG1, wr_0, wr_1, hI, forC, forN, axpbyBody, rd, wr, sqrt25, gmInitDone,
    scalBody, gmAfterInit, gmInitPrecond, realI1]

theorem real_cycle {I : List ℝ} (hI : I.length = 100) :
    gmStartIter gmR 2 ⟨{ realG1 with v := [1, 0, 3, 4] }, ⟨.mv, .gv 0, .gv 2⟩, [0, 0], I⟩ =
      some (.success, ⟨realG2, ⟨.crit, .gv 0, .gv 2⟩, [3 / 5, 0], realI2 I⟩) := by
  norm_num [to1, to2, to3, to30, gmStartIter, hessBody, orthBody, gdot, gdotBody, gnrm, gmR, realG0, realG1, realG2, hI, forC, forN, rd, wr,
    sqrt25, sqrt16, scalBody, gmRotate, gmXUpdate, backSolve, backInner, xUpdBody, belowAbs, belowRel, maxReached, realI2]

theorem run_mono {R Q : Type} [Zero R] [Neg R] [Add R] [Sub R] [Mul R] [Div R] [LinearOrder Q] {num : Num R Q}
    {gnum : GNum R Q} {g : Nat → R} {gq : Q} {w : Int} {ans ans' : Job → List R → List R → Prop} {S : RciSt R Q}
    (h : ∀ job u a, ans job u a → ans' job u a) {k : Nat} {q : Status × RciSt R Q}
    (hr : GmRun num gnum g gq w ans S k q) : GmRun num gnum g gq w ans' S k q := by
  induction hr with
  | first e => exact .first e
  | next _ hc ih =>
    refine .next ih ?_
    cases hc with
    | answer h1 h2 h3 h4 h5 h6 h7 => exact .answer h1 h2 h3 (h _ _ _ h4) h5 h6 h7
    | goOn h1 h2 => exact .goOn h1 h2
    | stop h1 h2 => exact .stop h1 h2

/-- the calls up to the first monitoring step -/
theorem real_run (num : Num ℝ ℝ) (g : Nat → ℝ) :
    ∃ q, GmRun num gmR g 7 1000 (exactBoth realA 1) realS 1 q ∧
      GmCall num gmR g 7 1000 (exactBoth realA 1) q
        (.success, ⟨realH realG2, ⟨.crit, .gv 0, .gv 2⟩, [3 / 5, 0], realI2 (realI1 (List.replicate 100 0))⟩) := by
  refine ⟨(.success, ⟨realH realG1, ⟨.mv, .gv 0, .gv 2⟩, [0, 0], realI1 (List.replicate 100 0)⟩),
    .next (.first (real_call0 num g)) (.answer (gm := realG0) (u := [0, 0]) (a := [0, 0])
      (S' := ⟨realH realG0, ⟨.mv, .x, .gv 0⟩, [0, 0], List.replicate 100 0⟩) (.inl rfl) rfl rfl ?_ rfl rfl ?_),
    .answer (gm := realG1) (u := [1, 0]) (a := [3, 4])
      (S' := ⟨realH { realG1 with v := [1, 0, 3, 4] }, ⟨.mv, .gv 0, .gv 2⟩, [0, 0], realI1 (List.replicate 100 0)⟩)
      (.inl rfl) rfl rfl ?_ rfl rfl ?_⟩
  · refine ⟨fun _ => ?_, nofun⟩
    funext i
    fin_cases i <;> simp [vecOf, realA, Matrix.mulVec, dotProduct]
  · have := real_init (I := List.replicate 100 0) (by simp)
    show ((gmInitRes gmR 2 [5, 0] ⟨realG0, ⟨.mv, .x, .gv 0⟩, [0, 0], List.replicate 100 0⟩).bind fun r =>
      some (r.1, ⟨realH r.2.gm, r.2.c, r.2.x, r.2.rinfo⟩)).bind (fun q => some (rciFinish q)) = _
    rw [this]
    rfl
  · refine ⟨fun _ => ?_, nofun⟩
    funext i
    fin_cases i <;> simp [vecOf, realA, Matrix.mulVec, dotProduct]
  · have := real_cycle (I := realI1 (List.replicate 100 0)) (by simp [realI1])
    show ((gmStartIter gmR 2 ⟨{ realG1 with v := [1, 0, 3, 4] }, ⟨.mv, .gv 0, .gv 2⟩, [0, 0],
        realI1 (List.replicate 100 0)⟩).bind fun r =>
      some (r.1, ⟨realH r.2.gm, r.2.c, r.2.x, r.2.rinfo⟩)).bind (fun q => some (rciFinish q)) = _
    rw [this]
    rfl

/-- the hypotheses of C52_residual, C52_minimal, C52_krylov and C52_monotone: the system 3x - 4y = 5, 4x + 3y = 0 -/
example (num : Num ℝ ℝ) (g : Nat → ℝ) : ExactG gmR ∧ GmOpts realReg realOpt ∧
    GmIdle 2 1 1000 [5, 0] realReg realOpt 0 0 realS.H ∧ realReg.readonly = false ∧ realS.x.length = 2 ∧
    realS.rinfo.length = 100 ∧ 0 < realOpt.rtol ∧ vecOf 2 [(5 : ℝ), 0] ≠ 0 ∧
    resSq realA (vecOf 2 [5, 0]) (vecOf 2 realS.x) ≠ 0 ∧
    ∃ q q', GmRun num gmR g 7 1000 (exactBoth realA 1) realS 1 q ∧
      GmCall num gmR g 7 1000 (exactBoth realA 1) q q' ∧
      GmRun num gmR g 7 1000 (exactAnswers realA) realS 2 q' ∧ q'.2.c.job = .crit ∧ q'.2.x = [3 / 5, 0] := by
  obtain ⟨q, h1, h2⟩ := real_run num g
  refine ⟨gmR_exact, realReg_opts, realS_idle, rfl, rfl, rfl, by norm_num [realOpt], fun e => ?_, ?_, q, _, h1, h2,
    run_mono (fun _ _ _ h => h.1) (.next h1 h2), rfl, rfl⟩
  · have := congrFun e 0
    simp [vecOf] at this
  · simp [resSq, vecOf, realS, realA, Matrix.mulVec, dotProduct, Fin.sum_univ_two]

/-- the hypotheses of C52_success: relative tolerance 2, the start vector is good enough -/
example (num : Num ℝ ℝ) (g : Nat → ℝ) :
    let Rg : Registry ℝ := { realReg with reals := [⟨"gmres rel tolerance".toList, 2, 0, .greaterEqual, 0, .pInf⟩,
      ⟨"gmres abs tolerance".toList, 0, 0, .greaterEqual, 0, .pInf⟩] }
    let S : RciSt ℝ ℝ := { realS with H := { realS.H with opts := Rg } }
    GmOpts Rg { realOpt with rtol := 2 } ∧ GmIdle 2 1 1000 [5, 0] Rg { realOpt with rtol := 2 } 0 0 S.H ∧
    ∃ q q', GmRun num gmR g 7 1000 (exactAnswers realA) S 0 q ∧
      GmCall num gmR g 7 1000 (exactAnswers realA) q q' ∧ q.2.c.u = .x ∧ q'.1 = .success ∧ q'.2.c.job = .stop := by
  intro Rg S
  have hi : gmInitRes gmR 2 [5, 0] ⟨{ realG0 with rtol := 2 }, ⟨.mv, .x, .gv 0⟩, [0, 0], List.replicate 100 0⟩ =
      some (.success, ⟨{ realG0 with rtol := 2, v := [5, 0, 0, 0], g := [5, 0], rnorm2 := 5, bnorm2 := 5, brtol := 10 },
        ⟨.stop, .x, .gv 0⟩, [0, 0], (((List.replicate 100 0).set 1 10).set 0 5).set 30 0⟩) := by
    generalize hI : List.replicate 100 (0 : ℝ) = I
    have : I.length = 100 := by rw [← hI]; rfl
    norm_num [to1, to2, to3, to30, gmInitRes, gnrm, gmR, realG0, realG1, wr_0, wr_1, this, forC, forN, axpbyBody, rd, wr,
      sqrt25, gmInitDone]
  refine ⟨⟨rfl, rfl, rfl, rfl, rfl, rfl⟩,
    ⟨rfl, rfl, rfl, rfl, .inl rfl, by omega, by omega, .inl ⟨rfl, rfl, rfl, rfl, by omega, by omega⟩⟩,
    (.success, ⟨{ realH { realG0 with rtol := 2 } with opts := Rg.lock }, ⟨.mv, .x, .gv 0⟩, [0, 0],
      List.replicate 100 0⟩), _, .first rfl,
    .answer (gm := { realG0 with rtol := 2 }) (u := [0, 0]) (a := [0, 0])
      (S' := ⟨{ realH { realG0 with rtol := 2 } with opts := Rg.lock }, ⟨.mv, .x, .gv 0⟩, [0, 0],
        List.replicate 100 0⟩) (q' := (.success, ⟨{ realH { realG0 with
        rtol := 2, v := [5, 0, 0, 0], g := [5, 0], rnorm2 := 5, bnorm2 := 5, brtol := 10 } with opts := Rg, solving := false }, ⟨.stop, .x, .gv 0⟩, [0, 0],
        (((List.replicate 100 0).set 1 10).set 0 5).set 30 0⟩)) (.inl rfl) rfl rfl ?_ rfl rfl ?_, rfl, rfl, rfl⟩
  · intro _
    funext i
    fin_cases i <;> simp [vecOf, realA, Matrix.mulVec, dotProduct]
  · show ((gmInitRes gmR 2 [5, 0] ⟨{ realG0 with rtol := 2 }, ⟨.mv, .x, .gv 0⟩, [0, 0], List.replicate 100 0⟩).bind fun r =>
      some (r.1, ⟨{ realH r.2.gm with opts := Rg.lock }, r.2.c, r.2.x, r.2.rinfo⟩)).bind (fun q => some (rciFinish q)) = _
    rw [hi]
    rfl

/-- the hypotheses of C52_no_update: the same system with restart 2 -/
example :
    let Rg : Registry ℝ := { realReg with ints := [⟨"gmres iteration limit".toList, 50, 1, .greaterEqual, 0, .pInf⟩,
      ⟨"gmres restart iterations".toList, 2, 1, .greaterEqual, 0, .pInf⟩] }
    let S : RciSt ℝ ℝ := { realS with H := { realS.H with opts := Rg } }
    GmOpts Rg { realOpt with restart := 2 } ∧ GmIdle 2 2 1000 [5, 0] Rg { realOpt with restart := 2 } 0 0 S.H :=
  ⟨⟨rfl, rfl, rfl, rfl, rfl, rfl⟩,
    ⟨rfl, rfl, rfl, rfl, .inl rfl, by omega, by omega, .inl ⟨rfl, rfl, rfl, rfl, by omega, by omega⟩⟩⟩

/-- what C52_residual says of that step: the reported 4 is the norm of the residual of (3/5, 0) -/
example : resSq realA (vecOf 2 [5, 0]) (vecOf 2 [3 / 5, 0]) = 4 ^ 2 := by
  norm_num [resSq, vecOf, realA, Matrix.mulVec, dotProduct, Fin.sum_univ_two]

end Props
end Verif
