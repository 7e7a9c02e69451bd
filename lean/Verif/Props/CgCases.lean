/-
C41: a solve in which everything can be computed, and what the documentation does not say.
-/
import Verif.Props.CgDirect
import Mathlib.LinearAlgebra.Matrix.Notation
import Mathlib.LinearAlgebra.Matrix.ToLin

namespace Verif
namespace Props
open Model Spec Proofs
open Matrix

/-- exact arithmetic over ℚ, with the largest absolute value as the norm; `bad` is the breakdown test -/
def cgNum (bad : ℚ → Bool) : Num ℚ ℚ where
  nrm l := some (l.foldl (fun s v => max s |v|) 0)
  zeroQ := 0
  mulQ a b := a * b
  ofInt i := i
  isBad := bad
  isZero v := decide (v = 0)
  rz0 := 1

def cgGNum : GNum ℚ ℚ where
  nrm l := l.foldl (fun s v => max s |v|) 0
  lt a b := decide (a < b)
  le a b := decide (a ≤ b)
  isNan _ := false
  zeroF := 0
  mulF a b := a * b
  invF a := a⁻¹
  negF a := -a
  ofInt i := i
  toR a := a
  smul a b := a * b
  conj a := a
  abs a := |a|
  nearR a := decide (a = 0)
  nearF a := decide (a = 0)
  lartg a b := (a, b, a)

/-- what the monitor was called with -/
abbrev CgLog := List (Option (List ℚ) × Option (List ℚ))

/-- the product with [[a, c], [c, d]]; a monitor that writes down the vectors it gets -/
def cgEnv (a c d : ℚ) : Env ℚ ℚ CgLog where
  mv t u _ := some (.success, [a * u.getD 0 0 + c * u.getD 1 0, c * u.getD 0 0 + d * u.getD 1 0], t)
  precond := none
  monit := some fun t _ u v rinfo => some (0, rinfo, t ++ [(u, v)])
  builtin t u _ := some (.success, u, t)

/-- a registry after calls that set options -/
def cgReg (cs : List (String × String)) : Option (Registry ℚ) := do
  let R0 ← registerOptions (0 : ℚ) 1 (1 / 1000000) 0
  let r ← runReg exStod (cs.map fun c => .set (some c.1.toList) (some c.2.toList)) R0
  some r.2

/-- a call of the direct interface: status, x, the entries 0, 1, 30 of rinfo, and the log of the monitor -/
def cgRun (bad : ℚ → Bool) (a c d : ℚ) (cs : List (String × String)) (b : List ℚ) (x : List ℚ) :
    Option (Status × List ℚ × List (Option ℚ) × CgLog) := do
  let Rg ← cgReg cs
  let q ← itsolSolve (cgNum bad) cgGNum (cgEnv a c d) (fun _ => 7) 7 32 100 2 2 1 0 0 (fun t => some (.success, t))
    (fun _ => true) (fun D => some (.notImplemented, D)) 2 (some b)
    ⟨⟨itsolInit Rg, ⟨.stop, .null, .null⟩, x, List.replicate 100 5⟩, []⟩
  some (q.1, q.2.S.x, [q.2.S.rinfo[0]?, q.2.S.rinfo[1]?, q.2.S.rinfo[30]?], q.2.t)

/-- the system 4x + y = 1, x + 3y = 2 with start (2, 1): solved in two iterations, with x = (1/11, 7/11) -/
example : (cgRun (fun v => decide (v ≤ 0)) 4 1 3 [("iterative method", "CG")] [1, 2] [2, 1]).map
    (fun q => (q.1, q.2.1, q.2.2.1)) = some (.success, [1 / 11, 7 / 11], [some 0, some 2, some 2]) := by
  decide +kernel

/-- The monitor gets the residual where the documentation of aoclsparse_itsol_?_solve has the iterate x, and a null
pointer where it has the residual. -/
theorem C41_monitor_gets_residual :
    (cgRun (fun v => decide (v ≤ 0)) 4 1 3 [("iterative method", "CG")] [1, 2] [2, 1]).map
      (fun q => q.2.2.2.head?) = some (some (some [4 * 2 + 1 * 1 - 1, 1 * 2 + 3 * 1 - 2], none)) := by
  decide +kernel

/-- With an iteration limit of 1 the solver does a second iteration before it reports the limit; the second
iteration here reaches the solution, so a limit of 1 gives success after 2 iterations. -/
theorem C41_one_more_iteration :
    (cgRun (fun v => decide (v ≤ 0)) 4 1 3 [("iterative method", "CG"), ("cg iteration limit", "1")] [1, 2] [2, 1]).map
      (fun q => (q.1, q.2.2.1)) = some (.success, [some 0, some 2, some 2]) := by
  decide +kernel

/-- The breakdown test compares with a fixed positive threshold `eps`, not with the size of the data: a positive
definite system in exact arithmetic is refused as a numerical error when its right-hand side is small.  The same
system with a larger right-hand side is solved. -/
theorem C41_small_rhs :
    (cgRun (fun v => decide (v ≤ 1 / 100)) 4 1 3 [("iterative method", "CG")] [1 / 100, 2 / 100] [0, 0]).map
      (fun q => q.1) = some .numericalError ∧
    (cgRun (fun v => decide (v ≤ 1 / 100)) 4 1 3 [("iterative method", "CG")] [1, 2] [0, 0]).map
      (fun q => (q.1, q.2.1)) = some (.success, [1 / 11, 7 / 11]) := by
  decide +kernel

/-- the hypotheses of C41_talk, C41_direct -/
example : ∃ Rg o, cgReg [("iterative method", "CG")] = some Rg ∧ CgOpts Rg o ∧ o.maxit = 500 ∧
    o.pre = false ∧ Rg.readonly = false ∧ IdleH (fun i : Fin 2 => (i : ℚ)) Rg
      { (itsolInit Rg : ItH ℚ ℚ) with n := 2, b := some [0, 1] } := by
  obtain ⟨Rg, h⟩ : ∃ Rg, cgReg [("iterative method", "CG")] = some Rg :=
    Option.isSome_iff_exists.1 (by decide +kernel)
  have key : ∀ {β : Type} (f : Registry ℚ → β) (v : β), (cgReg [("iterative method", "CG")]).map f = some v → f Rg = v := by
    intro β f v hv
    rw [h] at hv
    simpa using hv
  refine ⟨Rg, ⟨1 / 1000000, 0, 500, false⟩, h, ⟨?_, ⟨0, ?_, by simp⟩, ?_, ?_, ?_⟩, rfl, rfl, ?_, ⟨rfl, rfl, rfl,
    Or.inl rfl, fun cg e => by cases e⟩⟩
  · exact key (fun R => R.getKey "iterative method".toList) _ (by decide +kernel)
  · exact key (fun R => R.getKey "cg preconditioner".toList) _ (by decide +kernel)
  · exact key (fun R => R.getReal "cg rel tolerance".toList) _ (by decide +kernel)
  · exact key (fun R => R.getReal "cg abs tolerance".toList) _ (by decide +kernel)
  · exact key (fun R => R.getInt "cg iteration limit".toList) _ (by decide +kernel)
  · exact key (fun R => R.readonly) _ (by decide +kernel)

/-- the environment of the example multiplies by the matrix -/
example (a c d : ℚ) : EnvOk (cgEnv a c d) 0 2 (fun u => ![a * u 0 + c * u 1, c * u 0 + d * u 1]) id (fun _ => True) where
  mv t _ u v _ := ⟨t, by simp [cgEnv], trivial⟩
  precond h := by cases h
  builtin h := by cases h
  monit f hf t _ u rinfo := by
    cases hf
    exact ⟨0, _, rfl, trivial⟩

/-- exact arithmetic as C41_exact wants it -/
example (b : Fin 2 → ℚ) : ExactNum (cgNum fun v => decide (v ≤ 0)) ⟨1 / 1000000, 0, 500, false⟩ b where
  nrm v := by simp [cgNum]
  bad v h := of_decide_eq_true h
  zero v h := of_decide_eq_true h
  rz0 := rfl
  test V h1 h2 h3 := by
    refine Or.inr ⟨by simp [cgNum], ?_⟩
    rw [h1] at h2
    have e : V.rnorm = 0 := by
      simp [cgNum] at h2
      exact h2.symm
    have : (0 : ℚ) ≤ V.bnorm := by
      simp [cgNum] at h3
      rw [← h3]
      positivity
    rw [e]
    simp only [cgNum]
    positivity

/-- a positive definite matrix -/
example : Spd (R := ℚ) (Matrix.mulVecLin !![4, 1; 1, 3]) where
  symm u v := by simp [dotProduct, Fin.sum_univ_two, Matrix.mulVec]; ring
  pos u h := by
    have h2 : u 0 ≠ 0 ∨ u 1 ≠ 0 := by
      by_contra hc
      push_neg at hc
      exact h (by funext i; fin_cases i <;> simp [hc.1, hc.2])
    simp [dotProduct, Fin.sum_univ_two, Matrix.mulVec]
    rcases h2 with h2 | h2
    · nlinarith [sq_nonneg (u 0 + u 1), pow_pos (abs_pos.2 h2) 2, sq_abs (u 0), sq_nonneg (u 1)]
    · nlinarith [sq_nonneg (u 0 + u 1), pow_pos (abs_pos.2 h2) 2, sq_abs (u 1), sq_nonneg (u 0)]

end Props
end Verif
