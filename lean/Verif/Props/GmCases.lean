/-
C52: solves in which everything can be computed, and what the documentation does not say.
-/
import Verif.Props.CgCases
import Verif.Props.GmExact
import Verif.Props.GmDirect
import Mathlib.Order.WithBot

namespace Verif
namespace Props
open Model Spec Proofs

/-- the smallest number whose square is at least `n` -/
def isqrt (n : Nat) : Nat := ((List.range (n + 1)).find? fun k => n ≤ k * k).getD 0

/-- the square root of a rational number that is a square -/
def rsqrt (q : ℚ) : ℚ := (isqrt q.num.toNat : ℚ) / isqrt q.den

/-- the functions of the solver over ℚ, with square roots that are exact for squares -/
def gmQ : GNum ℚ ℚ := { cgGNum with
  nrm := fun l => rsqrt (l.map fun a => a * a).sum
  lartg := fun f g =>
    let r := rsqrt (f * f + g * g)
    if r = 0 then (1, 0, 0) else (f / r, g / r, r) }

/-- a handle with options and a right-hand side, a start vector, and rinfo full of fives -/
def gmState (cs : List (String × String)) (b x : List ℚ) : Option (RciSt ℚ ℚ) := do
  let Rg ← cgReg cs
  let r ← rciInput (fun _ => 7) (some (itsolInit Rg)) b.length (some b)
  let H ← r.2
  some ⟨H, ⟨.stop, .null, .null⟩, x, List.replicate 100 5⟩

/-- a user who multiplies with [[a, b], [c, d]], and copies for the preconditioner -/
def gmUser (a b c d : ℚ) (job : Job) (u : List ℚ) : List ℚ :=
  if job = .mv then [a * u.getD 0 0 + b * u.getD 1 0, c * u.getD 0 0 + d * u.getD 1 0]
  else [u.getD 0 0, u.getD 1 0]

/-- call number `k` of a solve: status, request, x, the entries 0, 1, 30 of rinfo -/
def gmGo (cs : List (String × String)) (b x : List ℚ) (rep : Job → List ℚ → List ℚ) (k : Nat) :
    Option (Status × Comm × List ℚ × List (Option ℚ)) := do
  let S ← gmState cs b x
  let q ← gmDrive (cgNum fun v => decide (v ≤ 0)) gmQ (fun _ => 7) 7 1000 rep S k
  some (q.1, q.2.c, q.2.x, [q.2.rinfo[0]?, q.2.rinfo[1]?, q.2.rinfo[30]?])

/-- a solve with 3x - 4y = 5, 4x + 3y = 0 and restart 1: the residual is 5, then 4, then 16/5, then ... -/
example : (List.range 7).map (fun k =>
    (gmGo [("iterative method", "GMRES"), ("gmres restart iterations", "1")] [5, 0] [0, 0] (gmUser 3 (-4) 4 3) k).map
      fun q => (q.2.1, q.2.2.1)) =
    [some (⟨.mv, .x, .gv 0⟩, [0, 0]), some (⟨.mv, .gv 0, .gv 2⟩, [0, 0]),
     some (⟨.crit, .gv 0, .gv 2⟩, [3 / 5, 0]), some (⟨.mv, .x, .gv 0⟩, [3 / 5, 0]),
     some (⟨.mv, .gv 0, .gv 2⟩, [3 / 5, 0]), some (⟨.crit, .gv 0, .gv 2⟩, [123 / 125, -36 / 125]),
     some (⟨.mv, .x, .gv 0⟩, [123 / 125, -36 / 125])] := by
  decide +kernel

/-- the calls of `gmDrive` are calls of a solve -/
theorem drive_run {R Q : Type} [Zero R] [Neg R] [Add R] [Sub R] [Mul R] [Div R] [LinearOrder Q] {num : Num R Q}
    {gnum : GNum R Q} {g : Nat → R} {gq : Q} {w : Int} {rep : Job → List R → List R} {S : RciSt R Q} {n : Nat}
    (hn : ∀ k q, gmDrive num gnum g gq w rep S k = some q → q.2.H.n = n) (hl : ∀ job u, (rep job u).length = n)
    {k : Nat} {q : Status × RciSt R Q} (h : gmDrive num gnum g gq w rep S k = some q) :
    GmRun num gnum g gq w (fun job u a => a = rep job u) S k q := by
  induction k generalizing q with
  | zero => exact .first h
  | succ k ih =>
    rw [gmDrive] at h
    simp only [Option.bind_eq_bind, Option.bind_eq_some_iff] at h
    obtain ⟨q0, h0, h⟩ := h
    refine .next (ih h0) ?_
    split at h
    · rename_i hj
      simp only [Option.bind_eq_some_iff] at h
      obtain ⟨gm, h1, u, h2, S', h3, h4⟩ := h
      refine .answer hj h1 h2 rfl ?_ h3 h4
      rw [hl, hn k q0 h0]
    · split at h
      · rename_i hj
        exact .goOn hj h
      · simp at h

/-- the hypotheses of C52_calls, C52_order, C52_terminates, C52_maxit, C52_again: a new handle, right-hand side (5, 0),
GMRES with restart 1 and a preconditioner of the user -/
example : ∃ Rg o H, cgReg [("iterative method", "GMRES"), ("gmres preconditioner", "User"),
      ("gmres restart iterations", "1")] = some Rg ∧
    rciInput (fun _ => 7) (some (itsolInit Rg)) 2 (some [5, 0]) = some (.success, some H) ∧
    GmOpts Rg o ∧ o.maxit = 150 ∧ o.pre = 1 ∧ Rg.readonly = false ∧
    GmIdle (R := ℚ) 2 1 1000 [5, 0] Rg o 0 0 H := by
  obtain ⟨Rg, h⟩ : ∃ Rg, cgReg [("iterative method", "GMRES"), ("gmres preconditioner", "User"),
      ("gmres restart iterations", "1")] = some Rg := Option.isSome_iff_exists.1 (by decide +kernel)
  have key : ∀ {β : Type} (f : Registry ℚ → β) (v : β), (cgReg [("iterative method", "GMRES"),
      ("gmres preconditioner", "User"), ("gmres restart iterations", "1")]).map f = some v → f Rg = v := by
    intro β f v hv
    rw [h] at hv
    simpa using hv
  refine ⟨Rg, ⟨1, 1 / 1000000, 0, 150, 1⟩, _, h, rfl, ⟨?_, ?_, ?_, ?_, ?_, ?_⟩, rfl, rfl, ?_,
    ⟨rfl, rfl, rfl, rfl, Or.inl rfl, by omega, by omega, Or.inl ⟨rfl, rfl, rfl, rfl, by omega, by omega⟩⟩⟩
  · exact key (fun R => R.getKey "iterative method".toList) _ (by decide +kernel)
  · exact key (fun R => R.getKey "gmres preconditioner".toList) _ (by decide +kernel)
  · exact key (fun R => R.getReal "gmres rel tolerance".toList) _ (by decide +kernel)
  · exact key (fun R => R.getReal "gmres abs tolerance".toList) _ (by decide +kernel)
  · exact key (fun R => R.getInt "gmres iteration limit".toList) _ (by decide +kernel)
  · exact key (fun R => R.getInt "gmres restart iterations".toList) _ (by decide +kernel)
  · exact key (fun R => R.readonly) _ (by decide +kernel)

/-- with that handle, a solve that ends with the iteration limit -/
example : (gmGo [("iterative method", "GMRES"), ("gmres preconditioner", "User"), ("gmres restart iterations", "1"),
      ("gmres iteration limit", "2")] [5, 0] [0, 0] (gmUser 3 (-4) 4 3) 8).map (fun q => (q.1, q.2.1.job, q.2.2.1)) =
    some (.maxit, .stop, [123 / 125, -36 / 125]) := by
  decide +kernel

/-- Success without a solution: the identity matrix, right-hand side (3, 4), start vector 0, all options as they are.
The first inner iteration finds that the solution is in the space of the first basis vector, and the solver stops with
success; `x` is still 0, and the reported residual norm is 0 where it is 5. -/
theorem C52_breakdown_success :
    gmGo [("iterative method", "GMRES")] [3, 4] [0, 0] (gmUser 1 0 0 1) 2 =
      some (.success, ⟨.stop, .gv 0, .gv 2⟩, [0, 0], [some 0, some (5 / 1000000), some 1]) := by
  decide +kernel

/-- In rinfo[1], documented as the norm of the right-hand side, stands the relative tolerance times the norm. -/
theorem C52_rhs_norm :
    (gmGo [("iterative method", "GMRES"), ("gmres rel tolerance", "2")] [3, 4] [1000, 0] (gmUser 1 0 0 1) 1).map
      (fun q => q.2.2.2[1]?) = some (some (some 10)) := by
  decide +kernel

/-- A solve that the user stops in an inner iteration leaves its number of inner iterations in the handle: the next
solve with the same right-hand side starts in the middle of a cycle.  Here restart is 2 and the user stops at the
product of inner iteration 1 (the second); the next solve asks, after the product with `x`, for the product with
basis vector 1, which has nothing to do with the residual. -/
theorem C52_stale_iteration :
    (do
      let S ← gmState [("iterative method", "GMRES"), ("gmres restart iterations", "2")] [5, 0] [0, 0]
      let q ← gmDrive (cgNum fun v => decide (v ≤ 0)) gmQ (fun _ => 7) 7 1000 (gmUser 3 (-4) 4 3) S 2
      let q' ← rciSolve (cgNum fun v => decide (v ≤ 0)) gmQ (fun _ => 7) 7 1000 (userStop q.2)
      let p ← gmDrive (cgNum fun v => decide (v ≤ 0)) gmQ (fun _ => 7) 7 1000 (gmUser 3 (-4) 4 3) q'.2 1
      some (q'.1, p.2.c)) = some (.userStop, ⟨.mv, .gv 2, .gv 4⟩) := by
  decide +kernel

/-! ### the direct interface -/

/-- a user with the matrix [[3, -4], [4, 3]], a preconditioner that halves, and a monitor that keeps what it gets -/
def gmEnv : Env ℚ ℚ CgLog where
  mv t u _ := some (.success, gmUser 3 (-4) 4 3 .mv u, t)
  precond := some fun t _ u _ => some (0, [u.getD 0 0 / 2, u.getD 1 0 / 2], t)
  monit := some fun t _ u v rinfo => some (0, rinfo, t ++ [(u, v)])
  builtin t u _ := some (.success, [u.getD 0 0, u.getD 1 0], t)

/-- the environment of C52_direct, with preconditioners of all kinds -/
example (pre : Int) : GmEnv gmEnv 2 pre (fun _ _ a => a.length = 2) (fun _ => True) where
  mv t u v _ _ _ := ⟨_, _, rfl, rfl, rfl, trivial⟩
  user _ := ⟨_, rfl, fun t u v _ _ _ => ⟨_, _, _, rfl, rfl, rfl, trivial⟩⟩
  builtin _ t u v _ _ _ := ⟨_, _, _, rfl, rfl, rfl, trivial⟩
  copy _ _ u hu := hu
  monit f hf t u v info _ := by
    cases hf
    exact ⟨_, _, rfl, trivial⟩

/-- The monitor of the direct interface is documented to get `x` and the residual; it gets the last basis vector and
what is left of the product with it.  Here the solve has one cycle: x = (3/5, 0), the monitor gets (1, 0), (0, 1). -/
theorem C52_monitor_gets_basis :
    (do
      let Rg ← cgReg [("iterative method", "GMRES"), ("gmres restart iterations", "1"), ("gmres iteration limit", "1")]
      let q ← itsolSolve (cgNum fun v => decide (v ≤ 0)) gmQ gmEnv (fun _ => 7) 7 1000 100 2 2 0 0 0
        (fun t => some (.success, t)) (fun _ => true)
        (gmSolve (cgNum fun v => decide (v ≤ 0)) gmQ gmEnv (fun _ => 7) 7 1000 100 2 2) 2 (some [5, 0])
        ⟨⟨itsolInit Rg, ⟨.stop, .null, .null⟩, [0, 0], List.replicate 100 5⟩, []⟩
      some (q.1, q.2.S.x, q.2.t)) = some (.maxit, [3 / 5, 0], [(some [1, 0], some [0, 1])]) := by
  decide +kernel

/-- with the preconditioner of the user -/
example : (do
      let Rg ← cgReg [("iterative method", "GMRES"), ("gmres restart iterations", "1"), ("gmres iteration limit", "1"),
        ("gmres preconditioner", "user")]
      let q ← itsolSolve (cgNum fun v => decide (v ≤ 0)) gmQ gmEnv (fun _ => 7) 7 1000 100 2 2 0 0 0
        (fun t => some (.success, t)) (fun _ => true)
        (gmSolve (cgNum fun v => decide (v ≤ 0)) gmQ gmEnv (fun _ => 7) 7 1000 100 2 2) 2 (some [5, 0])
        ⟨⟨itsolInit Rg, ⟨.stop, .null, .null⟩, [0, 0], List.replicate 100 5⟩, []⟩
      some (q.1, q.2.S.x)) = some (.maxit, [3 / 5, 0]) := by
  decide +kernel

/-! ### complex scalars -/

/-- Gaussian rationals: complex numbers with rational parts -/
structure Gq where
  re : ℚ
  im : ℚ
deriving DecidableEq

instance : Zero Gq := ⟨⟨0, 0⟩⟩
instance : Neg Gq := ⟨fun a => ⟨-a.re, -a.im⟩⟩
instance : Add Gq := ⟨fun a b => ⟨a.re + b.re, a.im + b.im⟩⟩
instance : Sub Gq := ⟨fun a b => ⟨a.re - b.re, a.im - b.im⟩⟩
instance : Mul Gq := ⟨fun a b => ⟨a.re * b.re - a.im * b.im, a.re * b.im + a.im * b.re⟩⟩
instance : Div Gq := ⟨fun a b =>
  let d := b.re * b.re + b.im * b.im
  ⟨(a.re * b.re + a.im * b.im) / d, (a.im * b.re - a.re * b.im) / d⟩⟩

/-- square of the absolute value -/
def Gq.sq (a : Gq) : ℚ := a.re * a.re + a.im * a.im

/-- the solver's functions for complex scalars; the rotation of ?lartg for f ≠ 0: c = |f|/√(|f|²+|g|²),
s = (f/|f|)·conj(g)/√(|f|²+|g|²), r = (f/|f|)·√(|f|²+|g|²) -/
def gmGq : GNum Gq ℚ where
  nrm l := rsqrt (l.map Gq.sq).sum
  lt a b := decide (a < b)
  le a b := decide (a ≤ b)
  isNan _ := false
  zeroF := 0
  mulF a b := a * b
  invF a := a⁻¹
  negF a := -a
  ofInt i := i
  toR a := ⟨a, 0⟩
  smul a b := ⟨a * b.re, a * b.im⟩
  conj a := ⟨a.re, -a.im⟩
  abs a := rsqrt a.sq
  nearR a := decide (a.sq = 0)
  nearF a := decide (a = 0)
  lartg f g :=
    let r := rsqrt (f.sq + g.sq)
    let af := rsqrt f.sq
    (af / r, ⟨f.re / af / r, f.im / af / r⟩ * ⟨g.re, -g.im⟩, ⟨f.re / af * r, f.im / af * r⟩)

def numGq : Num Gq ℚ where
  nrm _ := none
  zeroQ := 0
  mulQ a b := a * b
  ofInt i := i
  isBad _ := false
  isZero _ := false
  rz0 := ⟨1, 0⟩

/-- a user who multiplies with [[a, b], [c, d]] -/
def userGq (a b c d : Gq) (_ : Job) (u : List Gq) : List Gq :=
  [a * u.getD 0 0 + b * u.getD 1 0, c * u.getD 0 0 + d * u.getD 1 0]

/-- With complex scalars the update of `x` uses the conjugates of the basis vectors: a cycle makes the residual
larger, and the reported norm is not the norm of the residual.  The system is 3x - 4y = i, 4x + 3y = 0, start 0,
restart 1.  After the first cycle x = (-3i/25, 0) where it should be (3i/25, 0); the residual is (34i/25, 12i/25), of
square norm 52/25 > 1, and the reported norm is 4/5. -/
theorem C52_complex_diverges :
    (do
      let Rg ← cgReg [("iterative method", "GMRES"), ("gmres restart iterations", "1")]
      let r ← rciInput (fun _ => ⟨7, 7⟩) (some (itsolInit Rg)) 2 (some [⟨0, 1⟩, ⟨0, 0⟩])
      let H ← r.2
      let q ← gmDrive numGq gmGq (fun _ => ⟨7, 7⟩) 7 1000 (userGq ⟨3, 0⟩ ⟨-4, 0⟩ ⟨4, 0⟩ ⟨3, 0⟩)
        ⟨H, ⟨.stop, .null, .null⟩, [⟨0, 0⟩, ⟨0, 0⟩], List.replicate 100 5⟩ 2
      let ax := userGq ⟨3, 0⟩ ⟨-4, 0⟩ ⟨4, 0⟩ ⟨3, 0⟩ .mv q.2.x
      some (q.2.c.job, q.2.x, q.2.rinfo.head?, ((⟨0, 1⟩ : Gq) - ax.getD 0 0).sq + ((⟨0, 0⟩ : Gq) - ax.getD 1 0).sq)) =
      some (.crit, [⟨0, -3 / 25⟩, ⟨0, 0⟩], some (4 / 5), 52 / 25) := by
  decide +kernel

/-! ### an exact start vector -/

/-- rational numbers and NaN (`none`; also for infinity) -/
structure Fl where
  val : Option ℚ
deriving DecidableEq

def Fl.op (f : ℚ → ℚ → ℚ) (a b : Fl) : Fl := ⟨a.val.bind fun x => b.val.map (f x)⟩

instance : Zero Fl := ⟨⟨some 0⟩⟩
instance : Neg Fl := ⟨fun a => ⟨a.val.map fun x => -x⟩⟩
instance : Add Fl := ⟨Fl.op (· + ·)⟩
instance : Sub Fl := ⟨Fl.op (· - ·)⟩
instance : Mul Fl := ⟨Fl.op (· * ·)⟩
instance : Div Fl := ⟨fun a b => if b.val = some 0 then ⟨none⟩ else Fl.op (· / ·) a b⟩

/-- the solver's functions with NaN: an operation with NaN gives NaN, a comparison with NaN is false, 1/0 is not a
number -/
def gmFl : GNum Fl (WithBot ℚ) where
  nrm l := if l.any fun a => a.val.isNone then ⊥ else ((rsqrt (l.map fun a => a.val.getD 0 * a.val.getD 0).sum : ℚ) : WithBot ℚ)
  lt a b := a.isSome && b.isSome && decide (a < b)
  le a b := a.isSome && b.isSome && decide (a ≤ b)
  isNan a := a.isNone
  zeroF := ((0 : ℚ) : WithBot ℚ)
  mulF a b := a.bind fun x => b.map (x * ·)
  invF a := if a = ((0 : ℚ) : WithBot ℚ) then ⊥ else a.map (·⁻¹)
  negF a := a.map (- ·)
  ofInt i := ((i : ℚ) : WithBot ℚ)
  toR a := ⟨a⟩
  smul a b := ⟨a.bind fun x => b.val.map (x * ·)⟩
  conj a := a
  abs a := a.val.map (|·|)
  nearR a := a.val = some 0
  nearF a := a = ((0 : ℚ) : WithBot ℚ)
  lartg f g := match f.val, g.val with
    | some f, some g =>
      let r := rsqrt (f * f + g * g)
      if r = 0 then (((1 : ℚ) : WithBot ℚ), ⟨some 0⟩, ⟨some 0⟩)
      else (((f / r : ℚ) : WithBot ℚ), ⟨some (g / r)⟩, ⟨some r⟩)
    | _, _ => (⊥, ⟨none⟩, ⟨none⟩)

def numFl : Num Fl (WithBot ℚ) where
  nrm _ := none
  zeroQ := ((0 : ℚ) : WithBot ℚ)
  mulQ a b := a.bind fun x => b.map (x * ·)
  ofInt i := ((i : ℚ) : WithBot ℚ)
  isBad a := a.val.isNone
  isZero a := a.val = some 0
  rz0 := ⟨some 1⟩

/-- an option table: GMRES, no preconditioner, restart 1, both tolerances 1/1000, 2 iterations -/
def flReg : Registry (WithBot ℚ) where
  readonly := false
  ints := [⟨"gmres iteration limit".toList, 2, 1, .greaterEqual, 0, .pInf⟩,
    ⟨"gmres restart iterations".toList, 1, 1, .greaterEqual, 0, .pInf⟩]
  reals := [⟨"gmres rel tolerance".toList, ((1 / 1000 : ℚ) : WithBot ℚ), ((0 : ℚ) : WithBot ℚ), .greaterEqual,
      ((0 : ℚ) : WithBot ℚ), .pInf⟩,
    ⟨"gmres abs tolerance".toList, ((1 / 1000 : ℚ) : WithBot ℚ), ((0 : ℚ) : WithBot ℚ), .greaterEqual,
      ((0 : ℚ) : WithBot ℚ), .pInf⟩]
  bools := []
  strs := [⟨"iterative method".toList, "gmres".toList, [("cg".toList, 1), ("gmres".toList, 2)]⟩,
    ⟨"gmres preconditioner".toList, "none".toList, [("none".toList, 0), ("user".toList, 1)]⟩]

/-- a user who multiplies with [[3, -4], [4, 3]] -/
def userFl (_ : Job) (u : List Fl) : List Fl :=
  [⟨some 3⟩ * u.getD 0 0 + ⟨some (-4)⟩ * u.getD 1 0, ⟨some 4⟩ * u.getD 0 0 + ⟨some 3⟩ * u.getD 1 0]

/-- A start vector that solves the system is not recognised: the tests ask for a residual norm above zero.  The solver
divides by the norm and `x` becomes NaN.  The system is 3x - 4y = 3, 4x + 3y = 4, the start vector is (1, 0); the
solve ends with the iteration limit and x = (NaN, NaN). -/
theorem C52_exact_start :
    (gmDrive numFl gmFl (fun _ => ⟨some 7⟩) ((7 : ℚ) : WithBot ℚ) 1000 userFl
      ⟨⟨2, some [⟨some 3⟩, ⟨some 4⟩], flReg, false, 0, none, none⟩, ⟨.stop, .null, .null⟩, [⟨some 1⟩, ⟨some 0⟩],
        List.replicate 100 ((5 : ℚ) : WithBot ℚ)⟩ 6).map (fun q => (q.1, q.2.c.job, q.2.x)) =
      some (.maxit, .stop, [⟨none⟩, ⟨none⟩]) := by
  decide +kernel

end Props
end Verif
