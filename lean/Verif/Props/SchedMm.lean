import Verif.Proofs.SchedMm3
import Verif.Props.Csrmm

/-!
C68 — the threads of a sparse times dense product may interleave their accesses to the result in any
way.

`AllSchedules th m0 m1` (Verif/Core/Sched.lean): however the threads `th`, started on the memory `m0`,
are interleaved, one access at a time, no access is undefined, no two threads race for a cell, every run
ends, and it ends with the memory `m1`.  The shared memory is the dense result C; A and B are only read.
The number type has an addition and a multiplication without any law, so that the floating-point
numbers are among them: "the same result" means the same bits.
-/

namespace Verif
open Model

variable {R : Type} [Zero R] [Add R] [Mul R]

/-- The product, every kernel and both layouts.  There is one result C1 that every number of threads,
every order of the threads and every interleaving of them gives. -/
theorem C68_schedules {cj : R → R} {alpha beta : R} {A : Csr R} {B : List R} {n ldb ldc : Nat} {ker : MmKernel R}
    (hker : ∀ K V, ker = .kt K V → 0 < K) {col : Bool} (hA : A.WF)
    (hB : ∀ l j, l < A.n → j < n → denseOff col ldb l j < B.length)
    (hldc : if col then A.m ≤ ldc else n ≤ ldc) {C0 : List R}
    (hC : ∀ i j : Nat, i < A.m → j < n → denseOff col ldc i j < C0.length) :
    ∃ C1 : List R, C1.length = C0.length ∧
      (∀ (w T : Nat) (ord : List Nat), 0 < T → ((if col then n else A.m : Nat) : Int) * T ≤ intMax w →
        ord.Perm (List.range T) →
        mmKernel w ⟨T, ord⟩ ker col (mmOf cj alpha beta A B n ldb ldc) C0 = some C1) ∧
      ∀ w T : Nat, 0 < T → ((if col then n else A.m : Nat) : Int) * T ≤ intMax w →
        AllSchedules (mmTeamP w T ker col (mmOf cj alpha beta A B n ldb ldc)) (rd C0) (rd C1) :=
  mm_schedules hker hA hB hldc hC

/-- The loop that multiplies the result by beta when alpha is zero.  `asg` gives every thread the lines
it scales, by whatever rule the runtime deals them out (static or dynamic). -/
theorem C68_scaling [DecidableEq R] {col : Bool} {m n ld : Nat} (hld : if col then m ≤ ld else n ≤ ld) (beta : R)
    {C0 : List R} (hC : ∀ i j : Nat, i < m → j < n → denseOff col ld i j < C0.length) :
    ∃ C1 : List R, C1.length = C0.length ∧ scaleDense col m n ld beta C0 = some C1 ∧
      ∀ T asg, Assigns (if col then n else m) T asg →
        AllSchedules (loopP T asg (scaleLineP col m n ld beta)) (rd C0) (rd C1) :=
  scale_schedules hld beta hC

/-! ### a case that meets the hypotheses -/

/-- the hypotheses of `C68_schedules`: the 2×3 matrix of C31, two columns, padded leading dimensions -/
example : mm31A.WF ∧ (∀ l j, l < mm31A.n → j < 2 → denseOff true 4 l j < (List.replicate 8 (1 : Rat)).length) ∧
    mm31A.m ≤ 3 ∧ ∀ i j : Nat, i < mm31A.m → j < 2 → denseOff true 3 i j < (List.replicate 6 (1 : Rat)).length := by
  refine ⟨by decide +kernel, fun l j hl hj => ?_, by decide, fun i j hi hj => ?_⟩ <;>
    simp [mm31A, denseOff] at * <;> omega

/-- and two threads of the vector kernel do work there, all of whose schedules end in the same C -/
example : ∃ C1 : List Rat,
    AllSchedules (mmTeamP 32 2 (.kt 4 (vecLanes 4 hsum4l)) true (mmOf id 1 10 mm31A (List.replicate 8 1) 2 4 3))
      (rd (List.replicate 6 1)) (rd C1) ∧
    mmKernel 32 ⟨2, [1, 0]⟩ (.kt 4 (vecLanes 4 hsum4l)) true (mmOf id 1 10 mm31A (List.replicate 8 1) 2 4 3)
      (List.replicate 6 1) = some C1 := by
  obtain ⟨C1, -, h1, h2⟩ := C68_schedules (cj := id) (alpha := (1 : Rat)) (beta := 10) (A := mm31A)
    (B := List.replicate 8 1) (n := 2) (ldb := 4) (ldc := 3) (ker := .kt 4 (vecLanes 4 hsum4l))
    (by rintro K V h; cases h; decide) (col := true) (by decide +kernel)
    (by intro l j hl hj; simp [mm31A, denseOff] at *; omega) (by decide) (C0 := List.replicate 6 1)
    (by intro i j hi hj; simp [mm31A, denseOff] at *; omega)
  exact ⟨C1, h2 32 2 (by decide) (by decide), h1 32 2 [1, 0] (by decide) (by decide) (by decide)⟩

/-- its value -/
example : mmKernel 32 ⟨2, [1, 0]⟩ (.kt 4 (vecLanes 4 hsum4l)) true (mmOf id 1 10 mm31A (List.replicate 8 1) 2 4 3)
    (List.replicate 6 1) = some [13, 13, 1, 13, 13, 1] := by decide +kernel

/-- lines dealt out to two threads in turn -/
example : Assigns 3 2 (fun t => if t = 0 then [0, 2] else if t = 1 then [1] else []) := by
  unfold Assigns; decide

end Verif
