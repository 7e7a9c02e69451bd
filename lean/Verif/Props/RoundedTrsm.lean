/-
C80  Backward error and residuals of the triangular solve with several right-hand sides, in every order of the columns.
-/
import Verif.Proofs.RoundedTrsm
import Verif.Props.RoundedTrsv
import Verif.Props.Trsm

namespace Verif
open Model Finset

section
variable {ρ : Rounding}

theorem reals_getD (x : List (Fp ρ)) (k : Nat) : (reals x).getD k 0 = (x.getD k 0).v := by
  rw [List.getD_eq_getElem?_getD, List.getD_eq_getElem?_getD, reals, List.getElem?_map]
  cases x[k]? <;> rfl

/-- **C80, backward error.**  In floating-point arithmetic with unit roundoff `u < 1`, products fused or not, for
every triangle, diagonal type, operation, layout, kernel, leading dimensions that hold the dense matrices, and every
order in which the threads solve the columns: column j of X is the exact solution for column j of alpha·B of a system
whose matrix `T j` differs from the requested operator by at most `1/(1-u)^k - 1` in every entry, relative to the
sizes of the stored numbers, with `k` the number of off-diagonal entries in a row plus a constant.  The perturbed
matrix may be another one for every column.  Nothing else in the array of X changes. -/
theorem C80_backward (hu : ρ.u < 1) (F : SolveFpu (Fp ρ)) (hF : F.Rounds) (im : FpTrsv (Fp ρ))
    (l : Nat) (f : Fill) (op : Op) (A : Csr (Fp ρ)) (hA : A.WF) (hsq : A.m = A.n) (hm : 0 < A.m)
    (idiag iurow : List Int) (hcl : Clean A idiag iurow) (Dg : Diag) (hdz : Dg ≠ .zero)
    (hinv : Dg = .nonUnit → ∀ i, i < A.m → A.real.mat i i ≠ 0) (alpha : Fp ρ)
    (him : im.Ok F l A alpha op.isTrans) (col : Bool) (n ldb ldx : Nat) (hn : 0 < n)
    (hldx : (if col then A.m else n) ≤ ldx) (B X : List (Fp ρ))
    (hB : ∀ i j, i < A.m → j < n → denseOff col ldb i j < B.length)
    (hX : ∀ i j, i < A.m → j < n → denseOff col ldx i j < X.length)
    (sched : List Nat) (hsched : sched.Perm (List.range n))
    (N : Nat) (hN : ∀ i, i < A.m → (A.opRow f op.isTrans i).length ≤ N) :
    ∃ X', trsmFp F im (getDoid true 3 f.code op.code) alpha A.m A.base A.val A.ind A.ptr idiag iurow
        (decide (Dg.code = 1)) col B ldb X ldx sched = some (.success, X') ∧
      X'.length = X.length ∧
      (∀ p, (∀ i j, i < A.m → j < n → p ≠ denseOff col ldx i j) → X'[p]? = X[p]?) ∧
      ∃ T : Nat → Mat ℝ, ∀ j, j < n →
        (∀ i k, i < A.m → k < A.m → |T j i k - operator .triangular f Dg op A.real.mat i k|
          ≤ ρ.gi (N + 2 * l + 7) * operator .triangular f Dg op A.sizes.mat i k) ∧
        ∀ i, i < A.m → ∑ k ∈ range A.m, T j i k * (reals X').getD (denseOff col ldx k j) 0
          = alpha.v * (reals B).getD (denseOff col ldb i j) 0 := by
  have hinc : 0 < colInc col ldx := by
    cases col
    · simp only [Bool.false_eq_true, if_false] at hldx
      simp only [colInc, Bool.false_eq_true, if_false]
      omega
    · simp [colInc]
  obtain ⟨X', e, h1, h2, h3⟩ := trsmLoop_rel (col := col) (n := n) (ldb := ldb) (ldx := ldx) hm
    (Q := fun b x => ∃ T : Mat ℝ,
        (∀ i k, i < A.m → k < A.m → |T i k - operator .triangular f Dg op A.real.mat i k|
          ≤ ρ.gi (N + 2 * l + 7) * operator .triangular f Dg op A.sizes.mat i k) ∧
        ∀ i, i < A.m → ∑ k ∈ range A.m, T i k * (x k).v = alpha.v * (b i).v)
    (solve := fun b x => trsvFp F im (getDoid true 3 f.code op.code) alpha A.m A.base A.val A.ind A.ptr idiag iurow
      b (colInc col ldb) x (colInc col ldx) (decide (Dg.code = 1)))
    (by
      rintro b x x' hx ⟨T, t1, t2⟩
      refine ⟨T, t1, fun i hi => ?_⟩
      rw [← t2 i hi]
      exact sum_congr rfl fun k hk => by rw [hx k (mem_range.mp hk)])
    (by
      intro b x hb hx
      obtain ⟨x', e, r, T, t1, t2⟩ := C55_backward hu F hF im l f op A hA hsq idiag iurow hcl Dg hdz hinv alpha him
        b x (colInc col ldb) (colInc col ldx) hinc hb hx N hN
      refine ⟨x', e, ?_, r, T, t1, fun i hi => ?_⟩
      · have := t2.length
        rwa [reals, reals, List.length_map, List.length_map] at this
      · have := t2.solves i hi
        simp only [reals_getD] at this
        exact this)
    hB (minor_lt hldx) sched (hsched.nodup_iff.mpr List.nodup_range)
    (fun j hj => List.mem_range.mp (hsched.mem_iff.mp hj)) X hX
  refine ⟨X', ?_, h1, fun p hp => h3 p fun j hj i hi =>
    hp i j hi (List.mem_range.mp (hsched.mem_iff.mp hj)), ?_⟩
  · unfold trsmFp trsmLoop
    have ei : ∀ ld : Nat, (if col = true then (1 : Int) else (ld : Int)) = (colInc col ld : Int) := by
      intro ld; cases col <;> simp [colInc]
    have eo : ∀ ld : Nat, (if col = true then (ld : Int) else 1) = (colOff col ld : Int) := by
      intro ld; cases col <;> simp [colOff]
    simp only [ei, eo]
    rw [e]
    rfl
  · have h4 : ∀ j, ∃ T : Mat ℝ, j < n →
        (∀ i k, i < A.m → k < A.m → |T i k - operator .triangular f Dg op A.real.mat i k|
          ≤ ρ.gi (N + 2 * l + 7) * operator .triangular f Dg op A.sizes.mat i k) ∧
        ∀ i, i < A.m → ∑ k ∈ range A.m, T i k * (reals X').getD (denseOff col ldx k j) 0
          = alpha.v * (reals B).getD (denseOff col ldb i j) 0 := by
      intro j
      by_cases hj : j < n
      · obtain ⟨T, t1, t2⟩ := h2 j (hsched.mem_iff.mpr (List.mem_range.mpr hj))
        exact ⟨T, fun _ => ⟨t1, fun i hi => by simp only [reals_getD]; exact t2 i hi⟩⟩
      · exact ⟨fun _ _ => 0, fun h => absurd h hj⟩
    choose T hT using h4
    exact ⟨T, hT⟩

/-- **C80, residual.**  Every equation of every column holds up to `k u / (1 - k u)` times the sizes of its terms, in
every order of the columns. -/
theorem C80_residual (F : SolveFpu (Fp ρ)) (hF : F.Rounds) (im : FpTrsv (Fp ρ))
    (l : Nat) (f : Fill) (op : Op) (A : Csr (Fp ρ)) (hA : A.WF) (hsq : A.m = A.n) (hm : 0 < A.m)
    (idiag iurow : List Int) (hcl : Clean A idiag iurow) (Dg : Diag) (hdz : Dg ≠ .zero)
    (hinv : Dg = .nonUnit → ∀ i, i < A.m → A.real.mat i i ≠ 0) (alpha : Fp ρ)
    (him : im.Ok F l A alpha op.isTrans) (col : Bool) (n ldb ldx : Nat) (hn : 0 < n)
    (hldx : (if col then A.m else n) ≤ ldx) (B X : List (Fp ρ))
    (hB : ∀ i j, i < A.m → j < n → denseOff col ldb i j < B.length)
    (hX : ∀ i j, i < A.m → j < n → denseOff col ldx i j < X.length)
    (sched : List Nat) (hsched : sched.Perm (List.range n))
    (N : Nat) (hN : ∀ i, i < A.m → (A.opRow f op.isTrans i).length ≤ N)
    (hk : ((N + 2 * l + 7 : Nat) : ℝ) * ρ.u < 1) :
    ∃ X', trsmFp F im (getDoid true 3 f.code op.code) alpha A.m A.base A.val A.ind A.ptr idiag iurow
        (decide (Dg.code = 1)) col B ldb X ldx sched = some (.success, X') ∧
      ∀ i j, i < A.m → j < n →
        |∑ k ∈ range A.m, operator .triangular f Dg op A.real.mat i k * (reals X').getD (denseOff col ldx k j) 0
            - alpha.v * (reals B).getD (denseOff col ldb i j) 0|
          ≤ (N + 2 * l + 7 : Nat) * ρ.u / (1 - (N + 2 * l + 7 : Nat) * ρ.u) *
            ∑ k ∈ range A.m,
              operator .triangular f Dg op A.sizes.mat i k * |(reals X').getD (denseOff col ldx k j) 0| := by
  have hinc : 0 < colInc col ldx := by
    cases col
    · simp only [Bool.false_eq_true, if_false] at hldx
      simp only [colInc, Bool.false_eq_true, if_false]
      omega
    · simp [colInc]
  obtain ⟨X', e, -, h2, -⟩ := trsmLoop_rel (col := col) (n := n) (ldb := ldb) (ldx := ldx) hm
    (Q := fun b x => ∀ i, i < A.m →
        |∑ k ∈ range A.m, operator .triangular f Dg op A.real.mat i k * (x k).v - alpha.v * (b i).v|
          ≤ (N + 2 * l + 7 : Nat) * ρ.u / (1 - (N + 2 * l + 7 : Nat) * ρ.u) *
            ∑ k ∈ range A.m, operator .triangular f Dg op A.sizes.mat i k * |(x k).v|)
    (solve := fun b x => trsvFp F im (getDoid true 3 f.code op.code) alpha A.m A.base A.val A.ind A.ptr idiag iurow
      b (colInc col ldb) x (colInc col ldx) (decide (Dg.code = 1)))
    (by
      intro b x x' hx t i hi
      have c1 : ∑ k ∈ range A.m, operator .triangular f Dg op A.real.mat i k * (x' k).v
          = ∑ k ∈ range A.m, operator .triangular f Dg op A.real.mat i k * (x k).v :=
        sum_congr rfl fun k hk => by rw [hx k (mem_range.mp hk)]
      have c2 : ∑ k ∈ range A.m, operator .triangular f Dg op A.sizes.mat i k * |(x' k).v|
          = ∑ k ∈ range A.m, operator .triangular f Dg op A.sizes.mat i k * |(x k).v| :=
        sum_congr rfl fun k hk => by rw [hx k (mem_range.mp hk)]
      rw [c1, c2]
      exact t i hi)
    (by
      intro b x hb hx
      have hu : ρ.u < 1 := by
        have h0 := ρ.u_nonneg
        have : (1 : ℝ) ≤ (N + 2 * l + 7 : Nat) := by exact_mod_cast (by omega : 1 ≤ N + 2 * l + 7)
        nlinarith
      obtain ⟨x', e, r, T, -, t2⟩ := C55_backward hu F hF im l f op A hA hsq idiag iurow hcl Dg hdz hinv alpha him
        b x (colInc col ldb) (colInc col ldx) hinc hb hx N hN
      obtain ⟨x'', e', q⟩ := C55_residual F hF im l f op A hA hsq idiag iurow hcl Dg hdz hinv alpha him
        b x (colInc col ldb) (colInc col ldx) hinc hb hx N hN hk
      rw [e] at e'
      obtain rfl := Option.some.inj e'
      refine ⟨x', e, ?_, r, fun i hi => ?_⟩
      · have := t2.length
        rwa [reals, reals, List.length_map, List.length_map] at this
      · have := q i hi
        simp only [reals_getD] at this
        exact this)
    hB (minor_lt hldx) sched (hsched.nodup_iff.mpr List.nodup_range)
    (fun j hj => List.mem_range.mp (hsched.mem_iff.mp hj)) X hX
  refine ⟨X', ?_, fun i j hi hj => ?_⟩
  · unfold trsmFp trsmLoop
    have ei : ∀ ld : Nat, (if col = true then (1 : Int) else (ld : Int)) = (colInc col ld : Int) := by
      intro ld; cases col <;> simp [colInc]
    have eo : ∀ ld : Nat, (if col = true then (ld : Int) else 1) = (colOff col ld : Int) := by
      intro ld; cases col <;> simp [colOff]
    simp only [ei, eo]
    rw [e]
    rfl
  · simp only [reals_getD]
    exact h2 j (hsched.mem_iff.mpr (List.mem_range.mpr hj)) i hi

end

/-- **C80** With products and differences evaluated one by one, the loop of this property is the loop of C51 around
the kernels of C27. -/
theorem C80_plain {R : Type} [Zero R] [One R] [Add R] [Sub R] [Neg R] [Mul R] [Div R] [DecidableEq R] (cjg : R → R)
    (im : FpTrsv R) (f : Fill) (op : Op) (alpha : R) (m base : Int) (a : List R) (icol ilrow idiag iurow : List Int)
    (unit col : Bool) (B : List R) (ldb : Int) (X : List R) (ldx : Int) (sched : List Nat) :
    trsmFp SolveFpu.plain im (getDoid true 3 f.code op.code) alpha m base a icol ilrow idiag iurow unit col B ldb X ldx
        sched
      = (trsmLoop (fun (_ : Unit) b x =>
          (trsvKernel cjg im.impl (getDoid true 3 f.code op.code) alpha m base a icol ilrow idiag iurow b
            (if col then 1 else ldb) x (if col then 1 else ldx) unit).map fun x' => (.success, x', ()))
          (if col then ldb else 1) (if col then ldx else 1) B X () sched).map fun s => (s.1, s.2.1) := by
  unfold trsmFp
  simp only [C55_plain cjg]

/-! ### a case that meets the hypotheses -/

/-- double precision, two right-hand sides in rows of three, the second column first, four lanes, fused products;
the array of X has a gap in each row -/
example := C80_residual (SolveFpu.fused (binary 53)) (solve_fused_rounds _) (.kt 4 hsum4l) 2 .lower
    .none (fpTri _) (fpTri_wf _) rfl (by decide) [0, 2] [1, 3] (fpTri_clean _) .nonUnit (by decide)
    (fun _ => fpTri_diag _) 1 (C55_kernels _ _ _ _ (fun h => by simp [Op.isTrans] at h)).2.1
    false 2 3 3 (by omega) (by decide)
    [fpInt _ 1, fpInt _ 7, fpInt _ 100, fpInt _ 4, fpInt _ 9] (List.replicate 6 0)
    (by
      intro i j hi hj
      replace hi : i < 2 := hi
      show i * 3 + j < 5
      omega)
    (by
      intro i j hi hj
      replace hi : i < 2 := hi
      show i * 3 + j < 6
      omega)
    [1, 0] (by decide) 1
    (by
      intro i hi
      have hi : i < 2 := hi
      obtain rfl | rfl : i = 0 ∨ i = 1 := by omega
      · show 0 ≤ 1
        omega
      · show 1 ≤ 1
        omega)
    (by
      show ((1 + 2 * 2 + 7 : Nat) : ℝ) * (1 / 2 ^ 53) < 1
      norm_num)

end Verif
