/-
C80  The columns of trsm are the solutions of trsv bit for bit, and the order of the columns does not change a bit.
-/
import Verif.Proofs.TrsvBits
import Verif.Props.RoundedTrsm

namespace Verif
open Model Finset

section
variable {R : Type} [Zero R] [One R] [Add R] [Sub R] [Neg R] [Mul R] [Div R] [DecidableEq R]

/-- **C55, the solution is overwritten.**  In any arithmetic whatsoever — no law of the operations is used — the solve
of one right-hand side gives the same elements for any two contents of the array of the solution. -/
theorem C55_overwrites (F : SolveFpu R) (im : FpTrsv R) (l : Nat) (f : Fill) (op : Op) (A : Csr R) (hA : A.WF)
    (hsq : A.m = A.n) (idiag iurow : List Int) (hcl : Clean A idiag iurow) (unit : Bool) (alpha : R)
    (him : im.Ok F l A alpha op.isTrans) (b x y : List R) (incb incx : Nat) (hincx : 0 < incx)
    (hb : ∀ i, i < A.m → i * incb < b.length) (hx : ∀ i, i < A.m → i * incx < x.length)
    (hxy : x.length = y.length) :
    ∃ x' y', trsvFp F im (getDoid true 3 f.code op.code) alpha A.m A.base A.val A.ind A.ptr idiag iurow
        b incb x incx unit = some x' ∧
      trsvFp F im (getDoid true 3 f.code op.code) alpha A.m A.base A.val A.ind A.ptr idiag iurow
        b incb y incx unit = some y' ∧
      ∀ i, i < A.m → ∃ v, x'[i * incx]? = some v ∧ y'[i * incx]? = some v := by
  obtain ⟨L, D, U, hc⟩ := clean_split hcl
  have ctx : FpCtx A idiag iurow L D U b x incb incx := ⟨hA, hsq, hc, hincx, hb, hx⟩
  obtain ⟨x', g, e, h1, -⟩ := trsvFp_rows F unit alpha im f op.isTrans him ctx
  obtain ⟨y', e', -, hs⟩ := trsvFp_fwd F unit alpha im f op.isTrans him ctx hxy x' e
  rw [triDoid_eq]
  exact ⟨x', y', e, e', fun i hi => ⟨g i, h1.val i hi, by rw [← hs i (mem_range.mpr hi)]; exact h1.val i hi⟩⟩

/-- **C80, every column has the bits of trsv.**  In any arithmetic whatsoever, for every triangle, diagonal type,
operation, layout, kernel, leading dimensions that hold the dense matrices, and every order in which the threads solve
the columns: column j of the result holds, element by element, exactly what a call of trsv on column j of B and of X
computes (with the stride of the layout), and nothing else in the array of X changes. -/
theorem C80_bits (F : SolveFpu R) (im : FpTrsv R) (l : Nat) (f : Fill) (op : Op) (A : Csr R) (hA : A.WF)
    (hsq : A.m = A.n) (hm : 0 < A.m) (idiag iurow : List Int) (hcl : Clean A idiag iurow) (unit : Bool) (alpha : R)
    (him : im.Ok F l A alpha op.isTrans) (col : Bool) (n ldb ldx : Nat) (hn : 0 < n)
    (hldx : (if col then A.m else n) ≤ ldx) (B X : List R)
    (hB : ∀ i j, i < A.m → j < n → denseOff col ldb i j < B.length)
    (hX : ∀ i j, i < A.m → j < n → denseOff col ldx i j < X.length)
    (sched : List Nat) (hsched : sched.Perm (List.range n)) :
    ∃ X', trsmFp F im (getDoid true 3 f.code op.code) alpha A.m A.base A.val A.ind A.ptr idiag iurow
        unit col B ldb X ldx sched = some (.success, X') ∧
      X'.length = X.length ∧
      (∀ p, (∀ i j, i < A.m → j < n → p ≠ denseOff col ldx i j) → X'[p]? = X[p]?) ∧
      ∀ j, j < n → ∃ x', trsvFp F im (getDoid true 3 f.code op.code) alpha A.m A.base A.val A.ind A.ptr idiag iurow
          (B.drop (j * if col then ldb else 1)) (if col then 1 else ldb : Nat)
          (X.drop (j * if col then ldx else 1)) (if col then 1 else ldx : Nat) unit = some x' ∧
        ∀ i, i < A.m → ∃ v, x'[i * if col then 1 else ldx]? = some v ∧ X'[denseOff col ldx i j]? = some v := by
  have hinc : 0 < colInc col ldx := by
    cases col
    · simp only [Bool.false_eq_true, if_false] at hldx
      simp only [colInc, Bool.false_eq_true, if_false]
      omega
    · simp [colInc]
  obtain ⟨X', e, h1, h2, h3⟩ := trsmLoop_cols (col := col) (n := n) (ldb := ldb) (ldx := ldx) hm (B := B)
    (len := X.length)
    (Q := fun j g => ∃ x', trsvFp F im (getDoid true 3 f.code op.code) alpha A.m A.base A.val A.ind A.ptr idiag iurow
        (B.drop (j * colOff col ldb)) (colInc col ldb) (X.drop (j * colOff col ldx)) (colInc col ldx) unit = some x' ∧
      ∀ i, i < A.m → x'[i * colInc col ldx]? = some (g i))
    (solve := fun b x => trsvFp F im (getDoid true 3 f.code op.code) alpha A.m A.base A.val A.ind A.ptr idiag iurow
      b (colInc col ldb) x (colInc col ldx) unit)
    (by
      rintro j g g' hg ⟨x', e, h⟩
      exact ⟨x', e, fun i hi => by rw [hg i hi]; exact h i hi⟩)
    (by
      intro j x hj hx
      have hb : ∀ i, i < A.m → i * colInc col ldb < (B.drop (j * colOff col ldb)).length := by
        intro i hi
        have := hB i j hi hj
        rw [denseOff_col] at this
        rw [List.length_drop]; omega
      have hx' : ∀ i, i < A.m → i * colInc col ldx < x.length := by
        intro i hi
        have := hX i j hi hj
        rw [denseOff_col] at this
        omega
      obtain ⟨L, D, U, hc⟩ := clean_split hcl
      have ctx : FpCtx A idiag iurow L D U (B.drop (j * colOff col ldb)) x (colInc col ldb) (colInc col ldx) :=
        ⟨hA, hsq, hc, hinc, hb, hx'⟩
      obtain ⟨x1, g, e1, s1, -⟩ := trsvFp_rows F unit alpha im f op.isTrans him ctx
      obtain ⟨y1, e2, -, s2⟩ := trsvFp_fwd F unit alpha im f op.isTrans him ctx (y := X.drop (j * colOff col ldx))
        (by rw [hx, List.length_drop]) x1 e1
      simp only [triDoid_eq]
      refine ⟨x1, e1, s1.len, s1.rest, y1, e2, fun i hi => ?_⟩
      rw [← s2 i (mem_range.mpr hi), List.getD_eq_getElem?_getD, s1.val i hi]
      rfl)
    hB (minor_lt hldx) sched (hsched.nodup_iff.mpr List.nodup_range)
    (fun j hj => List.mem_range.mp (hsched.mem_iff.mp hj)) X rfl hX
  refine ⟨X', ?_, h1, fun p hp => h3 p fun j hj i hi =>
    hp i j hi (List.mem_range.mp (hsched.mem_iff.mp hj)), fun j hj => ?_⟩
  · unfold trsmFp trsmLoop
    have ei : ∀ ld : Nat, (if col = true then (1 : Int) else (ld : Int)) = (colInc col ld : Int) := by
      intro ld; cases col <;> simp [colInc]
    have eo : ∀ ld : Nat, (if col = true then (ld : Int) else 1) = (colOff col ld : Int) := by
      intro ld; cases col <;> simp [colOff]
    simp only [ei, eo]
    rw [e]
    rfl
  · obtain ⟨x', e', h⟩ := h2 j (hsched.mem_iff.mpr (List.mem_range.mpr hj))
    refine ⟨x', e', fun i hi => ⟨_, h i hi, ?_⟩⟩
    have hl : denseOff col ldx i j < X'.length := by rw [h1]; exact hX i j hi hj
    beta_reduce
    rw [List.getD_eq_getElem?_getD, List.getElem?_eq_getElem hl]
    rfl

/-- **C80, the order of the columns does not change a bit**: any two orders in which the threads solve the columns
leave the same array, in any arithmetic. -/
theorem C80_schedule (F : SolveFpu R) (im : FpTrsv R) (l : Nat) (f : Fill) (op : Op) (A : Csr R) (hA : A.WF)
    (hsq : A.m = A.n) (hm : 0 < A.m) (idiag iurow : List Int) (hcl : Clean A idiag iurow) (unit : Bool) (alpha : R)
    (him : im.Ok F l A alpha op.isTrans) (col : Bool) (n ldb ldx : Nat) (hn : 0 < n)
    (hldx : (if col then A.m else n) ≤ ldx) (B X : List R)
    (hB : ∀ i j, i < A.m → j < n → denseOff col ldb i j < B.length)
    (hX : ∀ i j, i < A.m → j < n → denseOff col ldx i j < X.length)
    (sched sched' : List Nat) (hsched : sched.Perm (List.range n)) (hsched' : sched'.Perm (List.range n)) :
    ∃ X', trsmFp F im (getDoid true 3 f.code op.code) alpha A.m A.base A.val A.ind A.ptr idiag iurow
        unit col B ldb X ldx sched = some (.success, X') ∧
      trsmFp F im (getDoid true 3 f.code op.code) alpha A.m A.base A.val A.ind A.ptr idiag iurow
        unit col B ldb X ldx sched' = some (.success, X') := by
  obtain ⟨X1, e1, -, f1, c1⟩ := C80_bits F im l f op A hA hsq hm idiag iurow hcl unit alpha him col n ldb ldx hn hldx
    B X hB hX sched hsched
  obtain ⟨X2, e2, -, f2, c2⟩ := C80_bits F im l f op A hA hsq hm idiag iurow hcl unit alpha him col n ldb ldx hn hldx
    B X hB hX sched' hsched'
  have : X1 = X2 := by
    apply List.ext_getElem?
    intro p
    by_cases hp : ∀ i j, i < A.m → j < n → p ≠ denseOff col ldx i j
    · rw [f1 p hp, f2 p hp]
    · push Not at hp
      obtain ⟨i, j, hi, hj, rfl⟩ := hp
      obtain ⟨x1, a1, b1⟩ := c1 j hj
      obtain ⟨x2, a2, b2⟩ := c2 j hj
      obtain rfl := Option.some.inj (a1.symm.trans a2)
      obtain ⟨v, p1, p2⟩ := b1 i hi
      obtain ⟨w, q1, q2⟩ := b2 i hi
      rw [p2, q2, ← p1, ← q1]
  subst this
  exact ⟨X1, e1, e2⟩

end

/-! ### a case that meets the hypotheses -/

/-- double precision, two right-hand sides in rows of three, both orders, four lanes, fused products; the array of X
has a gap in each row and holds other numbers before the call -/
example := C80_schedule (SolveFpu.fused (binary 53)) (.kt 4 hsum4l) 2 .lower
    .none (fpTri _) (fpTri_wf _) rfl (by decide) [0, 2] [1, 3] (fpTri_clean _) false
    1 (C55_kernels _ _ _ _ (fun h => by simp [Op.isTrans] at h)).2.1
    false 2 3 3 (by omega) (by decide)
    [fpInt _ 1, fpInt _ 7, fpInt _ 100, fpInt _ 4, fpInt _ 9] (List.replicate 6 (fpInt _ 5))
    (by
      intro i j hi hj
      replace hi : i < 2 := hi
      show i * 3 + j < 5
      omega)
    (by
      intro i j hi hj
      replace hi : i < 2 := hi
      show i * 3 + j < 6
      omega)
    [1, 0] [0, 1] (by decide) (by decide)

/-- the previous contents of the solution array do not matter: zeros against fives -/
example := C55_overwrites (SolveFpu.fused (binary 53)) (.kt 4 hsum4l) 2 .lower
    .none (fpTri _) (fpTri_wf _) rfl [0, 2] [1, 3] (fpTri_clean _) false
    1 (C55_kernels _ _ _ _ (fun h => by simp [Op.isTrans] at h)).2.1
    [fpInt _ 1, fpInt _ 7] [0, 0] [fpInt _ 5, fpInt _ 5] 1 1 (by omega)
    (fun i hi => by replace hi : i < 2 := hi; show i * 1 < 2; omega)
    (fun i hi => by replace hi : i < 2 := hi; show i * 1 < 2; omega) rfl

end Verif
