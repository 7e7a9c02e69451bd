/-
C54: rounding errors of the products with a CSR matrix (real data).
-/
import Verif.Proofs.Rounded
import Verif.Proofs.Rounding
import Verif.Props.Csrmv
import Verif.Core.Scatter
import Mathlib.Algebra.Order.Round
import Mathlib.Data.Real.Archimedean
import Mathlib.Data.Int.Log

namespace Verif
open Model Rounding

/-! ### values -/

section
variable {ρ : Rounding}

theorem real_row (f : Fp ρ → ℝ) (A : Csr (Fp ρ)) (i : Nat) :
    Csr.row (⟨A.m, A.n, A.base, A.ptr, A.ind, A.val.map f⟩ : Csr ℝ) i
      = (A.row i).map fun e => (e.1, f e.2) := by
  unfold Csr.row
  rw [List.map_map]
  simp only [List.zip_map_right, ← List.map_drop, ← List.map_take, List.map_map]
  rfl

theorem real_wf (f : Fp ρ → ℝ) {A : Csr (Fp ρ)} (h : A.WF) :
    (⟨A.m, A.n, A.base, A.ptr, A.ind, A.val.map f⟩ : Csr ℝ).WF :=
  ⟨h.base01, h.ptr_len, h.ptr_first, h.ptr_mono, h.ptr_last, by simpa using h.val_len, h.ind_range⟩

theorem getD_map_v (f : Fp ρ → ℝ) (hf : f 0 = 0) (x : List (Fp ρ)) (i : Nat) :
    (x.map f).getD i 0 = f (x.getD i 0) := by
  rw [List.getD_eq_getElem?_getD, List.getD_eq_getElem?_getD, List.getElem?_map]
  cases x[i]? <;> simp [hf]

theorem exactSum_row {A : Csr (Fp ρ)} (hA : A.WF) (x : List (Fp ρ)) (i : Nat) :
    exactSum (rowPairs A x i) = matVec A.real.mat A.n (reals x) i := by
  refine Eq.trans ?_ (rowDot_eq (real_wf Fp.v hA) (reals x) i)
  unfold rowDot exactSum rowPairs reals
  rw [real_row]
  simp only [Multiset.map_coe, Multiset.sum_coe, List.map_map]
  congr 1
  apply List.map_congr_left
  intro e _
  simp only [Function.comp]
  rw [getD_map_v Fp.v rfl]

theorem sizeSum_row {A : Csr (Fp ρ)} (hA : A.WF) (x : List (Fp ρ)) (i : Nat) :
    sizeSum (rowPairs A x i) = matVec A.sizes.mat A.n (sizes x) i := by
  refine Eq.trans ?_ (rowDot_eq (real_wf (fun a => |a.v|) hA) (sizes x) i)
  unfold rowDot sizeSum rowPairs sizes
  rw [real_row]
  simp only [Multiset.map_coe, Multiset.sum_coe, List.map_map]
  congr 1
  apply List.map_congr_left
  intro e _
  simp only [Function.comp]
  rw [getD_map_v (fun a => |a.v|) (show |(0 : ℝ)| = 0 from abs_zero)]

theorem Fp.ext' {a b : Fp ρ} (h : a.v = b.v) : a = b := by
  cases a; cases b; cases h; rfl

theorem finish_near {F : Fpu (Fp ρ)} (hF : F.Rounds) (k : FpKernel (Fp ρ)) (alpha beta r y : Fp ρ)
    {n : Nat} {v w : ℝ} (h : ρ.Near n v w r.v) (hn : 1 ≤ n) :
    ρ.Near (n + 2) (alpha.v * v + beta.v * y.v) (|alpha.v| * w + |beta.v| * |y.v|)
      (k.finish F alpha beta r y).v := by
  have hmul : ρ.Near (n + 1) (alpha.v * v) (|alpha.v| * w) (alpha * r).v := (h.smul alpha.v).round
  have hz : ∀ (_ : beta = 0), ρ.Near (n + 2) (alpha.v * v + beta.v * y.v)
      (|alpha.v| * w + |beta.v| * |y.v|) (alpha * r).v := by
    intro hb
    have : beta.v = 0 := by rw [hb]; rfl
    rw [this]
    simpa using hmul.mono (Nat.le_succ _)
  have hrow : ρ.Near (n + 2) (alpha.v * v + beta.v * y.v) (|alpha.v| * w + |beta.v| * |y.v|)
      (finishRow F alpha beta r y).v := by
    unfold finishRow
    by_cases ha : alpha = 1
    · have ha1 : alpha.v = 1 := by rw [ha]; rfl
      rw [if_neg (by simpa using ha), ha1, one_mul, abs_one, one_mul]
      by_cases hb : beta = 0
      · have hb0 : beta.v = 0 := by rw [hb]; rfl
        rw [if_neg (by simpa using hb), hb0]
        simpa using h.mono (show n ≤ n + 2 by omega)
      · rw [if_pos hb]
        have := h.mac hF.smac beta y
        rw [show max 1 n = n by omega] at this
        rw [add_comm v, add_comm w]
        exact this.mono (by omega)
    · rw [if_pos ha]
      by_cases hb : beta = 0
      · rw [if_neg (by simpa using hb)]
        exact hz hb
      · rw [if_pos hb]
        exact h.lin hF alpha r beta y
  cases k with
  | kt K hs =>
    show ρ.Near (n + 2) _ _ (finishKt F alpha beta r y).v
    unfold finishKt
    by_cases hb : beta = 0
    · rw [if_pos hb]; exact hz hb
    · rw [if_neg hb]
      by_cases h1 : beta = 1
      · have hb1 : beta.v = 1 := by rw [h1]; rfl
        rw [if_pos h1, hb1, one_mul, abs_one, one_mul]
        rcases hF.smac alpha r y with e | e <;> rw [e]
        · exact ((h.smul alpha.v).add ((Near.exact y.v).mono (Nat.zero_le _))).round.mono (by omega)
        · exact ((h.smul alpha.v).round.add ((Near.exact y.v).mono (Nat.zero_le _))).round
      · rw [if_neg h1]
        exact h.lin hF alpha r beta y
  | ref => exact hrow
  | vec8 => exact hrow
  | avx2 => exact hrow
  | avx512 => exact hrow

end

/-! ## C54 -/

/-- **C54** In any arithmetic (no law is assumed: with rounding, infinities and NaNs), every kernel
stays inside the arrays and stores in `y[i]` the combination `alpha * r + beta * y[i]` of a sum `r`
of the products of the stored entries of row `i` with the elements of `x`.  Every stored entry
takes part exactly once, the order of summation is a tree, and no product passes through more than
the number of entries of the row plus `d + 1` additions and multiplications. -/
theorem C54_products_once {R : Type} [Zero R] [One R] [Add R] [Mul R] [DecidableEq R] (F : Fpu R)
    (k : FpKernel R) (d : Nat) (hk : k.Ok F d) (A : Csr R) (hA : A.WF) (alpha beta : R)
    (x y : List R) (hx : A.n ≤ x.length) (hy : A.m ≤ y.length) :
    ∃ y', csrmvFp F k A.base alpha A.m A.val A.ind A.ptr x beta y = some y' ∧
      y'.length = y.length ∧
      (∀ i, i < A.m → ∃ t : SumTree R,
        t.leaves = ((A.row i).map fun e => (e.2, x.getD e.1.toNat 0) : List (R × R)) ∧
        t.depth ≤ (A.row i).length + d + 1 ∧
        y'[i]? = some (k.finish F alpha beta (t.eval F) (y.getD i 0))) ∧
      ∀ i, A.m ≤ i → y'[i]? = y[i]? := by
  classical
  have hrow : ∀ i : Nat, ∃ t : SumTree R, i < A.m →
      k.dot F A.ind A.val x A.base (A.p i) (A.p (i + 1)) = some (t.eval F) ∧
      t.leaves = rowPairs A x i ∧ t.depth ≤ (A.row i).length + d + 1 := by
    intro i
    by_cases hi : i < A.m
    · obtain ⟨t, h⟩ := rowFp_tree F k hk hA hx hi
      exact ⟨t, fun _ => h⟩
    · exact ⟨.zero, fun h => absurd h hi⟩
  choose T hT using hrow
  obtain ⟨y', h1, h2⟩ := rows_spec (Rep.of_list y 0) hy
    (fun i yi => k.finish F alpha beta ((T i).eval F) yi)
    (fun i y => do
      let lo ← rd A.ptr i
      let hi ← rd A.ptr (i + 1)
      let r ← k.dot F A.ind A.val x A.base lo hi
      let yi ← rd y i
      wr y i (k.finish F alpha beta r yi)) (by
      intro i y f hi hy
      have e1 := Csr.WF.rd_ptr hA (i := i) (by omega)
      have e2 := Csr.WF.rd_ptr hA (i := i + 1) (by omega)
      rw [show ((i + 1 : Nat) : Int) = (i : Int) + 1 by push_cast; rfl] at e2
      simp only [e1, e2, (hT i hi).1, hy.rd_nat (show i < _ by omega), Option.bind_eq_bind,
        Option.bind_some]
      exact hy.wr_nat _ (by omega))
  refine ⟨y', h1, h2.1, ?_, ?_⟩
  · intro i hi
    refine ⟨T i, (hT i hi).2.1, (hT i hi).2.2, ?_⟩
    rw [h2.2 i (by omega)]
    simp only [if_pos hi]
  · intro i hi
    by_cases hl : i < y.length
    · rw [h2.2 i hl]
      simp only [if_neg (show ¬ i < A.m by omega)]
      simp [hl]
    · rw [List.getElem?_eq_none (by rw [h2.1]; omega), List.getElem?_eq_none (by omega)]

section
variable {ρ : Rounding}

/-- **C54** The computed product is within `((1+u)^(n_i + d + 3) - 1) (|alpha| |A| |x| + |beta| |y|)_i`
of `(alpha A x + beta y)_i`, `n_i` the number of stored entries of row `i`: for every kernel, every
order the kernel adds in, whichever products are fused into additions. -/
theorem C54_error (F : Fpu (Fp ρ)) (hF : F.Rounds) (k : FpKernel (Fp ρ)) (d : Nat) (hk : k.Ok F d)
    (A : Csr (Fp ρ)) (hA : A.WF) (alpha beta : Fp ρ) (x y : List (Fp ρ)) (hx : A.n ≤ x.length)
    (hy : A.m ≤ y.length) :
    ∃ y', csrmvFp F k A.base alpha A.m A.val A.ind A.ptr x beta y = some y' ∧
      y'.length = y.length ∧
      (∀ i, i < A.m → |(reals y').getD i 0 - exactMv alpha beta A x y i|
        ≤ ((1 + ρ.u) ^ ((A.row i).length + d + 3) - 1) * sizeMv alpha beta A x y i) ∧
      ∀ i, A.m ≤ i → y'[i]? = y[i]? := by
  obtain ⟨y', h1, h2, h3, h4⟩ := C54_products_once F k d hk A hA alpha beta x y hx hy
  refine ⟨y', h1, h2, ?_, h4⟩
  intro i hi
  obtain ⟨t, e1, e2, e3⟩ := h3 i hi
  have hn := (SumTree.near hF t).mono (l := (A.row i).length + d + 1) e2
  have hf := finish_near hF k alpha beta (t.eval F) (y.getD i 0) hn (by omega)
  have e4 : (reals y').getD i 0 = (k.finish F alpha beta (t.eval F) (y.getD i 0)).v := by
    unfold reals
    rw [getD_map_v Fp.v rfl, List.getD_eq_getElem?_getD, e3]
    rfl
  unfold exactMv sizeMv
  rw [e4, ← exactSum_row hA, ← sizeSum_row hA]
  unfold reals sizes
  rw [getD_map_v Fp.v rfl, getD_map_v (fun a => |a.v|) (show |(0 : ℝ)| = 0 from abs_zero)]
  rw [show rowPairs A x i = t.leaves from e1.symm]
  exact hf.2

theorem sizeMv_nonneg {A : Csr (Fp ρ)} (hA : A.WF) (alpha beta : Fp ρ) (x y : List (Fp ρ))
    (i : Nat) : 0 ≤ sizeMv alpha beta A x y i := by
  unfold sizeMv
  rw [← sizeSum_row hA]
  unfold sizes
  rw [getD_map_v (fun a => |a.v|) (show |(0 : ℝ)| = 0 from abs_zero)]
  have : 0 ≤ sizeSum (rowPairs A x i) := by
    unfold sizeSum
    apply Multiset.sum_nonneg
    intro a ha
    obtain ⟨p, _, rfl⟩ := Multiset.mem_map.mp ha
    positivity
  positivity

/-- **C54** The textbook form of the bound: `n u / (1 - n u)` with `n = n_i + d + 3`. -/
theorem C54_error_gamma (F : Fpu (Fp ρ)) (hF : F.Rounds) (k : FpKernel (Fp ρ)) (d : Nat)
    (hk : k.Ok F d) (A : Csr (Fp ρ)) (hA : A.WF) (alpha beta : Fp ρ) (x y : List (Fp ρ))
    (hx : A.n ≤ x.length) (hy : A.m ≤ y.length) (N : Nat)
    (hN : ∀ i, i < A.m → (A.row i).length + d + 3 ≤ N) (hu : N * ρ.u < 1) :
    ∃ y', csrmvFp F k A.base alpha A.m A.val A.ind A.ptr x beta y = some y' ∧
      ∀ i, i < A.m → |(reals y').getD i 0 - exactMv alpha beta A x y i|
        ≤ N * ρ.u / (1 - N * ρ.u) * sizeMv alpha beta A x y i := by
  obtain ⟨y', h1, _, h3, _⟩ := C54_error F hF k d hk A hA alpha beta x y hx hy
  refine ⟨y', h1, fun i hi => (h3 i hi).trans ?_⟩
  apply mul_le_mul_of_nonneg_right _ (sizeMv_nonneg hA alpha beta x y i)
  exact (ρ.g_mono (hN i hi)).trans (ρ.g_le N hu)

/-- **C54** Two runs with any two kernels (any instruction sets, fused or not) differ by at most
twice the bound: which kernel the library selects changes the result only at the level of
rounding errors. -/
theorem C54_kernels_agree (F G : Fpu (Fp ρ)) (hF : F.Rounds) (hG : G.Rounds)
    (k l : FpKernel (Fp ρ)) (d : Nat) (hk : k.Ok F d) (hl : l.Ok G d)
    (A : Csr (Fp ρ)) (hA : A.WF) (alpha beta : Fp ρ) (x y : List (Fp ρ)) (hx : A.n ≤ x.length)
    (hy : A.m ≤ y.length) :
    ∃ y1 y2, csrmvFp F k A.base alpha A.m A.val A.ind A.ptr x beta y = some y1 ∧
      csrmvFp G l A.base alpha A.m A.val A.ind A.ptr x beta y = some y2 ∧
      ∀ i, i < A.m → |(reals y1).getD i 0 - (reals y2).getD i 0|
        ≤ 2 * ((1 + ρ.u) ^ ((A.row i).length + d + 3) - 1) * sizeMv alpha beta A x y i := by
  obtain ⟨y1, h1, _, h2, _⟩ := C54_error F hF k d hk A hA alpha beta x y hx hy
  obtain ⟨y2, g1, _, g2, _⟩ := C54_error G hG l d hl A hA alpha beta x y hx hy
  refine ⟨y1, y2, h1, g1, fun i hi => ?_⟩
  have a := h2 i hi
  have b := g2 i hi
  have := abs_sub_le ((reals y1).getD i 0) (exactMv alpha beta A x y i) ((reals y2).getD i 0)
  rw [abs_sub_comm (exactMv alpha beta A x y i)] at this
  linarith

/-! ### integers -/

/-- integers up to `N` are not rounded -/
def ExactTo (ρ : Rounding) (N : Nat) : Prop := ∀ z : Int, z.natAbs ≤ N → ρ.fl z = z

/-- a number that is an integer -/
def IsInt (a : ℝ) : Prop := ∃ z : Int, a = z

theorem ExactTo.apply {N : Nat} (h : ExactTo ρ N) {a : ℝ} (ha : IsInt a) (hN : |a| ≤ N) :
    ρ.fl a = a := by
  obtain ⟨z, rfl⟩ := ha
  apply h
  rw [← Int.cast_abs] at hN
  have : |z| ≤ (N : Int) := by exact_mod_cast hN
  rw [Int.abs_eq_natAbs] at this
  exact_mod_cast this

theorem IsInt.add {a b : ℝ} (ha : IsInt a) (hb : IsInt b) : IsInt (a + b) := by
  obtain ⟨x, rfl⟩ := ha; obtain ⟨y, rfl⟩ := hb
  exact ⟨x + y, by push_cast; rfl⟩

theorem IsInt.mul {a b : ℝ} (ha : IsInt a) (hb : IsInt b) : IsInt (a * b) := by
  obtain ⟨x, rfl⟩ := ha; obtain ⟨y, rfl⟩ := hb
  exact ⟨x * y, by push_cast; rfl⟩

theorem mac_exact {f : Fp ρ → Fp ρ → Fp ρ → Fp ρ} (hf : MacRounds ρ f) {N : Nat}
    (h : ExactTo ρ N) {a b c : Fp ρ} (ha : IsInt a.v) (hb : IsInt b.v) (hc : IsInt c.v)
    (hN : |a.v| * |b.v| + |c.v| ≤ N) : (f a b c).v = a.v * b.v + c.v := by
  have h1 : |a.v * b.v + c.v| ≤ N := by
    have := abs_add_le (a.v * b.v) c.v
    rw [abs_mul] at this
    linarith
  have h2 : |a.v * b.v| ≤ N := by
    rw [abs_mul]
    have := abs_nonneg c.v
    linarith
  rcases hf a b c with e | e <;> rw [e]
  · exact h.apply ((ha.mul hb).add hc) h1
  · rw [h.apply (ha.mul hb) h2]
    exact h.apply ((ha.mul hb).add hc) h1

theorem sizeSum_nonneg (M : Multiset (Fp ρ × Fp ρ)) : 0 ≤ sizeSum M := by
  unfold sizeSum
  apply Multiset.sum_nonneg
  intro a ha
  obtain ⟨p, _, rfl⟩ := Multiset.mem_map.mp ha
  positivity

theorem tree_exact {F : Fpu (Fp ρ)} (hF : F.Rounds) {N : Nat} (h : ExactTo ρ N)
    (t : SumTree (Fp ρ)) (hi : ∀ p ∈ t.leaves, IsInt p.1.v ∧ IsInt p.2.v)
    (hN : sizeSum t.leaves ≤ N) :
    (t.eval F).v = exactSum t.leaves ∧ IsInt (exactSum t.leaves) ∧
      |exactSum t.leaves| ≤ sizeSum t.leaves := by
  induction t with
  | zero => exact ⟨by simp [SumTree.eval, SumTree.leaves, exactSum]; rfl, ⟨0, by simp [SumTree.leaves, exactSum]⟩,
      by simp [SumTree.leaves, exactSum, sizeSum]⟩
  | mac vec a b s ih =>
    have e1 : exactSum (SumTree.mac vec a b s).leaves = a.v * b.v + exactSum s.leaves := by
      simp [SumTree.leaves, exactSum]
    have e2 : sizeSum (SumTree.mac vec a b s).leaves = |a.v| * |b.v| + sizeSum s.leaves := by
      simp [SumTree.leaves, sizeSum]
    rw [e2] at hN
    have hab := hi (a, b) (by simp [SumTree.leaves])
    obtain ⟨i1, i2, i3⟩ := ih (fun p hp => hi p (by simp [SumTree.leaves, hp]))
      (by have : 0 ≤ |a.v| * |b.v| := by positivity
          linarith)
    rw [e1, e2]
    refine ⟨?_, (hab.1.mul hab.2).add i2, ?_⟩
    · rw [← i1]
      have hm : ∀ f, MacRounds ρ f → (f a b (s.eval F)).v = a.v * b.v + (s.eval F).v :=
        fun f hf => mac_exact hf h hab.1 hab.2 (by rw [i1]; exact i2) (by rw [i1]; linarith)
      cases vec
      · exact hm _ hF.smac
      · exact hm _ hF.vmac
    · have := abs_add_le (a.v * b.v) (exactSum s.leaves)
      rw [abs_mul] at this
      linarith
  | add s t ih1 ih2 =>
    simp only [SumTree.leaves, sizeSum_add] at hN
    have p1 := sizeSum_nonneg s.leaves
    have p2 := sizeSum_nonneg t.leaves
    obtain ⟨i1, i2, i3⟩ := ih1 (fun p hp => hi p (by simp [SumTree.leaves, hp])) (by linarith)
    obtain ⟨j1, j2, j3⟩ := ih2 (fun p hp => hi p (by simp [SumTree.leaves, hp])) (by linarith)
    simp only [SumTree.leaves, exactSum_add, sizeSum_add]
    have ha := abs_add_le (exactSum s.leaves) (exactSum t.leaves)
    refine ⟨?_, i2.add j2, by linarith⟩
    show ρ.fl ((s.eval F).v + (t.eval F).v) = _
    rw [i1, j1]
    exact h.apply (i2.add j2) (by linarith)

theorem finish_exact {F : Fpu (Fp ρ)} (hF : F.Rounds) {N : Nat} (h : ExactTo ρ N)
    (k : FpKernel (Fp ρ)) {alpha beta r y : Fp ρ} (ha : IsInt alpha.v) (hb : IsInt beta.v)
    (hr : IsInt r.v) (hy : IsInt y.v) (hN : |alpha.v| * |r.v| + |beta.v| * |y.v| ≤ N) :
    (k.finish F alpha beta r y).v = alpha.v * r.v + beta.v * y.v := by
  have p1 : 0 ≤ |alpha.v| * |r.v| := by positivity
  have p2 : 0 ≤ |beta.v| * |y.v| := by positivity
  have f1 : ρ.fl (alpha.v * r.v) = alpha.v * r.v := h.apply (ha.mul hr) (by rw [abs_mul]; linarith)
  have f2 : ρ.fl (beta.v * y.v) = beta.v * y.v := h.apply (hb.mul hy) (by rw [abs_mul]; linarith)
  have f3 : ρ.fl (alpha.v * r.v + beta.v * y.v) = alpha.v * r.v + beta.v * y.v := by
    apply h.apply ((ha.mul hr).add (hb.mul hy))
    have := abs_add_le (alpha.v * r.v) (beta.v * y.v)
    rw [abs_mul, abs_mul] at this
    linarith
  have hlin : (F.lin alpha r beta y).v = alpha.v * r.v + beta.v * y.v := by
    rcases hF.lin alpha r beta y with e | e | e <;> rw [e]
    · rw [f1, f2, f3]
    · rw [f2, f3]
    · rw [f1, f3]
  have hz : ∀ (_ : beta = 0), (alpha * r).v = alpha.v * r.v + beta.v * y.v := by
    intro hb
    have : beta.v = 0 := by rw [hb]; rfl
    rw [this, zero_mul, add_zero]
    exact f1
  have hrow : (finishRow F alpha beta r y).v = alpha.v * r.v + beta.v * y.v := by
    unfold finishRow
    by_cases ha1 : alpha = 1
    · have ha1' : alpha.v = 1 := by rw [ha1]; rfl
      rw [if_neg (by simpa using ha1)]
      by_cases hb0 : beta = 0
      · have hb0' : beta.v = 0 := by rw [hb0]; rfl
        rw [if_neg (by simpa using hb0), ha1', hb0']
        ring
      · rw [if_pos hb0, mac_exact hF.smac h hb hy hr (by rw [ha1', abs_one, one_mul] at hN; linarith),
          ha1']
        ring
    · rw [if_pos ha1]
      by_cases hb0 : beta = 0
      · rw [if_neg (by simpa using hb0)]
        exact hz hb0
      · rw [if_pos hb0]
        exact hlin
  cases k with
  | kt K hs =>
    show (finishKt F alpha beta r y).v = _
    unfold finishKt
    by_cases hb0 : beta = 0
    · rw [if_pos hb0]; exact hz hb0
    · rw [if_neg hb0]
      by_cases hb1 : beta = 1
      · have hb1' : beta.v = 1 := by rw [hb1]; rfl
        rw [if_pos hb1, mac_exact hF.smac h ha hr hy
          (by rw [hb1', abs_one, one_mul] at hN; linarith), hb1', one_mul]
      · rw [if_neg hb1]
        exact hlin
  | ref => exact hrow
  | vec8 => exact hrow
  | avx2 => exact hrow
  | avx512 => exact hrow

/-- **C54** On integer data whose products add up to at most `N` in absolute value, `N` the range
in which the format holds all integers (`2^24` for float, `2^53` for double), every kernel returns
the exact result: the kernels agree bit for bit. -/
theorem C54_integers_exact (F : Fpu (Fp ρ)) (hF : F.Rounds) (N : Nat) (hρ : ExactTo ρ N)
    (k : FpKernel (Fp ρ)) (d : Nat) (hk : k.Ok F d) (A : Csr (Fp ρ)) (hA : A.WF)
    (alpha beta : Fp ρ) (x y : List (Fp ρ)) (hx : A.n ≤ x.length) (hy : A.m ≤ y.length)
    (ia : IsInt alpha.v) (ib : IsInt beta.v) (iA : ∀ a ∈ A.val, IsInt a.v)
    (ix : ∀ a ∈ x, IsInt a.v) (iy : ∀ a ∈ y, IsInt a.v)
    (h1 : ∀ i, i < A.m → matVec A.sizes.mat A.n (sizes x) i ≤ N)
    (h2 : ∀ i, i < A.m → sizeMv alpha beta A x y i ≤ N) :
    ∃ y', csrmvFp F k A.base alpha A.m A.val A.ind A.ptr x beta y = some y' ∧
      y'.length = y.length ∧
      (∀ i, i < A.m → (reals y').getD i 0 = exactMv alpha beta A x y i) ∧
      ∀ i, A.m ≤ i → y'[i]? = y[i]? := by
  obtain ⟨y', e, hl, h3, h4⟩ := C54_products_once F k d hk A hA alpha beta x y hx hy
  refine ⟨y', e, hl, ?_, h4⟩
  intro i hi
  obtain ⟨t, e1, e2, e3⟩ := h3 i hi
  have zint : IsInt (0 : Fp ρ).v := ⟨0, by simp; rfl⟩
  have hget : ∀ (l : List (Fp ρ)), (∀ a ∈ l, IsInt a.v) → ∀ j, IsInt (l.getD j 0).v := by
    intro l hl j
    rw [List.getD_eq_getElem?_getD]
    cases hj : l[j]? with
    | none => exact zint
    | some a => exact hl a (List.mem_of_getElem? hj)
  have hs : sizeSum t.leaves = matVec A.sizes.mat A.n (sizes x) i := by
    rw [← sizeSum_row hA, show rowPairs A x i = t.leaves from e1.symm]
  have hx' : exactSum t.leaves = matVec A.real.mat A.n (reals x) i := by
    rw [← exactSum_row hA, show rowPairs A x i = t.leaves from e1.symm]
  obtain ⟨t1, t2, t3⟩ := tree_exact hF hρ t (by
    intro p hp
    rw [e1] at hp
    obtain ⟨q, hq, rfl⟩ := List.mem_map.mp (Multiset.mem_coe.mp hp)
    refine ⟨iA _ ?_, hget x ix _⟩
    unfold Csr.row at hq
    obtain ⟨z, hz, rfl⟩ := List.mem_map.mp hq
    exact (List.of_mem_zip (List.mem_of_mem_drop (List.mem_of_mem_take hz))).2) (by
      rw [hs]; exact h1 i hi)
  have e4 : (reals y').getD i 0 = (k.finish F alpha beta (t.eval F) (y.getD i 0)).v := by
    unfold reals
    rw [getD_map_v Fp.v rfl, List.getD_eq_getElem?_getD, e3]
    rfl
  have hsz := h2 i hi
  unfold sizeMv at hsz
  rw [← hs] at hsz
  unfold sizes at hsz
  rw [getD_map_v (fun a => |a.v|) (show |(0 : ℝ)| = 0 from abs_zero)] at hsz
  rw [e4, finish_exact hF hρ k ia ib (by rw [t1]; exact t2) (hget y iy i) (by
    rw [t1]
    have := mul_le_mul_of_nonneg_left t3 (abs_nonneg alpha.v)
    linarith), t1]
  unfold exactMv reals
  rw [getD_map_v Fp.v rfl, hx']
  rfl

end

/-! ### the operations one by one -/

theorem term_pair {R : Type} [Mul R] (ind : List Int) (val x : List R) (base p : Int) :
    term ind val x base p = (pairAt ind val x base p).map fun t => t.1 * t.2 := by
  unfold term pairAt
  cases rd ind p with
  | none => rfl
  | some c =>
    cases rd val p with
    | none => rfl
    | some v =>
      simp only [Option.bind_eq_bind, Option.bind_some]
      cases rd x (c - base) <;> rfl

theorem dotSeqFp_plain {R : Type} [Zero R] [One R] [Add R] [Mul R] [DecidableEq R]
    (ind : List Int) (val x : List R) (base lo hi : Int) (init : R) :
    dotSeqFp Fpu.plain ind val x base lo hi init = dotSeq ind val x base lo hi init := by
  unfold dotSeqFp dotSeq
  congr 1
  funext j r
  rw [term_pair]
  cases pairAt ind val x base (j - base) <;> rfl

/-- **C54** With products and sums evaluated one by one the kernels of this property are the
kernels of C17 (only commutativity of `+` and `*` is used, which floating-point numbers have). -/
theorem C54_plain {R : Type} [Zero R] [One R] [Add R] [Mul R] [DecidableEq R]
    (hadd : ∀ a b : R, a + b = b + a) (hmul : ∀ a b : R, a * b = b * a) (k : FpKernel R)
    (base : Int) (alpha : R) (m : Int) (val : List R) (ind ptr : List Int) (x : List R) (beta : R)
    (y : List R) :
    csrmvFp Fpu.plain k base alpha m val ind ptr x beta y
      = csrmvGn k.gn base alpha m val ind ptr x beta y := by
  have hdot : ∀ lo hi, k.dot Fpu.plain ind val x base lo hi = k.gn.dot ind val x base lo hi := by
    have h : ∀ (K : Nat) (hs fin : List R → R) (lo hi : Int),
        dotKFp Fpu.plain K hs fin ind val x base lo hi
          = dotK (vecLanes K hs) K fin ind val x base lo hi := by
      intro K hs fin lo hi
      unfold dotKFp dotK
      simp only [Option.bind_eq_bind]
      refine congrArg (Option.bind _) ?_
      funext v
      exact dotSeqFp_plain ..
    intro lo hi
    cases k with
    | ref => exact dotSeqFp_plain ..
    | vec8 => exact h ..
    | avx2 => exact h ..
    | avx512 => exact h ..
    | kt K hs => exact h ..
  have hst : ∀ (r : R) (i : Int) (y : List R),
      ((rd y i).bind fun yi => wr y i (k.finish Fpu.plain alpha beta r yi))
        = k.gn.store alpha beta r i y := by
    intro r i y
    have hnone : ∀ v : R, rd y i = none → wr y i v = none := by
      intro v h
      cases hw : wr y i v with
      | none => rfl
      | some y' =>
        obtain ⟨p1, p2, _⟩ := wr_some_iff.mp hw
        rw [rd_eq p1, List.getElem?_eq_none_iff] at h
        omega
    have row : ((rd y i).bind fun yi => wr y i (finishRow Fpu.plain alpha beta r yi))
        = storeRow alpha beta r i y := by
      unfold storeRow finishRow
      by_cases hb : beta = 0
      · simp only [hb, ne_eq, not_true_eq_false, if_false]
        cases hr : rd y i with
        | none => rw [hnone _ hr]; rfl
        | some yi => rfl
      · simp only [hb, ne_eq, not_false_eq_true, if_true, Option.bind_eq_bind]
        refine congrArg (Option.bind _) ?_
        funext yi
        by_cases ha : alpha = 1 <;> simp [ha, Fpu.plain]
    cases k with
    | kt K hs =>
      show ((rd y i).bind fun yi => wr y i (finishKt Fpu.plain alpha beta r yi))
        = storeRowKt alpha beta r i y
      unfold storeRowKt finishKt
      by_cases hb : beta = 0
      · simp only [hb, if_true]
        cases hr : rd y i with
        | none => rw [hnone (r * alpha) hr]; rfl
        | some yi => rw [hmul alpha r]; rfl
      · simp only [hb, if_false, Option.bind_eq_bind]
        refine congrArg (Option.bind _) ?_
        funext yi
        by_cases h1 : beta = 1
        · simp [h1, Fpu.plain, hmul alpha r]
        · simp only [h1, if_false, Fpu.plain]
          rw [hadd, hmul alpha r, hmul beta yi]
    | ref => exact row
    | vec8 => exact row
    | avx2 => exact row
    | avx512 => exact row
  unfold csrmvFp csrmvGn
  congr 1
  funext i y
  simp only [Option.bind_eq_bind, hdot]
  refine congrArg (Option.bind _) ?_
  funext lo
  refine congrArg (Option.bind _) ?_
  funext hi
  refine congrArg (Option.bind _) ?_
  funext r
  exact hst r i y

theorem foldlM_some_step {σ ι : Type} {f : σ → ι → Option σ} :
    ∀ (L : List ι) (s s' : σ), L.foldlM f s = some s' → ∀ i ∈ L, ∃ t t', f t i = some t'
  | [], _, _, _, i, hi => by simp at hi
  | a :: L, s, s', h, i, hi => by
    rw [List.foldlM_cons] at h
    obtain ⟨t, h1, h2⟩ := Option.bind_eq_some_iff.mp h
    rcases List.mem_cons.mp hi with rfl | hi
    · exact ⟨s, t, h1⟩
    · exact foldlM_some_step L t s' h2 i hi

/-- **C54** Reproducibility: in any arithmetic, the parallel row loop gives bit for bit the result
of the sequential loop, whatever the number of threads, the assignment of rows to threads and the
interleaving of their accesses to `y`. -/
theorem C54_reproducible {R : Type} [Zero R] [One R] [Add R] [Mul R] [DecidableEq R]
    (k : GnKernel R) (base : Int) (alpha : R) (m : Nat) (val : List R) (ind ptr : List Int)
    (x : List R) (beta : R) (y y' : List R)
    (h : csrmvGn k base alpha m val ind ptr x beta y = some y') :
    ∃ ps, csrmvGnProgs k base alpha m val ind ptr x beta = some ps ∧ ps.length = m ∧
      ∀ c, Prog.Steps (ps, y) c →
        ¬ Prog.Fault c ∧ (Prog.Finished c → c.2 = y') ∧ (¬ Prog.Finished c → ∃ d, Prog.Step c d) := by
  classical
  unfold csrmvGn at h
  rw [forC_range] at h
  simp only [Int.sub_zero, Int.toNat_natCast] at h
  have hrow : ∀ i : Nat, ∃ lhr : Int × Int × R, i < m → rd ptr (i : Int) = some lhr.1 ∧
      rd ptr ((i : Int) + 1) = some lhr.2.1 ∧
      k.dot ind val x base lhr.1 lhr.2.1 = some lhr.2.2 := by
    intro i
    by_cases hi : i < m
    · obtain ⟨t, t', ht⟩ := foldlM_some_step _ _ _ h i (List.mem_range.mpr hi)
      simp only [zero_add, Option.bind_eq_bind, Option.bind_eq_some_iff] at ht
      obtain ⟨lo, a1, hi', a2, r, a3, _⟩ := ht
      exact ⟨(lo, hi', r), fun _ => ⟨a1, a2, a3⟩⟩
    · exact ⟨(0, 0, 0), fun h => absurd h hi⟩
  choose w hw using hrow
  have hps : csrmvGnProgs k base alpha m val ind ptr x beta
      = some ((List.range m).map fun i => k.prog alpha beta (w i).2.2 (i : Int)) := by
    unfold csrmvGnProgs
    apply mapM_range_some
    intro i hi
    obtain ⟨a1, a2, a3⟩ := hw i hi
    simp only [a1, a2, a3, Option.bind_eq_bind, Option.bind_some]
  refine ⟨_, hps, by simp, ?_⟩
  intro c hc
  have hseq : Prog.seqRun ((List.range m).map fun i => k.prog alpha beta (w i).2.2 (i : Int)) y
      = some y' := by
    rw [← h]
    unfold Prog.seqRun
    rw [foldlM_map']
    apply foldlM_congr'
    intro s i hi
    obtain ⟨a1, a2, a3⟩ := hw i (List.mem_range.mp hi)
    simp only [zero_add, a1, a2, a3, Option.bind_eq_bind, Option.bind_some, gnProg_run]
  exact Prog.schedule_independent (cells := fun t a => a = (t : Int))
    (fun s t a hst h1 h2 => hst (by omega))
    (by
      intro t p hp
      rw [List.getElem?_map] at hp
      obtain ⟨i, hi, rfl⟩ := Option.map_eq_some_iff.mp hp
      have : i = t := by
        have := List.getElem?_eq_some_iff.mp hi
        obtain ⟨_, h⟩ := this
        simpa using h.symm
      subst this
      exact gnProg_confined _ _ _ _ _)
    hseq hc

example : csrmvGn .avx2 0 2 2 [1, 2, 3, 4, 5, 6] [0, 1, 2, 3, 4, 1] [0, 5, 6] [1, 2, 3, 4, 5] 1
    ([7, 8] : List Int) = some [117, 32] := by decide +kernel

/-! ### a format -/

/-- rounding to `p` binary digits (to nearest, unbounded exponent) -/
noncomputable def binaryFl (p : Nat) (t : ℝ) : ℝ :=
  round (t * 2 ^ ((p : Int) - 1 - Int.log 2 |t|)) / 2 ^ ((p : Int) - 1 - Int.log 2 |t|)

noncomputable def binary (p : Nat) : Rounding where
  u := 1 / 2 ^ p
  fl := binaryFl p
  err := by
    intro t
    unfold binaryFl
    by_cases ht : t = 0
    · subst ht; simp
    set s : ℝ := 2 ^ ((p : Int) - 1 - Int.log 2 |t|) with hs
    have hspos : 0 < s := zpow_pos (by norm_num) _
    have hlog : (2 : ℝ) ^ Int.log 2 |t| ≤ |t| := by
      have := Int.zpow_log_le_self (R := ℝ) (b := 2) (by norm_num) (abs_pos.mpr ht)
      exact_mod_cast this
    have hr := abs_sub_round (t * s)
    have e : (round (t * s) : ℝ) / s - t = -(t * s - round (t * s)) / s := by
      field_simp
      ring
    rw [e, abs_div, abs_neg, abs_of_pos hspos, div_le_iff₀ hspos]
    have h2 : (2 : ℝ) ^ Int.log 2 |t| * s = 2 ^ p / 2 := by
      rw [hs, ← zpow_add₀ (by norm_num : (2 : ℝ) ≠ 0)]
      rw [show Int.log 2 |t| + ((p : Int) - 1 - Int.log 2 |t|) = (p : Int) - 1 by ring]
      rw [zpow_sub₀ (by norm_num : (2 : ℝ) ≠ 0), zpow_natCast, zpow_one]
    have h3 : (2 : ℝ) ^ p / 2 ≤ |t| * s := by
      rw [← h2]
      exact mul_le_mul_of_nonneg_right hlog hspos.le
    have hp : (0 : ℝ) < 2 ^ p := by positivity
    calc |t * s - round (t * s)| ≤ 1 / 2 := hr
      _ = 1 / 2 ^ p * (2 ^ p / 2) := by field_simp
      _ ≤ 1 / 2 ^ p * (|t| * s) := mul_le_mul_of_nonneg_left h3 (by positivity)
      _ = 1 / 2 ^ p * |t| * s := by ring

theorem binary_exact (p : Nat) (hp : 1 ≤ p) : ExactTo (binary p) (2 ^ p) := by
  intro z hz
  show binaryFl p z = z
  unfold binaryFl
  by_cases h0 : z = 0
  · subst h0; simp
  have hz0 : (0 : ℝ) < |(z : ℝ)| := abs_pos.mpr (by exact_mod_cast h0)
  have hcast : |(z : ℝ)| = (z.natAbs : ℝ) := by
    rw [← Int.cast_abs, Int.abs_eq_natAbs]
    rfl
  have hlog : Int.log 2 |(z : ℝ)| ≤ p := by
    have h1 := Int.zpow_log_le_self (R := ℝ) (b := 2) (by norm_num) hz0
    have h2 : |(z : ℝ)| ≤ 2 ^ p := by
      rw [hcast]
      exact_mod_cast hz
    have h3 : (2 : ℝ) ^ Int.log 2 |(z : ℝ)| ≤ 2 ^ (p : Int) := by
      rw [zpow_natCast]
      exact le_trans (by exact_mod_cast h1) h2
    exact (zpow_le_zpow_iff_right₀ (by norm_num : (1 : ℝ) < 2)).mp h3
  have hint : ∃ w : Int, (z : ℝ) * 2 ^ ((p : Int) - 1 - Int.log 2 |(z : ℝ)|) = w := by
    by_cases hle : Int.log 2 |(z : ℝ)| ≤ (p : Int) - 1
    · obtain ⟨k, hk⟩ := Int.eq_ofNat_of_zero_le (show 0 ≤ (p : Int) - 1 - Int.log 2 |(z : ℝ)| by omega)
      rw [hk]
      exact ⟨z * 2 ^ k, by push_cast; rw [zpow_natCast]⟩
    · have he : Int.log 2 |(z : ℝ)| = p := by omega
      have h1 := Int.zpow_log_le_self (R := ℝ) (b := 2) (by norm_num) hz0
      rw [he, hcast] at h1
      have h2 : 2 ^ p ≤ z.natAbs := by
        rw [zpow_natCast] at h1
        exact_mod_cast h1
      have h3 : z.natAbs = 2 ^ p := by omega
      obtain ⟨q, rfl⟩ : ∃ q, p = q + 1 := ⟨p - 1, by omega⟩
      rw [he]
      have : z = 2 * 2 ^ q ∨ z = -(2 * 2 ^ q) := by
        rw [pow_succ] at h3
        have : ((z.natAbs : Nat) : Int) = 2 ^ q * 2 := by exact_mod_cast h3
        omega
      rw [show ((q + 1 : Nat) : Int) - 1 - ((q + 1 : Nat) : Int) = -1 by ring, zpow_neg_one]
      rcases this with rfl | rfl
      · exact ⟨2 ^ q, by push_cast; ring⟩
      · exact ⟨-2 ^ q, by push_cast; ring⟩
  obtain ⟨w, hw⟩ := hint
  rw [hw, round_intCast, ← hw]
  have : (2 : ℝ) ^ ((p : Int) - 1 - Int.log 2 |(z : ℝ)|) ≠ 0 := zpow_ne_zero _ (by norm_num)
  field_simp

theorem plain_rounds (ρ : Rounding) : (Fpu.plain : Fpu (Fp ρ)).Rounds := by
  refine ⟨fun a b c => Or.inr ?_, fun a b c => Or.inr rfl, fun a r b y => Or.inl rfl⟩
  show ρ.fl (c.v + ρ.fl (a.v * b.v)) = _
  rw [add_comm]

/-- all multiply-adds fused -/
noncomputable def Fpu.fused (ρ : Rounding) : Fpu (Fp ρ) :=
  ⟨fun a b c => ⟨ρ.fl (a.v * b.v + c.v)⟩, fun a b c => ⟨ρ.fl (a.v * b.v + c.v)⟩,
    fun a r b y => ⟨ρ.fl (a.v * r.v + ρ.fl (b.v * y.v))⟩⟩

theorem fused_rounds (ρ : Rounding) : (Fpu.fused ρ).Rounds :=
  ⟨fun _ _ _ => Or.inl rfl, fun _ _ _ => Or.inl rfl, fun _ _ _ _ => Or.inr (Or.inl rfl)⟩

/-- **C54** The kernels the library selects for real data meet the hypothesis `Ok` with at most
three levels of horizontal additions (the templated kernel with registers of four doubles or eight
floats; with sixteen lanes or eight doubles the compiler chooses the order of
`_mm512_reduce_add_*`, and any order of `d` levels will do). -/
theorem C54_kernels {R : Type} [Zero R] [One R] [Add R] [Mul R] [DecidableEq R] (F : Fpu R) :
    (FpKernel.ref : FpKernel R).Ok F 0 ∧ (FpKernel.avx2 : FpKernel R).Ok F 2 ∧
    (FpKernel.vec8 : FpKernel R).Ok F 3 ∧ (FpKernel.avx512 : FpKernel R).Ok F 3 ∧
    (FpKernel.kt 4 hsum4l : FpKernel R).Ok F 2 ∧ (FpKernel.kt 8 hsum8k : FpKernel R).Ok F 3 :=
  ⟨trivial, le_rfl, le_rfl, le_rfl, ⟨by omega, hsum4l_ok F⟩, ⟨by omega, hsum8k_ok F⟩⟩

/-! ### examples -/

/-- numbers of a format from integers -/
def fpInt (ρ : Rounding) (z : Int) : Fp ρ := ⟨z⟩

/-- one row `8 0 1 1` -/
def fpRow (ρ : Rounding) : Csr (Fp ρ) :=
  ⟨1, 4, 0, [0, 4], [0, 1, 2, 3], [8, 0, 1, 1].map (fpInt ρ)⟩

theorem fpRow_wf (ρ : Rounding) : (fpRow ρ).WF := by
  refine ⟨Or.inl rfl, rfl, rfl, ?_, rfl, rfl, ?_⟩
  · intro i hi
    have : i = 0 := by
      have : i < 1 := hi
      omega
    subst this
    show (0 : Int) ≤ 4
    omega
  · show ∀ c ∈ ([0, 1, 2, 3] : List Int), (0 : Int) ≤ c ∧ c < 0 + 4
    decide

/-- four ones -/
def fpOnes (ρ : Rounding) : List (Fp ρ) := [1, 1, 1, 1].map (fpInt ρ)

example : ∃ y', csrmvFp (Fpu.fused (binary 53)) .avx2 0 1 1 (fpRow (binary 53)).val
    (fpRow (binary 53)).ind (fpRow (binary 53)).ptr (fpOnes _) 0 [fpInt _ 5] = some y' ∧ y'.length = 1 ∧
    |(reals y').getD 0 0 - exactMv 1 0 (fpRow (binary 53)) (fpOnes _) [fpInt _ 5] 0|
      ≤ ((1 + 1 / 2 ^ 53) ^ 9 - 1) * sizeMv 1 0 (fpRow (binary 53)) (fpOnes _) [fpInt _ 5] 0 := by
  obtain ⟨y', h1, h2, h3, _⟩ := C54_error (Fpu.fused (binary 53)) (fused_rounds _) .avx2 2
    (C54_kernels _).2.1 (fpRow _) (fpRow_wf _) 1 0 (fpOnes _)
    [fpInt _ 5] (le_refl 4) (le_refl 1)
  exact ⟨y', h1, h2, h3 0 (show 0 < 1 by omega)⟩

theorem binary3 (z : Int) (w : Int) (h1 : 8 ≤ z) (h2 : z < 16) (hw : w = (z + 1) / 2) :
    (binary 3).fl z = 2 * w := by
  show binaryFl 3 z = 2 * w
  unfold binaryFl
  have hpos : (0 : ℝ) < z := by exact_mod_cast (by omega : 0 < z)
  have hlog : Int.log 2 |(z : ℝ)| = 3 := by
    rw [abs_of_pos hpos]
    apply le_antisymm
    · have : Int.log 2 (z : ℝ) < 4 := by
        rw [← Int.lt_zpow_iff_log_lt (by norm_num) hpos]
        have : (z : ℝ) < 16 := by exact_mod_cast h2
        norm_num
        linarith
      omega
    · rw [← Int.zpow_le_iff_le_log (by norm_num) hpos]
      have : (8 : ℝ) ≤ z := by exact_mod_cast h1
      norm_num
      linarith
  rw [hlog]
  have hr : round ((z : ℝ) * 2 ^ (((3 : Nat) : Int) - 1 - 3)) = w := by
    rw [round_eq, Int.floor_eq_iff]
    norm_num
    have c1 : 2 * w ≤ z + 1 := by omega
    have c2 : z + 1 < 2 * w + 2 := by omega
    have c1' : (2 : ℝ) * w ≤ z + 1 := by exact_mod_cast c1
    have c2' : (z : ℝ) + 1 < 2 * w + 2 := by exact_mod_cast c2
    constructor <;> linarith
  rw [hr]
  norm_num
  ring

theorem fp_row4 {R : Type} [Zero R] [One R] [Add R] [Mul R] [DecidableEq R]
    (a b c d o al be y : R) :
    csrmvFp Fpu.plain .ref 0 al 1 [a, b, c, d] [0, 1, 2, 3] [0, 4] [o, o, o, o] be [y]
      = some [finishRow Fpu.plain al be ((((0 + a * o) + b * o) + c * o) + d * o) y] ∧
    csrmvFp Fpu.plain .avx2 0 al 1 [a, b, c, d] [0, 1, 2, 3] [0, 4] [o, o, o, o] be [y]
      = some [finishRow Fpu.plain al be
          (((a * o + 0) + (b * o + 0)) + ((c * o + 0) + (d * o + 0))) y] := ⟨rfl, rfl⟩

/-- **C54** (the agreement of the kernels is not bit for bit): with three binary digits the scalar
kernel and the AVX2 kernel return different numbers for the row `8 0 1 1` times ones. -/
theorem C54_kernels_differ :
    csrmvFp Fpu.plain .ref 0 1 1 (fpRow (binary 3)).val (fpRow (binary 3)).ind (fpRow (binary 3)).ptr
        (fpOnes _) 0 [fpInt _ 5] = some [fpInt _ 12] ∧
    csrmvFp Fpu.plain .avx2 0 1 1 (fpRow (binary 3)).val (fpRow (binary 3)).ind
        (fpRow (binary 3)).ptr (fpOnes _) 0 [fpInt _ 5] = some [fpInt _ 10] ∧
    fpInt (binary 3) 12 ≠ fpInt (binary 3) 10 := by
  have fin : ∀ r y : Fp (binary 3), finishRow Fpu.plain 1 0 r y = r := by
    intro r y
    unfold finishRow
    rw [if_neg (by simp), if_neg (by simp)]
  have ex : ∀ z : Int, z.natAbs ≤ 8 → (binary 3).fl z = z := binary_exact 3 (by norm_num)
  have mul : ∀ a b : Int, (a * b).natAbs ≤ 8 → fpInt (binary 3) a * fpInt _ b = fpInt _ (a * b) := by
    intro a b h
    apply Fp.ext'
    show (binary 3).fl (a * b) = ((a * b : Int) : ℝ)
    rw [← ex (a * b) h]
    push_cast
    rfl
  have add : ∀ a b : Int, (a + b).natAbs ≤ 8 → fpInt (binary 3) a + fpInt _ b = fpInt _ (a + b) := by
    intro a b h
    apply Fp.ext'
    show (binary 3).fl (a + b) = ((a + b : Int) : ℝ)
    rw [← ex (a + b) h]
    push_cast
    rfl
  have add' : ∀ a b : Int, 8 ≤ a + b → a + b < 16 →
      fpInt (binary 3) a + fpInt _ b = fpInt _ (2 * ((a + b + 1) / 2)) := by
    intro a b h1 h2
    apply Fp.ext'
    show (binary 3).fl (a + b) = ((2 * ((a + b + 1) / 2) : Int) : ℝ)
    have := binary3 (a + b) ((a + b + 1) / 2) h1 h2 rfl
    push_cast at this ⊢
    exact this
  have z0 : (0 : Fp (binary 3)) = fpInt _ 0 := Fp.ext' (by show (0 : ℝ) = ((0 : Int) : ℝ); simp)
  have m8 := mul 8 1 (by decide)
  have m0 := mul 0 1 (by decide)
  have m1 := mul 1 1 (by decide)
  norm_num at m8 m0 m1
  have s1 := add 0 8 (by decide)
  have s2 := add 8 0 (by decide)
  have s3 := add' 8 1 (by decide) (by decide)
  have s4 := add' 10 1 (by decide) (by decide)
  have s5 := add 0 0 (by decide)
  have s6 := add 1 0 (by decide)
  have s7 := add 1 1 (by decide)
  have s8 := add' 8 2 (by decide) (by decide)
  norm_num at s1 s2 s3 s4 s5 s6 s7 s8
  refine ⟨?_, ?_, ?_⟩
  · refine (fp_row4 (fpInt (binary 3) 8) (fpInt _ 0) (fpInt _ 1) (fpInt _ 1) (fpInt _ 1) 1 0
      (fpInt _ 5)).1.trans ?_
    rw [fin, z0, m8, m0, m1, s1, s2, s3, s4]
  · refine (fp_row4 (fpInt (binary 3) 8) (fpInt _ 0) (fpInt _ 1) (fpInt _ 1) (fpInt _ 1) 1 0
      (fpInt _ 5)).2.trans ?_
    rw [fin, z0, m8, m0, m1, s2, s5, s6, s7, s2, s8]
  · intro h
    have : ((12 : Int) : ℝ) = ((10 : Int) : ℝ) := congrArg Fp.v h
    norm_num at this

/-- the integers below 16 with three binary digits, computably (`digits3_eq`) -/
structure Digits3 where
  z : Int
deriving DecidableEq

def digits3 (z : Int) : Int := if z.natAbs ≤ 8 then z else 2 * ((z + 1) / 2)

instance : Zero Digits3 := ⟨⟨0⟩⟩
instance : One Digits3 := ⟨⟨1⟩⟩
instance : Add Digits3 := ⟨fun a b => ⟨digits3 (a.z + b.z)⟩⟩
instance : Mul Digits3 := ⟨fun a b => ⟨digits3 (a.z * b.z)⟩⟩

theorem digits3_eq (z : Int) (h0 : -8 ≤ z) (h : z < 16) :
    (binary 3).fl z = (digits3 z : Int) := by
  unfold digits3
  by_cases hz : z.natAbs ≤ 8
  · rw [if_pos hz]
    exact binary_exact 3 (by norm_num) z hz
  · rw [if_neg hz, binary3 z _ (by omega) h rfl]
    push_cast
    rfl

/-- **C54** (the transposed product is not reproducible): three threads, one column; the order in
which the threads enter the critical section changes the result. -/
theorem C54_transpose_order :
    csrmvtKt 4 0 (1 : Digits3) 3 1 [⟨8⟩, 1, 1] [0, 0, 0] [0, 1, 2, 3] [1, 1, 1] 0 [0] 3 [0, 1, 2]
      = some [⟨12⟩] ∧
    csrmvtKt 4 0 (1 : Digits3) 3 1 [⟨8⟩, 1, 1] [0, 0, 0] [0, 1, 2, 3] [1, 1, 1] 0 [0] 3 [1, 2, 0]
      = some [⟨10⟩] := by decide +kernel

/-- integers: the row `8 0 1 1` times ones in double precision -/
example : ∃ y', csrmvFp (Fpu.fused (binary 53)) .avx512 0 1 1 (fpRow (binary 53)).val
    (fpRow (binary 53)).ind (fpRow (binary 53)).ptr (fpOnes _) 0 [fpInt _ 5] = some y' ∧
    (reals y').getD 0 0 = exactMv 1 0 (fpRow (binary 53)) (fpOnes _) [fpInt _ 5] 0 := by
  have hint : ∀ z, IsInt (fpInt (binary 53) z).v := fun z => ⟨z, rfl⟩
  have hm : ∀ i, i < 1 → matVec (fpRow (binary 53)).sizes.mat 4 (sizes (fpOnes (binary 53))) i = 10 := by
    intro i hi
    have : i = 0 := by omega
    subst this
    refine (sizeSum_row (A := fpRow (binary 53)) (fpRow_wf _) (fpOnes _) 0).symm.trans ?_
    show ((([8, 0, 1, 1] : List Int).map fun z => (fpInt (binary 53) z, fpInt (binary 53) 1)).map
      fun p => |p.1.v| * |p.2.v|).sum = 10
    simp [fpInt]
    norm_num
  obtain ⟨y', h1, _, h3, _⟩ := C54_integers_exact (Fpu.fused (binary 53)) (fused_rounds _) (2 ^ 53)
    (binary_exact 53 (by norm_num)) .avx512 3 (C54_kernels _).2.2.2.1 (fpRow _) (fpRow_wf _) 1 0
    (fpOnes _) [fpInt _ 5] (le_refl 4) (le_refl 1) ⟨1, by simp; rfl⟩ ⟨0, by simp; rfl⟩
    (by intro a ha; obtain ⟨z, _, rfl⟩ := List.mem_map.mp ha; exact hint z)
    (by intro a ha; obtain ⟨z, _, rfl⟩ := List.mem_map.mp ha; exact hint z)
    (by intro a ha; rw [List.mem_singleton.mp ha]; exact hint 5)
    (by intro i hi; exact (hm i hi).le.trans (by norm_num))
    (by
      intro i hi
      unfold sizeMv
      rw [show (fpRow (binary 53)).n = 4 from rfl, hm i hi]
      have e1 : (1 : Fp (binary 53)).v = 1 := rfl
      have e0 : (0 : Fp (binary 53)).v = 0 := rfl
      rw [e1, e0]
      norm_num)
  exact ⟨y', h1, h3 0 (show 0 < 1 by omega)⟩

end Verif
