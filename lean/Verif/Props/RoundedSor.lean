/-
C81  Rounding errors of a sweep of successive over-relaxation.
-/
import Verif.Proofs.RoundedSor
import Verif.Props.RoundedTrsm

namespace Verif
open Model Finset Rounding

section
variable {ρ : Rounding}

/-- the sum over the columns other than `i`, in two parts -/
theorem sum_ne_split (m i : Nat) (f g h : Nat → ℝ) (hl : ∀ j, j < i → f j = g j) (hr : ∀ j, i < j → f j = h j) :
    ∑ j ∈ range m with j ≠ i, f j = ∑ j ∈ range m with j < i, g j + ∑ j ∈ range m with i < j, h j := by
  rw [sum_filter, sum_filter, sum_filter, ← sum_add_distrib]
  apply sum_congr rfl
  intro j _
  rcases lt_trichotomy j i with c | c | c
  · simp [c, c.ne, not_lt.2 c.le, hl j c]
  · simp [c]
  · simp [c, c.ne', not_lt.2 c.le, hr j c]

theorem diag_entry {A : Csr (Fp ρ)} {i : Nat} (h : (A.cols i).count (i : Int) = 1) :
    ∃ d, (A.row i).filter (fun e => decide (e.1 = (i : Int))) = [((i : Int), d)] ∧ A.real.mat i i = d.v := by
  have : (A.cols i).count (i : Int) = ((A.row i).filter (fun e => decide (e.1 = (i : Int)))).length := by
    rw [← List.countP_eq_length_filter, List.count_eq_countP, Csr.cols, List.countP_map]
    congr 1
  rw [this, List.length_eq_one_iff] at h
  obtain ⟨e, he⟩ := h
  have h1 : e.1 = (i : Int) := by
    have hm : e ∈ (A.row i).filter (fun e => decide (e.1 = (i : Int))) := by rw [he]; simp
    simpa using (List.mem_filter.1 hm).2
  refine ⟨e.2, by rw [he, ← h1], ?_⟩
  unfold Csr.mat Csr.entry
  rw [show A.real.row i = (A.row i).map fun e => (e.1, e.2.v) from real_row Fp.v A i, List.filter_map]
  rw [show ((fun e : Int × ℝ => decide (e.1 = (i : Int))) ∘ fun e : Int × Fp ρ => (e.1, e.2.v))
    = fun e => decide (e.1 = (i : Int)) from rfl, he]
  simp

/-- **C81.**  In floating-point arithmetic in which every operation has relative error at most `u`, products fused into
additions or not: every element the sweep writes is, up to `(1+u)^k - 1` times the sizes of its terms, the value of
the recurrence of successive over-relaxation from the start `alpha * x`, the elements already updated being the ones
computed; `k` is the number of entries stored in the row plus 7.  Every row stores its diagonal entry once, and it is
not zero.  Nothing beyond the first `m` elements changes. -/
theorem C81_sweep (F : Fpu (Fp ρ)) (hF : F.Rounds) (A : Csr (Fp ρ)) (hA : A.WF) (hsq : A.m = A.n)
    (hd : ∀ i, i < A.m → (A.cols i).count (i : Int) = 1 ∧ A.real.mat i i ≠ 0) (omega alpha : Fp ρ)
    (x b : List (Fp ρ)) (hx : A.m ≤ x.length) (hb : A.m ≤ b.length) :
    ∃ x', sorFp F A.m A.base A.ptr A.ind A.val omega alpha x b = some x' ∧ x'.length = x.length ∧
      (∀ i, i < A.m →
        |(reals x').getD i 0 - ((1 - omega.v) * (alpha.v * (reals x).getD i 0) + omega.v * (((reals b).getD i 0
            - ∑ j ∈ range A.m with j < i, A.real.mat i j * (reals x').getD j 0
            - ∑ j ∈ range A.m with i < j, A.real.mat i j * (alpha.v * (reals x).getD j 0)) / A.real.mat i i))|
          ≤ ((1 + ρ.u) ^ ((A.row i).length + 7) - 1) *
            ((1 + |omega.v|) * |alpha.v * (reals x).getD i 0| + |omega.v| * ((|(reals b).getD i 0|
              + ∑ j ∈ range A.m with j < i, A.sizes.mat i j * |(reals x').getD j 0|
              + ∑ j ∈ range A.m with i < j, A.sizes.mat i j * |alpha.v * (reals x).getD j 0|)
                / |A.real.mat i i|))) ∧
      ∀ i, A.m ≤ i → x'[i]? = x[i]? := by
  obtain ⟨y, e0, l0, n0, r0⟩ := sorScale_near (alpha := alpha) hx
  set bound : Nat → (Nat → ℝ) → Prop := fun i X =>
    |X i - ((1 - omega.v) * (alpha.v * (x.getD i 0).v) + omega.v * (((b.getD i 0).v
            - ∑ j ∈ range A.m with j < i, A.real.mat i j * X j
            - ∑ j ∈ range A.m with i < j, A.real.mat i j * (alpha.v * (x.getD j 0).v)) / A.real.mat i i))|
          ≤ ((1 + ρ.u) ^ ((A.row i).length + 7) - 1) *
            ((1 + |omega.v|) * |alpha.v * (x.getD i 0).v| + |omega.v| * ((|(b.getD i 0).v|
              + ∑ j ∈ range A.m with j < i, A.sizes.mat i j * |X j|
              + ∑ j ∈ range A.m with i < j, A.sizes.mat i j * |alpha.v * (x.getD j 0).v|)
                / |A.real.mat i i|)) with hbound
  have hcong : ∀ i X X', (∀ j, j ≤ i → X' j = X j) → bound i X → bound i X' := by
    intro i X X' h hX
    have c1 : ∑ j ∈ range A.m with j < i, A.real.mat i j * X' j
        = ∑ j ∈ range A.m with j < i, A.real.mat i j * X j :=
      sum_congr rfl fun j hj => by rw [h j (mem_filter.1 hj).2.le]
    have c2 : ∑ j ∈ range A.m with j < i, A.sizes.mat i j * |X' j|
        = ∑ j ∈ range A.m with j < i, A.sizes.mat i j * |X j| :=
      sum_congr rfl fun j hj => by rw [h j (mem_filter.1 hj).2.le]
    simp only [hbound] at hX ⊢
    rw [c1, c2, h i le_rfl]
    exact hX
  obtain ⟨x', e, h1, h2, h3⟩ := forC_inv_nat (n := A.m) (s := y)
    (f := sorRowFp F A.base A.ptr A.ind A.val omega b)
    (P := fun k z => z.length = y.length ∧ (∀ i, i < k → bound i fun j => (z.getD j 0).v) ∧
      ∀ i, k ≤ i → z[i]? = y[i]?)
    ⟨rfl, fun i hi => absurd hi (by omega), fun _ _ => rfl⟩ (by
      rintro k z hk ⟨p1, p2, p3⟩
      obtain ⟨d, hd1, hd2⟩ := diag_entry (hd k hk).1
      have hzk : ∀ j, k ≤ j → z.getD j 0 = y.getD j 0 := by
        intro j hj
        rw [List.getD_eq_getElem?_getD, p3 j hj, List.getD_eq_getElem?_getD]
      obtain ⟨v, ev, hv⟩ := sorRowFp_near hF hA hsq hk hd1 (z := z) (b := b) (by omega) hb omega
        (Y := fun j => if j < k then (z.getD j 0).v else alpha.v * (x.getD j 0).v) (by
          intro j hj
          by_cases hjk : j < k
          · simp only [if_pos hjk]
            exact (Near.exact _).mono (by omega)
          · simp only [if_neg hjk]
            rw [hzk j (by omega)]
            exact n0 j hj)
      have hne : ∀ j, j ≠ k → (z.set k v).getD j 0 = z.getD j 0 := by
        intro j hj
        rw [List.getD_eq_getElem?_getD, List.getElem?_set_ne (by omega), ← List.getD_eq_getElem?_getD]
      have hself : (z.set k v).getD k 0 = v := by
        rw [List.getD_eq_getElem?_getD, List.getElem?_set_self (by omega)]; rfl
      refine ⟨z.set k v, ev, by simpa using p1, ?_, ?_⟩
      · intro i hi
        by_cases hik : i = k
        · subst hik
          have b2 := hv.2
          simp only [lt_irrefl, if_false] at b2
          rw [sum_ne_split A.m i _ (fun j => A.real.mat i j * (z.getD j 0).v)
              (fun j => A.real.mat i j * (alpha.v * (x.getD j 0).v)) (fun j hj => by rw [if_pos hj])
              (fun j hj => by rw [if_neg (by omega)]),
            sum_ne_split A.m i _ (fun j => A.sizes.mat i j * |(z.getD j 0).v|)
              (fun j => A.sizes.mat i j * |alpha.v * (x.getD j 0).v|) (fun j hj => by rw [if_pos hj])
              (fun j hj => by rw [if_neg (by omega)]), ← hd2] at b2
          have c1 : ∑ j ∈ range A.m with j < i, A.real.mat i j * ((z.set i v).getD j 0).v
              = ∑ j ∈ range A.m with j < i, A.real.mat i j * (z.getD j 0).v :=
            sum_congr rfl fun j hj => by rw [hne j (mem_filter.1 hj).2.ne]
          have c2 : ∑ j ∈ range A.m with j < i, A.sizes.mat i j * |((z.set i v).getD j 0).v|
              = ∑ j ∈ range A.m with j < i, A.sizes.mat i j * |(z.getD j 0).v| :=
            sum_congr rfl fun j hj => by rw [hne j (mem_filter.1 hj).2.ne]
          simp only [hbound]
          rw [c1, c2, hself]
          refine le_of_eq_of_le ?_ (b2.trans_eq ?_)
          · congr 1
            rw [div_eq_inv_mul]
            ring
          · rw [div_eq_inv_mul, abs_inv]
            unfold Rounding.g
            ring
        · refine hcong i (fun j => (z.getD j 0).v) (fun j => ((z.set k v).getD j 0).v) (fun j hj => ?_) (p2 i (by omega))
          beta_reduce
          rw [hne j (by omega)]
      · intro i hi
        rw [List.getElem?_set_ne (by omega)]
        exact p3 i (by omega))
  refine ⟨x', ?_, by rw [h1, l0], ?_, fun i hi => by rw [h3 i hi, r0 i hi]⟩
  · unfold sorFp sorForwardFp
    rw [e0]
    exact e
  · intro i hi
    have := h2 i hi
    simp only [reals_getD]
    exact this

/-- **C81, the same program**: with products and sums evaluated one by one, in any arithmetic, scaling and sweep are
those of C35. -/
theorem C81_plain {R : Type} [Zero R] [One R] [Add R] [Sub R] [Neg R] [Mul R] [Div R] [DecidableEq R]
    (c : MCopy R) (H : MvHandle R) (base : Int) (omega alpha : R) (x b : List R) :
    sorRun c H base omega alpha x b
      = (sorFp Fpu.plain H.raw.un base c.ptr c.ind c.val omega alpha x b).map fun x' => (.success, x', H) := by
  unfold sorRun sorFp
  cases sorScale H.raw.un alpha x with
  | none => rfl
  | some y =>
    show (sorForward _ _ _ _ _ _ _ _).bind _ = (sorForward _ _ _ _ _ _ _ _).map _
    cases sorForward H.raw.un base c.ptr c.ind c.val omega y b <;> rfl

end

/-! ### a case that meets the hypotheses -/

/-- double precision, fused products, a matrix with two rows, relaxation factor 2, an array of x that is longer than the matrix needs -/
example := C81_sweep (SolveFpu.fused (binary 53)).toFpu (solve_fused_rounds _).mac (fpTri _) (fpTri_wf _) rfl
    (by
      intro i hi
      refine ⟨?_, fpTri_diag _ i hi⟩
      have hi : i < 2 := hi
      obtain rfl | rfl : i = 0 ∨ i = 1 := by omega
      · rfl
      · rfl)
    (fpInt _ 2) 1 [fpInt _ 1, fpInt _ 7, fpInt _ 9] [fpInt _ 3, fpInt _ 4]
    (by show 2 ≤ 3; omega) (by show 2 ≤ 2; omega)

end Verif
