/-
C55: rounding errors of triangular solves (real data).
-/
import Verif.Proofs.RoundedSolve
import Verif.Props.Rounded

namespace Verif
open Model Rounding Finset

theorem clean_split {R : Type} {A : Csr R} {idiag iurow : List Int} (h : Clean A idiag iurow) :
    ∃ L D U : Nat → List (Int × R), ∀ i, i < A.m → CleanRow A idiag iurow i (L i) (D i) (U i) := by
  unfold Clean at h
  choose! L D U hc using h
  exact ⟨L, D, U, hc⟩

/-- the identifier a real triangular solve is dispatched with -/
theorem triDoid_eq (f : Fill) (op : Op) : getDoid true 3 f.code op.code = triDoid f op.isTrans := by
  cases f <;> cases op <;> decide

/-- **C55** In any arithmetic (no algebraic law is assumed), every kernel of the table returns a
vector in which every component is `alpha * b_i` minus the products of the stored off-diagonal
entries of row `i` of the operator with the returned components, each subtracted exactly once in
some order, divided by the stored diagonal entry unless the diagonal is unit.  A padded lane may add
one product of two zeros.  Nothing else in the array changes. -/
theorem C55_products_once {R : Type} [Zero R] [One R] [Add R] [Sub R] [Neg R] [Mul R] [Div R]
    [DecidableEq R] (F : SolveFpu R) (im : FpTrsv R) (l : Nat) (f : Fill) (op : Op) (A : Csr R)
    (hA : A.WF) (hsq : A.m = A.n) (idiag iurow : List Int) (hcl : Clean A idiag iurow)
    (unit : Bool) (alpha : R) (him : im.Ok F l A alpha op.isTrans) (b x : List R)
    (incb incx : Nat) (hincx : 0 < incx) (hb : ∀ i, i < A.m → i * incb < b.length)
    (hx : ∀ i, i < A.m → i * incx < x.length) :
    ∃ x', trsvFp F im (getDoid true 3 f.code op.code) alpha A.m A.base A.val A.ind A.ptr idiag iurow
        b incb x incx unit = some x' ∧
      x'.length = x.length ∧
      (∀ i, i < A.m → ∃ (t : DiffTree R) (z : Nat),
        x'[i * incx]? = some (if unit then t.eval F else t.eval F / A.diagAt i) ∧
        t.from' = (alpha, b.getD (i * incb) 0) ∧
        t.leaves = (((A.opRow f op.isTrans i).map fun e =>
          (e.2, x'.getD (e.1.toNat * incx) 0) : List (R × R)) : Multiset (R × R))
            + Multiset.replicate z (0, 0) ∧ z ≤ 1 ∧
        t.size ≤ (A.opRow f op.isTrans i).length + 2 * l + 6) ∧
      ∀ k, (∀ i, i < A.m → k ≠ i * incx) → x'[k]? = x[k]? := by
  obtain ⟨L, D, U, hc⟩ := clean_split hcl
  have ctx : FpCtx A idiag iurow L D U b x incb incx := ⟨hA, hsq, hc, hincx, hb, hx⟩
  obtain ⟨x', g, e, h1, h2⟩ := trsvFp_rows F unit alpha im f op.isTrans him ctx
  rw [triDoid_eq]
  refine ⟨x', e, h1.len, ?_, h1.rest⟩
  intro i hi
  obtain ⟨v, ⟨z, hz, t, h3, h4, h5, rfl⟩, h6⟩ := h2 i (mem_range.mpr hi)
  rw [rowsOf_opRow ctx f op.isTrans hi] at h4 h5
  refine ⟨t, z, ?_, h3, ?_, hz, by omega⟩
  · rw [h1.val i hi, h6]
    rfl
  · rw [h4]
    unfold prodsOf
    congr 2
    apply List.map_congr_left
    intro e he
    have hlt : e.1.toNat < A.m := by
      cases ht : op.isTrans with
      | false =>
        rw [ht] at he
        simp only [Csr.opRow, Bool.false_eq_true, if_false, List.mem_filter] at he
        have := Csr.row_range hA he.1
        omega
      | true =>
        rw [ht] at he
        simp only [Csr.opRow, if_true, List.mem_flatMap, List.mem_map, List.mem_range] at he
        obtain ⟨k, hk, e', _, rfl⟩ := he
        simpa using hk
    rw [List.getD_eq_getElem?_getD, h1.val _ hlt]
    rfl

/-! ### the coefficients -/

theorem opRow_tri (B : Csr ℝ) (hB : B.WF) (f : Fill) (Dg : Diag) (i j : Nat) :
    structured .triangular f Dg B.mat i j
      = (if i = j then diagVal Dg B.mat i else 0) + colSum (B.opRow f false i) j := by
  have hfil : colSum (B.opRow f false i) j = if strictTri f i j then B.mat i j else 0 := by
    simp only [Csr.opRow, Bool.false_eq_true, if_false]
    split
    · next hs =>
      rw [mat_eq_colSum]
      unfold colSum
      rw [List.filter_filter]
      congr 2
      apply List.filter_congr
      intro e he
      by_cases hj : e.1 = (j : Int)
      · rw [hj, Int.toNat_natCast]
        simp [hs]
      · simp [hj]
    · next hs =>
      apply colSum_zero
      intro e he hj
      rw [List.mem_filter] at he
      have := of_decide_eq_true he.2
      rw [hj, Int.toNat_natCast] at this
      exact hs this
  rw [hfil]
  simp only [structured]
  by_cases hij : i = j
  · subst hij
    have hns : ¬ strictTri f i i := by cases f <;> simp [strictTri]
    simp [hns]
  · simp [hij]

theorem opRow_triT (B : Csr ℝ) (f : Fill) (Dg : Diag) {i j : Nat} (hj : j < B.m) :
    structured .triangular f Dg B.mat j i
      = (if i = j then diagVal Dg B.mat i else 0) + colSum (B.opRow f true i) j := by
  have hfil : colSum (B.opRow f true i) j = if strictTri f j i then B.mat j i else 0 := by
    simp only [Csr.opRow, if_true]
    have key : ∀ n, colSum ((List.range n).flatMap fun k =>
        ((B.row k).filter fun e => decide (e.1 = (i : Int) ∧ strictTri f k i)).map
          fun e => ((k : Int), e.2)) j
        = if j < n then (if strictTri f j i then B.mat j i else 0) else 0 := by
      intro n
      induction n with
      | zero => simp [colSum]
      | succ n ih =>
        rw [List.range_succ, List.flatMap_append, colSum_append, ih]
        simp only [List.flatMap_cons, List.flatMap_nil, List.append_nil]
        by_cases hjn : j = n
        · subst hjn
          rw [if_neg (by omega), if_pos (by omega), zero_add]
          unfold colSum
          rw [List.filter_eq_self.mpr (by
            intro e he
            obtain ⟨e', _, rfl⟩ := List.mem_map.mp he
            simp), List.map_map]
          split
          · next hs =>
            rw [mat_eq_colSum]
            unfold colSum
            congr 2
            apply List.filter_congr
            intro e _
            simp [hs]
          · next hs =>
            rw [List.filter_eq_nil_iff.mpr (by intro e _; simp [hs])]
            rfl
        · rw [colSum_zero (by
            intro e he hej
            obtain ⟨e', _, rfl⟩ := List.mem_map.mp he
            simp only at hej
            omega), add_zero]
          have : j < n + 1 ↔ j < n := by omega
          simp [this]
    rw [key, if_pos hj]
  rw [hfil]
  simp only [structured]
  by_cases hij : i = j
  · subst hij
    have hns : ¬ strictTri f i i := by cases f <;> simp [strictTri]
    simp [hns]
  · simp [hij, Ne.symm hij]

/-- row `i` of the operator of a real triangular solve -/
theorem opRow_operator (B : Csr ℝ) (hB : B.WF) (f : Fill) (Dg : Diag) (op : Op) {i j : Nat}
    (hj : j < B.m) : operator .triangular f Dg op B.mat i j
      = (if i = j then diagVal Dg B.mat i else 0) + colSum (B.opRow f op.isTrans i) j := by
  cases op
  · exact opRow_tri B hB f Dg i j
  · exact opRow_triT B f Dg hj
  · exact (star_trivial _).trans (opRow_triT B f Dg hj)

section
variable {ρ : Rounding}

theorem opRow_map (fn : Fp ρ → ℝ) (A : Csr (Fp ρ)) (f : Fill) (tr : Bool) (i : Nat) :
    Csr.opRow (⟨A.m, A.n, A.base, A.ptr, A.ind, A.val.map fn⟩ : Csr ℝ) f tr i
      = (A.opRow f tr i).map fun e => (e.1, fn e.2) := by
  cases tr
  · simp only [Csr.opRow, Bool.false_eq_true, if_false]
    rw [real_row, List.filter_map]
    rfl
  · simp only [Csr.opRow, if_true, List.map_flatMap]
    refine List.flatMap_congr (fun k _ => ?_)
    rw [real_row, List.filter_map, List.map_map, List.map_map]
    rfl

theorem diag_map (fn : Fp ρ → ℝ) {A : Csr (Fp ρ)} {idiag iurow : List Int}
    {L D U : Nat → List (Int × Fp ρ)} {b x0 : List (Fp ρ)} {incb inc : Nat}
    (h : FpCtx A idiag iurow L D U b x0 incb inc) {i : Nat} (hi : i < A.m) :
    Csr.mat (⟨A.m, A.n, A.base, A.ptr, A.ind, A.val.map fn⟩ : Csr ℝ) i i = fn (A.diagAt i) := by
  rw [mat_eq_colSum, real_row]
  obtain ⟨h0, h1, h2, h3, _⟩ := h.rows i hi
  rw [h0, List.map_append, List.map_append, colSum_append, colSum_append,
    colSum_zero (S := (L i).map _) (by
      intro e he
      obtain ⟨e', he', rfl⟩ := List.mem_map.mp he
      have := h1 e' he'
      show e'.1 ≠ _
      omega),
    colSum_zero (S := (U i).map _) (by
      intro e he
      obtain ⟨e', he', rfl⟩ := List.mem_map.mp he
      have := h3 e' he'
      show e'.1 ≠ _
      omega), (h.dg hi).1]
  simp [colSum]

theorem gi_nonneg (hu : ρ.u < 1) (n : Nat) : 0 ≤ ρ.gi n :=
  le_trans (abs_nonneg _) ((Th.one hu n).err hu)

/-- **C55** Backward error.  In floating-point arithmetic with unit roundoff `u < 1`, products
fused or not, every kernel returns the exact solution of a system whose matrix differs from the
requested operator by at most `1/(1-u)^k - 1` in every entry, relative to the sizes of the stored
numbers, with `k` the number of off-diagonal entries in a row plus a constant.  The right-hand side
is not perturbed. -/
theorem C55_backward (hu : ρ.u < 1) (F : SolveFpu (Fp ρ)) (hF : F.Rounds) (im : FpTrsv (Fp ρ))
    (l : Nat) (f : Fill) (op : Op) (A : Csr (Fp ρ)) (hA : A.WF) (hsq : A.m = A.n)
    (idiag iurow : List Int) (hcl : Clean A idiag iurow) (Dg : Diag) (hdz : Dg ≠ .zero)
    (hinv : Dg = .nonUnit → ∀ i, i < A.m → A.real.mat i i ≠ 0) (alpha : Fp ρ)
    (him : im.Ok F l A alpha op.isTrans) (b x : List (Fp ρ)) (incb incx : Nat) (hincx : 0 < incx)
    (hb : ∀ i, i < A.m → i * incb < b.length) (hx : ∀ i, i < A.m → i * incx < x.length)
    (N : Nat) (hN : ∀ i, i < A.m → (A.opRow f op.isTrans i).length ≤ N) :
    ∃ x', trsvFp F im (getDoid true 3 f.code op.code) alpha A.m A.base A.val A.ind A.ptr idiag iurow
        b incb x incx (decide (Dg.code = 1)) = some x' ∧
      (∀ k, (∀ i, i < A.m → k ≠ i * incx) → x'[k]? = x[k]?) ∧
      ∃ T : Mat ℝ,
        (∀ i j, i < A.m → j < A.m → |T i j - operator .triangular f Dg op A.real.mat i j|
          ≤ ρ.gi (N + 2 * l + 7) * operator .triangular f Dg op A.sizes.mat i j) ∧
        IsSolve T A.m alpha.v (reals b) incb (reals x) incx (reals x') := by
  obtain ⟨L, D, U, hc⟩ := clean_split hcl
  have ctx : FpCtx A idiag iurow L D U b x incb incx := ⟨hA, hsq, hc, hincx, hb, hx⟩
  obtain ⟨x', g, e, h1, h2⟩ := trsvFp_rows F (decide (Dg.code = 1)) alpha im f op.isTrans him ctx
  rw [triDoid_eq]
  refine ⟨x', e, h1.rest, ?_⟩
  -- every row
  have row : ∀ i, i < A.m → ∃ (dd : ℝ) (S' : List (Int × ℝ)),
      |dd - diagVal Dg A.real.mat i| ≤ ρ.gi (N + 2 * l + 7) * diagVal Dg A.sizes.mat i ∧
      List.Forall₂ (fun e e' => e'.1 = e.1 ∧ ∃ t, ρ.Th (N + 2 * l + 7) t ∧ e'.2 = e.2.v * t)
        (A.opRow f op.isTrans i) S' ∧
      dd * (g i).v + (S'.map fun e => e.2 * (g e.1.toNat).v).sum
        = alpha.v * (b.getD (i * incb) 0).v := by
    intro i hi
    obtain ⟨v, ⟨z, hz, t, h3, h4, h5, rfl⟩, h6⟩ := h2 i (mem_range.mpr hi)
    rw [rowsOf_opRow ctx f op.isTrans hi] at h4 h5
    obtain ⟨p, s, hp, hs, ev⟩ := t.weighted hu hF
    rw [h4] at hs
    have hlen := hN i hi
    obtain ⟨S', q1, q2⟩ := (hs.zeros.mono hu (show t.size ≤ N + 2 * l + 7 by omega)).row
    have hp0 := (hp.pos hu).ne'
    rw [h3] at ev
    have ev' : (t.eval F).v = p * (alpha.v * (b.getD (i * incb) 0).v - s) := ev
    -- the diagonal entry
    have dg : ∃ dd th : ℝ, ρ.Th (N + 2 * l + 7) th ∧ dd = diagVal Dg A.real.mat i * th ∧
        diagVal Dg A.sizes.mat i = |diagVal Dg A.real.mat i| ∧
        dd * (g i).v = alpha.v * (b.getD (i * incb) 0).v - s := by
      cases Dg
      · have hd0 := hinv rfl i hi
        have hd : A.real.mat i i = (A.diagAt i).v := diag_map Fp.v ctx hi
        have hd' : A.sizes.mat i i = |(A.diagAt i).v| := diag_map (fun a => |a.v|) ctx hi
        obtain ⟨q, hq, eq⟩ := fl_factor hu ((t.eval F).v / (A.diagAt i).v)
        have hg : (g i).v = (t.eval F).v / (A.diagAt i).v * q := by
          rw [h6]
          exact eq
        have hpq := (hp.mul hu hq).inv hu
        refine ⟨A.real.mat i i * (p * q)⁻¹, (p * q)⁻¹, hpq.mono hu (by omega), rfl, ?_, ?_⟩
        · show A.sizes.mat i i = |A.real.mat i i|
          rw [hd, hd']
        · have hq0 := (hq.pos hu).ne'
          rw [hd] at hd0 ⊢
          rw [hg, ev']
          field_simp
      · have hg : (g i).v = (t.eval F).v := by rw [h6]; rfl
        refine ⟨p⁻¹, p⁻¹, (hp.inv hu).mono hu (by omega), by simp [diagVal], by simp [diagVal], ?_⟩
        rw [hg, ev']
        field_simp
      · exact absurd rfl hdz
    obtain ⟨dd, th, hth, e1, e2, e3⟩ := dg
    refine ⟨dd, S', ?_, q1, by rw [e3, ← q2]; ring⟩
    rw [e1, e2, show diagVal Dg A.real.mat i * th - diagVal Dg A.real.mat i
      = diagVal Dg A.real.mat i * (th - 1) by ring, abs_mul, mul_comm]
    exact mul_le_mul_of_nonneg_right (hth.err hu) (abs_nonneg _)
  choose! dd S' r1 r2 r3 using row
  refine ⟨fun i j => (if i = j then dd i else 0) + colSum (S' i) j, ?_, ?_⟩
  · intro i j hi hj
    rw [opRow_operator A.real (real_wf Fp.v hA) f Dg op hj,
      opRow_operator A.sizes (real_wf (fun a => |a.v|) hA) f Dg op hj,
      show A.real.opRow f op.isTrans i = _ from opRow_map Fp.v A f op.isTrans i,
      show A.sizes.opRow f op.isTrans i = _ from opRow_map (fun a => |a.v|) A f op.isTrans i]
    have hcol := forall₂_colSum hu (r2 i hi) j
    rw [show (if i = j then dd i else 0) + colSum (S' i) j
        - ((if i = j then diagVal Dg A.real.mat i else 0)
          + colSum ((A.opRow f op.isTrans i).map fun e => (e.1, e.2.v)) j)
      = ((if i = j then dd i else 0) - (if i = j then diagVal Dg A.real.mat i else 0))
        + (colSum (S' i) j - colSum ((A.opRow f op.isTrans i).map fun e => (e.1, e.2.v)) j) by ring,
      mul_add]
    refine (abs_add_le _ _).trans (add_le_add ?_ hcol)
    split
    · exact r1 i hi
    · simp
  · refine ⟨by simp [reals, h1.len], ?_, ?_⟩
    · intro i hi
      have hx' : ∀ j, j < A.m → (reals x').getD (j * incx) 0 = (g j).v := by
        intro j hj
        rw [reals, getD_map_v Fp.v rfl, List.getD_eq_getElem?_getD, h1.val j hj]
        rfl
      rw [show (reals b).getD (i * incb) 0 = (b.getD (i * incb) 0).v from getD_map_v Fp.v rfl _ _,
        ← r3 i hi]
      have hrange : ∀ e ∈ S' i, 0 ≤ e.1 ∧ e.1 < (A.m : Int) := by
        have hop : ∀ e ∈ A.opRow f op.isTrans i, 0 ≤ e.1 ∧ e.1 < (A.m : Int) := by
          rw [← rowsOf_opRow ctx f op.isTrans hi]
          unfold rowsOf
          split
          · intro e he
            simp only [colRow, List.mem_flatMap, List.mem_map, List.mem_range] at he
            obtain ⟨k, hk, e', _, rfl⟩ := he
            simp only
            omega
          · exact ctx.range hi f
        intro e he
        obtain ⟨e0, he0, hr⟩ : ∃ e0 ∈ A.opRow f op.isTrans i, e.1 = e0.1 := by
          have := r2 i hi
          generalize A.opRow f op.isTrans i = S at this
          generalize S' i = T at this he
          clear * - this he
          induction this with
          | nil => simp at he
          | @cons a a' S T h _ ih =>
            rcases List.mem_cons.mp he with rfl | he
            · exact ⟨a, by simp, h.1⟩
            · obtain ⟨e0, h1, h2⟩ := ih he
              exact ⟨e0, by simp [h1], h2⟩
        rw [hr]
        exact hop e0 he0
      have hsum := filter_sum_map (AddMonoidHom.id ℝ) (S' i) A.m (fun j => (g j).v) hrange
      simp only [AddMonoidHom.id_apply] at hsum
      rw [hsum]
      have : ∀ j ∈ Finset.range A.m, ((if i = j then dd i else 0) + colSum (S' i) j)
          * (reals x').getD (j * incx) 0
          = (if i = j then dd i * (g i).v else 0) + colSum (S' i) j * (g j).v := by
        intro j hj
        rw [hx' j (mem_range.mp hj), add_mul]
        congr 1
        split
        · next e => subst e; rfl
        · simp
      rw [sum_congr rfl this, sum_add_distrib, sum_ite_eq, if_pos (mem_range.mpr hi)]
    · intro k hk
      rw [reals, reals, List.getElem?_map, List.getElem?_map, h1.rest k hk]

/-- **C55** Residual: the computed solution satisfies every equation up to
`k u / (1 - k u)` times the sizes of its terms. -/
theorem C55_residual (F : SolveFpu (Fp ρ)) (hF : F.Rounds) (im : FpTrsv (Fp ρ))
    (l : Nat) (f : Fill) (op : Op) (A : Csr (Fp ρ)) (hA : A.WF) (hsq : A.m = A.n)
    (idiag iurow : List Int) (hcl : Clean A idiag iurow) (Dg : Diag) (hdz : Dg ≠ .zero)
    (hinv : Dg = .nonUnit → ∀ i, i < A.m → A.real.mat i i ≠ 0) (alpha : Fp ρ)
    (him : im.Ok F l A alpha op.isTrans) (b x : List (Fp ρ)) (incb incx : Nat) (hincx : 0 < incx)
    (hb : ∀ i, i < A.m → i * incb < b.length) (hx : ∀ i, i < A.m → i * incx < x.length)
    (N : Nat) (hN : ∀ i, i < A.m → (A.opRow f op.isTrans i).length ≤ N)
    (hk : ((N + 2 * l + 7 : Nat) : ℝ) * ρ.u < 1) :
    ∃ x', trsvFp F im (getDoid true 3 f.code op.code) alpha A.m A.base A.val A.ind A.ptr idiag iurow
        b incb x incx (decide (Dg.code = 1)) = some x' ∧
      ∀ i, i < A.m →
        |∑ j ∈ range A.m, operator .triangular f Dg op A.real.mat i j * (reals x').getD (j * incx) 0
            - alpha.v * (reals b).getD (i * incb) 0|
          ≤ (N + 2 * l + 7 : Nat) * ρ.u / (1 - (N + 2 * l + 7 : Nat) * ρ.u) *
            ∑ j ∈ range A.m,
              operator .triangular f Dg op A.sizes.mat i j * |(reals x').getD (j * incx) 0| := by
  have hu : ρ.u < 1 := by
    have h0 := ρ.u_nonneg
    have : (1 : ℝ) ≤ (N + 2 * l + 7 : Nat) := by exact_mod_cast (by omega : 1 ≤ N + 2 * l + 7)
    nlinarith
  obtain ⟨x', e, _, T, h1, h2⟩ := C55_backward hu F hF im l f op A hA hsq idiag iurow hcl Dg hdz
    hinv alpha him b x incb incx hincx hb hx N hN
  refine ⟨x', e, fun i hi => ?_⟩
  rw [← h2.solves i hi, ← sum_sub_distrib, mul_sum]
  refine (abs_sum_le_sum_abs _ _).trans (sum_le_sum fun j hj => ?_)
  have hj := mem_range.mp hj
  rw [← sub_mul, abs_mul, ← mul_assoc]
  refine mul_le_mul_of_nonneg_right ?_ (abs_nonneg _)
  have hs := h1 i j hi hj
  rw [abs_sub_comm]
  refine hs.trans (mul_le_mul_of_nonneg_right (gi_le ρ _ hk) ?_)
  have : 0 ≤ |T i j - operator .triangular f Dg op A.real.mat i j| := abs_nonneg _
  rw [opRow_operator A.sizes (real_wf (fun a => |a.v|) hA) f Dg op hj,
    show A.sizes.opRow f op.isTrans i = _ from opRow_map (fun a => |a.v|) A f op.isTrans i]
  refine add_nonneg ?_ ?_
  · split
    · cases Dg
      · obtain ⟨L, D, U, hc⟩ := clean_split hcl
        have ctx : FpCtx A idiag iurow L D U b x incb incx := ⟨hA, hsq, hc, hincx, hb, hx⟩
        have hd' : A.sizes.mat i i = |(A.diagAt i).v| := diag_map (fun a => |a.v|) ctx hi
        show 0 ≤ A.sizes.mat i i
        rw [hd']
        exact abs_nonneg _
      · exact zero_le_one
      · exact le_rfl
    · exact le_rfl
  · unfold colSum
    apply List.sum_nonneg
    intro a ha
    obtain ⟨e, he, rfl⟩ := List.mem_map.mp ha
    obtain ⟨e', _, rfl⟩ := List.mem_map.mp (List.mem_filter.mp he).1
    exact abs_nonneg _

end

/-! ### the operations one by one -/

/-- **C55** With products and differences evaluated one by one the kernels of this property are
the kernels of C27. -/
theorem C55_plain {R : Type} [Zero R] [One R] [Add R] [Sub R] [Neg R] [Mul R] [Div R]
    [DecidableEq R] (cjg : R → R) (im : FpTrsv R) (f : Fill) (op : Op) (alpha : R) (m base : Int)
    (a : List R) (icol ilrow idiag iurow : List Int) (b : List R) (incb : Int) (x : List R)
    (incx : Int) (unit : Bool) :
    trsvFp SolveFpu.plain im (getDoid true 3 f.code op.code) alpha m base a icol ilrow idiag iurow b
        incb x incx unit
      = trsvKernel cjg im.impl (getDoid true 3 f.code op.code) alpha m base a icol ilrow idiag iurow
        b incb x incx unit := by
  rw [triDoid_eq]
  cases im <;> cases f <;> cases op <;> rfl

/-- differences and multiply-adds fused -/
noncomputable def SolveFpu.fused (ρ : Rounding) : SolveFpu (Fp ρ) :=
  { Fpu.fused ρ with msub := fun a b c => ⟨ρ.fl (c.v - a.v * b.v)⟩ }

theorem solve_fused_rounds (ρ : Rounding) : (SolveFpu.fused ρ).Rounds :=
  ⟨fused_rounds ρ, fun _ _ _ => Or.inl rfl⟩

theorem solve_plain_rounds (ρ : Rounding) : (SolveFpu.plain : SolveFpu (Fp ρ)).Rounds :=
  ⟨plain_rounds ρ, fun _ _ _ => Or.inr rfl⟩

/-- **C55** The kernels of the table meet the hypothesis `Ok`: the reference kernels always, the
vectorised ones with at most three levels of horizontal additions (four doubles, eight floats). -/
theorem C55_kernels {R : Type} [Zero R] [One R] [Add R] [Sub R] [Neg R] [Mul R] [Div R]
    [DecidableEq R] (F : SolveFpu R) (A : Csr R) (alpha : R) (tr : Bool)
    (h : tr = true → A.NoDup ∧ alpha ≠ 0) :
    (FpTrsv.ref : FpTrsv R).Ok F 0 A alpha tr ∧
    (FpTrsv.kt 4 hsum4l : FpTrsv R).Ok F 2 A alpha tr ∧
    (FpTrsv.kt 8 hsum8k : FpTrsv R).Ok F 3 A alpha tr :=
  ⟨trivial, ⟨by omega, hsum4l_ok _, h⟩, ⟨by omega, hsum8k_ok _, h⟩⟩

/-! ### examples -/

/-- the matrix `2 0 ; 3 5` -/
def fpTri (ρ : Rounding) : Csr (Fp ρ) :=
  ⟨2, 2, 0, [0, 1, 3], [0, 0, 1], [2, 3, 5].map (fpInt ρ)⟩

theorem fpTri_wf (ρ : Rounding) : (fpTri ρ).WF := by
  refine ⟨Or.inl rfl, rfl, rfl, ?_, rfl, rfl, ?_⟩
  · show ∀ i, i < 2 → ([0, 1, 3] : List Int).getD i 0 ≤ ([0, 1, 3] : List Int).getD (i + 1) 0
    decide
  · show ∀ c ∈ ([0, 0, 1] : List Int), (0 : Int) ≤ c ∧ c < 0 + 2
    decide

theorem fpTri_clean (ρ : Rounding) : Clean (fpTri ρ) [0, 2] [1, 3] := by
  intro i hi
  have hi : i < 2 := hi
  obtain rfl | rfl : i = 0 ∨ i = 1 := by omega
  · refine ⟨[], [(0, fpInt ρ 2)], [], rfl, by simp, by simp, by simp, rfl, rfl, fun _ => rfl⟩
  · refine ⟨[(0, fpInt ρ 3)], [(1, fpInt ρ 5)], [], rfl, by simp, by simp, by simp, rfl, rfl,
      fun _ => rfl⟩

theorem fpTri_diag (ρ : Rounding) : ∀ i, i < (fpTri ρ).m → (fpTri ρ).real.mat i i ≠ 0 := by
  intro i hi
  have hi : i < 2 := hi
  have ctx (x : List (Fp ρ)) (hx : x.length = 2) : ∃ L D U,
      FpCtx (fpTri ρ) [0, 2] [1, 3] L D U x x 1 1 := by
    obtain ⟨L, D, U, hc⟩ := clean_split (fpTri_clean ρ)
    have hx' : ∀ i, i < (fpTri ρ).m → i * 1 < x.length := by
      intro i hi
      have : i < 2 := hi
      omega
    exact ⟨L, D, U, fpTri_wf ρ, rfl, hc, by omega, hx', hx'⟩
  obtain ⟨L, D, U, h⟩ := ctx [0, 0] rfl
  rw [show (fpTri ρ).real.mat i i = _ from diag_map Fp.v h hi]
  obtain rfl | rfl : i = 0 ∨ i = 1 := by omega
  · show (fpInt ρ 2).v ≠ 0
    simp [fpInt]
  · show (fpInt ρ 5).v ≠ 0
    simp [fpInt]

/-- double precision, the transposed solve with four lanes -/
example : ∃ x', trsvFp (SolveFpu.fused (binary 53)) (.kt 4 hsum4l) 14 1 2 0 (fpTri _).val
      (fpTri (binary 53)).ind (fpTri (binary 53)).ptr [0, 2] [1, 3] [fpInt _ 1, fpInt _ 7] 1 [0, 0] 1
      false = some x' ∧
    ∀ i, i < 2 →
      |∑ j ∈ range 2, operator .triangular .lower .nonUnit .trans (fpTri (binary 53)).real.mat i j
          * (reals x').getD (j * 1) 0 - (1 : Fp (binary 53)).v
          * (reals [fpInt (binary 53) 1, fpInt _ 7]).getD (i * 1) 0|
        ≤ (1 + 2 * 2 + 7 : Nat) * (1 / 2 ^ 53) / (1 - (1 + 2 * 2 + 7 : Nat) * (1 / 2 ^ 53)) *
          ∑ j ∈ range 2, operator .triangular .lower .nonUnit .trans (fpTri (binary 53)).sizes.mat i j
            * |(reals x').getD (j * 1) 0| := by
  have hnd : (fpTri (binary 53)).NoDup := by
    intro i hi
    have hi : i < 2 := hi
    obtain rfl | rfl : i = 0 ∨ i = 1 := by omega
    · show ([0] : List Int).Nodup
      decide
    · show ([0, 1] : List Int).Nodup
      decide
  have h1 : (1 : Fp (binary 53)) ≠ 0 := by
    intro h
    have : (1 : ℝ) = 0 := congrArg Fp.v h
    norm_num at this
  have hlen : ∀ (x : List (Fp (binary 53))), x.length = 2 →
      ∀ i, i < (fpTri (binary 53)).m → i * 1 < x.length := by
    intro x hx i hi
    have : i < 2 := hi
    omega
  exact C55_residual (SolveFpu.fused (binary 53)) (solve_fused_rounds _) (.kt 4 hsum4l) 2 .lower
    .trans (fpTri _) (fpTri_wf _) rfl [0, 2] [1, 3] (fpTri_clean _) .nonUnit (by decide)
    (fun _ => fpTri_diag _) 1 (C55_kernels _ _ _ _ fun _ => ⟨hnd, h1⟩).2.1
    [fpInt _ 1, fpInt _ 7] [0, 0] 1 1 (by omega) (hlen _ rfl) (hlen _ rfl) 1
    (by
      intro i hi
      have hi : i < 2 := hi
      obtain rfl | rfl : i = 0 ∨ i = 1 := by omega
      · show 1 ≤ 1
        omega
      · show 0 ≤ 1
        omega)
    (by
      show ((1 + 2 * 2 + 7 : Nat) : ℝ) * (1 / 2 ^ 53) < 1
      norm_num)

end Verif
