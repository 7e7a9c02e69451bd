/-
The deprecated triangular solver: one row, all rows.
-/
import Verif.Model.Csrsv
import Verif.Proofs.Trsv
import Verif.Proofs.CsrOpt

namespace Verif
open Model Finset

variable {R : Type} [Field R] [DecidableEq R]

/-- entries of a row strictly inside a triangle -/
def stPart (f : Fill) (i : Nat) (S : List (Int × R)) : List (Int × R) :=
  match f with
  | .lower => loPart i S
  | .upper => upPart i S

theorem colSum_loPart (i j : Nat) (S : List (Int × R)) :
    colSum (loPart i S) j = if j < i then colSum S j else 0 := by
  unfold colSum loPart
  rw [List.filter_filter]
  split
  · next h =>
    congr 2
    apply List.filter_congr
    intro e _
    by_cases he : e.1 = (j : Int)
    · simp [he, h]
    · simp [he]
  · next h =>
    rw [List.filter_eq_nil_iff.mpr]
    · rfl
    · intro e _
      simp only [Bool.and_eq_true, decide_eq_true_eq]
      omega

theorem colSum_upPart (i j : Nat) (S : List (Int × R)) :
    colSum (upPart i S) j = if i < j then colSum S j else 0 := by
  unfold colSum upPart
  rw [List.filter_filter]
  split
  · next h =>
    congr 2
    apply List.filter_congr
    intro e _
    by_cases he : e.1 = (j : Int)
    · simp [he, h]
    · simp [he]
  · next h =>
    rw [List.filter_eq_nil_iff.mpr]
    · rfl
    · intro e _
      simp only [Bool.and_eq_true, decide_eq_true_eq]
      omega

theorem colSum_stPart (f : Fill) (i j : Nat) (S : List (Int × R)) :
    colSum (stPart f i S) j = if strictTri f i j then colSum S j else 0 := by
  cases f
  · exact colSum_loPart i j S
  · exact colSum_upPart i j S

section
variable {ind : List Int} {val : List R} {lo hi : Int} {S : List (Int × R)}
variable {y0 y : List R} {m i : Nat} {g : Nat → R}

theorem svRd {x0 x : List R} {n : Nat} {g : Nat → R} (h : SVec x0 x 1 n g) {k : Nat} (hk : k < n) :
    Verif.rd x (k : Int) = some (g k) := by
  have := h.rd hk
  simpa using this

theorem svWr {x0 x : List R} {n : Nat} {g : Nat → R} (h : SVec x0 x 1 n g) {k : Nat} (hk : k < n)
    (v : R) : ∃ x', Verif.wr x (k : Int) v = some x' ∧ SVec x0 x' 1 n (Function.update g k v) := by
  have := h.wr (by omega) hk v
  simpa using this

/-- subtracting one entry off the diagonal -/
theorem svSub_spec {v w : R} {j c : Int} (hi : i < m) (hy : SVec y0 y 1 m (Function.update g i v))
    (hw : rd val j = some w) (h0 : 0 ≤ c) (h1 : c < m) (hne : c ≠ i) :
    ∃ y', svSub 0 val i j (c + 0) y = some y' ∧
      SVec y0 y' 1 m (Function.update g i (v - w * g c.toNat)) := by
  obtain ⟨k, rfl⟩ := Int.eq_ofNat_of_zero_le h0
  have hk : k ≠ i := by omega
  have e1 := svRd hy (k := k) (by omega)
  have e2 := svRd hy hi
  rw [Function.update_of_ne hk] at e1
  rw [Function.update_self] at e2
  obtain ⟨y', e3, h3⟩ := svWr hy hi (v - w * g k)
  refine ⟨y', ?_, ?_⟩
  · simp only [svSub, hw, Option.bind_eq_bind, Option.bind_some]
    rw [show ((k : Int) + 0 - 0) = k by omega, e1]
    simp only [Option.bind_some]
    rw [e2]
    exact e3
  · rw [Function.update_idem] at h3
    simpa using h3

theorem sv_seg_tail {e : Int × R} (h : Seg ind val 0 lo hi (e :: S)) :
    rd ind lo = some (e.1 + 0) ∧ rd val lo = some e.2 ∧ lo < hi ∧ Seg ind val 0 (lo + 1) hi S := by
  have hl := h.1
  simp only [List.length_cons] at hl
  obtain ⟨h1, h2⟩ := h.2 0 (by simp)
  simp only [Nat.cast_zero, add_zero, sub_zero, List.getElem_cons_zero] at h1 h2
  refine ⟨by simpa using h1, h2, by omega, ?_⟩
  have := h.append_right (S1 := [e]) (S2 := S)
  simpa using this

theorem sv_lsum_cons (cj : R → R) (e : Int × R) (S : List (Int × R)) (g : Nat → R) :
    lsum cj (e :: S) g = cj e.2 * g e.1.toNat + lsum cj S g := by
  simp [lsum]

/-- the entries of one row of the lower solve -/
theorem lsolve_entries (nu : Bool) (him : i < m) (h : Seg ind val 0 lo hi S)
    (hr : ∀ e ∈ S, 0 ≤ e.1 ∧ e.1 < m) (hg : GroupedRow i S) {v : R} {d : Int}
    (hy : SVec y0 y 1 m (Function.update g i v)) :
    ∃ r, forE lo hi (lsolveEntry 0 val ind nu i) (y, d) = some r ∧
      SVec y0 (exState r).1 1 m (Function.update g i (v - lsum id (loPart i S) g)) ∧
      (nu = true → ∀ w, dgPart i S = [((i : Int), w)] → rd val (exState r).2 = some w) := by
  induction S generalizing lo y v with
  | nil =>
    refine ⟨.ok (y, d), forE_ge (by have := h.1; simp at this; omega) _ _, ?_, ?_⟩
    · simpa [loPart, lsum, exState] using hy
    · intro _ w hw; simp [dgPart] at hw
  | cons e S ih =>
    obtain ⟨h1, h2, h3, h4⟩ := sv_seg_tail h
    have he := hr e (by simp)
    have hg' : GroupedRow i S := by
      unfold GroupedRow at hg ⊢
      rw [List.map_cons, List.pairwise_cons] at hg
      exact hg.2
    rw [forE_lt h3]
    by_cases hlt : e.1 < (i : Int)
    · obtain ⟨y', e1, hy'⟩ := svSub_spec (i := i) (j := lo) him hy h2 he.1 he.2 (by omega)
      obtain ⟨r, f1, f2, f3⟩ := ih h4 (fun e he => hr e (by simp [he])) hg' hy'
      refine ⟨r, ?_, ?_, ?_⟩
      · simp only [lsolveEntry, h1, Option.bind_eq_bind, Option.bind_some]
        rw [if_pos (by omega), e1]
        exact f1
      · have : loPart i (e :: S) = e :: loPart i S := by simp [loPart, hlt]
        rw [this, sv_lsum_cons, ← sub_sub]
        exact f2
      · intro hnu w hw
        apply f3 hnu w
        have : dgPart i (e :: S) = dgPart i S := by
          unfold dgPart; rw [List.filter_cons_of_neg (by simp; omega)]
        rwa [this] at hw
    · have hlo : loPart i (e :: S) = [] := by
        have hs := grouped_split hg
        by_contra hne
        obtain ⟨a, t, ht⟩ := List.exists_cons_of_ne_nil hne
        rw [ht] at hs
        simp only [List.cons_append, List.cons.injEq] at hs
        have : a ∈ loPart i (e :: S) := by rw [ht]; simp
        rw [← hs.1] at this
        exact hlt (mem_loPart.mp this).2
      have hstop : lsolveEntry 0 val ind nu i lo (y, d)
          = some (.error (y, if nu && decide (e.1 = (i : Int)) then lo else d)) := by
        simp only [lsolveEntry, h1, Option.bind_eq_bind, Option.bind_some]
        rw [if_neg (by omega)]
        simp only [add_zero, sub_zero]
        split <;> simp
      rw [hstop]
      refine ⟨_, rfl, ?_, ?_⟩
      · simpa [hlo, lsum, exState] using hy
      · intro hnu w hw
        have hs := grouped_split hg
        rw [hlo, hw] at hs
        simp only [List.nil_append, List.cons_append, List.cons.injEq] at hs
        rw [hs.1] at h2
        simp [exState, hnu, hs.1, h2]

/-- the entries of one row of the upper solve -/
theorem usolve_entries (nu : Bool) (him : i < m) (h : Seg ind val 0 lo hi S)
    (hr : ∀ e ∈ S, 0 ≤ e.1 ∧ e.1 < m) {v : R} {d : Int}
    (hy : SVec y0 y 1 m (Function.update g i v)) :
    ∃ r, forC lo hi (usolveEntry 0 val ind nu i) (y, d) = some r ∧
      SVec y0 r.1 1 m (Function.update g i (v - lsum id (upPart i S) g)) ∧
      (nu = true → ∀ w, dgPart i S = [((i : Int), w)] → rd val r.2 = some w) ∧
      (nu = true → dgPart i S = [] → r.2 = d) := by
  induction S generalizing lo y v d with
  | nil =>
    refine ⟨(y, d), forC_ge (by have := h.1; simp at this; omega) _ _, ?_, ?_, fun _ _ => rfl⟩
    · simpa [upPart, lsum] using hy
    · intro _ w hw; simp [dgPart] at hw
  | cons e S ih =>
    obtain ⟨h1, h2, h3, h4⟩ := sv_seg_tail h
    have he := hr e (by simp)
    have hr' : ∀ e ∈ S, 0 ≤ e.1 ∧ e.1 < (m : Int) := fun e he => hr e (by simp [he])
    rw [forC_lt h3]
    by_cases hgt : (i : Int) < e.1
    · obtain ⟨y', e1, hy'⟩ := svSub_spec (i := i) (j := lo) him hy h2 he.1 he.2 (by omega)
      obtain ⟨r, f1, f2, f3, f4⟩ := ih h4 hr' (d := usolveDiag 0 nu i lo (e.1 + 0) d) hy'
      have hdg : dgPart i (e :: S) = dgPart i S := by
        unfold dgPart; rw [List.filter_cons_of_neg (by simp; omega)]
      have hd : usolveDiag 0 nu i lo (e.1 + 0) d = d := by
        unfold usolveDiag
        rw [if_neg (by simp; omega)]
      refine ⟨r, ?_, ?_, ?_, ?_⟩
      · simp only [usolveEntry, h1, Option.bind_eq_bind, Option.bind_some]
        rw [if_pos (by omega), e1]
        exact f1
      · have : upPart i (e :: S) = e :: upPart i S := by simp [upPart, hgt]
        rw [this, sv_lsum_cons, ← sub_sub]
        exact f2
      · intro hnu w hw
        exact f3 hnu w (hdg ▸ hw)
      · intro hnu hw
        rw [f4 hnu (hdg ▸ hw), hd]
    · obtain ⟨r, f1, f2, f3, f4⟩ := ih h4 hr' (d := usolveDiag 0 nu i lo (e.1 + 0) d) hy
      have hup : upPart i (e :: S) = upPart i S := by
        unfold upPart; rw [List.filter_cons_of_neg (by simp; omega)]
      refine ⟨r, ?_, by rw [hup]; exact f2, ?_, ?_⟩
      · simp only [usolveEntry, h1, Option.bind_eq_bind, Option.bind_some]
        rw [if_neg (by omega)]
        exact f1
      · intro hnu w hw
        by_cases heq : e.1 = (i : Int)
        · have : dgPart i (e :: S) = e :: dgPart i S := by simp [dgPart, heq]
          rw [this] at hw
          simp only [List.cons.injEq] at hw
          rw [f4 hnu hw.2]
          simp [usolveDiag, hnu, heq, h2, hw.1]
        · have : dgPart i (e :: S) = dgPart i S := by
            unfold dgPart; rw [List.filter_cons_of_neg (by simpa using heq)]
          exact f3 hnu w (this ▸ hw)
      · intro hnu hw
        by_cases heq : e.1 = (i : Int)
        · have : dgPart i (e :: S) = e :: dgPart i S := by simp [dgPart, heq]
          rw [this] at hw
          simp at hw
        · have : dgPart i (e :: S) = dgPart i S := by
            unfold dgPart; rw [List.filter_cons_of_neg (by simpa using heq)]
          rw [f4 hnu (this ▸ hw)]
          unfold usolveDiag
          rw [if_neg (by simp; omega)]

/-- the division by the diagonal -/
theorem svDiv_spec (nu : Bool) (him : i < m) {s : List R × Int} {v w : R}
    (hy : SVec y0 s.1 1 m (Function.update g i v)) (hw : nu = true → rd val s.2 = some w) :
    ∃ y', svDiv val nu i s = some (y', s.2) ∧
      SVec y0 y' 1 m (Function.update g i (v / (if nu then w else 1))) := by
  cases nu with
  | false => exact ⟨s.1, rfl, by simpa using hy⟩
  | true =>
    have e2 := svRd hy him
    rw [Function.update_self] at e2
    obtain ⟨y', e3, h3⟩ := svWr hy him (v / w)
    refine ⟨y', ?_, by simpa using h3⟩
    simp only [svDiv, if_true, hw rfl, Option.bind_eq_bind, Option.bind_some]
    rw [e2]
    simp only [Option.bind_some]
    rw [e3]
    rfl

end

/-! ### rows -/

section
variable {A : Csr R} {y0 : List R} {x : SvRhs R} {alpha : R}

/-- the diagonal the solver divides by -/
def svD (A : Csr R) (nu : Bool) (i : Nat) : R := if nu then A.mat i i else 1

/-- what the row loops need -/
structure SvCtx (A : Csr R) (nu : Bool) (x : SvRhs R) (y0 : List R) : Prop where
  wf : A.WF
  sq : A.n = A.m
  base : A.base = 0
  diag : nu = true → ∀ i, i < A.m → ∃ w, dgPart i (A.row i) = [((i : Int), w)]
  hx : A.m ≤ (x.arr y0).length
  hy : A.m ≤ y0.length

theorem sv_row_cols (hA : A.WF) {i : Nat} (hi : i < A.m) : ∀ e ∈ A.row i, 0 ≤ e.1 ∧ e.1 < A.n := by
  intro e he
  exact Csr.row_range hA he

theorem dg_mat {i : Nat} {w : R} (h : dgPart i (A.row i) = [((i : Int), w)]) :
    A.mat i i = w := by
  rw [mat_eq_colSum]
  show ((dgPart i (A.row i)).map (·.2)).sum = w
  rw [h]; simp

/-- reading the right-hand side before row `i` is written -/
theorem rhs_rd {nu : Bool} (c : SvCtx A nu x y0) {y : List R} {g : Nat → R} {i : Nat}
    (hi : i < A.m) (hy : SVec y0 y 1 A.m g) (hg : g i = y0.getD i 0) :
    rd (x.arr y) (i : Int) = some ((x.arr y0).getD i 0) := by
  cases x with
  | own x =>
    have := c.hx
    simp only [SvRhs.arr] at this ⊢
    rw [rd_ofNat, List.getD_eq_getElem?_getD, List.getElem?_eq_getElem (by omega)]
    rfl
  | same =>
    simp only [SvRhs.arr]
    rw [svRd hy hi, hg]

theorem lsolveRow_step (nu : Bool) (c : SvCtx A nu x y0) (hgr : A.Grouped) {i : Nat}
    (hi : i < A.m) {y : List R} {d : Int} {g : Nat → R} (hy : SVec y0 y 1 A.m g)
    (hg : g i = y0.getD i 0) :
    ∃ s, lsolveRow 0 alpha A.val A.ind A.ptr x nu (i : Int) (y, d) = some s ∧
      SVec y0 s.1 1 A.m (Function.update g i ((alpha * (x.arr y0).getD i 0
        - ∑ j ∈ range A.m, colSum (stPart .lower i (A.row i)) j * g j) / svD A nu i)) := by
  have e0 := rhs_rd c hi hy hg
  obtain ⟨y1, e1, hy1⟩ := svWr hy hi (alpha * (x.arr y0).getD i 0)
  have hs := Csr.seg_row c.wf hi
  rw [c.base] at hs
  have hrange : ∀ e ∈ A.row i, 0 ≤ e.1 ∧ e.1 < (A.m : Int) := by
    have := sv_row_cols c.wf hi
    rwa [c.sq] at this
  obtain ⟨r, e2, h2, h3⟩ := lsolve_entries (d := d) nu hi hs hrange (hgr i hi) hy1
  have hdiag : nu = true → rd A.val (exState r).2 = some (A.mat i i) := by
    intro hnu
    obtain ⟨w, hw⟩ := c.diag hnu i hi
    rw [dg_mat hw]
    exact h3 hnu w hw
  obtain ⟨y', e4, h4⟩ := svDiv_spec nu hi h2 hdiag
  have p1 := Csr.WF.rd_ptr c.wf (i := i) (by omega)
  have p2 := Csr.WF.rd_ptr c.wf (i := i + 1) (by omega)
  rw [show ((i + 1 : Nat) : Int) = (i : Int) + 1 by push_cast; rfl] at p2
  refine ⟨(y', (exState r).2), ?_, ?_⟩
  · unfold lsolveRow
    simp only [Option.bind_eq_bind]
    rw [e0, Option.bind_some, e1, Option.bind_some, p1, Option.bind_some, p2, Option.bind_some,
      sub_zero, sub_zero, e2, Option.bind_some, e4]
  · have := lsum_eq (m := A.m) (S := loPart i (A.row i)) (AddMonoidHom.id R)
      (fun e he => hrange e (mem_loPart.mp he).1) g
    have h' : lsum id (loPart i (A.row i)) g
        = ∑ j ∈ range A.m, colSum (stPart .lower i (A.row i)) j * g j := this
    rw [← h']
    exact h4

theorem usolveRow_step (nu : Bool) (c : SvCtx A nu x y0) {i : Nat}
    (hi : i < A.m) {y : List R} {d : Int} {g : Nat → R} (hy : SVec y0 y 1 A.m g)
    (hg : g i = y0.getD i 0) :
    ∃ s, usolveRow 0 alpha A.val A.ind A.ptr x nu (i : Int) (y, d) = some s ∧
      SVec y0 s.1 1 A.m (Function.update g i ((alpha * (x.arr y0).getD i 0
        - ∑ j ∈ range A.m, colSum (stPart .upper i (A.row i)) j * g j) / svD A nu i)) := by
  have e0 := rhs_rd c hi hy hg
  obtain ⟨y1, e1, hy1⟩ := svWr hy hi (alpha * (x.arr y0).getD i 0)
  have hs := Csr.seg_row c.wf hi
  rw [c.base] at hs
  have hrange : ∀ e ∈ A.row i, 0 ≤ e.1 ∧ e.1 < (A.m : Int) := by
    have := sv_row_cols c.wf hi
    rwa [c.sq] at this
  obtain ⟨r, e2, h2, h3, -⟩ := usolve_entries (d := d) nu hi hs hrange hy1
  have hdiag : nu = true → rd A.val r.2 = some (A.mat i i) := by
    intro hnu
    obtain ⟨w, hw⟩ := c.diag hnu i hi
    rw [dg_mat hw]
    exact h3 hnu w hw
  obtain ⟨y', e4, h4⟩ := svDiv_spec nu hi h2 hdiag
  have p1 := Csr.WF.rd_ptr c.wf (i := i) (by omega)
  have p2 := Csr.WF.rd_ptr c.wf (i := i + 1) (by omega)
  rw [show ((i + 1 : Nat) : Int) = (i : Int) + 1 by push_cast; rfl] at p2
  refine ⟨(y', r.2), ?_, ?_⟩
  · unfold usolveRow
    simp only [Option.bind_eq_bind]
    rw [e0, Option.bind_some, e1, Option.bind_some, p1, Option.bind_some, p2, Option.bind_some,
      sub_zero, sub_zero, e2, Option.bind_some, e4]
  · have := lsum_eq (m := A.m) (S := upPart i (A.row i)) (AddMonoidHom.id R)
      (fun e he => hrange e (mem_upPart.mp he).1) g
    have h' : lsum id (upPart i (A.row i)) g
        = ∑ j ∈ range A.m, colSum (stPart .upper i (A.row i)) j * g j := this
    rw [← h']
    exact h4

/-- all rows solved -/
theorem svIsSolve [StarRing R] {nu : Bool} (f : Fill) {Dg : Diag} (hD : Dg ≠ .zero)
    (hnu : nu = decide (Dg = .nonUnit)) {y' : List R} {g : Nat → R} {b : List R}
    (hy : SVec y0 y' 1 A.m g)
    (hr : RowsOk A.m (svD A nu) (fun i j => colSum (stPart f i (A.row i)) j)
      (fun i => alpha * b.getD i 0) (range A.m) g) :
    IsSolve (operator .triangular f Dg .none A.mat) A.m alpha b 1 y0 1 y' := by
  refine ⟨hy.len, ?_, hy.rest⟩
  intro i hi
  have := hr i (mem_range.mpr hi)
  rw [Nat.mul_one]
  refine Eq.trans ?_ this
  have key : ∀ j ∈ range A.m, operator .triangular f Dg .none A.mat i j * y'.getD (j * 1) 0
      = (if i = j then svD A nu i * g i else 0) + colSum (stPart f i (A.row i)) j * g j := by
    intro j hj
    have hv := hy.val j (mem_range.mp hj)
    rw [List.getD_eq_getElem?_getD, hv, Option.getD_some, colSum_stPart]
    simp only [operator, applyOp, structured]
    by_cases hij : i = j
    · subst hij
      have hns : ¬ strictTri f i i := by cases f <;> simp [strictTri]
      rw [if_pos rfl, if_pos rfl, if_neg hns]
      subst hnu
      cases Dg <;> simp_all [diagVal, svD]
    · rw [if_neg hij, if_neg hij, zero_add]
      rfl
  rw [sum_congr rfl key, sum_add_distrib, sum_ite_eq, if_pos (mem_range.mpr hi)]

/-- the lower solve -/
theorem lsolve_spec (nu : Bool) (c : SvCtx A nu x y0) (hgr : A.Grouped)
    (hd : ∀ i, i < A.m → svD A nu i ≠ 0) :
    ∃ s g, lsolve alpha A.m A.val A.ind A.ptr x y0 nu 0 = some s ∧ SVec y0 s.1 1 A.m g ∧
      RowsOk A.m (svD A nu) (fun i j => colSum (stPart .lower i (A.row i)) j)
        (fun i => alpha * (x.arr y0).getD i 0) (range A.m) g := by
  obtain ⟨s, e, g, h1, h2, -⟩ := forC_inv_nat (n := A.m)
    (f := lsolveRow 0 alpha A.val A.ind A.ptr x nu) (s := (y0, 0))
    (P := fun i s => ∃ g, SVec y0 s.1 1 A.m g ∧
      RowsOk A.m (svD A nu) (fun i j => colSum (stPart .lower i (A.row i)) j)
        (fun i => alpha * (x.arr y0).getD i 0) (range i) g ∧
      ∀ k, i ≤ k → g k = y0.getD k 0)
    ⟨fun i => y0.getD (i * 1) 0, SVec.start y0 1 A.m (by have := c.hy; omega), by simp [RowsOk],
      by simp⟩ (by
      rintro i ⟨y, d⟩ hi ⟨g, h1, h2, h3⟩
      obtain ⟨s, e, h4⟩ := lsolveRow_step (alpha := alpha) (d := d) nu c hgr hi h1 (h3 i le_rfl)
      refine ⟨s, e, _, h4, ?_, ?_⟩
      · rw [range_add_one]
        refine h2.step (by simp) ?_ ?_ (hd i hi)
        · show colSum (stPart .lower i (A.row i)) i = 0
          rw [colSum_stPart, if_neg (by simp [strictTri])]
        · intro k hk
          show colSum (stPart .lower k (A.row k)) i = 0
          rw [colSum_stPart, if_neg (by simp [strictTri] at hk ⊢; omega)]
      · intro k hk
        rw [Function.update_of_ne (by omega)]
        exact h3 k (by omega))
  exact ⟨s, g, e, h1, h2⟩

/-- the upper solve -/
theorem usolve_spec (nu : Bool) (c : SvCtx A nu x y0)
    (hd : ∀ i, i < A.m → svD A nu i ≠ 0) :
    ∃ s g, usolve alpha A.m A.val A.ind A.ptr x y0 nu 0 = some s ∧ SVec y0 s.1 1 A.m g ∧
      RowsOk A.m (svD A nu) (fun i j => colSum (stPart .upper i (A.row i)) j)
        (fun i => alpha * (x.arr y0).getD i 0) (range A.m) g := by
  obtain ⟨s, e, g, h1, h2, -⟩ := forD_inv_nat (m := A.m)
    (f := usolveRow 0 alpha A.val A.ind A.ptr x nu) (s := (y0, 0))
    (P := fun i s => ∃ g, SVec y0 s.1 1 A.m g ∧
      RowsOk A.m (svD A nu) (fun i j => colSum (stPart .upper i (A.row i)) j)
        (fun i => alpha * (x.arr y0).getD i 0) (fromTo i A.m) g ∧
      ∀ k, k < i → g k = y0.getD k 0)
    ⟨fun i => y0.getD (i * 1) 0, SVec.start y0 1 A.m (by have := c.hy; omega),
      by simp [RowsOk, fromTo_top], by simp⟩ (by
      rintro i ⟨y, d⟩ hi ⟨g, h1, h2, h3⟩
      obtain ⟨s, e, h4⟩ := usolveRow_step (alpha := alpha) (d := d) nu c hi h1 (h3 i (by omega))
      refine ⟨s, e, _, h4, ?_, ?_⟩
      · rw [fromTo_succ hi]
        refine h2.step (by simp [mem_fromTo]) ?_ ?_ (hd i hi)
        · show colSum (stPart .upper i (A.row i)) i = 0
          rw [colSum_stPart, if_neg (by simp [strictTri])]
        · intro k hk
          show colSum (stPart .upper k (A.row k)) i = 0
          have := (mem_fromTo.mp hk).2
          rw [colSum_stPart, if_neg (by simp [strictTri]; omega)]
      · intro k hk
        rw [Function.update_of_ne (by omega)]
        exact h3 k (by omega))
  rw [fromTo_zero] at h2
  exact ⟨s, g, e, h1, h2⟩

end
end Verif
