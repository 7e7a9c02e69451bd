/-
The triangular solvers in any arithmetic: one step of every kernel, and the whole solve.
-/
import Verif.Proofs.RoundedTrsv
import Verif.Props.Trsv

namespace Verif
open Model Finset

variable {R : Type} [Zero R] [One R] [Add R] [Sub R] [Neg R] [Mul R] [Div R] [DecidableEq R]

theorem rdFp_getD {x : List R} {i inc : Nat} (h : i * inc < x.length) :
    rd x ((i : Int) * inc) = some (x.getD (i * inc) 0) := by
  rw [show (i : Int) * inc = ((i * inc : Nat) : Int) by push_cast; rfl, rd_ofNat,
    List.getElem?_eq_getElem h, List.getD_eq_getElem?_getD, List.getElem?_eq_getElem h]
  rfl

omit [Zero R] [One R] [Add R] [Sub R] [Neg R] [Mul R] [Div R] [DecidableEq R] in
theorem cleanFp_segs {A : Csr R} (hA : A.WF) {idiag iurow : List Int} {i : Nat} (him : i < A.m)
    {L D U : List (Int × R)} (h : CleanRow A idiag iurow i L D U) :
    Seg A.ind A.val A.base (A.p i) (A.p i + L.length) L ∧
    Seg A.ind A.val A.base (A.p i + L.length) (A.p i + L.length + D.length) D ∧
    Seg A.ind A.val A.base (A.p i + L.length + D.length) (A.p (i + 1)) U := by
  have hs := A.seg_row hA him
  rw [h.1] at hs
  have h1 := hs.append_left
  have h2 := hs.append_right
  refine ⟨h1.append_left, ?_, ?_⟩
  · have := h1.append_right
    rwa [show A.p i + ((L ++ D).length : Int) = A.p i + L.length + D.length by
      simp; ring] at this
  · rwa [show A.p i + ((L ++ D).length : Int) = A.p i + L.length + D.length by
      simp; ring] at h2

/-- the strictly lower or upper part of every row -/
def partOf (f : Fill) (L U : Nat → List (Int × R)) : Nat → List (Int × R) :=
  match f with
  | .lower => L
  | .upper => U

/-- matrix, strides and vectors of a triangular solve -/
structure FpCtx (A : Csr R) (idiag iurow : List Int) (L D U : Nat → List (Int × R))
    (b x0 : List R) (incb inc : Nat) : Prop where
  wf : A.WF
  sq : A.m = A.n
  rows : ∀ i, i < A.m → CleanRow A idiag iurow i (L i) (D i) (U i)
  hinc : 0 < inc
  hb : ∀ i, i < A.m → i * incb < b.length
  hx : ∀ i, i < A.m → i * inc < x0.length

variable {A : Csr R} {idiag iurow : List Int} {L D U : Nat → List (Int × R)}
  {b x0 : List R} {incb inc : Nat}

namespace FpCtx

theorem strict (h : FpCtx A idiag iurow L D U b x0 incb inc) {i : Nat} (hi : i < A.m) (f : Fill) :
    ∀ e ∈ partOf f L U i, 0 ≤ e.1 ∧ e.1 < (A.m : Int) ∧ strictTri f i e.1.toNat := by
  intro e he
  have hr := h.rows i hi
  have hmem : e ∈ A.row i := by
    rw [hr.1]
    cases f <;> simp only [partOf] at he <;> simp [he]
  have h2 := Csr.row_range h.wf hmem
  rw [h.sq]
  refine ⟨h2.1, h2.2, ?_⟩
  cases f
  · have := hr.2.1 e he
    simp only [strictTri]; omega
  · have := hr.2.2.2.1 e he
    simp only [strictTri]; omega

theorem range (h : FpCtx A idiag iurow L D U b x0 incb inc) {i : Nat} (hi : i < A.m) (f : Fill) :
    ∀ e ∈ partOf f L U i, 0 ≤ e.1 ∧ e.1 < (A.m : Int) :=
  fun e he => ⟨(h.strict hi f e he).1, (h.strict hi f e he).2.1⟩

theorem ne_diag (h : FpCtx A idiag iurow L D U b x0 incb inc) {i : Nat} (hi : i < A.m)
    (f : Fill) : ∀ e ∈ partOf f L U i, e.1 ≠ (i : Int) := by
  intro e he hc
  have := h.strict hi f e he
  cases f <;> simp only [strictTri] at this <;> omega

theorem lo (h : FpCtx A idiag iurow L D U b x0 incb inc) {i : Nat} (hi : i < A.m) :
    rd A.ptr (i : Int) = some (A.p i) ∧ rd A.ptr ((i : Int) + 1) = some (A.p (i + 1)) := by
  have e2 := Csr.WF.rd_ptr h.wf (i := i + 1) (by omega)
  rw [show ((i + 1 : Nat) : Int) = (i : Int) + 1 by push_cast; rfl] at e2
  exact ⟨Csr.WF.rd_ptr h.wf (by omega), e2⟩

/-- the diagonal entry of a row -/
theorem dg (h : FpCtx A idiag iurow L D U b x0 incb inc) {i : Nat} (hi : i < A.m) :
    D i = [((i : Int), A.diagAt i)] ∧
      rd A.val (A.p i + (L i).length - A.base) = some (A.diagAt i) := by
  have hr := h.rows i hi
  obtain ⟨s1, s2, s3⟩ := cleanFp_segs h.wf hi hr
  obtain ⟨h0, h1, h2, h3, h4, h5, h6⟩ := hr
  obtain ⟨e, he⟩ := List.length_eq_one_iff.mp (h6 (h.sq ▸ hi))
  have he1 := h2 e (by rw [he]; simp)
  have hv : A.diagAt i = e.2 := by
    unfold Csr.diagAt
    rw [h0, he, List.append_assoc, List.find?_append, List.find?_eq_none.mpr (by
      intro e he
      have := h1 e he
      simp only [decide_eq_true_eq]; omega)]
    simp [he1]
  refine ⟨by rw [he, hv, ← he1], ?_⟩
  rw [he] at s2
  have := (s2.2 0 (by simp)).2
  simp only [Nat.cast_zero, add_zero, List.getElem_cons_zero] at this
  rw [this, hv]

theorem up (h : FpCtx A idiag iurow L D U b x0 incb inc) {i : Nat} (hi : i < A.m) :
    ∃ s, rd iurow (i : Int) = some s ∧ Seg A.ind A.val A.base s (A.p (i + 1)) (U i) ∧
      rd A.val (s - 1 - A.base) = some (A.diagAt i) := by
  have hr := h.rows i hi
  obtain ⟨s1, s2, s3⟩ := cleanFp_segs h.wf hi hr
  obtain ⟨hD, hv⟩ := h.dg hi
  refine ⟨_, hr.2.2.2.2.2.1, s3, ?_⟩
  have : (D i).length = 1 := by rw [hD]; rfl
  rw [show A.p i + ((L i).length : Int) + (D i).length - 1 - A.base
    = A.p i + (L i).length - A.base by omega]
  exact hv

theorem low (h : FpCtx A idiag iurow L D U b x0 incb inc) {i : Nat} (hi : i < A.m) :
    ∃ s, rd idiag (i : Int) = some s ∧ Seg A.ind A.val A.base (A.p i) s (L i) ∧
      rd A.val (s - A.base) = some (A.diagAt i) := by
  have hr := h.rows i hi
  obtain ⟨s1, s2, s3⟩ := cleanFp_segs h.wf hi hr
  exact ⟨_, hr.2.2.2.2.1, s1, (h.dg hi).2⟩

end FpCtx

section
variable {a : List R} {base : Int} {m : Nat} {x : List R} {g : Nat → R}

theorem divFp_spec (unit : Bool) {d : Int} {v : R}
    (hv : rd a (d - base) = some v) (hinc : 0 < inc) (hx : SVec x0 x inc m g) {i : Nat}
    (him : i < m) :
    ∃ x', trsvDiv id base a unit d i inc x = some x' ∧
      SVec x0 x' inc m (Function.update g i (divBy unit v (g i))) := by
  unfold trsvDiv divBy
  cases unit
  · simp only [Bool.false_eq_true, if_false, hv, hx.rd him, Option.bind_eq_bind, Option.bind_some]
    exact hx.wr hinc him _
  · refine ⟨x, rfl, hx.congr (fun j _ => ?_)⟩
    by_cases hj : j = i
    · subst hj; simp
    · rw [Function.update_of_ne hj]

theorem initFp_spec (alpha : R) {b : List R} {incb : Nat} (hinc : 0 < inc)
    (hb : ∀ i, i < m → i * incb < b.length) (hx : SVec x0 x inc m g) :
    ∃ x', trsvInit alpha m b incb x inc = some x' ∧
      SVec x0 x' inc m (fun i => alpha * b.getD (i * incb) 0) := by
  obtain ⟨x', e, hp⟩ := forC_inv_nat (n := m) (s := x)
    (f := fun i x => (rd b (i * incb)).bind fun bi => wr x (i * inc) (alpha * bi))
    (P := fun t x => SVec x0 x inc m (fun i => if i < t then alpha * b.getD (i * incb) 0 else g i))
    (by simpa using hx) (by
      intro i x hi hp
      obtain ⟨x', e, h⟩ := hp.wr hinc hi (alpha * b.getD (i * incb) 0)
      refine ⟨x', ?_, h.congr ?_⟩
      · rw [rdFp_getD (hb i hi), Option.bind_some]
        exact e
      · intro j _
        by_cases hj : j = i
        · subst hj; simp
        · rw [Function.update_of_ne hj]
          have : j < i + 1 ↔ j < i := by omega
          simp [this])
  exact ⟨x', e, hp.congr (fun i hi => by rw [if_pos hi])⟩

theorem writeFp_div (hinc : 0 < inc) (unit : Bool) {i : Nat} (hi : i < m)
    (hx : SVec x0 x inc m g) {d : Int} {v : R} (hd : rd a (d - base) = some v) (r : R) :
    ∃ x', ((wr x ((i : Int) * inc) r).bind fun x => trsvDiv id base a unit d i inc x)
        = some x' ∧ SVec x0 x' inc m (Function.update g i (divBy unit v r)) := by
  obtain ⟨x1, e1, h1⟩ := hx.wr hinc hi r
  obtain ⟨x2, e2, h2⟩ := divFp_spec unit hd hinc h1 hi
  refine ⟨x2, by rw [e1, Option.bind_some, e2], h2.congr (fun j _ => ?_)⟩
  rw [Function.update_self, Function.update_idem]

end

/-! ### one step of every kernel -/

variable (F : SolveFpu R) (unit : Bool) (al : R)

/-- the right-hand side by component -/
def rhsAt (b : List R) (incb : Nat) (i : Nat) : R := b.getD (i * incb) 0

theorem subFp_row {icol : List Int} {a : List R} {base lo hi : Int} {S : List (Int × R)}
    {x : List R} {m : Nat} {g : Nat → R} (h : Seg icol a base lo hi S) (hx : SVec x0 x inc m g)
    (hr : ∀ e ∈ S, 0 ≤ e.1 ∧ e.1 < m) (bi : R) (c : Nat) (hc : 1 ≤ c) :
    ∃ v', forC lo hi (trsvSubFp F base a icol inc x) (al * bi) = some v' ∧
      RTree F (al, bi) S g c v' := by
  obtain ⟨v, e1, h1⟩ := subFp_seg h hx hr (DTree.start F al bi)
  exact ⟨v, e1, 0, by omega, by simpa using h1.mono (by omega)⟩

theorem refLRowFp_step (h : FpCtx A idiag iurow L D U b x0 incb inc) {c : Nat} (hc : 1 ≤ c) :
    RowStepFp F al (rhsAt b incb) A.diagAt unit L c x0 inc A.m
      (refLRowFp F al A.base A.val A.ind A.ptr idiag b incb inc unit) := by
  intro i hi x g hx
  obtain ⟨s, e1, e2, e3⟩ := h.low hi
  obtain ⟨v, e4, h4⟩ := subFp_row F al e2 hx (h.range hi .lower) (rhsAt b incb i) c hc
  have e5 : rd b ((i : Int) * incb) = some (rhsAt b incb i) := rdFp_getD (h.hb i hi)
  obtain ⟨x', e6, h6⟩ := hx.wr h.hinc hi (divBy unit (A.diagAt i) v)
  refine ⟨x', v, ?_, h6, h4⟩
  unfold refLRowFp
  simp only [e5, (h.lo hi).1, e1, Option.bind_eq_bind, Option.bind_some, e4]
  cases unit
  · simp only [Bool.false_eq_true, if_false, e3, Option.bind_some]
    exact e6
  · exact e6

theorem refURowFp_step (h : FpCtx A idiag iurow L D U b x0 incb inc) {c : Nat} (hc : 1 ≤ c) :
    RowStepFp F al (rhsAt b incb) A.diagAt unit U c x0 inc A.m
      (refURowFp F al A.base A.val A.ind A.ptr iurow b incb inc unit) := by
  intro i hi x g hx
  obtain ⟨s, e1, e2, e3⟩ := h.up hi
  obtain ⟨v, e4, h4⟩ := subFp_row F al e2 hx (h.range hi .upper) (rhsAt b incb i) c hc
  have e5 : rd b ((i : Int) * incb) = some (rhsAt b incb i) := rdFp_getD (h.hb i hi)
  obtain ⟨x', e6, h6⟩ := writeFp_div h.hinc unit hi hx e3 v
  refine ⟨x', v, ?_, h6, h4⟩
  unfold refURowFp
  simp only [e5, (h.lo hi).2, e1, Option.bind_eq_bind, Option.bind_some, sub_add_cancel, e4]
  exact e6

theorem ktLRowFp_step (h : FpCtx A idiag iurow L D U b x0 incb inc) {K l : Nat} (hK : 0 < K)
    {hs : List R → R} (hh : HsOk F.toFpu K l hs) :
    RowStepFp F al (rhsAt b incb) A.diagAt unit L (2 * l + 6) x0 inc A.m
      (ktLRowFp F K hs al A.base A.val A.ind A.ptr idiag b incb inc unit) := by
  intro i hi x g hx
  obtain ⟨s, e1, e2, e3⟩ := h.low hi
  obtain ⟨v, e4, h4⟩ := ktRowDotFp_tree hK hh e2 hx (h.range hi .lower) al (rhsAt b incb i)
  have e5 : rd b ((i : Int) * incb) = some (rhsAt b incb i) := rdFp_getD (h.hb i hi)
  obtain ⟨x', e6, h6⟩ := writeFp_div h.hinc unit hi hx e3 v
  refine ⟨x', v, ?_, h6, h4⟩
  unfold ktLRowFp
  simp only [e5, (h.lo hi).1, e1, Option.bind_eq_bind, Option.bind_some, e4]
  exact e6

theorem ktURowFp_step (h : FpCtx A idiag iurow L D U b x0 incb inc) {K l : Nat} (hK : 0 < K)
    {hs : List R → R} (hh : HsOk F.toFpu K l hs) :
    RowStepFp F al (rhsAt b incb) A.diagAt unit U (2 * l + 6) x0 inc A.m
      (ktURowFp F K hs al A.base A.val A.ind A.ptr iurow b incb inc unit) := by
  intro i hi x g hx
  obtain ⟨s, e1, e2, e3⟩ := h.up hi
  obtain ⟨v, e4, h4⟩ := ktRowDotFp_tree hK hh e2 hx (h.range hi .upper) al (rhsAt b incb i)
  have e5 : rd b ((i : Int) * incb) = some (rhsAt b incb i) := rdFp_getD (h.hb i hi)
  obtain ⟨x', e6, h6⟩ := writeFp_div h.hinc unit hi hx e3 v
  refine ⟨x', v, ?_, h6, h4⟩
  unfold ktURowFp
  simp only [e5, (h.lo hi).2, e1, Option.bind_eq_bind, Option.bind_some, sub_add_cancel, e4]
  exact e6

theorem refLthRowFp_step (h : FpCtx A idiag iurow L D U b x0 incb inc) :
    ColStepFp F A.diagAt unit L x0 inc A.m
      (refLthRowFp F A.base A.val A.ind A.ptr idiag inc unit) := by
  intro i hi x g hx
  obtain ⟨s, e1, e2, e3⟩ := h.low hi
  obtain ⟨x1, d1, h1⟩ := divFp_spec unit e3 h.hinc hx hi
  obtain ⟨x2, g2, d2, h2, h3⟩ := refPropFp_seg (F := F) e2 h.hinc h1 (h.range hi .lower) hi
    (h.ne_diag hi .lower)
  rw [Function.update_self] at h3
  refine ⟨x2, g2, ?_, h2, h3⟩
  unfold refLthRowFp
  simp only [(h.lo hi).1, e1, d1, d2, Option.bind_eq_bind, Option.bind_some]

theorem refUthRowFp_step (h : FpCtx A idiag iurow L D U b x0 incb inc) :
    ColStepFp F A.diagAt unit U x0 inc A.m
      (refUthRowFp F A.base A.val A.ind A.ptr iurow inc unit) := by
  intro i hi x g hx
  obtain ⟨s, e1, e2, e3⟩ := h.up hi
  obtain ⟨x1, d1, h1⟩ := divFp_spec unit e3 h.hinc hx hi
  obtain ⟨x2, g2, d2, h2, h3⟩ := refPropFp_seg (F := F) e2 h.hinc h1 (h.range hi .upper) hi
    (h.ne_diag hi .upper)
  rw [Function.update_self] at h3
  refine ⟨x2, g2, ?_, h2, h3⟩
  unfold refUthRowFp
  simp only [(h.lo hi).2, e1, d1, d2, Option.bind_eq_bind, Option.bind_some, sub_add_cancel]

theorem ktLtRowFp_step {K : Nat} (hK : 0 < K) (hnd : ∀ i, i < A.m → ((L i).map (·.1)).Nodup)
    (h : FpCtx A idiag iurow L D U b x0 incb inc) :
    ColStepFp F A.diagAt unit L x0 inc A.m
      (ktLtRowFp F K A.base A.val A.ind A.ptr idiag inc unit) := by
  intro i hi x g hx
  obtain ⟨s, e1, e2, e3⟩ := h.low hi
  obtain ⟨x1, d1, h1⟩ := divFp_spec unit e3 h.hinc hx hi
  obtain ⟨x2, g2, d2, h2, h3⟩ := ktRowScatFp_spec (F := F) hK e2 h.hinc h1 (h.range hi .lower)
    (hnd i hi) (divBy unit (A.diagAt i) (g i))
  refine ⟨x2, g2, ?_, h2, h3⟩
  have e4 := h1.rd hi
  rw [Function.update_self] at e4
  unfold ktLtRowFp
  simp only [(h.lo hi).1, e1, d1, e4, d2, Option.bind_eq_bind, Option.bind_some]

theorem ktUtRowFp_step {K : Nat} (hK : 0 < K) (hnd : ∀ i, i < A.m → ((U i).map (·.1)).Nodup)
    (h : FpCtx A idiag iurow L D U b x0 incb inc) :
    ColStepFp F A.diagAt unit U x0 inc A.m
      (ktUtRowFp F K A.base A.val A.ind A.ptr iurow inc unit) := by
  intro i hi x g hx
  obtain ⟨s, e1, e2, e3⟩ := h.up hi
  obtain ⟨x1, d1, h1⟩ := divFp_spec unit e3 h.hinc hx hi
  obtain ⟨x2, g2, d2, h2, h3⟩ := ktRowScatFp_spec (F := F) hK e2 h.hinc h1 (h.range hi .upper)
    (hnd i hi) (divBy unit (A.diagAt i) (g i))
  refine ⟨x2, g2, ?_, h2, h3⟩
  have e4 := h1.rd hi
  rw [Function.update_self] at e4
  unfold ktUtRowFp
  simp only [(h.lo hi).2, e1, d1, e4, d2, Option.bind_eq_bind, Option.bind_some, sub_add_cancel]

/-! ### the solve -/

/-- What a kernel of the table needs: a horizontal sum of `l` levels; and the vectorised
transposed solves need rows without a repeated column, and `alpha ≠ 0`. -/
def Model.FpTrsv.Ok (F : SolveFpu R) (l : Nat) (A : Csr R) (al : R) (tr : Bool) :
    FpTrsv R → Prop
  | .ref => True
  | .kt K hs => 0 < K ∧ HsOk F.toFpu K l hs ∧ (tr = true → A.NoDup ∧ al ≠ 0)

/-- the identifier of a triangular solve with real data -/
def triDoid (f : Fill) (tr : Bool) : Nat :=
  match f, tr with
  | .lower, false => 12
  | .lower, true => 14
  | .upper, false => 16
  | .upper, true => 18

/-- the rows of the operator -/
def rowsOf (f : Fill) (tr : Bool) (L U : Nat → List (Int × R)) (m : Nat) : Nat → List (Int × R) :=
  if tr then colRow (partOf f L U) m else partOf f L U

omit [Zero R] [One R] [Add R] [Sub R] [Neg R] [Mul R] [Div R] [DecidableEq R] in
theorem nodupFp_parts {A : Csr R} (hnd : A.NoDup) {idiag iurow : List Int}
    {L D U : Nat → List (Int × R)}
    (hc : ∀ i, i < A.m → CleanRow A idiag iurow i (L i) (D i) (U i)) (i : Nat) (hi : i < A.m) :
    ((L i).map (·.1)).Nodup ∧ ((U i).map (·.1)).Nodup := by
  have h := hnd i hi
  rw [(hc i hi).1, List.map_append, List.map_append] at h
  have h1 := List.nodup_append.mp h
  exact ⟨(List.nodup_append.mp h1.1).1, h1.2.1⟩

theorem RowsFp.mono {F : SolveFpu R} {al : R} {b d : Nat → R} {unit : Bool}
    {S : Nat → List (Int × R)} {c c' : Nat} {P : Finset Nat} {g : Nat → R}
    (h : RowsFp F al b d unit S c P g) (hc : c ≤ c') : RowsFp F al b d unit S c' P g := by
  intro k hk
  obtain ⟨v, ⟨z, hz, h1⟩, h2⟩ := h k hk
  exact ⟨v, ⟨z, hz, h1.mono (by omega)⟩, h2⟩

/-- Every kernel solves every row of its operator. -/
theorem trsvFp_rows (im : FpTrsv R) {l : Nat} (f : Fill) (tr : Bool)
    (him : im.Ok F l A al tr) (h : FpCtx A idiag iurow L D U b x0 incb inc) :
    ∃ x' g, trsvFp F im (triDoid f tr) al A.m A.base A.val A.ind A.ptr idiag iurow b incb x0 inc
        unit = some x' ∧ SVec x0 x' inc A.m g ∧
      RowsFp F al (rhsAt b incb) A.diagAt unit (rowsOf f tr L U A.m) (2 * l + 6)
        (Finset.range A.m) g := by
  have hx0 := SVec.start x0 inc A.m h.hx
  have hL : ∀ i, i < A.m → ∀ e ∈ L i, 0 ≤ e.1 ∧ e.1.toNat < i := fun i hi e he => by
    have := h.strict hi .lower e he
    exact ⟨this.1, this.2.2⟩
  have hU : ∀ i, i < A.m → ∀ e ∈ U i, 0 ≤ e.1 ∧ i < e.1.toNat := fun i hi e he => by
    have := h.strict hi .upper e he
    exact ⟨this.1, this.2.2⟩
  have hbind : ∀ {o : Option (List R)} {a : List R} {k : List R → Option (List R)}
      {r : Option (List R)}, o = some a → k a = r → (o >>= k) = r := by
    intro o a k r h1 h2
    rw [h1]; exact h2
  obtain ⟨x1, i1, s1⟩ := initFp_spec al h.hinc h.hb hx0
  have s1' : SVec x0 x1 inc A.m (fun i => al * rhsAt b incb i) := s1
  cases im with
  | ref =>
    cases f <;> cases tr
    · obtain ⟨x', g, e, h1, h2⟩ := rowsFp_fwd hx0
        (refLRowFp_step F unit al h (c := 2 * l + 6) (by omega)) (fun i hi e he => (hL i hi e he).2)
      exact ⟨x', g, e, h1, h2⟩
    · obtain ⟨x', g, e, h1, h2⟩ := colsFp_bwd s1' (refLthRowFp_step F unit h) hL
      exact ⟨x', g, hbind i1 e, h1, h2.rows.mono (by omega)⟩
    · obtain ⟨x', g, e, h1, h2⟩ := rowsFp_bwd hx0
        (refURowFp_step F unit al h (c := 2 * l + 6) (by omega)) (fun i hi e he => (hU i hi e he).2)
      exact ⟨x', g, e, h1, h2⟩
    · obtain ⟨x', g, e, h1, h2⟩ := colsFp_fwd s1' (refUthRowFp_step F unit h) hU
      exact ⟨x', g, hbind i1 e, h1, h2.rows.mono (by omega)⟩
  | kt K hs =>
    obtain ⟨hK, hh, htr⟩ := him
    have hin : al ≠ 0 → ktInit al A.m b incb x0 inc = some x1 := by
      intro ha
      unfold ktInit
      rw [if_pos ha]
      exact i1
    cases f <;> cases tr
    · obtain ⟨x', g, e, h1, h2⟩ := rowsFp_fwd hx0 (ktLRowFp_step F unit al h hK hh)
        (fun i hi e he => (hL i hi e he).2)
      exact ⟨x', g, e, h1, h2⟩
    · obtain ⟨hnd, ha⟩ := htr rfl
      obtain ⟨x', g, e, h1, h2⟩ := colsFp_bwd s1' (ktLtRowFp_step F unit hK
        (fun i hi => (nodupFp_parts hnd h.rows i hi).1) h) hL
      exact ⟨x', g, hbind (hin ha) e, h1, h2.rows.mono (by omega)⟩
    · obtain ⟨x', g, e, h1, h2⟩ := rowsFp_bwd hx0 (ktURowFp_step F unit al h hK hh)
        (fun i hi e he => (hU i hi e he).2)
      exact ⟨x', g, e, h1, h2⟩
    · obtain ⟨hnd, ha⟩ := htr rfl
      obtain ⟨x', g, e, h1, h2⟩ := colsFp_fwd s1' (ktUtRowFp_step F unit hK
        (fun i hi => (nodupFp_parts hnd h.rows i hi).2) h) hU
      exact ⟨x', g, hbind (hin ha) e, h1, h2.rows.mono (by omega)⟩

/-- the rows of the operator, from the stored rows of `A` -/
theorem rowsOf_opRow (h : FpCtx A idiag iurow L D U b x0 incb inc) (f : Fill) (tr : Bool) {i : Nat}
    (hi : i < A.m) : rowsOf f tr L U A.m i = A.opRow f tr i := by
  have hpart : ∀ k, k < A.m → partOf f L U k = (A.row k).filter fun e => strictTri f k e.1.toNat := by
    intro k hk
    have hr := h.rows k hk
    have hrow : ∀ e ∈ A.row k, 0 ≤ e.1 := fun e he => (Csr.row_range h.wf he).1
    rw [hr.1] at hrow
    rw [hr.1, List.filter_append, List.filter_append]
    obtain ⟨_, h1, h2, h3, _⟩ := hr
    cases f
    · rw [List.filter_eq_self.mpr (fun e he => decide_eq_true (show e.1.toNat < k by
          have := h1 e he; have := hrow e (by simp [he]); omega)),
        List.filter_eq_nil_iff.mpr (fun e he hc => by
          have hc : e.1.toNat < k := of_decide_eq_true hc
          have := h2 e he; omega),
        List.filter_eq_nil_iff.mpr (fun e he hc => by
          have hc : e.1.toNat < k := of_decide_eq_true hc
          have := h3 e he; omega)]
      simp [partOf]
    · rw [List.filter_eq_nil_iff.mpr (fun e he hc => by
          have hc : k < e.1.toNat := of_decide_eq_true hc
          have := h1 e he; omega),
        List.filter_eq_nil_iff.mpr (fun e he hc => by
          have hc : k < e.1.toNat := of_decide_eq_true hc
          have := h2 e he; omega),
        List.filter_eq_self.mpr (fun e he => decide_eq_true (show k < e.1.toNat by
          have := h3 e he; omega))]
      simp [partOf]
  cases tr
  · simp only [rowsOf, Csr.opRow, Bool.false_eq_true, if_false]
    exact hpart i hi
  · simp only [rowsOf, Csr.opRow, if_true, colRow]
    refine List.flatMap_congr (fun k hk => ?_)
    have hk := List.mem_range.mp hk
    rw [hpart k hk, inCol, List.filter_filter]
    congr 1
    apply List.filter_congr
    intro e _
    by_cases he : e.1 = (i : Int)
    · simp [he]
    · simp [he]

end Verif
