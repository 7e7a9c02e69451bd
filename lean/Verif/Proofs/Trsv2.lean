/-
The triangular solve kernels on a matrix split at its diagonal.
-/
import Verif.Proofs.Trsv
import Mathlib.Algebra.Star.BigOperators
import Mathlib.Algebra.Ring.Hom.Defs

namespace Verif
open Model Finset

variable {R : Type} [Field R] [DecidableEq R]

/-- matrix, strides and vectors of a triangular solve -/
structure TrsvCtx (A : Csr R) (idiag iurow : List Int) (L D U : Nat → List (Int × R))
    (b x0 : List R) (incb inc : Nat) : Prop where
  wf : A.WF
  sq : A.m = A.n
  rows : ∀ i, i < A.m → CleanRow A idiag iurow i (L i) (D i) (U i)
  hinc : 0 < inc
  hb : ∀ i, i < A.m → i * incb < b.length
  hx : ∀ i, i < A.m → i * inc < x0.length

variable {A : Csr R} {idiag iurow : List Int} {L D U : Nat → List (Int × R)}
  {b x0 : List R} {incb inc : Nat}

/-- the off-diagonal coefficients -/
def offC (cj : R → R) (f : Fill) (L U : Nat → List (Int × R)) (i j : Nat) : R :=
  cj (colSum (strictPart f (L i) (U i)) j)

/-- the divisors -/
def divD (cj : R → R) (unit : Bool) (A : Csr R) (i : Nat) : R :=
  if unit then 1 else cj (A.mat i i)

namespace TrsvCtx

theorem rdb (h : TrsvCtx A idiag iurow L D U b x0 incb inc) {i : Nat} (hi : i < A.m) :
    rd b ((i : Int) * incb) = some (b.getD (i * incb) 0) := by
  rw [show (i : Int) * incb = ((i * incb : Nat) : Int) by push_cast; rfl, rd_getD_lt (h.hb i hi)]

theorem strict (h : TrsvCtx A idiag iurow L D U b x0 incb inc) {i : Nat} (hi : i < A.m) (f : Fill) :
    ∀ e ∈ strictPart f (L i) (U i), 0 ≤ e.1 ∧ e.1 < (A.m : Int) := by
  intro e he
  have := (h.rows i hi).strict h.wf f e he
  rw [h.sq]
  exact ⟨this.1, this.2.1⟩

theorem ne_diag (h : TrsvCtx A idiag iurow L D U b x0 incb inc) {i : Nat} (hi : i < A.m)
    (f : Fill) : ∀ e ∈ strictPart f (L i) (U i), e.1 ≠ (i : Int) := by
  intro e he
  have := (h.rows i hi).strict h.wf f e he
  intro hc
  cases f <;> simp only [strictTri] at this <;> omega

theorem lo (h : TrsvCtx A idiag iurow L D U b x0 incb inc) {i : Nat} (hi : i < A.m) :
    rd A.ptr (i : Int) = some (A.p i) ∧ rd A.ptr ((i : Int) + 1) = some (A.p (i + 1)) := by
  have e2 := Csr.WF.rd_ptr h.wf (i := i + 1) (by omega)
  rw [show ((i + 1 : Nat) : Int) = (i : Int) + 1 by push_cast; rfl] at e2
  exact ⟨Csr.WF.rd_ptr h.wf (by omega), e2⟩

/-- the upper part: where it starts and the diagonal value before it -/
theorem up (h : TrsvCtx A idiag iurow L D U b x0 incb inc) {i : Nat} (hi : i < A.m) :
    ∃ s, rd iurow (i : Int) = some s ∧ Seg A.ind A.val A.base s (A.p (i + 1)) (U i) ∧
      rd A.val (s - 1 - A.base) = some (A.mat i i) := by
  have hr := h.rows i hi
  obtain ⟨s1, s2, s3⟩ := hr.segs h.wf hi
  obtain ⟨hD, _, hv⟩ := hr.diag h.wf hi (h.sq ▸ hi)
  refine ⟨_, hr.2.2.2.2.2.1, s3, ?_⟩
  have : (D i).length = 1 := by rw [hD]; rfl
  rw [show A.p i + ((L i).length : Int) + (D i).length - 1 - A.base
    = A.p i + (L i).length - A.base by omega]
  exact hv

/-- the lower part: where it ends and the diagonal value there -/
theorem low (h : TrsvCtx A idiag iurow L D U b x0 incb inc) {i : Nat} (hi : i < A.m) :
    ∃ s, rd idiag (i : Int) = some s ∧ Seg A.ind A.val A.base (A.p i) s (L i) ∧
      rd A.val (s - A.base) = some (A.mat i i) := by
  have hr := h.rows i hi
  obtain ⟨s1, s2, s3⟩ := hr.segs h.wf hi
  obtain ⟨hD, hdg, hv⟩ := hr.diag h.wf hi (h.sq ▸ hi)
  exact ⟨_, hdg, s1, hv⟩

end TrsvCtx

/-- how one step of a row-oriented kernel changes the vector -/
def RowStep (A : Csr R) (L U : Nat → List (Int × R)) (b x0 : List R) (incb inc : Nat) (cj : R → R)
    (f : Fill) (unit : Bool) (alpha : R) (body : Int → List R → Option (List R)) : Prop :=
  ∀ i, i < A.m → ∀ x g, SVec x0 x inc A.m g → ∃ x', body (i : Int) x = some x' ∧
    SVec x0 x' inc A.m (Function.update g i ((alpha * b.getD (i * incb) 0
      - ∑ j ∈ range A.m, offC cj f L U i j * g j) / divD cj unit A i))

/-- how one step of a column-oriented kernel changes the vector -/
def ColStep (A : Csr R) (L U : Nat → List (Int × R)) (x0 : List R) (inc : Nat) (cj : R → R)
    (f : Fill) (unit : Bool) (body : Int → List R → Option (List R)) : Prop :=
  ∀ i, i < A.m → ∀ x g, SVec x0 x inc A.m g → ∃ x', body (i : Int) x = some x' ∧
    SVec x0 x' inc A.m (colStep (divD cj unit A) (offC cj f L U) i g)

variable (cj : R →+* R) (unit : Bool)

theorem lsum_off (h : TrsvCtx A idiag iurow L D U b x0 incb inc) {i : Nat} (hi : i < A.m)
    (f : Fill) (g : Nat → R) :
    lsum cj (strictPart f (L i) (U i)) g = ∑ j ∈ range A.m, offC cj f L U i j * g j :=
  lsum_eq cj.toAddMonoidHom (h.strict hi f) g

theorem refLRow_step (h : TrsvCtx A idiag iurow L D U b x0 incb inc) (alpha : R) :
    RowStep A L U b x0 incb inc cj .lower unit alpha
      (refLRow cj alpha A.base A.val A.ind A.ptr idiag b incb inc unit) := by
  intro i hi x g hx
  obtain ⟨s, e1, e2, e3⟩ := h.low hi
  unfold refLRow
  simp only [h.rdb hi, (h.lo hi).1, e1, Option.bind_eq_bind, Option.bind_some]
  rw [sub_seg cj e2 hx (h.strict hi .lower), Option.bind_some]
  rw [show lsum cj (L i) g = _ from lsum_off cj h hi .lower g]
  cases unit
  · simp only [Bool.false_eq_true, if_false, e3, Option.bind_some, divD]
    exact hx.wr h.hinc hi _
  · simp only [if_true, divD, div_one]
    exact hx.wr h.hinc hi _

theorem write_div (h : TrsvCtx A idiag iurow L D U b x0 incb inc) {i : Nat} (hi : i < A.m)
    {x : List R} {g : Nat → R} (hx : SVec x0 x inc A.m g) {d : Int}
    (hd : rd A.val (d - A.base) = some (A.mat i i)) (r : R) :
    ∃ x', ((wr x ((i : Int) * inc) r).bind fun x => trsvDiv cj A.base A.val unit d i inc x)
        = some x' ∧ SVec x0 x' inc A.m (Function.update g i (r / divD cj unit A i)) := by
  obtain ⟨x1, e1, h1⟩ := hx.wr h.hinc hi r
  obtain ⟨x2, e2, h2⟩ := trsvDiv_spec cj unit hd h.hinc h1 hi
  refine ⟨x2, by rw [e1, Option.bind_some, e2], h2.congr (fun j _ => ?_)⟩
  rw [Function.update_self, Function.update_idem]
  rfl

theorem refURow_step (h : TrsvCtx A idiag iurow L D U b x0 incb inc) (alpha : R) :
    RowStep A L U b x0 incb inc cj .upper unit alpha
      (refURow cj alpha A.base A.val A.ind A.ptr iurow b incb inc unit) := by
  intro i hi x g hx
  obtain ⟨s, e1, e2, e3⟩ := h.up hi
  unfold refURow
  simp only [h.rdb hi, (h.lo hi).2, e1, Option.bind_eq_bind, Option.bind_some, sub_add_cancel]
  rw [sub_seg cj e2 hx (h.strict hi .upper), Option.bind_some]
  rw [show lsum cj (U i) g = _ from lsum_off cj h hi .upper g]
  exact write_div cj unit h hi hx e3 _

theorem ktLRow_step {V : Vec R} {K : Nat} (hV : V.Ok K)
    (h : TrsvCtx A idiag iurow L D U b x0 incb inc) (alpha : R) :
    RowStep A L U b x0 incb inc cj .lower unit alpha
      (ktLRow V K cj alpha A.base A.val A.ind A.ptr idiag b incb inc unit) := by
  intro i hi x g hx
  obtain ⟨s, e1, e2, e3⟩ := h.low hi
  unfold ktLRow
  simp only [h.rdb hi, (h.lo hi).1, e1, Option.bind_eq_bind, Option.bind_some]
  rw [ktRowDot_spec hV cj e2 hx (h.strict hi .lower), Option.bind_some]
  rw [show lsum cj (L i) g = _ from lsum_off cj h hi .lower g]
  exact write_div cj unit h hi hx e3 _

theorem ktURow_step {V : Vec R} {K : Nat} (hV : V.Ok K)
    (h : TrsvCtx A idiag iurow L D U b x0 incb inc) (alpha : R) :
    RowStep A L U b x0 incb inc cj .upper unit alpha
      (ktURow V K cj alpha A.base A.val A.ind A.ptr iurow b incb inc unit) := by
  intro i hi x g hx
  obtain ⟨s, e1, e2, e3⟩ := h.up hi
  unfold ktURow
  simp only [h.rdb hi, (h.lo hi).2, e1, Option.bind_eq_bind, Option.bind_some, sub_add_cancel]
  rw [ktRowDot_spec hV cj e2 hx (h.strict hi .upper), Option.bind_some]
  rw [show lsum cj (U i) g = _ from lsum_off cj h hi .upper g]
  exact write_div cj unit h hi hx e3 _

theorem colStep_eq (h : TrsvCtx A idiag iurow L D U b x0 incb inc) {i : Nat} (hi : i < A.m)
    (f : Fill) (g : Nat → R) (j : Nat) :
    propG cj (strictPart f (L i) (U i))
        (Function.update g i (g i / if unit then 1 else cj (A.mat i i)) i)
        (Function.update g i (g i / if unit then 1 else cj (A.mat i i))) j
      = colStep (divD cj unit A) (offC cj f L U) i g j := by
  rw [show propG (⇑cj) = propG (⇑cj.toAddMonoidHom) from rfl, propG_eq, Function.update_self]
  rfl

theorem refLthRow_step (h : TrsvCtx A idiag iurow L D U b x0 incb inc) :
    ColStep A L U x0 inc cj .lower unit
      (refLthRow cj A.base A.val A.ind A.ptr idiag inc unit) := by
  intro i hi x g hx
  obtain ⟨s, e1, e2, e3⟩ := h.low hi
  obtain ⟨x1, d1, h1⟩ := trsvDiv_spec cj unit e3 h.hinc hx hi
  obtain ⟨x2, d2, h2⟩ := refProp_seg cj e2 h.hinc h1 (h.strict hi .lower) hi (h.ne_diag hi .lower)
  refine ⟨x2, ?_, h2.congr (fun j _ => colStep_eq cj unit h hi .lower g j)⟩
  unfold refLthRow
  simp only [(h.lo hi).1, e1, d1, d2, Option.bind_eq_bind, Option.bind_some]

theorem refUthRow_step (h : TrsvCtx A idiag iurow L D U b x0 incb inc) :
    ColStep A L U x0 inc cj .upper unit
      (refUthRow cj A.base A.val A.ind A.ptr iurow inc unit) := by
  intro i hi x g hx
  obtain ⟨s, e1, e2, e3⟩ := h.up hi
  obtain ⟨x1, d1, h1⟩ := trsvDiv_spec cj unit e3 h.hinc hx hi
  obtain ⟨x2, d2, h2⟩ := refProp_seg cj e2 h.hinc h1 (h.strict hi .upper) hi (h.ne_diag hi .upper)
  refine ⟨x2, ?_, h2.congr (fun j _ => colStep_eq cj unit h hi .upper g j)⟩
  unfold refUthRow
  simp only [(h.lo hi).2, e1, d1, d2, Option.bind_eq_bind, Option.bind_some, sub_add_cancel]

theorem ktLtRow_step {K : Nat} (hK : 0 < K) (hnd : ∀ i, i < A.m → ((L i).map (·.1)).Nodup)
    (h : TrsvCtx A idiag iurow L D U b x0 incb inc) :
    ColStep A L U x0 inc cj .lower unit
      (ktLtRow K cj A.base A.val A.ind A.ptr idiag inc unit) := by
  intro i hi x g hx
  obtain ⟨s, e1, e2, e3⟩ := h.low hi
  obtain ⟨x1, d1, h1⟩ := trsvDiv_spec cj unit e3 h.hinc hx hi
  obtain ⟨x2, d2, h2⟩ := ktRowScat_spec cj hK e2 h.hinc h1 (h.strict hi .lower) (hnd i hi)
    (Function.update g i (g i / if unit then 1 else cj (A.mat i i)) i)
  refine ⟨x2, ?_, h2.congr (fun j _ => colStep_eq cj unit h hi .lower g j)⟩
  unfold ktLtRow
  simp only [(h.lo hi).1, e1, d1, h1.rd hi, d2, Option.bind_eq_bind, Option.bind_some]

theorem ktUtRow_step {K : Nat} (hK : 0 < K) (hnd : ∀ i, i < A.m → ((U i).map (·.1)).Nodup)
    (h : TrsvCtx A idiag iurow L D U b x0 incb inc) :
    ColStep A L U x0 inc cj .upper unit
      (ktUtRow K cj A.base A.val A.ind A.ptr iurow inc unit) := by
  intro i hi x g hx
  obtain ⟨s, e1, e2, e3⟩ := h.up hi
  obtain ⟨x1, d1, h1⟩ := trsvDiv_spec cj unit e3 h.hinc hx hi
  obtain ⟨x2, d2, h2⟩ := ktRowScat_spec cj hK e2 h.hinc h1 (h.strict hi .upper) (hnd i hi)
    (Function.update g i (g i / if unit then 1 else cj (A.mat i i)) i)
  refine ⟨x2, ?_, h2.congr (fun j _ => colStep_eq cj unit h hi .upper g j)⟩
  unfold ktUtRow
  simp only [(h.lo hi).2, e1, d1, h1.rd hi, d2, Option.bind_eq_bind, Option.bind_some,
    sub_add_cancel]

/-! ### from the steps to the solution -/

theorem offC_zero (h : TrsvCtx A idiag iurow L D U b x0 incb inc) (f : Fill) {i j : Nat}
    (hi : i < A.m) (hs : ¬ strictTri f i j) : offC cj f L U i j = 0 := by
  unfold offC
  rw [(h.rows i hi).mat_strict_zero h.wf hs, map_zero]

variable [Star R]

/-- the unit flag matches the diagonal type, and a stored diagonal is invertible -/
def DiagOk (Dg : Diag) (A : Csr R) (unit : Bool) : Prop :=
  (Dg = .unit ∧ unit = true) ∨ (Dg = .nonUnit ∧ unit = false ∧ ∀ i, i < A.m → A.mat i i ≠ 0)

theorem divD_ne {Dg : Diag} {unit : Bool} (hd : DiagOk Dg A unit) {i : Nat} (hi : i < A.m) :
    divD cj unit A i ≠ 0 := by
  unfold divD
  rcases hd with ⟨_, rfl⟩ | ⟨_, rfl, h⟩
  · simp
  · simpa using h i hi

/-- coefficients of the conjugated triangular matrix -/
theorem tri_coef (h : TrsvCtx A idiag iurow L D U b x0 incb inc) (f : Fill) {Dg : Diag}
    {unit : Bool} (hd : DiagOk Dg A unit) {i j : Nat} (hi : i < A.m) :
    cj (structured .triangular f Dg A.mat i j)
      = (if i = j then divD cj unit A i else 0) + offC cj f L U i j := by
  simp only [structured]
  by_cases hij : i = j
  · subst hij
    have hns : ¬ strictTri f i i := by cases f <;> simp [strictTri]
    rw [if_pos rfl, if_pos rfl, offC_zero cj h f hi hns, add_zero]
    rcases hd with ⟨rfl, rfl⟩ | ⟨rfl, rfl, _⟩ <;> simp [diagVal, divD]
  · rw [if_neg hij, if_neg hij, zero_add]
    by_cases hs : strictTri f i j
    · rw [if_pos hs]
      unfold offC
      rw [(h.rows i hi).mat_strict hs]
    · rw [if_neg hs, offC_zero cj h f hi hs, map_zero]

theorem isSolve_rows (h : TrsvCtx A idiag iurow L D U b x0 incb inc) (f : Fill) {Dg : Diag}
    {unit : Bool} (hd : DiagOk Dg A unit) {alpha : R} {x' : List R} {g : Nat → R}
    (hx : SVec x0 x' inc A.m g)
    (hr : RowsOk A.m (divD cj unit A) (offC cj f L U) (fun i => alpha * b.getD (i * incb) 0)
      (range A.m) g) :
    IsSolve (fun i j => cj (structured .triangular f Dg A.mat i j)) A.m alpha b incb x0 inc x' := by
  refine ⟨hx.len, ?_, hx.rest⟩
  intro i hi
  refine Eq.trans ?_ (hr i (mem_range.mpr hi))
  have : ∀ j ∈ range A.m, cj (structured .triangular f Dg A.mat i j) * x'.getD (j * inc) 0
      = (if i = j then divD cj unit A i * g i else 0) + offC cj f L U i j * g j := by
    intro j hj
    have hj := mem_range.mp hj
    rw [tri_coef cj h f hd hi, List.getD_eq_getElem?_getD, hx.val j hj, Option.getD_some, add_mul]
    congr 1
    split
    · next e => subst e; rfl
    · simp
  rw [sum_congr rfl this, sum_add_distrib, sum_ite_eq, if_pos (mem_range.mpr hi)]

theorem isSolve_cols (h : TrsvCtx A idiag iurow L D U b x0 incb inc) (f : Fill) {Dg : Diag}
    {unit : Bool} (hd : DiagOk Dg A unit) {alpha : R} {x' : List R} {g : Nat → R}
    (hx : SVec x0 x' inc A.m g)
    (hr : ColsOk A.m (divD cj unit A) (offC cj f L U) (fun i => alpha * b.getD (i * incb) 0)
      (range A.m) g) :
    IsSolve (fun i j => cj (structured .triangular f Dg A.mat j i)) A.m alpha b incb x0 inc x' := by
  refine ⟨hx.len, ?_, hx.rest⟩
  intro i hi
  have := hr i hi
  rw [if_pos (mem_range.mpr hi)] at this
  refine Eq.trans ?_ this
  have : ∀ j ∈ range A.m, cj (structured .triangular f Dg A.mat j i) * x'.getD (j * inc) 0
      = (if i = j then divD cj unit A i * g i else 0) + offC cj f L U j i * g j := by
    intro j hj
    have hj := mem_range.mp hj
    rw [tri_coef cj h f hd hj, List.getD_eq_getElem?_getD, hx.val j hj, Option.getD_some, add_mul]
    congr 1
    by_cases e : i = j
    · subst e; simp
    · rw [if_neg e, if_neg (Ne.symm e), zero_mul]
  rw [sum_congr rfl this, sum_add_distrib, sum_ite_eq, if_pos (mem_range.mpr hi)]

/-- a forward substitution -/
theorem lower_rows (h : TrsvCtx A idiag iurow L D U b x0 incb inc) {Dg : Diag} {unit : Bool}
    (hd : DiagOk Dg A unit) {alpha : R} {body : Int → List R → Option (List R)}
    (hb : RowStep A L U b x0 incb inc cj .lower unit alpha body) :
    ∃ x', forC 0 (A.m : Int) body x0 = some x' ∧
      IsSolve (fun i j => cj (structured .triangular .lower Dg A.mat i j)) A.m alpha b incb x0 inc
        x' := by
  obtain ⟨x', g', e, h1, h2⟩ := rows_fwd (SVec.start x0 inc A.m h.hx) hb
    (fun i j hi hij => offC_zero cj h .lower hi (by simp only [strictTri]; omega))
    (fun i hi => divD_ne cj hd hi)
  exact ⟨x', e, isSolve_rows cj h .lower hd h1 h2⟩

/-- a backward substitution -/
theorem upper_rows (h : TrsvCtx A idiag iurow L D U b x0 incb inc) {Dg : Diag} {unit : Bool}
    (hd : DiagOk Dg A unit) {alpha : R} {body : Int → List R → Option (List R)}
    (hb : RowStep A L U b x0 incb inc cj .upper unit alpha body) :
    ∃ x', forD ((A.m : Int) - 1) 0 body x0 = some x' ∧
      IsSolve (fun i j => cj (structured .triangular .upper Dg A.mat i j)) A.m alpha b incb x0 inc
        x' := by
  obtain ⟨x', g', e, h1, h2⟩ := rows_bwd (SVec.start x0 inc A.m h.hx) hb
    (fun i j hi hij => offC_zero cj h .upper hi (by simp only [strictTri]; omega))
    (fun i hi => divD_ne cj hd hi)
  exact ⟨x', e, isSolve_rows cj h .upper hd h1 h2⟩

/-- elimination with the columns of the transposed lower triangle -/
theorem lower_cols (h : TrsvCtx A idiag iurow L D U b x0 incb inc) {Dg : Diag} {unit : Bool}
    (hd : DiagOk Dg A unit) {alpha : R} {body : Int → List R → Option (List R)}
    (hb : ColStep A L U x0 inc cj .lower unit body) {x1 : List R}
    (hx : SVec x0 x1 inc A.m (fun i => alpha * b.getD (i * incb) 0)) :
    ∃ x', forD ((A.m : Int) - 1) 0 body x1 = some x' ∧
      IsSolve (fun i j => cj (structured .triangular .lower Dg A.mat j i)) A.m alpha b incb x0 inc
        x' := by
  obtain ⟨x', g', e, h1, h2⟩ := cols_bwd hx hb
    (fun i j hi hij => offC_zero cj h .lower hi (by simp only [strictTri]; omega))
    (fun i hi => divD_ne cj hd hi)
  exact ⟨x', e, isSolve_cols cj h .lower hd h1 h2⟩

/-- elimination with the columns of the transposed upper triangle -/
theorem upper_cols (h : TrsvCtx A idiag iurow L D U b x0 incb inc) {Dg : Diag} {unit : Bool}
    (hd : DiagOk Dg A unit) {alpha : R} {body : Int → List R → Option (List R)}
    (hb : ColStep A L U x0 inc cj .upper unit body) {x1 : List R}
    (hx : SVec x0 x1 inc A.m (fun i => alpha * b.getD (i * incb) 0)) :
    ∃ x', forC 0 (A.m : Int) body x1 = some x' ∧
      IsSolve (fun i j => cj (structured .triangular .upper Dg A.mat j i)) A.m alpha b incb x0 inc
        x' := by
  obtain ⟨x', g', e, h1, h2⟩ := cols_fwd hx hb
    (fun i j hi hij => offC_zero cj h .upper hi (by simp only [strictTri]; omega))
    (fun i hi => divD_ne cj hd hi)
  exact ⟨x', e, isSolve_cols cj h .upper hd h1 h2⟩

theorem ktInit_spec (h : TrsvCtx A idiag iurow L D U b x0 incb inc) {alpha : R} (ha : alpha ≠ 0) :
    ∃ x', ktInit alpha A.m b incb x0 inc = some x' ∧
      SVec x0 x' inc A.m (fun i => alpha * b.getD (i * incb) 0) := by
  unfold ktInit
  rw [if_pos ha]
  exact trsvInit_spec alpha h.hinc h.hb (SVec.start x0 inc A.m h.hx)

end Verif
