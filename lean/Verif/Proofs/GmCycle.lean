/-
GMRES in exact arithmetic: the invariant of a cycle and its end.
-/
import Verif.Proofs.GmExact
import Mathlib.LinearAlgebra.Dimension.Constructions
import Mathlib.LinearAlgebra.Dimension.Finite
import Mathlib.LinearAlgebra.Matrix.ToLin
import Mathlib.LinearAlgebra.Matrix.DotProduct

namespace Verif
namespace Proofs
open Model Spec Finset Matrix

section
variable {R : Type} [Field R] [LinearOrder R] [IsStrictOrderedRing R] {num : GNum R R} {n m j : Nat}
variable {A : Matrix (Fin n) (Fin n) R} {o : GmOpt R} {bl : List R} {S : GmSt R R} {r : Status × GmSt R R}

/-- at most `n` orthonormal vectors -/
theorem ortho_count {V : Nat → Fin n → R} {J : Nat} (h : Ortho V J) : J + 1 ≤ n := by
  have hli : LinearIndependent R (fun i : Fin (J + 1) => V i) := by
    rw [Fintype.linearIndependent_iff]
    intro g hg i
    have h1 : (∑ k : Fin (J + 1), g k • V k) ⬝ᵥ V i = 0 := by rw [hg, zero_dotProduct]
    rw [sum_dotProduct] at h1
    simp only [smul_dotProduct, smul_eq_mul] at h1
    rw [Finset.sum_eq_single i] at h1
    · rwa [h i i (by omega) (by omega), if_pos rfl, mul_one] at h1
    · intro k _ hk
      rw [h k i (by omega) (by omega), if_neg (fun e => hk (Fin.ext e)), mul_zero]
    · intro hi; exact absurd (mem_univ i) hi
  have := hli.fintype_card_le_finrank
  simpa using this

/-- the array with the vectors whose products are taken -/
def gmZ (gm : GmData R R) : List R := if gm.precond = 0 then gm.v else gm.z

abbrev gW (n : Nat) (gm : GmData R R) : Nat → Fin n → R :=
  wW (rowV n gm.v) (fun l => gm.c.getD l 0) (fun l => gm.s.getD l 0)
abbrev gwt (n : Nat) (gm : GmData R R) : Nat → Fin n → R :=
  wt (rowV n gm.v) (fun l => gm.c.getD l 0) (fun l => gm.s.getD l 0)

/-- invariant of a cycle after `j` inner iterations -/
structure GmEx (A : Matrix (Fin n) (Fin n) R) (b : Fin n → R) (m j : Nat) (gm : GmData R R) (x : Fin n → R) : Prop where
  ortho : Ortho (rowV n gm.v) j
  cs : ∀ l, l < j → gm.c.getD l 0 ^ 2 + gm.s.getD l 0 ^ 2 = 1
  res : b - A *ᵥ x = ∑ l ∈ range j, gm.g.getD l 0 • gW n gm l + gm.g.getD j 0 • gwt n gm j
  hes : ∀ i, i < j → A *ᵥ rowV n (gmZ gm) i = ∑ l ∈ range (i + 1), gm.h.getD (l * m + i) 0 • gW n gm l
  start : ∃ β : R, b - A *ᵥ x = β • rowV n gm.v 0
  nz : b - A *ᵥ x ≠ 0
  gnz : gm.g.getD j 0 ≠ 0
  arn : ∀ i, i < j → ∃ (a : Nat → R) (hh : R), hh ≠ 0 ∧
    A *ᵥ rowV n (gmZ gm) i = ∑ l ∈ range (i + 1), a l • rowV n gm.v l + hh • rowV n gm.v (i + 1)

theorem GmEx.congr {b x : Fin n → R} {gm gm' : GmData R R} (h : GmEx A b m j gm x)
    (hv : ∀ i, i ≤ j → rowV n gm'.v i = rowV n gm.v i) (hz : ∀ i, i < j → rowV n (gmZ gm') i = rowV n (gmZ gm) i)
    (hc : gm'.c = gm.c) (hs : gm'.s = gm.s) (hg : gm'.g = gm.g) (hh : gm'.h = gm.h) : GmEx A b m j gm' x := by
  have hW : ∀ l, l < j → gW n gm' l = gW n gm l := by
    intro l hl
    exact wW_congr (j := j) hv (fun i _ => by rw [hc]) (fun i _ => by rw [hs]) l hl
  have hwt : gwt n gm' j = gwt n gm j := wt_congr (j := j) hv (fun i _ => by rw [hc]) (fun i _ => by rw [hs]) j (le_refl _)
  refine ⟨?_, ?_, ?_, ?_, ?_, h.nz, by rw [hg]; exact h.gnz, ?_⟩
  · intro k l hk hl
    rw [hv k hk, hv l hl]
    exact h.ortho k l hk hl
  · intro l hl
    rw [hc, hs]; exact h.cs l hl
  · rw [h.res, hg, hwt]
    congr 1
    refine sum_congr rfl fun l hl => ?_
    rw [hW l (mem_range.1 hl)]
  · intro i hi
    rw [hz i hi, h.hes i hi, hh]
    refine sum_congr rfl fun l hl => ?_
    rw [mem_range] at hl
    rw [hW l (by omega)]
  · rw [hv 0 (by omega)]; exact h.start
  · intro i hi
    obtain ⟨a, k, h1, h2⟩ := h.arn i hi
    refine ⟨a, k, h1, ?_⟩
    rw [hz i hi, h2, hv (i + 1) (by omega)]
    congr 1
    refine sum_congr rfl fun l hl => ?_
    rw [mem_range] at hl
    rw [hv l (by omega)]

theorem at_row_lt {i k t n : Nat} (h : i < k) (ht : t < n) : i * n + t < k * n := by
  have h1 := Nat.mul_le_mul_right n (show i + 1 ≤ k from h)
  have e : (i + 1) * n = i * n + n := by ring
  omega

theorem vecOf_row (l : List R) : vecOf n l = rowV n l 0 := by
  funext t
  simp [vecOf, rowV]

/-- the first basis vector -/
theorem ex_residual (hE : ExactG num) (hb : bl.length = n) (h : GmIn num o n m 0 .residual S)
    (hA : rowV n S.gm.v 0 = A *ᵥ vecOf n S.x) (hne : vecOf n bl - A *ᵥ vecOf n S.x ≠ 0)
    (e : gmInitRes num n bl S = some r) (hs : r.1 = .success) :
    r.2.x = S.x ∧
    ((r.2.c.job ≠ .stop ∧ GmEx A (vecOf n bl) m 0 r.2.gm (vecOf n r.2.x) ∧ num.nrm (bl.take n) = r.2.gm.bnorm2 ∧
        r.2.gm.brtol = o.rtol * r.2.gm.bnorm2) ∨
     (r.2.c.job = .stop ∧ ∃ ρ, 0 ≤ ρ ∧ ρ ^ 2 = (vecOf n bl - A *ᵥ vecOf n S.x) ⬝ᵥ (vecOf n bl - A *ᵥ vecOf n S.x) ∧
        (ρ ≤ o.atol ∨ ρ ≤ o.rtol * num.nrm (bl.take n)) ∧ r.2.rinfo[0]? = some ρ)) := by
  obtain ⟨bn, hbn, hc⟩ := initRes_shape (num := num) hb h.sz h.info
  rcases hc with ⟨-, e'⟩ | ⟨-, -, e'⟩ | ⟨-, -, v1, g0, e1, hg0, l1, hc⟩
  · rw [e] at e'; cases e'; simp at hs
  · rw [e] at e'; cases e'; simp at hs
  · have hrow := row_le (n := n) (m := m) (i := 0) (by omega)
    obtain ⟨v1', e1', -, c1, -⟩ := axpby_loop (n := n) (b := bl) (v := S.gm.v) hb (by rw [h.sz.v]; omega)
    rw [e1] at e1'
    cases e1'
    have hr1 : rowV n v1 0 = vecOf n bl - A *ᵥ vecOf n S.x := by
      rw [← hA]
      funext t
      have := c1 t t.2
      simp only [rowV, vecOf, Nat.zero_mul, Nat.zero_add, Pi.sub_apply]
      exact this
    have hg2 : g0 ^ 2 = (vecOf n bl - A *ᵥ vecOf n S.x) ⬝ᵥ (vecOf n bl - A *ᵥ vecOf n S.x) := by
      have := nrm_row (n := n) (num := num) (v := v1) (i := 0) hE (by rw [l1]; exact hrow)
      rw [Nat.zero_mul, List.drop_zero, hg0, hr1] at this
      exact this
    have hg0' : g0 ≠ 0 := by
      intro h0
      rw [h0] at hg2
      apply hne
      have : (vecOf n bl - A *ᵥ vecOf n S.x) ⬝ᵥ (vecOf n bl - A *ᵥ vecOf n S.x) = 0 := by rw [← hg2]; ring
      exact dotProduct_self_eq_zero.1 this
    rcases hc with ⟨hd, e'⟩ | ⟨hd, v2, e2, l2, e'⟩
    · rw [e] at e'
      cases e'
      refine ⟨rfl, Or.inr ⟨rfl, g0, by rw [← hg0]; exact hE.nrm_nonneg _, hg2, ?_, ?_⟩⟩
      · unfold gmInitDone at hd
        rw [hE.zeroF, hE.lt, hE.le, hE.le] at hd
        simp only [Bool.or_eq_true, Bool.and_eq_true, decide_eq_true_eq] at hd
        rcases hd with hd | hd
        · have h1 : g0 ≤ S.gm.atol := hd.2
          exact Or.inl (by rw [← h.atol]; exact h1)
        · have h1 : g0 ≤ num.mulF S.gm.rtol bn := hd.2
          rw [hE.mulF, ← hbn, show S.gm.rtol = o.rtol from h.rtol] at h1
          exact Or.inr h1
      · have hinfo := h.info
        simp only [scaled]
        rw [List.getElem?_set_ne (by omega), List.getElem?_set_self (by simp; omega)]
    · obtain ⟨v2', e2', -, c2, -⟩ := scal_loop (num := num) (n := n) (off := 0) (v := v1) (num.invF g0)
        (by rw [l1]; omega)
      rw [e2] at e2'
      cases e2'
      have hr2 : rowV n v2 0 = g0⁻¹ • (vecOf n bl - A *ᵥ vecOf n S.x) := by
        rw [← hr1]
        funext t
        have := c2 t t.2
        rw [hE.smul, hE.invF] at this
        simpa [rowV] using this
      rw [e] at e'
      cases e'
      have hEx : GmEx A (vecOf n bl) m 0 (scaled (num := num) v2 bn g0 S).gm (vecOf n S.x) := by
        have hst : vecOf n bl - A *ᵥ vecOf n S.x = g0 • rowV n v2 0 := by
          rw [hr2, smul_smul, mul_inv_cancel₀ hg0', one_smul]
        refine ⟨?_, by omega, ?_, by omega, ⟨g0, hst⟩, hne, ?_, by omega⟩
        rotate_right
        · show (S.gm.g.set 0 (num.toR g0)).getD 0 0 ≠ 0
          rw [at_set_eq _ (by rw [h.sz.g]; omega), hE.toR]
          exact hg0'
        · intro k l hk hl
          have hk0 : k = 0 := by omega
          have hl0 : l = 0 := by omega
          subst hk0 hl0
          rw [if_pos rfl]
          show rowV n v2 0 ⬝ᵥ rowV n v2 0 = 1
          rw [hr2, smul_dotProduct, dotProduct_smul, ← hg2]
          simp only [smul_eq_mul]
          field_simp
        · rw [sum_range_zero, zero_add]
          show _ = (S.gm.g.set 0 (num.toR g0)).getD 0 0 • rowV n v2 0
          rw [at_set_eq _ (by rw [h.sz.g]; omega), hE.toR, hr2, smul_smul, mul_inv_cancel₀ hg0', one_smul]
      have hbt : (scaled (num := num) v2 bn g0 S).gm.brtol = o.rtol * bn := by
        show num.mulF S.gm.rtol bn = _
        rw [hE.mulF, show S.gm.rtol = o.rtol from h.rtol]
      unfold gmAfterInit
      split
      · exact ⟨rfl, Or.inl ⟨by simp [gmInitPrecond], ⟨hEx.ortho, hEx.cs, hEx.res, hEx.hes, hEx.start, hEx.nz, hEx.gnz, hEx.arn⟩, hbn, hbt⟩⟩
      · exact ⟨rfl, Or.inl ⟨by simp, ⟨hEx.ortho, hEx.cs, hEx.res, hEx.hes, hEx.start, hEx.nz, hEx.gnz, hEx.arn⟩, hbn, hbt⟩⟩

/-- one inner iteration -/
theorem ex_turned (hE : ExactG num) {x : Fin n → R} {b : Fin n → R} (hz : GmSz n m j S.gm) (hj : j < m)
    (hx : GmEx A b m j S.gm x) (hA : rowV n S.gm.v (j + 1) = A *ᵥ rowV n (gmZ S.gm) j) {h1 v1 v2 h2 : List R} {hh : R}
    (e1 : forC 0 ((j : Int) + 1) (hessBody num n m j S.gm.v) S.gm.h = some h1)
    (e2 : forC 0 (n : Int) (orthBody num n m j h1) S.gm.v = some v1) (l1 : h1.length = m * m)
    (l2 : v1.length = (m + 1) * n) (hn : num.nrm ((v1.drop ((j + 1) * n)).take n) = hh) (hpos : 0 < hh)
    (e3 : forC 0 (n : Int) (scalBody num (num.invF hh) ((j + 1) * n : Nat)) v1 = some v2)
    (e4 : forC 0 (j : Int) (rotBody num m j S.gm.c S.gm.s) h1 = some h2)
    (l4 : h2.length = m * m) :
    GmEx A b m (j + 1) (turned num j m hh v2 h2 S).gm x ∧ ∀ i, i ≤ j → rowV n v2 i = rowV n S.gm.v i := by
  have hm : 0 < m := by omega
  obtain ⟨h1', e1', -, c1, f1⟩ := hess_loop (num := num) hz.v hz.h hj
  rw [e1] at e1'
  cases e1'
  obtain ⟨v1', e2', -, c2, f2⟩ := orth_loop (num := num) hz.v l1 hj
  rw [e2] at e2'
  cases e2'
  have hrow := row_le (n := n) (m := m) (i := j + 1) (by omega)
  obtain ⟨v2', e3', -, c3, f3⟩ := scal_loop (num := num) (n := n) (off := (j + 1) * n) (v := v1) (num.invF hh)
    (by rw [l2]; exact hrow)
  rw [e3] at e3'
  cases e3'
  obtain ⟨r1, r2, f4⟩ := rot_content hE l1 hz.s hz.c hj e4
  -- the rows
  have hV : ∀ i, i ≤ j → rowV n v2 i = rowV n S.gm.v i := by
    intro i hi
    refine row_congr fun t ht => ?_
    have := at_row_lt (i := i) (k := j + 1) (t := t) (n := n) (by omega) ht
    rw [at_congr (f3 _ (Or.inl this)), at_congr (f2 _ (Or.inl this))]
  have hV1 : rowV n v1 (j + 1) = rowV n S.gm.v (j + 1) -
      ∑ i ∈ range (j + 1), h1.getD (i * m + j) 0 • rowV n S.gm.v i := by
    funext t
    have := c2 t t.2
    rw [dotv_eq hE] at this
    rw [Pi.sub_apply, Finset.sum_apply]
    exact this
  have hV2 : rowV n v2 (j + 1) = hh⁻¹ • rowV n v1 (j + 1) := by
    funext t
    have := c3 t t.2
    rw [hE.smul, hE.invF] at this
    exact this
  have ha : ∀ i, i < j + 1 → h1.getD (i * m + j) 0 = rowV n S.gm.v (j + 1) ⬝ᵥ rowV n S.gm.v i := by
    intro i hi
    rw [c1 i hi, dotv_rows hE]
  have hsq : hh ^ 2 = rowV n v1 (j + 1) ⬝ᵥ rowV n v1 (j + 1) := by
    rw [← hn]
    exact nrm_row hE (by rw [l2]; exact hrow)
  have hne : hh ≠ 0 := ne_of_gt hpos
  refine ⟨?_, hV⟩
  -- orthogonality
  have hperp : ∀ i, i ≤ j → rowV n v1 (j + 1) ⬝ᵥ rowV n S.gm.v i = 0 := by
    intro i hi
    rw [hV1, sub_dotProduct, sum_dot, Finset.sum_eq_single i]
    · rw [hx.ortho i i hi hi, if_pos rfl, ha i (by omega)]; ring
    · intro k hk hne
      rw [mem_range] at hk
      rw [hx.ortho k i (by omega) hi, if_neg hne, mul_zero]
    · intro hi'
      exact absurd (mem_range.2 (by omega)) hi'
  have hortho : Ortho (rowV n v2) (j + 1) := by
    intro k l hk hl
    rcases Nat.lt_or_ge k (j + 1) with hk' | hk'
    · rcases Nat.lt_or_ge l (j + 1) with hl' | hl'
      · rw [hV k (by omega), hV l (by omega)]
        exact hx.ortho k l (by omega) (by omega)
      · have : l = j + 1 := by omega
        subst this
        rw [hV k (by omega), hV2, dotProduct_smul, dotProduct_comm, hperp k (by omega), if_neg (by omega), smul_zero]
    · have : k = j + 1 := by omega
      subst this
      rcases Nat.lt_or_ge l (j + 1) with hl' | hl'
      · rw [hV l (by omega), hV2, smul_dotProduct, hperp l (by omega), if_neg (by omega), smul_zero]
      · have : l = j + 1 := by omega
        subst this
        rw [if_pos rfl, hV2, smul_dotProduct, dotProduct_smul, ← hsq]
        simp only [smul_eq_mul]
        field_simp
  -- the rotation
  obtain ⟨cj, sj, rj, hrot⟩ : ∃ cj sj rj, num.lartg (h2.getD (j * m + j) 0) (num.toR (num.negF hh)) = (cj, sj, rj) :=
    ⟨_, _, _, rfl⟩
  have q1 := hE.lartg_cs (h2.getD (j * m + j) 0) (num.toR (num.negF hh))
  have q2 := hE.lartg_r (h2.getD (j * m + j) 0) (num.toR (num.negF hh))
  have q3 := hE.lartg_0 (h2.getD (j * m + j) 0) (num.toR (num.negF hh))
  rw [hrot] at q1 q2 q3
  simp only [hE.toR, hE.negF] at q1 q2 q3
  have Tv : (turned num j m hh v2 h2 S).gm.v = v2 := rfl
  have Tc : (turned num j m hh v2 h2 S).gm.c = S.gm.c.set j cj := by simp only [turned, hrot]
  have Ts : (turned num j m hh v2 h2 S).gm.s = S.gm.s.set j sj := by simp only [turned, hrot]
  have Tg : (turned num j m hh v2 h2 S).gm.g =
      (S.gm.g.set j (cj * S.gm.g.getD j 0)).set (j + 1) (sj * S.gm.g.getD j 0) := by
    simp only [turned, hrot, hE.smul]
  have Th : (turned num j m hh v2 h2 S).gm.h = h2.set (j * m + j) rj := by simp only [turned, hrot]
  have Tz : gmZ (turned num j m hh v2 h2 S).gm = if S.gm.precond = 0 then v2 else S.gm.z := rfl
  generalize (turned num j m hh v2 h2 S).gm = T at *
  have cl : ∀ l, l < j → T.c.getD l 0 = S.gm.c.getD l 0 := fun l hl => by rw [Tc, at_set_ne _ (by omega)]
  have cj' : T.c.getD j 0 = cj := by rw [Tc, at_set_eq _ (by rw [hz.c]; exact hj)]
  have sl : ∀ l, l < j → T.s.getD l 0 = S.gm.s.getD l 0 := fun l hl => by rw [Ts, at_set_ne _ (by omega)]
  have sj' : T.s.getD j 0 = sj := by rw [Ts, at_set_eq _ (by rw [hz.s]; exact hj)]
  have hcs : ∀ l, l < j + 1 → T.c.getD l 0 ^ 2 + T.s.getD l 0 ^ 2 = 1 := by
    intro l hl
    rcases Nat.lt_succ_iff_lt_or_eq.1 hl with hl | rfl
    · rw [cl l hl, sl l hl]; exact hx.cs l hl
    · rw [cj', sj']; exact q1
  have hW : ∀ l, l < j → gW n T l = gW n S.gm l := by
    intro l hl
    exact wW_congr (j := j) (fun i hi => by rw [Tv]; exact hV i hi) cl sl l hl
  have hwt : gwt n T j = gwt n S.gm j :=
    wt_congr (j := j) (fun i hi => by rw [Tv]; exact hV i hi) cl sl j (le_refl _)
  have hzrow : ∀ i, i ≤ j → rowV n (gmZ T) i = rowV n (gmZ S.gm) i := by
    intro i hi
    rw [Tz]
    unfold gmZ
    split
    · exact hV i hi
    · rfl
  have rotTc : ∀ i, i ≤ j → rotT (fun l => S.gm.c.getD l 0) (fun l => S.gm.s.getD l 0)
      (fun l => h1.getD (l * m + j) 0) i = rotT (fun l => T.c.getD l 0) (fun l => T.s.getD l 0)
      (fun l => h1.getD (l * m + j) 0) i := by
    intro i
    induction i with
    | zero => intro _; rfl
    | succ i ih =>
      intro hi
      rw [rotT, rotT, ih (by omega)]
      simp only [cl i (by omega), sl i (by omega)]
  have hu : rowV n S.gm.v (j + 1) = ∑ l ∈ range (j + 1), h1.getD (l * m + j) 0 • rowV n T.v l +
      hh • rowV n T.v (j + 1) := by
    have e : ∑ l ∈ range (j + 1), h1.getD (l * m + j) 0 • rowV n T.v l =
        ∑ l ∈ range (j + 1), h1.getD (l * m + j) 0 • rowV n S.gm.v l := by
      refine sum_congr rfl fun l hl => ?_
      rw [mem_range] at hl
      rw [Tv, hV l (by omega)]
    rw [e, Tv, hV2, smul_smul, mul_inv_cancel₀ hne, one_smul, hV1]
    abel
  have g2 : T.g.getD (j + 1) 0 = sj * S.gm.g.getD j 0 := by
    rw [Tg, at_set_eq _ (by simp [hz.g]; omega)]
  have hsj : sj ≠ 0 := by
    intro h0
    rw [h0] at q1 q3
    have hc : cj ≠ 0 := fun e => by rw [e] at q1; simp at q1
    have : cj * -hh = 0 := by rw [q3, zero_mul]
    rcases mul_eq_zero.1 this with h | h
    · exact hc h
    · exact hne (neg_eq_zero.1 h)
  refine ⟨by rw [Tv]; exact hortho, hcs, ?_, ?_, ?_, hx.nz, by rw [g2]; exact mul_ne_zero hsj hx.gnz, ?_⟩
  · -- the residual
    rw [hx.res, sum_range_succ, add_assoc]
    congr 1
    · refine sum_congr rfl fun l hl => ?_
      rw [mem_range] at hl
      rw [hW l hl, Tg, at_set_ne _ (by omega), at_set_ne _ (by omega)]
    · have g1 : T.g.getD j 0 = cj * S.gm.g.getD j 0 := by
        rw [Tg, at_set_ne _ (by omega), at_set_eq _ (by rw [hz.g]; omega)]
      have e := wt_eq (V := rowV n T.v) (c := fun l => T.c.getD l 0) (s := fun l => T.s.getD l 0) (l := j)
        (hcs j (by omega))
      rw [← hwt, g1, g2]
      show S.gm.g.getD j 0 • wt _ _ _ j = _
      rw [e]
      simp only [cj', sj']
      module
  · -- the products
    intro i hi
    rcases Nat.lt_succ_iff_lt_or_eq.1 hi with hi | rfl
    · rw [hzrow i (by omega), hx.hes i hi]
      refine sum_congr rfl fun l hl => ?_
      rw [mem_range] at hl
      have hcell : ∀ k, k < j + 1 → l * m + i ≠ k * m + j := by
        intro k _ e
        have h1 : (l * m + i) % m = i := by rw [Nat.mul_comm, Nat.mul_add_mod, Nat.mod_eq_of_lt (by omega)]
        have h2 : (k * m + j) % m = j := by rw [Nat.mul_comm, Nat.mul_add_mod, Nat.mod_eq_of_lt (by omega)]
        rw [e, h2] at h1
        omega
      rw [hW l (by omega), Th, at_set_ne _ (fun e => hcell j (by omega) e.symm), at_congr (f4 _ hcell),
        at_congr (f1 _ hcell)]
    · rw [hzrow i (le_refl _), ← hA]
      have hce := column_end (V := rowV n T.v) (c := fun l => T.c.getD l 0) (s := fun l => T.s.getD l 0)
        (a := fun l => h1.getD (l * m + i) 0) (j := i) (hh := hh) (r := rj) hcs
        (by
          simp only [cj', sj']
          rw [← rotTc i (le_refl _), ← r2]
          linear_combination q2)
        (by
          simp only [cj', sj']
          rw [← rotTc i (le_refl _), ← r2]
          linear_combination (-1 : R) * q3)
      rw [hu, hce, sum_range_succ]
      congr 1
      · refine sum_congr rfl fun l hl => ?_
        rw [mem_range] at hl
        have hcell : i * m + i ≠ l * m + i := fun e => by have := cell_inj hm e; omega
        rw [Th, at_set_ne _ hcell, r1 l hl]
        unfold rotH
        rw [rotTc l (by omega)]
        simp only [cl l hl, sl l hl]
      · rw [Th, at_set_eq _ (by rw [l4]; exact sq_lt hj hj)]
  · rw [Tv, hV 0 (by omega)]; exact hx.start
  · intro i hi
    rcases Nat.lt_succ_iff_lt_or_eq.1 hi with hi | rfl
    · obtain ⟨a, k, k1, k2⟩ := hx.arn i hi
      refine ⟨a, k, k1, ?_⟩
      rw [hzrow i (by omega), k2, Tv, hV (i + 1) (by omega)]
      congr 1
      refine sum_congr rfl fun l hl => ?_
      rw [mem_range] at hl
      rw [hV l (by omega)]
    · exact ⟨_, hh, hne, by rw [hzrow i (le_refl _), ← hA]; exact hu⟩

/-- the end of a cycle -/
theorem ex_end (hE : ExactG num) {b : Fin n → R} (hz : GmSz n m m S.gm) (hlen : n ≤ S.x.length)
    (hx : GmEx A b m m S.gm (vecOf n S.x)) {bs : Status × List R} {x' : List R}
    (e1 : backSolve num m m S.gm.h S.gm.g m S.gm.s = some bs) (hs : bs.1 = .success) (hl : bs.2.length = m)
    (e2 : forC 0 (n : Int) (xUpdBody num m n (gmZ S.gm) bs.2) S.x = some x') :
    vecOf n x' = vecOf n S.x + ∑ i ∈ range m, bs.2.getD i 0 • rowV n (gmZ S.gm) i ∧
    (S.gm.g.getD m 0) ^ 2 = (b - A *ᵥ vecOf n x') ⬝ᵥ (b - A *ᵥ vecOf n x') ∧
    ∀ y : Nat → R, (b - A *ᵥ vecOf n x') ⬝ᵥ (b - A *ᵥ vecOf n x') ≤
      (b - A *ᵥ (vecOf n S.x + ∑ i ∈ range m, y i • rowV n (gmZ S.gm) i)) ⬝ᵥ
        (b - A *ᵥ (vecOf n S.x + ∑ i ∈ range m, y i • rowV n (gmZ S.gm) i)) := by
  have hZ : (gmZ S.gm).length = (m + 1) * n := by
    unfold gmZ
    split
    · exact hz.v
    · exact hz.z
  have hback := back_content hE hz.h (show m ≤ S.gm.g.length by rw [hz.g]; omega) m (le_refl _) S.gm.s hz.s
    (fun l h1 h2 => absurd h2 (by omega)) e1 hs
  obtain ⟨x'', e2', -, cx, -⟩ := xUpd_loop (num := num) (n := n) (m := m) (a := gmZ S.gm) hZ hl hlen
  rw [e2] at e2'
  cases e2'
  obtain ⟨o1, o2, o3, -⟩ := rotated (c := fun l => S.gm.c.getD l 0) (s := fun l => S.gm.s.getD l 0) hx.ortho hx.cs m
    (le_refl _)
  have hxv : vecOf n x' = vecOf n S.x + ∑ i ∈ range m, bs.2.getD i 0 • rowV n (gmZ S.gm) i := by
    funext t
    have := cx t t.2
    rw [dotv_eq hE] at this
    rw [Pi.add_apply, Finset.sum_apply]
    simp only [Pi.smul_apply, smul_eq_mul, vecOf]
    rw [this]
    congr 1
    refine sum_congr rfl fun i _ => ?_
    rw [mul_comm]
    rfl
  have hres : ∀ y : Nat → R, b - A *ᵥ (vecOf n S.x + ∑ i ∈ range m, y i • rowV n (gmZ S.gm) i) =
      ∑ l ∈ range m, (S.gm.g.getD l 0 - ∑ i ∈ Ico l m, S.gm.h.getD (l * m + i) 0 * y i) • gW n S.gm l +
        S.gm.g.getD m 0 • gwt n S.gm m := by
    intro y
    have hsum : A *ᵥ (∑ i ∈ range m, y i • rowV n (gmZ S.gm) i) =
        ∑ l ∈ range m, (∑ i ∈ Ico l m, S.gm.h.getD (l * m + i) 0 * y i) • gW n S.gm l := by
      rw [← tri_sum m (fun l i => S.gm.h.getD (l * m + i) 0) y (gW n S.gm), Matrix.mulVec_sum]
      refine sum_congr rfl fun i hi => ?_
      rw [mem_range] at hi
      rw [Matrix.mulVec_smul, hx.hes i hi]
    rw [Matrix.mulVec_add, hsum, ← sub_sub, hx.res]
    simp only [sub_smul, sum_sub_distrib]
    abel
  have hx' : (b - A *ᵥ vecOf n x') ⬝ᵥ (b - A *ᵥ vecOf n x') = (S.gm.g.getD m 0) ^ 2 := by
    rw [hxv, hres, ortho_norm _ _ o3 o2 o1]
    have h0 : ∑ l ∈ range m, (S.gm.g.getD l 0 - ∑ i ∈ Ico l m, S.gm.h.getD (l * m + i) 0 * bs.2.getD i 0) ^ 2 = 0 := by
      refine sum_eq_zero fun l hl => ?_
      rw [mem_range] at hl
      rw [hback l hl, sub_self]
      ring
    rw [h0, zero_add]
  refine ⟨hxv, hx'.symm, ?_⟩
  intro y
  rw [hx', hres y, ortho_norm _ _ o3 o2 o1]
  have : 0 ≤ ∑ l ∈ range m, (S.gm.g.getD l 0 - ∑ i ∈ Ico l m, S.gm.h.getD (l * m + i) 0 * y i) ^ 2 :=
    sum_nonneg fun _ _ => sq_nonneg _
  linarith

end
end Proofs
end Verif
