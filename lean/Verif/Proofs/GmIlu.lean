/-
The built-in preconditioner of the direct GMRES solver.
-/
import Verif.Model.GmIlu
import Verif.Spec.LuProduct
import Verif.Props.Ilu
import Verif.Proofs.Oft3
import Verif.Proofs.Update
import Verif.Spec.GmExact
import Mathlib.LinearAlgebra.Matrix.Block
import Mathlib.LinearAlgebra.Matrix.NonsingularInverse

namespace Verif
namespace Proofs
open Model Spec Finset

section
variable {R : Type} [Field R] {A : Csr R} {nz : R → Bool}

theorem withVal_zero (hwf : A.WF) {v : List R} (hv : v.length = A.nnz) {i j : Nat} (h : (j : Int) ∉ A.cols i) :
    (A.withVal v).mat i j = 0 := by
  refine mat_zero_of_not_mem ?_
  rw [show (A.withVal v).cols i = A.cols i from withVals_cols hwf hv i]
  exact h

/-- the factors are determined: two sets of factors that agree with the matrix in the rows up to `r` are the same in
these rows, when the pivots of one of them before row `r` are not zero -/
theorem ilu_same (hA : IluMat A) {v v' : List R} (hv : v.length = A.nnz) (hv' : v'.length = A.nnz) {r : Nat}
    (hr : r < A.n) (h1 : ∀ i, i ≤ r → IluRowOk A (A.withVal v) i) (h2 : ∀ i, i ≤ r → IluRowOk A (A.withVal v') i)
    (hp : ∀ i, i < r → (A.withVal v).mat i i ≠ 0) :
    ∀ i, i ≤ r → ∀ j, j < A.n → (A.withVal v).mat i j = (A.withVal v').mat i j := by
  intro i
  induction i using Nat.strong_induction_on with
  | _ i ihr =>
  intro hi j
  induction j using Nat.strong_induction_on with
  | _ j ihc =>
  intro hj
  by_cases hmem : (j : Int) ∈ A.cols i
  swap
  · rw [withVal_zero hA.wf hv hmem, withVal_zero hA.wf hv' hmem]
  have e1 := h1 i hi j hmem
  have e2 := h2 i hi j hmem
  generalize (A.withVal v).mat = F at *
  generalize (A.withVal v').mat = F' at *
  have hz : ∑ k ∈ range A.n, (unitLower F i k * upperPart F k j - unitLower F' i k * upperPart F' k j) = 0 := by
    rw [sum_sub_distrib, e1, e2, sub_self]
  rw [sum_eq_single (min i j)] at hz
  · by_cases hji : j < i
    · have hm : min i j = j := by omega
      rw [hm] at hz
      simp only [unitLower, upperPart, if_pos hji, le_refl, if_true] at hz
      rw [← ihr j hji (by omega) j hj, ← sub_mul] at hz
      exact sub_eq_zero.1 ((mul_eq_zero.1 hz).resolve_right (hp j (by omega)))
    · have hm : min i j = i := by omega
      rw [hm] at hz
      simp only [unitLower, upperPart, if_pos (not_lt.1 hji), lt_irrefl, if_false, if_true, one_mul] at hz
      exact sub_eq_zero.1 hz
  · intro k hk hne
    have hk := mem_range.1 hk
    unfold unitLower upperPart
    by_cases c1 : k < i
    · by_cases c2 : k ≤ j
      · have c3 : k < j := by omega
        rw [if_pos c1, if_pos c1, if_pos c2, if_pos c2, ihc k c3 hk, ihr k c1 (by omega) j hj, sub_self]
      · rw [if_neg c2, if_neg c2]; ring
    · by_cases c2 : k = i
      · subst c2
        have c3 : ¬ k ≤ j := by omega
        rw [if_neg c3, if_neg c3]; ring
      · rw [if_neg c1, if_neg c2, if_neg c1]; ring
  · intro h
    exact absurd (mem_range.2 (by omega)) h

/-- a matrix that has factors does not break down -/
theorem ilu_no_break (hz : ∀ d, nz d = false → d ≠ 0) (hA : IluMat A) {v v' : List R} (h : IluFactors nz A v)
    (hv' : v'.length = A.nnz) : ¬ IluBreakdown nz A v' := by
  rintro ⟨r, hr, k1, k2, k3⟩
  have := ilu_same hA h.1 hv' hr (fun i hi => (h.2 i (by omega)).1) k1
    (fun i hi => hz _ (h.2 i (by omega)).2) r (le_refl r) r hr
  rw [← this, (h.2 r hr).2] at k3
  cases k3

/-- any two sets of factors are the same matrix -/
theorem ilu_factors_unique (hz : ∀ d, nz d = false → d ≠ 0) (hA : IluMat A) {v v' : List R} (h : IluFactors nz A v)
    (h' : IluFactors nz A v') {n : Nat} (hn : A.n = n) :
    luProduct n (A.withVal v).mat = luProduct n (A.withVal v').mat := by
  subst hn
  have hs : ∀ i, i < A.n → ∀ j, j < A.n → (A.withVal v).mat i j = (A.withVal v').mat i j := fun i hi =>
    ilu_same hA h.1 h'.1 hi (fun k hk => (h.2 k (by omega)).1) (fun k hk => (h'.2 k (by omega)).1)
      (fun k hk => hz _ (h.2 k (by omega)).2) i (le_refl i)
  unfold luProduct
  congr 1
  · ext i j
    simp only [Matrix.of_apply, unitLower, hs i i.2 j j.2]
  · ext i j
    simp only [Matrix.of_apply, upperPart, hs i i.2 j j.2]

open Matrix in
/-- the product of the factors has an inverse -/
theorem lu_unit (hz : ∀ d, nz d = false → d ≠ 0) {v : List R} (h : IluFactors nz A v) {n : Nat} (hn : A.n = n) :
    IsUnit (luProduct n (A.withVal v).mat).det := by
  subst hn
  unfold luProduct
  rw [det_mul, det_of_lowerTriangular _ (by
    intro i j hij
    have hij : i < j := hij
    have : (i : Nat) < j := hij
    show unitLower _ (i : Nat) (j : Nat) = 0
    unfold unitLower
    rw [if_neg (by omega), if_neg (by omega)]),
    det_of_upperTriangular (by
    intro i j hij
    have hij : j < i := hij
    have : (j : Nat) < i := hij
    show upperPart _ (i : Nat) (j : Nat) = 0
    unfold upperPart
    rw [if_neg (by omega)])]
  rw [isUnit_iff_ne_zero]
  refine mul_ne_zero ?_ ?_
  · refine Finset.prod_ne_zero_iff.2 fun i _ => ?_
    show unitLower _ (i : Nat) (i : Nat) ≠ 0
    simp [unitLower]
  · refine Finset.prod_ne_zero_iff.2 fun i _ => ?_
    show upperPart _ (i : Nat) (i : Nat) ≠ 0
    simp only [upperPart, le_refl, if_true]
    exact hz _ (h.2 i i.2).2

open Matrix in
/-- the solve with the factors is a product with the inverse of their product -/
theorem ilu_inverse {v : List R} {b x x' : List R} {n : Nat} (h : IluSolves (A.withVal v) n b x x')
    {M : Matrix (Fin n) (Fin n) R} (hM : luProduct n (A.withVal v).mat * M = 1) :
    vecOf n x' = M *ᵥ vecOf n b := by
  have e : luProduct n (A.withVal v).mat *ᵥ vecOf n x' = vecOf n b := by
    funext i
    unfold luProduct
    rw [← mulVec_mulVec]
    simp only [mulVec, dotProduct, of_apply, vecOf]
    rw [← h.solves i i.2, sum_range]
    refine sum_congr rfl fun k _ => ?_
    rw [sum_range]
  have hM' : M * luProduct n (A.withVal v).mat = 1 := mul_eq_one_comm.1 hM
  rw [← e, mulVec_mulVec, hM', one_mulVec]

/-! ### safety of the smoother whatever the values -/

/-- handles on which the smoother can be called, whatever happened before (also failures) -/
structure IluSafe (nz : R → Bool) (ta : Bool) (A : Csr R) (H : IluHandle R) : Prop where
  raw : H.raw = A.raw ta
  state : (H.ready = false ∧ H.factorized = false) ∨
    (H.ready = true ∧ H.val.length = A.nnz ∧ (H.factorized = false → H.diag.length = A.n) ∧ (H.factorized = true →
      ∀ r : Nat, r < A.n → rd H.diag (r : Int) = some (iluDg A r : Int) ∧ nz (H.val.getD (iluDg A r) 0) = false))

theorem raw_un (hsq : A.m = A.n) (ta : Bool) : (A.raw ta).un = (A.n : Int) ∧ (A.raw ta).um = (A.n : Int) := by
  cases ta <;> simp [RawMat.un, RawMat.um, Csr.raw, hsq]

/-- the smoother is defined, keeps the length of the vector, and leaves it alone when it fails -/
theorem ilu_safe (hz : ∀ d, nz d = false → d ≠ 0) (hA : IluMat A) {ta : Bool} {H : IluHandle R}
    (hH : IluSafe nz ta A H) (g : Nat → Int) (d : Descr) {x b : List R} (hx : A.n ≤ x.length) (hb : A.n ≤ b.length) :
    ∃ st p x' H', ilu nz g true 111 (some H) (some d) true (some x) (some b) = some (st, p, some x', some H') ∧
      IluSafe nz ta A H' ∧ H'.sort = H.sort ∧ H'.fulldiag = H.fulldiag ∧ x'.length = x.length ∧
      (st ≠ .success → x' = x) ∧ (st = .numericalError → H.fulldiag = true → H'.val.length = A.nnz) := by
  have triv : ∀ st p, st ≠ .numericalError ∨ H.fulldiag = false → ∃ st' p' x' H', some (st, p, some x, some H) = some (st', p', some x', some H') ∧
      IluSafe nz ta A H' ∧ H'.sort = H.sort ∧ H'.fulldiag = H.fulldiag ∧ x'.length = x.length ∧
      (st' ≠ Status.success → x' = x) ∧ (st' = .numericalError → H.fulldiag = true → H'.val.length = A.nnz) :=
    fun st p h => ⟨st, (p : Bool), x, H, rfl, hH, rfl, rfl, rfl, fun _ => rfl, fun h' h'' => absurd h (by simp [h', h''])⟩
  have hP := iluPat_of hA.wf hA.square hA.diag hA.lower hA.nodup
  have hR := iluArr_of hA.wf hA.square
  unfold ilu
  dsimp only
  rw [if_neg (by simp)]
  by_cases c1 : H.raw.base ≠ d.base
  · rw [if_pos c1]; exact triv _ _ (by simp)
  rw [if_neg c1, if_neg (fun e : (111 : Int) ≠ 111 => e rfl)]
  by_cases c2 : H.raw.fmt ≠ 0
  · rw [if_pos c2]; exact triv _ _ (by simp)
  rw [if_neg c2]
  by_cases c3 : d.type ≠ 0
  · rw [if_pos c3]; exact triv _ _ (by simp)
  rw [if_neg c3]
  by_cases c4 : H.sort ≠ .fully ∧ H.sort ≠ .partially
  · rw [if_pos c4]; exact triv _ _ (by simp)
  rw [if_neg c4]
  by_cases c5 : H.fulldiag = false
  · rw [if_pos c5]; exact triv _ _ (.inr c5)
  rw [if_neg c5, if_neg (by simp)]
  by_cases c6 : H.raw.um < 0 ∨ H.raw.un < 0 ∨ H.raw.um ≠ H.raw.un
  · rw [if_pos c6]; exact triv _ _ (by simp)
  rw [if_neg c6]
  by_cases c7 : H.raw.um = 0 ∨ H.raw.un = 0
  · rw [if_pos c7]; exact triv _ _ (by simp)
  rw [if_neg c7]
  -- the working arrays are there
  have hopt : IluSafe nz ta A (optimizeIlu g H) ∧ (optimizeIlu g H).ready = true ∧
      (optimizeIlu g H).sort = H.sort ∧ (optimizeIlu g H).fulldiag = H.fulldiag := by
    unfold optimizeIlu
    by_cases hr : H.ready = true
    · rw [if_pos hr]; exact ⟨hH, hr, rfl, rfl⟩
    · rw [if_neg hr]
      refine ⟨⟨hH.raw, .inr ⟨rfl, ?_, fun _ => ?_, fun h => ?_⟩⟩, rfl, rfl, rfl⟩
      · rw [hH.raw]
        show (List.take (A.nnz : Int).toNat A.val).length = A.nnz
        rw [Int.toNat_natCast, List.length_take, hA.wf.val_len]
        exact Nat.min_self _
      · dsimp only
        rw [hH.raw, (raw_un hA.square ta).2, Int.toNat_natCast]
        simp [alloc]
      · rcases hH.state with h' | h'
        · rw [h'.2] at h; cases h
        · exact absurd h'.1 hr
  generalize optimizeIlu g H = H1 at hopt
  obtain ⟨h1, hr1, hs1, hf1⟩ := hopt
  rcases h1.state with h | ⟨-, hv, hdl, hfac⟩
  · rw [h.1] at hr1; cases hr1
  have hrep : Rep H1.val A.nnz (fun k => H1.val.getD k 0) := by
    have := Rep.of_list H1.val (0 : R)
    rwa [hv] at this
  have e2 : H1.raw.base = A.base := by rw [h1.raw]; rfl
  have e3 : H1.raw.ptr = A.ptr := by rw [h1.raw]; rfl
  have e4 : H1.raw.ind = A.ind := by rw [h1.raw]; rfl
  have e1 : H1.raw.un = (A.n : Int) := by rw [h1.raw]; exact (raw_un hA.square ta).1
  unfold ilu0Template
  rw [e1, e2, e3, e4]
  by_cases hfa : H1.factorized = true
  · rw [if_pos hfa]
    obtain ⟨x', y, gg, e5, h5, -⟩ := iluSolve_spec nz hz hP hR hrep (fun r hr => (hfac hfa r hr).1)
      (fun r hr => (hfac hfa r hr).2) hx hb
    rw [e5]
    exact ⟨_, _, x', H1, rfl, h1, hs1, hf1, h5.1, fun h => absurd rfl h, nofun⟩
  · rw [if_neg hfa]
    rcases ilu0Fact_spec nz hz hP hR hrep (hdl (by simpa using hfa)) with ⟨v', dg', f, e, hi⟩ | ⟨v', dg', e, k1, k2, -⟩
    · rw [e]
      simp only [Option.bind_eq_bind, Option.bind_some]
      rw [if_neg (fun e : Status.success ≠ .success => e rfl)]
      obtain ⟨x', y, gg, e5, h5, -⟩ := iluSolve_spec nz hz hP hR hi.rep hi.diag hi.piv hx hb
      rw [e5]
      refine ⟨_, _, x', _, rfl, ⟨h1.raw, .inr ⟨hr1, hi.rep.1, fun _ => hi.dlen, fun _ r hr => ⟨hi.diag r hr, ?_⟩⟩⟩, hs1, hf1,
        h5.1, fun h => absurd rfl h, nofun⟩
      have hd : iluDg A r < A.nnz := hP.lt_nnz hr (hP.dgr r hr)
      show nz (v'.getD (iluDg A r) 0) = false
      rw [hi.rep.getD 0 hd]
      exact hi.piv r hr
    · rw [e]
      simp only [Option.bind_eq_bind, Option.bind_some]
      rw [if_pos (by simp)]
      exact ⟨_, _, x, _, rfl, ⟨h1.raw, .inr ⟨hr1, k1, fun _ => k2, fun h => absurd h hfa⟩⟩, hs1, hf1, rfl, fun _ => rfl,
        fun _ _ => k1⟩

/-- handles that are fit for correct factors are fit for calls -/
theorem IluOk.safe (hA : IluMat A) {H : IluHandle R} (h : IluOk nz A H) : IluSafe nz false A H := by
  refine ⟨h.raw, ?_⟩
  rcases h.state with h | ⟨h1, h2, h3, h4⟩ | ⟨h1, h2, h3, h4⟩
  · exact .inl h
  · exact .inr ⟨h1, by rw [h3, hA.wf.val_len]; rfl, fun _ => h4, fun h => by rw [h2] at h; cases h⟩
  · have hP := iluPat_of hA.wf hA.square hA.diag hA.lower hA.nodup
    refine .inr ⟨h1, h3.1, fun h => (by rw [h2] at h; cases h), fun _ r hr => ⟨h4 r hr, ?_⟩⟩
    have hrep : Rep H.val A.nnz (fun k => H.val.getD k 0) := by
      have := Rep.of_list H.val (0 : R)
      rwa [h3.1] at this
    have := mat_at hA.wf hA.square hP hrep hr (hP.dgl r hr) (hP.dgr r hr)
    rw [hP.dgc r hr] at this
    rw [← this]
    exact (h3.2 r hr).2

/-- the smoother does not look at whether the arrays are rows or columns -/
theorem ilu_raw (hsq : A.m = A.n) {ta : Bool} {H : IluHandle R} (hr : H.raw = A.raw ta) (g : Nat → Int) (d : Descr)
    (x b : List R) :
    ilu nz g true 111 (some H) (some d) true (some x) (some b) =
      (ilu nz g true 111 (some { H with raw := A.raw false }) (some d) true (some x) (some b)).map
        fun r => (r.1, r.2.1, r.2.2.1, r.2.2.2.map fun I => { I with raw := A.raw ta }) := by
  obtain ⟨raw, sort, fd, ready, fact, diag, val⟩ := H
  dsimp only at hr
  subst hr
  have h1 := raw_un hsq ta
  have h2 := raw_un hsq false
  have e1 : (A.raw ta).base = (A.raw false).base := rfl
  have e2 : (A.raw ta).fmt = (A.raw false).fmt := rfl
  unfold ilu
  dsimp only
  rw [h1.1, h1.2, h2.1, h2.2, e1, e2]
  by_cases c1 : (A.raw false).base ≠ d.base
  · simp only [if_pos c1]; rfl
  by_cases c3 : d.type ≠ 0
  · simp only [if_neg c1, if_pos c3]; rfl
  by_cases c4 : sort ≠ .fully ∧ sort ≠ .partially
  · simp only [if_neg c1, if_neg c3, if_pos c4]; rfl
  by_cases c5 : fd = false
  · simp only [if_neg c1, if_neg c3, if_neg c4, if_pos c5]; rfl
  have c6 : ¬ ((A.n : Int) < 0 ∨ (A.n : Int) < 0 ∨ (A.n : Int) ≠ A.n) := by omega
  have c8 : ¬ ((A.raw false).fmt ≠ 0) := fun h => h rfl
  have c9 : ¬ ((111 : Int) ≠ 111) := fun h => h rfl
  have c10 : ¬ (true = false) := by simp
  by_cases c7 : (A.n : Int) = 0 ∨ (A.n : Int) = 0
  · simp only [if_neg c1, if_neg c3, if_neg c4, if_neg c5, if_neg c6, if_pos c7, if_neg c8, if_neg c9, if_neg c10]
    rfl
  have key : ∀ diag' val' : _, ∀ fact' : Bool,
      (ilu0Template nz ⟨A.raw ta, sort, fd, true, fact', diag', val'⟩ x b) =
      (ilu0Template nz ⟨A.raw false, sort, fd, true, fact', diag', val'⟩ x b).map
        fun r => (r.1, r.2.1, r.2.2.1, { r.2.2.2 with raw := A.raw ta }) := by
    intro diag' val' fact'
    unfold ilu0Template
    dsimp only
    rw [h1.1, h2.1, e1, show (A.raw ta).ptr = (A.raw false).ptr from rfl,
      show (A.raw ta).ind = (A.raw false).ind from rfl]
    cases fact'
    · rw [if_neg (by simp), if_neg (by simp)]
      cases ilu0Fact nz (A.n : Int) (A.raw false).base diag' val' (A.raw false).ptr (A.raw false).ind with
      | none => rfl
      | some r =>
        simp only [Option.bind_eq_bind, Option.bind_some]
        by_cases hs : r.1 ≠ .success
        · rw [if_pos hs, if_pos hs]; rfl
        · rw [if_neg hs, if_neg hs]
          cases iluSolve nz (A.n : Int) (A.raw false).base r.2.2 r.2.1 (A.raw false).ptr (A.raw false).ind x b <;> rfl
    · rw [if_pos rfl, if_pos rfl]
      cases iluSolve nz (A.n : Int) (A.raw false).base diag' val' (A.raw false).ptr (A.raw false).ind x b <;> rfl
  have hopt : optimizeIlu g ⟨A.raw ta, sort, fd, ready, fact, diag, val⟩ =
      { optimizeIlu g ⟨A.raw false, sort, fd, ready, fact, diag, val⟩ with raw := A.raw ta } := by
    unfold optimizeIlu
    dsimp only
    rw [h1.2, h2.2]
    cases ready <;> rfl
  have hready : ∃ diag' val', optimizeIlu g ⟨A.raw false, sort, fd, ready, fact, diag, val⟩ =
      ⟨A.raw false, sort, fd, true, fact, diag', val'⟩ := by
    unfold optimizeIlu
    cases ready
    · exact ⟨_, _, rfl⟩
    · exact ⟨_, _, rfl⟩
  obtain ⟨diag', val', hr⟩ := hready
  rw [hr] at hopt
  simp only [if_neg c1, if_neg c3, if_neg c4, if_neg c5, if_neg c6, if_neg c7, if_neg c8, if_neg c9, if_neg c10, hopt, hr]
  rw [key]
  cases ilu0Template nz ⟨A.raw false, sort, fd, true, fact, diag', val'⟩ x b <;> rfl

end
end Proofs
end Verif
