import Verif.Proofs.Syrk

namespace Verif
open Model Finset

variable {R : Type}

theorem upper_nnz [Semiring R] {K : Nat} {base : Int} {G : Mat R} {S : Nat → Nat → Prop} {C : Csr R}
    (h : IsUpper K base G S C) (hS : ∀ i j, S i j → S j i) {x : Nat → Int}
    (hx : ∀ i, i < K → ∀ _ : DecidableRel S,
      (((range K).filter fun c => c ≠ i ∧ S i c).card : Int) ≤ x i) :
    (C.nnz : Int) ≤ ∑ i ∈ range K, estT K (x i) := by
  classical
  have h1 : C.nnz = offs C.row C.m := by
    have a1 := h.wf.offs_row (i := C.m) (le_refl _)
    have b1 := h.wf.ptr_last
    simp only [Csr.nnz]
    omega
  have h2 := offs_le_card (K := C.m) (n := K) (rows := C.row) (P := fun i c => i ≤ c ∧ S i c)
    (fun i hi => h.nodup i hi) (by
      intro i hi e he
      have hr := Csr.row_range h.wf he
      have hn := h.n
      have := h.upper i e.1.toNat (by rw [← h.m]; exact hi)
        (mem_cols_iff.mpr ⟨e, he, by omega⟩)
      exact ⟨hr.1, by omega, this⟩)
  have h3 := upper_le (K := K) hS (x := x) (fun i hi => hx i hi _)
  rw [h.m] at h1 h2
  rw [h1]
  exact le_trans (by exact_mod_cast h2) h3

theorem atb_upper [Semiring R] {X : Csr R} (hX : X.WF) {V : Nat → List Nat} (hV : ColVisits X V)
    (cA cB : R →+* R) {base : Int} (hb : base = 0 ∨ base = 1) {G : Mat R}
    (hG : ∀ i j, i < X.n → j < X.n → ∑ x ∈ range X.m, cA (X.mat x i) * cB (X.mat x j) = G i j) :
    IsUpper X.n base G (ShareRow X) (atbCsr true cA cB X X V base) where
  m := rfl
  n := rfl
  base := rfl
  wf := mkCsr_wf hb fun i _ e he => spOut_range hX _ _ _ _ he
  nodup := by
    intro i hi
    rw [show (atbCsr true cA cB X X V base).m = X.n from rfl] at hi
    unfold atbCsr
    rw [mkCsr_row hi]
    exact spOut_nodup _ _ _ _ _
  upper := by
    intro i j hi hj
    unfold atbCsr at hj
    rw [Csr.cols, mkCsr_row hi, atb_mem _ _ hV true hi] at hj
    obtain ⟨h1, x, h2, h3, h4⟩ := hj
    exact ⟨by have : ¬ j < i := fun h => h1 ⟨rfl, h⟩
              omega, x, h2, h3, h4⟩
  mat := by
    intro i j hij hj
    rw [mat_eq_colSum]
    unfold atbCsr
    rw [mkCsr_row (by omega), atb_mat cA cB hV true (by omega), if_neg (by omega), hG i j (by omega) hj]

theorem aatVal_share [Semiring R] {A : Csr R} (cj : R →+* R) {i j : Nat} (hi : i < A.m) (hj : j < A.m)
    (h : aatVal cj A i j ≠ 0) : ShareCol A i j := by
  obtain ⟨k, _, hk⟩ := Finset.exists_ne_zero_of_sum_ne_zero h
  refine ⟨hi, hj, (k : Int), ?_, ?_⟩
  · by_contra hn
    exact hk (by rw [mat_zero_of_not_mem hn, zero_mul])
  · by_contra hn
    exact hk (by rw [mat_zero_of_not_mem hn, map_zero, mul_zero])

theorem aat_upper [Semiring R] [DecidableEq R] {A : Csr R} (hA : A.WF) (cj : R →+* R) :
    IsUpper A.m A.base (aatVal cj A) (ShareCol A) (mkCsr A.m A.m A.base (aatRows cj A)) where
  m := rfl
  n := rfl
  base := rfl
  wf := mkCsr_wf hA.base01 (by
    intro i _ e he
    obtain ⟨j, hj, rfl⟩ := List.mem_map.mp he
    have := List.mem_range.mp (List.mem_filter.mp hj).1
    simp only
    omega)
  nodup := by
    intro i hi
    replace hi : i < A.m := hi
    rw [mkCsr_row hi]
    unfold aatRows aatPart
    rw [List.map_map]
    apply List.Nodup.map
    · intro a b h; simpa using h
    · exact List.nodup_range.filter _
  upper := by
    intro i j hi hj
    rw [Csr.cols, mkCsr_row hi] at hj
    unfold aatRows aatPart at hj
    rw [List.map_map] at hj
    obtain ⟨q, hq, e⟩ := List.mem_map.mp hj
    obtain ⟨h1, h2⟩ := List.mem_filter.mp hq
    simp only [Function.comp] at e
    have : q = j := by omega
    subst this
    simp only [decide_eq_true_eq] at h2
    exact ⟨h2.1, aatVal_share cj hi (List.mem_range.mp h1) h2.2⟩
  mat := by
    intro i j hij hj
    rw [mat_eq_colSum, mkCsr_row (by omega)]
    have key : ∀ t, j < A.m → colSum (aatPart cj A i t) j
        = if j < t then (if i ≤ j then aatVal cj A i j else 0) else 0 := by
      intro t _
      induction t with
      | zero => simp [aatPart, colSum]
      | succ t ih =>
        by_cases hit : i ≤ t
        · rw [aatPart_succ cj A i t hit, colSum_append, ih]
          by_cases hz : aatVal cj A i t ≠ 0
          · rw [if_pos hz, colSum_single]
            by_cases e : t = j
            · subst e
              simp [hit]
            · rw [if_neg (show ¬ (t : Int) = (j : Int) by omega), add_zero]
              exact if_congr (by omega) rfl rfl
          · rw [if_neg hz]
            have hz' : aatVal cj A i t = 0 := not_not.mp hz
            by_cases e : t = j
            · subst e
              simp [colSum, hz']
            · rw [show colSum ([] : List (Int × R)) j = 0 from rfl, add_zero]
              exact if_congr (by omega) rfl rfl
        · have : aatPart cj A i (t + 1) = aatPart cj A i t := by
            unfold aatPart
            rw [List.range_succ, List.filter_append,
              List.filter_cons_of_neg (by simp only [decide_eq_true_eq]; exact fun h => hit h.1)]
            simp
          rw [this, ih]
          by_cases h1 : j < t
          · rw [if_pos h1, if_pos (show j < t + 1 by omega)]
          · rw [if_neg h1]
            by_cases h2 : j < t + 1
            · omega
            · rw [if_neg h2]
    rw [aatRows, key A.m hj, if_pos hj, if_pos hij]

theorem IsUpper.mono [Semiring R] {K : Nat} {base : Int} {G G' : Mat R} {P P' : Nat → Nat → Prop} {C : Csr R}
    (h : IsUpper K base G P C) (hP : ∀ i j, i < K → j < K → P i j → P' i j)
    (hG : ∀ i j, i < K → j < K → G i j = G' i j) :
    IsUpper K base G' P' C := by
  refine ⟨h.m, h.n, h.base, h.wf, h.nodup, ?_, ?_⟩
  · intro i j hi hj
    have hjK : j < K := by
      obtain ⟨e, he, hee⟩ := mem_cols_iff.mp hj
      have := Csr.row_range h.wf he
      have := h.n
      omega
    have := h.upper i j hi hj
    exact ⟨this.1, hP i j hi hjK this.2⟩
  · intro i j hij hj
    rw [h.mat i j hij hj, hG i j (by omega) hj]

theorem estT_le {K : Nat} (x : Int) : estT K x ≤ (K : Int) / 2 + 1 := by
  unfold estT
  have h : (if x > (K : Int) - 1 then (K : Int) - 1 else x) ≤ (K : Int) - 1 := by
    split <;> omega
  generalize (if x > (K : Int) - 1 then (K : Int) - 1 else x) = y at h ⊢
  by_cases hy : 0 ≤ y + 1
  · rw [Int.tdiv_eq_ediv_of_nonneg hy]
    omega
  · have : (y + 1).tdiv 2 ≤ 0 := by
      rw [show y + 1 = -(-(y + 1)) by ring, Int.neg_tdiv, Int.tdiv_eq_ediv_of_nonneg (by omega)]
      omega
    omega

theorem est_le {K : Nat} (x : Nat → Int) :
    ∑ i ∈ range K, estT K (x i) ≤ (K : Int) * ((K : Int) / 2 + 1) := by
  refine (Finset.sum_le_card_nsmul (range K) _ ((K : Int) / 2 + 1) fun i _ => estT_le (x i)).trans ?_
  rw [Finset.card_range, nsmul_eq_mul]

end Verif
