/-
Incomplete factorisation: from positions to matrices.
-/
import Verif.Proofs.Ilu
import Verif.Spec.Ilu
import Verif.Proofs.CsrLemmas
import Verif.Proofs.MvLemmas
import Verif.Proofs.CsrmvSym

namespace Verif
open Model Finset

section
variable {R : Type} (A : Csr R)

/-- start of row `i` -/
def iluO (i : Nat) : Nat := (A.p i - A.base).toNat
/-- column at position `q` -/
def iluCol (q : Nat) : Nat := (A.ind.getD q 0 - A.base).toNat
/-- position of the diagonal -/
def iluDg (i : Nat) : Nat := iluO A i + (A.cols i).idxOf (i : Int)

variable {A}

theorem cols_pos (hA : A.WF) {i t : Nat} (hi : i < A.m) (ht : iluO A i + t < iluO A (i + 1)) :
    (A.cols i)[t]? = some (iluCol A (iluO A i + t) : Int) := by
  have h1 := hA.lo (i := i) (by omega)
  have h2 := hA.hi (i := i + 1) (by omega)
  have h3 := hA.ptr_mono i hi
  unfold iluO at ht
  obtain ⟨c, v, e1, e2, e3⟩ := Csr.row_getElem? hA hi (t := t) (by omega)
  unfold Csr.cols
  rw [List.getElem?_map, e3]
  rw [show A.p i - A.base + (t : Int) = ((iluO A i + t : Nat) : Int) by unfold iluO; omega, rd_ofNat] at e1
  have hc := hA.ind_range c (List.mem_of_getElem? e1)
  unfold iluCol
  rw [List.getD_eq_getElem?_getD, e1]
  simp
  omega

theorem cols_len (hA : A.WF) {i : Nat} (hi : i < A.m) :
    iluO A i + (A.cols i).length = iluO A (i + 1) := by
  have h1 := hA.lo (i := i) (by omega)
  have h3 := hA.ptr_mono i hi
  have := Csr.row_length hA hi
  unfold iluO Csr.cols
  rw [List.length_map]
  omega

theorem iluPat_of (hA : A.WF) (hsq : A.m = A.n) (hd : A.FullDiag) (hl : A.LowerSorted) (hnd : A.NoDup) :
    IluPat A.n A.nnz (iluO A) (iluCol A) (iluDg A) := by
  have hidx : ∀ i, i < A.n → (A.cols i).idxOf (i : Int) < (A.cols i).length := fun i hi =>
    List.idxOf_lt_length_iff.2 (hd i (by omega) hi)
  have hget : ∀ i q, i < A.n → iluO A i ≤ q → q < iluO A (i + 1) →
      (A.cols i)[q - iluO A i]? = some (iluCol A q : Int) := by
    intro i q hi h1 h2
    have := cols_pos hA (i := i) (t := q - iluO A i) (by omega) (by omega)
    rwa [show iluO A i + (q - iluO A i) = q by omega] at this
  have hdc : ∀ i, i < A.n → iluCol A (iluDg A i) = i := by
    intro i hi
    have h1 := hidx i hi
    have h2 := cols_len hA (i := i) (by omega)
    have := hget i (iluDg A i) hi (by unfold iluDg; omega) (by unfold iluDg; omega)
    unfold iluDg at this
    rw [Nat.add_sub_cancel_left, List.getElem?_eq_getElem h1, List.getElem_idxOf h1] at this
    have := Option.some.inj this
    unfold iluDg
    omega
  have hpw : ∀ i q q', i < A.n → iluO A i ≤ q → q < q' → q' < iluO A (i + 1) → iluCol A q' ≤ i →
      iluCol A q < iluCol A q' := by
    intro i q q' hi h1 h2 h3 h4
    have e1 := hget i q hi h1 (by omega)
    have e2 := hget i q' hi (by omega) h3
    have := hl i (by omega)
    rw [List.pairwise_iff_getElem] at this
    obtain ⟨l1, g1⟩ := List.getElem?_eq_some_iff.1 e1
    obtain ⟨l2, g2⟩ := List.getElem?_eq_some_iff.1 e2
    have := this _ _ l1 l2 (by omega)
    rw [g1, g2] at this
    have := this (by omega)
    omega
  refine ⟨?_, ?_, ?_, ?_, ?_, ?_, hdc, ?_, ?_, ?_⟩
  · unfold iluO; rw [hA.ptr_first]; simp
  · intro i hi
    have h1 := hA.lo (i := i) (by omega)
    have h3 := hA.ptr_mono i (by omega)
    unfold iluO
    omega
  · unfold iluO Csr.nnz
    rw [← hsq, hA.ptr_last]
    omega
  · intro i q hi h1 h2
    have := hget i q hi h1 h2
    have hmem := List.mem_of_getElem? this
    unfold Csr.cols at hmem
    obtain ⟨e, he, e2⟩ := List.mem_map.1 hmem
    have := Csr.row_range hA he
    omega
  · intro i hi; unfold iluDg; omega
  · intro i hi
    have h1 := hidx i hi
    have h2 := cols_len hA (i := i) (by omega)
    unfold iluDg; omega
  · intro i q q' hi h1 h2 h3
    have hr : iluDg A i < iluO A (i + 1) := by
      have h1 := hidx i hi
      have h2 := cols_len hA (i := i) (by omega)
      unfold iluDg; omega
    by_cases hq : q' = iluDg A i
    · exact hpw i q q' hi h1 h2 (by omega) (by rw [hq, hdc i hi])
    · have := hpw i q' (iluDg A i) hi (by omega) (by omega) hr (by rw [hdc i hi])
      rw [hdc i hi] at this
      exact hpw i q q' hi h1 h2 (by omega) (by omega)
  · intro i q hi h1 h2
    by_contra hc
    have := hpw i (iluDg A i) q hi (by unfold iluDg; omega) h1 h2 (by omega)
    rw [hdc i hi] at this
    omega
  · intro i q q' hi h1 h2 h3 h4 he
    have e1 := hget i q hi h1 h2
    have e2 := hget i q' hi h3 h4
    rw [he] at e1
    have hn : (A.cols i).Nodup := hnd i (by omega)
    obtain ⟨l1, g1⟩ := List.getElem?_eq_some_iff.1 e1
    obtain ⟨l2, g2⟩ := List.getElem?_eq_some_iff.1 e2
    have := (hn.getElem_inj_iff (hi := l1) (hj := l2)).1 (by rw [g1, g2])
    omega

theorem iluArr_of (hA : A.WF) (hsq : A.m = A.n) :
    IluArr A.n A.nnz (iluO A) (iluCol A) A.base A.ptr A.ind := by
  constructor
  · intro i hi
    have := hA.lo (i := i) (by omega)
    rw [hA.rd_ptr (by omega)]
    unfold iluO
    congr 1
    omega
  · intro q hq
    unfold Csr.nnz at hq
    have := hA.ind_range _ (List.getElem_mem hq)
    rw [rd_ofNat]
    unfold iluCol
    rw [List.getD_eq_getElem?_getD, List.getElem?_eq_getElem hq]
    simp
    omega

end

/-! ### matrices -/

section
variable {R : Type} [Field R] {A : Csr R}

/-- the arrays of `A` with other values -/
def Csr.withVal (A : Csr R) (v : List R) : Csr R := { A with val := v }

omit [Field R] in
theorem Csr.WF.withVal (hA : A.WF) {v : List R} (hv : v.length = A.nnz) : (A.withVal v).WF :=
  ⟨hA.base01, hA.ptr_len, hA.ptr_first, hA.ptr_mono, hA.ptr_last, hv, hA.ind_range⟩

/-- an element of the matrix as a sum over positions -/
theorem mat_pos (hA : A.WF) {v : List R} {f : Nat → R} (hv : Rep v A.nnz f) {i : Nat} (hi : i < A.m)
    (c : Nat) : (A.withVal v).mat i c
      = ∑ q ∈ Ico (iluO A i) (iluO A (i + 1)), if iluCol A q = c then f q else 0 := by
  have hF := hA.withVal hv.1
  have hlen : iluO A i + ((A.withVal v).row i).length = iluO A (i + 1) := by
    have := cols_len hF (i := i) hi
    rw [Csr.cols, List.length_map] at this
    exact this
  have hs := sum_ite_filter ((A.withVal v).row i) (AddMonoidHom.id R) c
  rw [AddMonoidHom.id_apply] at hs
  rw [mat_eq_colSum, colSum, ← hs,
    list_sum_range _ _ (fun t => if iluCol A (iluO A i + t) = c then f (iluO A i + t) else 0)]
  · rw [sum_Ico_eq_sum_range, show iluO A (i + 1) - iluO A i = ((A.withVal v).row i).length by omega]
  · intro t ht
    have h1 := cols_pos hF (i := i) (t := t) hi (by
      show iluO A i + t < iluO A (i + 1)
      omega)
    have hA1 := hA.lo (i := i) (by omega)
    have hA2 := hA.hi (i := i + 1) (by omega)
    have hA3 := hA.ptr_mono i hi
    have hl := Csr.row_length hF (i := i) hi
    obtain ⟨c', v', e1, e2, e3⟩ := Csr.row_getElem? hF hi (t := t) (by omega)
    rw [Csr.cols, List.getElem?_map, e3] at h1
    have hc : c' - A.base = (iluCol A (iluO A i + t) : Int) := by
      have h1' := Option.some.inj h1
      exact h1'
    have he : ((A.withVal v).row i)[t] = (c' - A.base, v') := by
      rw [List.getElem?_eq_getElem ht] at e3
      exact Option.some.inj e3
    have hval : v' = f (iluO A i + t) := by
      have e2' : rd v (A.p i - A.base + (t : Int)) = some v' := e2
      rw [show A.p i - A.base + (t : Int) = ((iluO A i + t : Nat) : Int) by unfold iluO; omega,
        hv.rd_nat (by
          have hl' : (((A.withVal v).row i).length : Int) = A.p (i + 1) - A.p i := hl
          unfold iluO Csr.nnz
          omega)] at e2'
      exact (Option.some.inj e2').symm
    rw [he, hc, hval]
    simp only [AddMonoidHom.id_apply]
    by_cases hcc : iluCol A (iluO A i + t) = c
    · rw [if_pos hcc, if_pos (by omega)]
    · rw [if_neg hcc, if_neg (by omega)]

variable (hA : A.WF) (hsq : A.m = A.n) (hP : IluPat A.n A.nnz (iluO A) (iluCol A) (iluDg A))
  {v : List R} {f : Nat → R} (hv : Rep v A.nnz f)
include hA hsq hP hv

theorem upper_sum {i : Nat} (hi : i < A.n) (w : Nat → R) :
    ∑ j ∈ range A.n, upperPart (A.withVal v).mat i j * w j
      = ∑ q ∈ Ico (iluDg A i) (iluO A (i + 1)), f q * w (iluCol A q) := by
  have hdl := hP.dgl i hi
  have hdr := hP.dgr i hi
  have h1 : ∀ j, upperPart (A.withVal v).mat i j
      = ∑ q ∈ Ico (iluDg A i) (iluO A (i + 1)), if iluCol A q = j then f q else 0 := by
    intro j
    unfold upperPart
    by_cases hj : i ≤ j
    · rw [if_pos hj, mat_pos hA hv (by omega), ← sum_Ico_consecutive _ hdl (le_of_lt hdr)]
      rw [sum_eq_zero, zero_add]
      intro q hq
      rw [mem_Ico] at hq
      have := hP.low_lt hi hq.1 hq.2
      rw [if_neg (by omega)]
    · rw [if_neg hj, sum_eq_zero]
      intro q hq
      rw [mem_Ico] at hq
      rw [if_neg]
      by_cases hq2 : q = iluDg A i
      · rw [hq2, hP.dgc i hi]; omega
      · have := hP.up i q hi (by omega) hq.2
        omega
  simp only [h1, sum_mul]
  rw [sum_comm]
  apply sum_congr rfl
  intro q hq
  rw [mem_Ico] at hq
  rw [sum_eq_single (iluCol A q)]
  · rw [if_pos rfl]
  · intro j _ hj
    rw [if_neg (fun e => hj e.symm), zero_mul]
  · intro hc
    exact absurd (mem_range.2 (hP.rng i q hi (by omega) hq.2)) hc

theorem lower_sum {i : Nat} (hi : i < A.n) (w : Nat → R) :
    ∑ j ∈ range A.n, unitLower (A.withVal v).mat i j * w j
      = (∑ q ∈ Ico (iluO A i) (iluDg A i), f q * w (iluCol A q)) + w i := by
  have hdl := hP.dgl i hi
  have hdr := hP.dgr i hi
  have h1 : ∀ j, unitLower (A.withVal v).mat i j
      = (∑ q ∈ Ico (iluO A i) (iluDg A i), if iluCol A q = j then f q else 0) + if i = j then 1 else 0 := by
    intro j
    unfold unitLower
    by_cases hj : j < i
    · rw [if_pos hj, mat_pos hA hv (by omega), ← sum_Ico_consecutive _ hdl (le_of_lt hdr), if_neg (by omega)]
      congr 1
      apply sum_eq_zero
      intro q hq
      rw [mem_Ico] at hq
      rw [if_neg]
      by_cases hq2 : q = iluDg A i
      · rw [hq2, hP.dgc i hi]; omega
      · have := hP.up i q hi (by omega) hq.2
        omega
    · rw [if_neg hj, sum_eq_zero, zero_add]
      · by_cases hij : j = i
        · rw [if_pos hij, if_pos hij.symm]
        · rw [if_neg hij, if_neg (fun e => hij e.symm)]
      · intro q hq
        rw [mem_Ico] at hq
        have := hP.low_lt hi hq.1 hq.2
        rw [if_neg (by omega)]
  simp only [h1, add_mul, sum_mul, sum_add_distrib]
  congr 1
  · rw [sum_comm]
    apply sum_congr rfl
    intro q hq
    rw [mem_Ico] at hq
    rw [sum_eq_single (iluCol A q)]
    · rw [if_pos rfl]
    · intro j _ hj
      rw [if_neg (fun e => hj e.symm), zero_mul]
    · intro hc
      exact absurd (mem_range.2 (hP.rng i q hi hq.1 (by omega))) hc
  · rw [sum_eq_single i]
    · rw [if_pos rfl, one_mul]
    · intro j _ hj
      rw [if_neg (fun e => hj e.symm), zero_mul]
    · intro hc
      exact absurd (mem_range.2 hi) hc

theorem upper_entry {i : Nat} (hi : i < A.n) (c : Nat) (hc : c < A.n) :
    upperPart (A.withVal v).mat i c = uFull (iluO A) (iluCol A) (iluDg A) f i c := by
  have := upper_sum hA hsq hP hv hi (fun j => if j = c then 1 else 0)
  rw [sum_eq_single c (fun j _ hj => by rw [if_neg hj, mul_zero])
    (fun h => absurd (mem_range.2 hc) h), if_pos rfl, mul_one] at this
  rw [this]
  unfold uFull
  apply sum_congr rfl
  intro q _
  by_cases h : iluCol A q = c <;> simp [h]

theorem mat_at {i q : Nat} (hi : i < A.n) (h1 : iluO A i ≤ q) (h2 : q < iluO A (i + 1)) :
    (A.withVal v).mat i (iluCol A q) = f q := by
  rw [mat_pos hA hv (by omega), sum_eq_single q]
  · rw [if_pos rfl]
  · intro p hp hpq
    rw [mem_Ico] at hp
    rw [if_neg (fun e => hpq (hP.inj i p q hi hp.1 hp.2 h1 h2 e))]
  · intro h
    exact absurd (mem_Ico.2 ⟨h1, h2⟩) h

theorem iluRowOk_of {a : Nat → R} (ha : Rep A.val A.nnz a) {i : Nat} (hi : i < A.n)
    (hd : RowDone (iluO A) (iluCol A) (iluDg A) a f i) : IluRowOk A (A.withVal v) i := by
  intro j hj
  obtain ⟨t, ht, hget⟩ := List.mem_iff_getElem.1 hj
  have hlen := cols_len hA (i := i) (by omega)
  have hp := cols_pos hA (i := i) (t := t) (by omega) (by omega)
  rw [List.getElem?_eq_getElem ht, hget] at hp
  have hjc : j = iluCol A (iluO A i + t) := by
    have := Option.some.inj hp
    omega
  have hcn := hP.rng i (iluO A i + t) hi (by omega) (by omega)
  subst hjc
  rw [lower_sum hA hsq hP hv hi]
  have hm : A.mat i (iluCol A (iluO A i + t)) = a (iluO A i + t) :=
    mat_at hA hsq hP ha hi (by omega) (by omega)
  rw [hm, hd _ (by omega : iluO A i ≤ iluO A i + t) (by omega)]
  congr 1
  · apply sum_congr rfl
    intro q hq
    rw [mem_Ico] at hq
    have hq1 := hP.low_lt hi hq.1 hq.2
    rw [upper_entry hA hsq hP hv (by omega) _ hcn]
  · unfold upperPart
    by_cases hq : iluO A i + t < iluDg A i
    · have := hP.low_lt hi (by omega) hq
      rw [if_pos hq, if_neg (by omega)]
    · rw [if_neg hq, if_pos, mat_at hA hsq hP hv hi (by omega) (by omega)]
      by_cases hq2 : iluO A i + t = iluDg A i
      · rw [hq2, hP.dgc i hi]
      · have := hP.up i (iluO A i + t) hi (by omega) (by omega)
        omega

theorem iluSolves_of {x b x' : List R} {y g : Nat → R} (hx : A.n ≤ x.length) (hx' : Rep x' x.length g)
    (hrest : ∀ k, A.n ≤ k → x'[k]? = x[k]?)
    (h1 : ∀ i, i < A.n → y i + ∑ q ∈ Ico (iluO A i) (iluDg A i), f q * y (iluCol A q) = b.getD i 0)
    (h2 : ∀ i, i < A.n → ∑ q ∈ Ico (iluDg A i) (iluO A (i + 1)), f q * g (iluCol A q) = y i) :
    IluSolves (A.withVal v) A.n b x x' := by
  refine ⟨hx'.1, ?_, hrest⟩
  intro i hi
  have hu : ∀ k, k < A.n → ∑ j ∈ range A.n, upperPart (A.withVal v).mat k j * x'.getD j 0 = y k := by
    intro k hk
    rw [← h2 k hk, ← upper_sum hA hsq hP hv hk]
    apply sum_congr rfl
    intro j hj
    rw [hx'.getD 0 (by have := mem_range.1 hj; omega)]
  rw [← h1 i hi, add_comm, ← lower_sum hA hsq hP hv hi]
  apply sum_congr rfl
  intro k hk
  rw [hu k (mem_range.1 hk)]

end
end Verif
