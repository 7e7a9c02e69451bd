/-
Incomplete factorisation with the arithmetic as a parameter: from positions to stored entries.
-/
import Verif.Proofs.RoundedIlu
import Verif.Proofs.Ilu2
import Verif.Spec.RoundedIlu

namespace Verif
open Model Finset

section
variable {R : Type} {A : Csr R}

theorem row_pos (hA : A.WF) {v : List R} {f : Nat → R} (hv : Rep v A.nnz f) {i : Nat} (hi : i < A.m) :
    (A.withVal v).row i
      = (List.range' (iluO A i) (iluO A (i + 1) - iluO A i)).map fun q => ((iluCol A q : Int), f q) := by
  have hF := hA.withVal hv.1
  have hlen : iluO A i + ((A.withVal v).row i).length = iluO A (i + 1) := by
    have := cols_len hF (i := i) hi
    rw [Csr.cols, List.length_map] at this
    exact this
  have h1 := hA.lo (i := i) (by omega)
  have h3 := hA.ptr_mono i hi
  have h2 := hA.hi (i := i + 1) (by omega)
  apply List.ext_getElem?
  intro t
  by_cases ht : t < ((A.withVal v).row i).length
  · have hl := Csr.row_length hF (i := i) hi
    obtain ⟨c, w, e1, e2, e3⟩ := Csr.row_getElem? hF (i := i) hi (t := t) (by omega)
    rw [e3, List.getElem?_map, List.getElem?_range' (by omega)]
    have hp : iluO A i + t < A.nnz := by
      unfold iluO Csr.nnz at *
      omega
    rw [show (A.withVal v).p i - (A.withVal v).base + (t : Int) = ((iluO A i + t : Nat) : Int) by
      show A.p i - A.base + (t : Int) = _
      unfold iluO; omega] at e1 e2
    rw [show (A.withVal v).val = v from rfl, hv.rd_nat hp] at e2
    rw [show (A.withVal v).ind = A.ind from rfl, rd_ofNat] at e1
    have hc := hA.ind_range c (List.mem_of_getElem? e1)
    have hcc : c - A.base = (iluCol A (iluO A i + t) : Int) := by
      unfold iluCol
      rw [List.getD_eq_getElem?_getD, e1]
      simp
      omega
    simp only [Option.map_some, one_mul]
    rw [← hcc, Option.some.inj e2]
    rfl
  · rw [List.getElem?_eq_none (by omega), List.getElem?_eq_none (by simp; omega)]

variable (hA : A.WF) (hsq : A.m = A.n) (hP : IluPat A.n A.nnz (iluO A) (iluCol A) (iluDg A))
  {v : List R} {f : Nat → R} (hv : Rep v A.nnz f)
include hA hsq hP hv

theorem stored_pos {i q : Nat} (hi : i < A.n) (h1 : iluO A i ≤ q) (h2 : q < iluO A (i + 1)) :
    (A.withVal v).stored i (iluCol A q) = some (f q) := by
  unfold Csr.stored
  rw [row_pos hA hv (by omega), List.find?_map]
  have : (List.range' (iluO A i) (iluO A (i + 1) - iluO A i)).find?
      ((fun e : Int × R => decide (e.1 = (iluCol A q : Int))) ∘ fun q => ((iluCol A q : Int), f q)) = some q := by
    have hne : (List.range' (iluO A i) (iluO A (i + 1) - iluO A i)).find?
        ((fun e : Int × R => decide (e.1 = (iluCol A q : Int))) ∘ fun q => ((iluCol A q : Int), f q)) ≠ none := by
      rw [Ne, List.find?_eq_none]
      intro h
      exact h q (by rw [List.mem_range'_1]; omega) (by simp)
    obtain ⟨p, hp⟩ := Option.ne_none_iff_exists'.1 hne
    rw [hp]
    have m1 := List.mem_of_find?_eq_some hp
    have m2 := List.find?_some hp
    rw [List.mem_range'_1] at m1
    simp only [Function.comp, decide_eq_true_eq] at m2
    rw [hP.inj i p q hi (by omega) (by omega) h1 h2 (by omega)]
  rw [this]
  rfl

theorem pos_of_stored {i j : Nat} {a : R} (hi : i < A.n) (h : (A.withVal v).stored i j = some a) :
    ∃ q, iluO A i ≤ q ∧ q < iluO A (i + 1) ∧ iluCol A q = j ∧ f q = a := by
  unfold Csr.stored at h
  rw [row_pos hA hv (by omega), List.find?_map] at h
  simp only [Option.map_map, Option.map_eq_some_iff] at h
  obtain ⟨q, h1, h2⟩ := h
  have m1 := List.mem_of_find?_eq_some h1
  have m2 := List.find?_some h1
  rw [List.mem_range'_1] at m1
  simp only [Function.comp, decide_eq_true_eq] at m2
  exact ⟨q, by omega, by omega, by omega, h2⟩

theorem stored_uPos {k j : Nat} (hk : k < A.n) (hj : k < j) :
    (A.withVal v).stored k j = (uPos (iluO A) (iluCol A) (iluDg A) k j).map f := by
  have hdl := hP.dgl k hk
  have hdr := hP.dgr k hk
  cases h : uPos (iluO A) (iluCol A) (iluDg A) k j with
  | some p =>
    obtain ⟨h1, h2, h3⟩ := uPos_some h
    rw [← h3, stored_pos hA hsq hP hv hk (by omega) h2]
    rfl
  | none =>
    cases hs : (A.withVal v).stored k j with
    | none => rfl
    | some a =>
      exfalso
      obtain ⟨q, h1, h2, h3, -⟩ := pos_of_stored hA hsq hP hv hk hs
      by_cases hq : iluDg A k < q
      · exact uPos_none h q hq h2 h3
      · by_cases hq2 : q = iluDg A k
        · rw [hq2, hP.dgc k hk] at h3
          omega
        · have := hP.low_lt hk h1 (by omega : q < iluDg A k)
          omega

omit hA hsq hv in
theorem split_row {i : Nat} (hi : i < A.n) :
    List.range' (iluO A i) (iluO A (i + 1) - iluO A i)
      = List.range' (iluO A i) (iluDg A i - iluO A i) ++
        (iluDg A i :: List.range' (iluDg A i + 1) (iluO A (i + 1) - (iluDg A i + 1))) := by
  have hdl := hP.dgl i hi
  have hdr := hP.dgr i hi
  rw [show iluO A (i + 1) - iluO A i = (iluDg A i - iluO A i) + (iluO A (i + 1) - iluDg A i) by omega,
    ← List.range'_append, one_mul, show iluO A i + (iluDg A i - iluO A i) = iluDg A i by omega,
    show iluO A (i + 1) - iluDg A i = (iluO A (i + 1) - (iluDg A i + 1)) + 1 by omega, List.range'_succ]

theorem elimRow_terms (F : SolveFpu R) {i : Nat} (hi : i < A.n) (j : Nat) (s : R) :
    elimRow F (iluO A) (iluCol A) (iluDg A) f i (iluDg A i) j s
      = subAll F s ((A.withVal v).iluTerms i j) := by
  have ht : (A.withVal v).iluTerms i j
      = (List.range' (iluO A i) (iluDg A i - iluO A i)).filterMap fun t =>
          (uPos (iluO A) (iluCol A) (iluDg A) (iluCol A t) j).map fun p => (f t, f p) := by
    unfold Csr.iluTerms
    rw [row_pos hA hv (by omega), List.filterMap_map, split_row hP hi, List.filterMap_append]
    have hz : List.filterMap ((fun e : Int × R => if e.1 < (i : Int) ∧ e.1 < (j : Int) then
        ((A.withVal v).stored e.1.toNat j).map fun u => (e.2, u) else none) ∘
        fun q => ((iluCol A q : Int), f q))
        (iluDg A i :: List.range' (iluDg A i + 1) (iluO A (i + 1) - (iluDg A i + 1))) = [] := by
      rw [List.filterMap_eq_nil_iff]
      intro q hq
      have hc : i ≤ iluCol A q := by
        rcases List.mem_cons.1 hq with h | h
        · rw [h, hP.dgc i hi]
        · rw [List.mem_range'_1] at h
          exact le_of_lt (hP.up i q hi (by omega) (by omega))
      simp only [Function.comp]
      rw [if_neg (by omega)]
    rw [hz, List.append_nil]
    apply List.filterMap_congr
    intro t ht
    rw [List.mem_range'_1] at ht
    have hdl := hP.dgl i hi
    have hc := hP.low_lt hi ht.1 (by omega)
    simp only [Function.comp, Int.toNat_natCast]
    by_cases hj : iluCol A t < j
    · rw [if_pos (by omega), stored_uPos hA hsq hP hv (by omega) hj, Option.map_map]
      rfl
    · rw [if_neg (by omega), uPos_le hP (by omega) (by omega)]
      rfl
  rw [ht, subAll, List.foldl_filterMap]
  unfold elimRow
  congr 1
  funext s t
  unfold elimStep
  cases uPos (iluO A) (iluCol A) (iluDg A) (iluCol A t) j <;> rfl

omit hA hsq hv in
theorem elimRow_early [Div R] (F : SolveFpu R) {i q : Nat} (hi : i < A.n) (h1 : iluO A i ≤ q)
    (h2 : q ≤ iluDg A i) (s : R) : ∀ e, q ≤ e → e ≤ iluDg A i →
    elimRow F (iluO A) (iluCol A) (iluDg A) f i e (iluCol A q) s
      = elimRow F (iluO A) (iluCol A) (iluDg A) f i q (iluCol A q) s := by
  intro e he
  induction e with
  | zero => intro _; rw [show q = 0 by omega]
  | succ e ih =>
    intro he2
    rcases Nat.eq_or_lt_of_le he with h | h
    · rw [h]
    · rw [elimRow_succ (by omega), ih (by omega) (by omega)]
      have hc := hP.low_lt hi (by omega : iluO A i ≤ e) (by omega)
      refine elimStep_id hP (by omega) ?_ _
      rcases Nat.eq_or_lt_of_le (Nat.lt_succ_iff.1 h) with h3 | h3
      · rw [h3]
      · exact le_of_lt (hP.low i q e hi h1 h3 (by omega))

/-- the rows of the factors at the entries that are stored -/
theorem elimRowOk_of [Div R] (F : SolveFpu R) {w : List R} {a : Nat → R} (ha : Rep w A.nnz a) {i : Nat}
    (hi : i < A.n) (hd : RowDoneF F (iluO A) (iluCol A) (iluDg A) a f i) :
    ElimRowOk F (A.withVal w) (A.withVal v) i := by
  intro j a0 hj
  obtain ⟨q, h1, h2, h3, h4⟩ := pos_of_stored hA hsq hP ha hi hj
  subst h3 h4
  have hq := hd q h1 h2
  have hst := stored_pos hA hsq hP hv hi h1 h2
  by_cases hqd : q < iluDg A i
  · have hc := hP.low_lt hi h1 hqd
    rw [if_pos hc]
    rw [if_pos hqd, ← elimRow_early hP F hi h1 (le_of_lt hqd) _ (iluDg A i) (le_of_lt hqd) (le_refl _),
      elimRow_terms hA hsq hP hv F hi] at hq
    refine ⟨f (iluDg A (iluCol A q)), ?_, ?_⟩
    · have := stored_pos hA hsq hP hv (by omega : iluCol A q < A.n) (hP.dgl _ (by omega)) (hP.dgr _ (by omega))
      rwa [hP.dgc _ (by omega)] at this
    · rw [hst]
      exact congrArg some hq
  · have hc : ¬ iluCol A q < i := by
      by_cases hq2 : q = iluDg A i
      · rw [hq2, hP.dgc i hi]; omega
      · have := hP.up i q hi (by omega) h2
        omega
    rw [if_neg hc, hst]
    rw [if_neg hqd, elimRow_terms hA hsq hP hv F hi] at hq
    exact congrArg some hq

theorem low_row {i : Nat} (hi : i < A.n) :
    ((A.withVal v).row i).filter (fun e => e.1 < (i : Int))
      = (List.range' (iluO A i) (iluDg A i - iluO A i)).map fun q => ((iluCol A q : Int), f q) := by
  have hdl := hP.dgl i hi
  rw [row_pos hA hv (by omega), List.filter_map, split_row hP hi, List.filter_append,
    List.filter_eq_self.2, List.filter_eq_nil_iff.2, List.append_nil]
  · intro q hq
    rcases List.mem_cons.1 hq with h | h
    · simp [h, hP.dgc i hi]
    · rw [List.mem_range'_1] at h
      have := hP.up i q hi (by omega) (by omega)
      simp only [Function.comp, decide_eq_true_eq]
      omega
  · intro q hq
    rw [List.mem_range'_1] at hq
    have := hP.low_lt hi hq.1 (by omega)
    simp only [Function.comp, decide_eq_true_eq]
    omega

theorem upp_row {i : Nat} (hi : i < A.n) :
    ((A.withVal v).row i).filter (fun e => (i : Int) < e.1)
      = (List.range' (iluDg A i + 1) (iluO A (i + 1) - (iluDg A i + 1))).map
          fun q => ((iluCol A q : Int), f q) := by
  have hdl := hP.dgl i hi
  rw [row_pos hA hv (by omega), List.filter_map, split_row hP hi, List.filter_append,
    List.filter_eq_nil_iff.2, List.nil_append, List.filter_cons_of_neg, List.filter_eq_self.2]
  · intro q h
    rw [List.mem_range'_1] at h
    have := hP.up i q hi (by omega) (by omega)
    simp only [Function.comp, decide_eq_true_eq]
    omega
  · simp [hP.dgc i hi]
  · intro q hq
    rw [List.mem_range'_1] at hq
    have := hP.low_lt hi hq.1 (by omega)
    simp only [Function.comp, decide_eq_true_eq]
    omega

theorem substOk_of [Zero R] [Div R] (F : SolveFpu R) {b x x' : List R} {y g : Nat → R} (hx : A.n ≤ x.length)
    (hx' : Rep x' x.length g) (hrest : ∀ k, A.n ≤ k → x'[k]? = x[k]?)
    (h1 : ∀ i, i < A.n → y i = subRow F (iluCol A) f y (iluO A i) (iluDg A i) (b.getD i 0))
    (h2 : ∀ i, i < A.n → g i
      = subRow F (iluCol A) f g (iluDg A i + 1) (iluO A (i + 1)) (y i) / f (iluDg A i)) :
    SubstOk F (A.withVal v) A.n b x x' := by
  refine ⟨hx'.1, hrest, y, ?_, ?_⟩
  · intro i hi
    rw [low_row hA hsq hP hv hi, h1 i hi]
    unfold subRow subAll
    rw [List.map_map, List.foldl_map]
    rfl
  · intro i hi
    refine ⟨f (iluDg A i), ?_, ?_⟩
    · have := stored_pos hA hsq hP hv hi (hP.dgl _ hi) (hP.dgr _ hi)
      rwa [hP.dgc _ hi] at this
    · rw [hx'.getElem? (by omega), upp_row hA hsq hP hv hi, h2 i hi]
      unfold subAll
      rw [List.map_map, List.foldl_map]
      congr 2
      rw [subRow_congr (g' := fun c => x'.getD c 0)]
      · rfl
      · intro q hq1 hq2
        have := hP.rng i q hi (by have := hP.dgl i hi; omega) hq2
        rw [hx'.getD 0 (by omega)]

end
end Verif
