import Verif.Proofs.MmExact3
import Verif.Spec.Mm

namespace Verif
open Model

variable {R : Type} [Zero R] [Add R] [Mul R]

omit [Add R] [Mul R] in
theorem doneF_cells_col {m n ld : Nat} (hld : m ≤ ld) {g : Nat → Nat → R → R} {C C' : List R}
    (h : Rep C' C.length (doneF ld (fun a b => a < n ∧ b < m) g (fun p => C.getD p 0)))
    (hC : ∀ i j, i < m → j < n → denseOff true ld i j < C.length) :
    IsCells true m n ld (fun i j c => g j i c) C C' := by
  have eo : ∀ i j, denseOff true ld i j = j * ld + i := fun i j => by simp only [denseOff, if_true]; ring
  refine ⟨h.1, fun i j hi hj => ?_, fun p hp => ?_⟩
  · have hlt := hC i j hi hj
    rw [eo] at hlt ⊢
    have := h.rd_nat hlt
    rw [rd_ofNat, doneF_in (by omega) ⟨hj, hi⟩] at this
    exact this
  · by_cases hlt : p < C.length
    · have := h.rd_nat hlt
      rw [rd_ofNat] at this
      rw [this]
      unfold doneF
      have : ¬ (p / ld < n ∧ p % ld < m) := by
        rintro ⟨h1, h2⟩
        refine hp (p % ld) (p / ld) h2 h1 ?_
        rw [eo, Nat.mul_comm]
        exact (Nat.div_add_mod p ld).symm
      rw [if_neg this]
      show some (C.getD p 0) = _
      rw [List.getD_eq_getElem?_getD, List.getElem?_eq_getElem hlt]
      rfl
    · rw [List.getElem?_eq_none (by rw [h.1]; omega), List.getElem?_eq_none (by omega)]

omit [Add R] [Mul R] in
theorem doneF_cells_row {m n ld : Nat} (hld : n ≤ ld) {g : Nat → Nat → R → R} {C C' : List R}
    (h : Rep C' C.length (doneF ld (fun a b => a < m ∧ b < n) g (fun p => C.getD p 0)))
    (hC : ∀ i j, i < m → j < n → denseOff false ld i j < C.length) :
    IsCells false m n ld (fun i j c => g i j c) C C' := by
  have eo : ∀ i j, denseOff false ld i j = i * ld + j := fun i j => by
    simp only [denseOff, Bool.false_eq_true, if_false]
  refine ⟨h.1, fun i j hi hj => ?_, fun p hp => ?_⟩
  · have hlt := hC i j hi hj
    rw [eo] at hlt ⊢
    have := h.rd_nat hlt
    rw [rd_ofNat, doneF_in (by omega) ⟨hi, hj⟩] at this
    exact this
  · by_cases hlt : p < C.length
    · have := h.rd_nat hlt
      rw [rd_ofNat] at this
      rw [this]
      unfold doneF
      have : ¬ (p / ld < m ∧ p % ld < n) := by
        rintro ⟨h1, h2⟩
        refine hp (p / ld) (p % ld) h1 h2 ?_
        rw [eo, Nat.mul_comm]
        exact (Nat.div_add_mod p ld).symm
      rw [if_neg this]
      show some (C.getD p 0) = _
      rw [List.getD_eq_getElem?_getD, List.getElem?_eq_getElem hlt]
      rfl
    · rw [List.getElem?_eq_none (by rw [h.1]; omega), List.getElem?_eq_none (by omega)]

/-- **Elements of the product**, threads one after another. -/
theorem mm_values {cj : R → R} {alpha beta : R} {A : Csr R} {B : List R} {n ldb ldc : Nat} {w : Nat} {tm : MmTeam}
    (hT : 0 < tm.T) {ker : MmKernel R} (hker : ∀ K V, ker = .kt K V → 0 < K) {col : Bool}
    (hov : ((if col then n else A.m : Nat) : Int) * tm.T ≤ intMax w) (hord : tm.ord.Perm (List.range tm.T)) (hA : A.WF)
    (hB : MmReads col A B n ldb) (hldc : if col then A.m ≤ ldc else n ≤ ldc) (hn : 0 < n) {C0 : List R}
    (hC : ∀ i j : Nat, i < A.m → j < n → denseOff col ldc i j < C0.length) :
    ∃ C1 : List R, mmKernel w tm ker col (mmOf cj alpha beta A B n ldb ldc) C0 = some C1 ∧
      IsCells col A.m n ldc (fun i j c => mmElt ker col n alpha beta j (mmPairs cj col A B ldb i j) c) C0 C1 := by
  cases ker with
  | ref =>
    cases col with
    | true =>
      obtain ⟨C1, e, h⟩ := mmColRef_exact (cj := cj) (alpha := alpha) (beta := beta) (B := B) (ldb := ldb) (ldc := ldc)
        (D := fun j i => dotLeft 0 (mmPairs cj true A B ldb i j))
        (g := fun j i c => mmEltCol alpha beta c (mmPairs cj true A B ldb i j)) hT hov hord hA hldc (by
          intro i j hi hj
          have := dotSeq_from (cj := cj) (alpha := alpha) (beta := beta) (ldc := ldc) hA hB hi hj (k := 0) (by omega) 0
          simpa using this) (fun _ _ _ => rfl) hC
      exact ⟨C1, e, doneF_cells_col hldc h hC⟩
    | false =>
      obtain ⟨C1, e, h⟩ := rows_team_exact (w := w) (tm := tm) (A := A) (n := n) (ldc := ldc) (C := C0) hT hov hord hldc hn
        (mmRowOne (mmOf cj alpha beta A B n ldb ldc))
        (g := fun i j c => mmEltRow alpha beta c (mmPairs cj false A B ldb i j))
        (fun i hi => mmRowOne_maps hA hi hB (rowLen hn hC hi))
      exact ⟨C1, e, doneF_cells_row hldc h hC⟩
  | kt K V =>
    have hK := hker K V rfl
    cases col with
    | true =>
      obtain ⟨C1, e, h⟩ := mmColKt_exact (cj := cj) (alpha := alpha) (beta := beta) (B := B) (ldb := ldb) (ldc := ldc)
        (V := V) (K := K) (D := fun j i => dotLanes V K (mmPairs cj true A B ldb i j))
        (g := fun j i c => mmEltColVec V K alpha beta c (mmPairs cj true A B ldb i j))
        (fun i j hi hj => dotLanes_row V hK hA hB hi hj) (fun _ _ _ => rfl) hT hov hord hA hldc hC
      exact ⟨C1, e, doneF_cells_col hldc h hC⟩
    | false =>
      obtain ⟨C1, e, h⟩ := rows_team_exact (w := w) (tm := tm) (A := A) (n := n) (ldc := ldc) (C := C0) hT hov hord hldc hn
        (mmRowKtOne K (mmOf cj alpha beta A B n ldb ldc))
        (g := fun i j c => mmEltRowKt K n alpha beta c j (mmPairs cj false A B ldb i j))
        (fun i hi => mmRowKtOne_maps hK hA hi hB (rowLen hn hC hi))
      exact ⟨C1, e, doneF_cells_row hldc h hC⟩

end Verif
