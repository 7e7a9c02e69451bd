/-
The compressed matrix with given rows.
-/
import Verif.Proofs.CsrLemmas
import Mathlib.Algebra.BigOperators.Group.List.Basic

namespace Verif

variable {α R : Type}

/-- number of entries before row `i` -/
def offs (rows : Nat → List α) (i : Nat) : Nat := ((List.range i).map fun k => (rows k).length).sum

theorem offs_succ (rows : Nat → List α) (i : Nat) :
    offs rows (i + 1) = offs rows i + (rows i).length := by
  simp [offs, List.range_succ]

@[simp] theorem offs_zero (rows : Nat → List α) : offs rows 0 = 0 := rfl

theorem offs_eq (rows : Nat → List α) (i : Nat) :
    offs rows i = ((List.range i).flatMap rows).length := by
  simp [offs, List.length_flatMap]

theorem offs_mono (rows : Nat → List α) {i j : Nat} (h : i ≤ j) : offs rows i ≤ offs rows j := by
  induction h with
  | refl => exact Nat.le_refl _
  | step _ ih => rw [offs_succ]; omega

theorem offs_congr {rows rows' : Nat → List α} {i : Nat} (h : ∀ k, k < i → rows k = rows' k) :
    offs rows i = offs rows' i := by
  induction i with
  | zero => rfl
  | succ i ih => rw [offs_succ, offs_succ, ih (fun k hk => h k (by omega)), h i (by omega)]

/-- element `t` of row `i` in the concatenation of the rows -/
theorem flat_getElem? {rows : Nat → List α} {m i t : Nat} (hi : i < m) (ht : t < (rows i).length) :
    ((List.range m).flatMap rows)[offs rows i + t]? = (rows i)[t]? := by
  have hm : m = i + (m - i) := by omega
  have hm2 : m - i = (m - i - 1) + 1 := by omega
  rw [hm, List.range_add, List.flatMap_append, List.getElem?_append_right (by rw [offs_eq]; omega),
    offs_eq, Nat.add_sub_cancel_left, hm2, List.range_succ_eq_map]
  simp only [List.map_cons, List.flatMap_cons, Nat.add_zero]
  rw [List.getElem?_append_left ht]

/-- the matrix whose row `i` is `rows i` -/
def mkCsr (m n : Nat) (base : Int) (rows : Nat → List (Int × R)) : Csr R where
  m := m
  n := n
  base := base
  ptr := (List.range (m + 1)).map fun i => base + (offs rows i : Int)
  ind := ((List.range m).flatMap rows).map fun e => e.1 + base
  val := ((List.range m).flatMap rows).map fun e => e.2

theorem mkCsr_p {m n : Nat} {base : Int} {rows : Nat → List (Int × R)} {i : Nat} (hi : i ≤ m) :
    (mkCsr m n base rows).p i = base + (offs rows i : Int) := by
  simp only [Csr.p, mkCsr, List.getD_eq_getElem?_getD, List.getElem?_map]
  rw [List.getElem?_range (by omega)]
  rfl

theorem mkCsr_wf {m n : Nat} {base : Int} {rows : Nat → List (Int × R)}
    (hb : base = 0 ∨ base = 1)
    (hr : ∀ i, i < m → ∀ e ∈ rows i, 0 ≤ e.1 ∧ e.1 < n) : (mkCsr m n base rows).WF where
  base01 := hb
  ptr_len := by simp [mkCsr]
  ptr_first := by rw [mkCsr_p (by omega)]; simp [mkCsr]
  ptr_mono := by
    intro i hi
    have hi : i < m := hi
    rw [mkCsr_p (by omega), mkCsr_p (by omega), offs_succ]
    omega
  ptr_last := by
    change (mkCsr m n base rows).p m = _
    rw [mkCsr_p (le_refl _), offs_eq]
    simp [mkCsr]
  val_len := by simp [mkCsr]
  ind_range := by
    intro c hc
    simp only [mkCsr, List.mem_map, List.mem_flatMap, List.mem_range] at hc
    obtain ⟨e, ⟨i, hi, he⟩, rfl⟩ := hc
    have := hr i hi e he
    simp only [mkCsr]
    omega

theorem mkCsr_row {m n : Nat} {base : Int} {rows : Nat → List (Int × R)} {i : Nat} (hi : i < m) :
    (mkCsr m n base rows).row i = rows i := by
  apply Csr.row_eq_of_get (by simp [mkCsr])
  · rw [mkCsr_p (by omega)]; simp [mkCsr]
  · rw [mkCsr_p (by omega), mkCsr_p (by omega), offs_succ]; push_cast; ring
  · intro t ht
    rw [mkCsr_p (by omega)]
    have e : (base + (offs rows i : Int) - (mkCsr m n base rows).base).toNat + t
        = offs rows i + t := by simp [mkCsr]
    rw [e]
    simp only [mkCsr, List.getElem?_map]
    rw [flat_getElem? hi ht, List.getElem?_eq_getElem ht]
    simp

theorem Csr.WF.offs_row {A : Csr R} (h : A.WF) {i : Nat} (hi : i ≤ A.m) :
    A.p i = A.base + (offs A.row i : Int) := by
  induction i with
  | zero => rw [h.ptr_first]; simp
  | succ i ih =>
    have := Csr.row_length h (i := i) (by omega)
    rw [offs_succ]
    have := ih (by omega)
    omega

/-- a well-formed matrix is determined by its rows -/
theorem Csr.WF.eq_mkCsr {A : Csr R} (h : A.WF) : A = mkCsr A.m A.n A.base A.row := by
  have e := Csr.rows_flatten h
  have hz : A.ind.length = A.val.length := h.val_len.symm
  have h1 : A.ptr = (List.range (A.m + 1)).map fun i => A.base + (offs A.row i : Int) := by
    rw [h.rep_ptr.eq_map]
    apply List.map_congr_left
    intro i hi
    exact h.offs_row (by have := List.mem_range.mp hi; omega)
  have h2 : A.ind = ((List.range A.m).flatMap A.row).map fun e => e.1 + A.base := by
    rw [e, List.map_map]
    have : ((fun e : Int × R => e.1 + A.base) ∘ fun e : Int × R => (e.1 - A.base, e.2))
        = Prod.fst := by funext e; simp
    rw [this, List.map_fst_zip (by omega)]
  have h3 : A.val = ((List.range A.m).flatMap A.row).map fun e => e.2 := by
    rw [e, List.map_map]
    have : ((fun e : Int × R => e.2) ∘ fun e : Int × R => (e.1 - A.base, e.2))
        = Prod.snd := by funext e; simp
    rw [this, List.map_snd_zip (by omega)]
  obtain ⟨m, n, base, ptr, ind, val⟩ := A
  unfold mkCsr
  congr 1

theorem mkCsr_congr {m n : Nat} {base : Int} {rows rows' : Nat → List (Int × R)}
    (h : ∀ k, k < m → rows k = rows' k) : mkCsr m n base rows = mkCsr m n base rows' := by
  have hf : (List.range m).flatMap rows = (List.range m).flatMap rows' := by
    rw [List.flatMap_def, List.flatMap_def]
    congr 1
    apply List.map_congr_left
    intro k hk
    exact h k (List.mem_range.mp hk)
  unfold mkCsr
  rw [hf]
  congr 1
  apply List.map_congr_left
  intro i hi
  rw [offs_congr (fun k hk => h k (by have := List.mem_range.mp hi; omega))]

end Verif
