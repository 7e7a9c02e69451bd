/-
C08 — csr2dense writes exactly the described matrix.
-/
import Verif.Proofs.Dense
import Verif.Props.Overflow
import Verif.Props.Csc

namespace Verif
open Model

variable {R : Type}

theorem prodOvf_false {w : Nat} (hw : 2 ≤ w) {a b : Int} (ha : Representable w a)
    (hb : Representable w b) (h0a : 0 ≤ a) (h0b : 0 ≤ b) (h : Representable w (a * b)) :
    prodOvf w a b = false := by
  obtain ⟨r, h1, h2⟩ := C37_product_exact w hw a b ha hb h0a h0b
  unfold prodOvf
  rw [h1]
  cases r
  · rfl
  · exact absurd h (h2.1 rfl)

/-- **C08.**  Let `A` be a valid CSR matrix without duplicate coordinates, `t f D` any matrix type,
fill mode and diagonal type (square unless general; column order supports general and symmetric
only, as documented by the not_implemented return), and let the window fit in the dense array.
Then csr2dense succeeds, element (i,j) of the window is element (i,j) of the described matrix, and
every other cell of the dense array is unchanged.  No arithmetic law on `R` is used
(only conj 0 = 0), so the statement applies to floating-point data. -/
theorem C08_csr2dense [Zero R] [One R] [Star R] (hs0 : star (0 : R) = 0) (A : Csr R) (hA : A.WF)
    (hn : A.NoDup) (t : MType) (f : Fill) (D : Diag) (colOrder : Bool) (ld : Nat) (a : List R)
    (hsup : colOrder = true → t = .general ∨ t = .symmetric)
    (hsq : t ≠ .general → A.m = A.n)
    (hld : (if colOrder then A.m else A.n) ≤ ld)
    (hlen : ∀ i j, i < A.m → j < A.n → denseOff colOrder ld i j < a.length)
    (w : Nat) (hw : 2 ≤ w) (hrm : Representable w A.m) (hrn : Representable w A.n)
    (hrl : Representable w ld)
    (hovf : Representable w ((if colOrder then A.n else A.m) * ld)) :
    ∃ a', csr2dense w A.m A.n (some ⟨t.code, f.code, D.code, A.base⟩) (some A.val) (some A.ptr)
        (some A.ind) (some a) ld colOrder = some (.success, some a') ∧
      a'.length = a.length ∧
      (∀ i j, i < A.m → j < A.n →
        a'[denseOff colOrder ld i j]? = some (structured t f D A.get i j)) ∧
      (∀ k, (∀ i j, i < A.m → j < A.n → k ≠ denseOff colOrder ld i j) → a'[k]? = a[k]?) := by
  have hb := hA.base01
  have e1 : ¬ (A.base ≠ 0 ∧ A.base ≠ 1) := by omega
  have e2 : ¬ (t.code ≠ 0 ∧ t.code ≠ 1 ∧ t.code ≠ 3 ∧ t.code ≠ 2) := by
    cases t <;> simp [MType.code]
  have e3 : ¬ (colOrder = true ∧ (t.code = 3 ∨ t.code = 2)) := by
    rintro ⟨h1, h2⟩
    rcases hsup h1 with rfl | rfl <;> simp [MType.code] at h2
  have e4 : ¬ (t.code ≠ 0 ∧ (f.code ≠ 0 ∧ f.code ≠ 1)) := by
    cases f <;> simp [Fill.code]
  have e5 : ¬ (t.code ≠ 0 ∧ (D.code ≠ 0 ∧ D.code ≠ 1 ∧ D.code ≠ 2)) := by
    cases D <;> simp [Diag.code]
  have e6 : ¬ ((A.m : Int) < 0 ∨ (A.n : Int) < 0) := by omega
  unfold csr2dense
  simp only []
  rw [if_neg e1, if_neg e2, if_neg e3, if_neg e4, if_neg e5, if_neg e6]
  by_cases h0 : (A.m : Int) = 0 ∨ (A.n : Int) = 0
  · rw [if_pos h0]
    exact ⟨a, rfl, rfl, fun i j hi hj => by omega, fun k _ => rfl⟩
  · rw [if_neg h0]
    have e7 : prodOvf w (if colOrder = true then (A.n : Int) else A.m) ld = false := by
      cases colOrder
      · exact prodOvf_false hw hrm hrl (by simp) (by omega) (by simpa using hovf)
      · exact prodOvf_false hw hrn hrl (by simp) (by omega) (by simpa using hovf)
    simp only [e7, Bool.false_eq_true, if_false]
    obtain ⟨a', h1, h2⟩ := csr2denseCore_spec hs0 A hA hn t f D colOrder ld a hsup hsq hld hlen
    rw [h1]
    exact ⟨a', rfl, h2⟩

/-- With an addition, the described matrix is the one the CSR arrays denote. -/
theorem C08_get_eq_entry [AddCommMonoid R] (A : Csr R) (hn : A.NoDup) (i j : Nat) (hi : i < A.m) :
    A.get i j = A.entry i j := (Csr.entry_eq_get (hn i hi)).symm

/-- Every request the implementation does not support is refused without touching memory. -/
theorem C08_not_implemented [Zero R] [One R] [Star R] (w : Nat) (m n : Int) (t : MType) (f D : Nat)
    (base : Int) (hb : base = 0 ∨ base = 1) (val : Option (List R)) (ptr ind : Option (List Int))
    (a : Option (List R)) (ld : Int) (ht : t = .hermitian ∨ t = .triangular) :
    csr2dense w m n (some ⟨t.code, f, D, base⟩) val ptr ind a ld true
      = some (.notImplemented, a) := by
  unfold csr2dense
  have e1 : ¬ (base ≠ 0 ∧ base ≠ 1) := by omega
  simp only []
  rw [if_neg e1]
  rcases ht with rfl | rfl <;> simp [MType.code]

/-- Finding: with duplicate coordinates csr2dense keeps the last value, not the sum. -/
theorem C08_duplicates_last_wins :
    (⟨1, 1, 0, [0, 2], [0, 0], [2, 3]⟩ : Csr Int).WF ∧
    csr2dense 32 1 1 (some ⟨0, 0, 0, 0⟩) (some [(2 : Int), 3]) (some [0, 2]) (some [0, 0])
      (some [7]) 1 false = some (.success, some [3]) := by
  decide +kernel

/-- Finding: a rectangular (more rows than columns) triangular matrix with unit diagonal is
accepted and a cell outside the m x n window is overwritten: here m = 2, n = 1, ld = 2, and the
padding cell `a[3]` changes from 9 to 1. -/
theorem C08_rectangular_writes_padding :
    csr2dense 32 2 1 (some ⟨3, 0, 1, 0⟩) (some [(5 : Int)]) (some [0, 0, 1]) (some [0])
      (some [9, 9, 9, 9]) 2 false = some (.success, some [1, 9, 5, 1]) := by
  decide +kernel

/-- a concrete instance of C08: the hypotheses are met -/
def exDense : Csr Int := ⟨3, 3, 1, [1, 3, 4, 6], [1, 3, 2, 1, 2], [1, 2, 3, 4, 5]⟩

example : exDense.WF ∧ exDense.NoDup ∧ Representable 32 (exDense.m * 4 : Nat) := by
  refine ⟨by decide, by decide, by unfold Representable; decide⟩

example : csr2dense 32 3 3 (some ⟨2, 0, 1, 1⟩) (some exDense.val) (some exDense.ptr)
    (some exDense.ind) (some (List.replicate 12 9)) 4 false
    = some (.success, some [1, 0, 4, 9, 0, 1, 5, 9, 4, 5, 1, 9]) := by
  decide +kernel

end Verif
