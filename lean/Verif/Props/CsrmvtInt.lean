/-
C18  The threads of the transposed product split the rows in the integer type of the library: when that is defined.
-/
import Verif.Model.CsrmvtInt
import Verif.Core.Mem
import Mathlib.Tactic.Linarith
import Mathlib.Tactic.Positivity

namespace Verif
open Model

section
variable {R : Type} [Zero R] [One R] [Add R] [Mul R] [DecidableEq R]

theorem mvtSplit_ok {w : Nat} {m : Int} (hm : 0 < m) {T tid : Nat} (ht : tid < T) (h : m * T ≤ intMax w) :
    mvtSplit w m T tid = some ((m * tid).tdiv T, (m * (tid + 1)).tdiv T) := by
  have h0 : intMin w ≤ 0 := by
    unfold intMin
    have : (0 : Int) < 2 ^ (w - 1) := by positivity
    omega
  have ht' : (tid : Int) + 1 ≤ T := by omega
  have h1 : m * ((tid : Int) + 1) ≤ m * T := mul_le_mul_of_nonneg_left ht' hm.le
  have h2 : m * (tid : Int) ≤ m * ((tid : Int) + 1) := mul_le_mul_of_nonneg_left (by omega) hm.le
  have h3 : 0 ≤ m * (tid : Int) := by positivity
  have h4 : (tid : Int) + 1 ≤ m * ((tid : Int) + 1) := by nlinarith
  unfold mvtSplit chk
  simp only [Option.bind_eq_bind]
  rw [if_pos ⟨by omega, by omega⟩, Option.bind_some, if_pos ⟨by omega, by omega⟩, Option.bind_some,
    if_pos ⟨by omega, by omega⟩]
  rfl

theorem mvtSplit_last {w : Nat} {m : Int} {T : Nat} (hT : 0 < T) (h : intMax w < m * T) :
    mvtSplit w m T (T - 1) = none := by
  have e : ((T - 1 : Nat) : Int) + 1 = T := by omega
  unfold mvtSplit
  simp only [Option.bind_eq_bind]
  cases h1 : chk w (m * ((T - 1 : Nat) : Int)) with
  | none => rfl
  | some a =>
    rw [Option.bind_some, e]
    unfold chk
    by_cases h2 : intMin w ≤ (T : Int) ∧ (T : Int) ≤ intMax w
    · rw [if_pos h2, Option.bind_some, if_neg (by omega)]
      rfl
    · rw [if_neg h2]
      rfl

theorem foldlM_none_of_mem {σ α : Type} {f : σ → α → Option σ} {a : α} (h : ∀ s, f s a = none) :
    ∀ (l : List α), a ∈ l → ∀ s, l.foldlM f s = none := by
  intro l
  induction l with
  | nil => intro ha; cases ha
  | cons c l ih =>
    intro ha s
    rw [List.foldlM_cons]
    rcases List.mem_cons.1 ha with rfl | ha
    · rw [h s]; rfl
    · cases f s c with
      | none => rfl
      | some t => exact ih ha t

/-- **C18, integer range.**  If the number of rows times the number of threads is representable, the transposed product
with threads is the same program as over unbounded integers, for any set of threads in any order. -/
theorem C18_split_ok (w K : Nat) (base : Int) (alpha : R) (m : Nat) (hm : 0 < m) (n : Int) (val : List R)
    (ind ptr : List Int) (x : List R) (beta : R) (y : List R) (T : Nat) (order : List Nat)
    (ho : ∀ t ∈ order, t < T) (h : (m : Int) * T ≤ intMax w) :
    csrmvtKtInt w K base alpha m n val ind ptr x beta y T order
      = csrmvtKt K base alpha m n val ind ptr x beta y T order := by
  unfold csrmvtKtInt csrmvtKt
  cases scaleY beta n y with
  | none => rfl
  | some z =>
    show order.foldlM _ z = order.foldlM _ z
    induction order generalizing z with
    | nil => rfl
    | cons t l ih =>
      have e : csrmvtBufInt w K base alpha m n val ind ptr x T t = csrmvtBuf K base alpha m n val ind ptr x T t := by
        unfold csrmvtBufInt csrmvtBuf
        rw [mvtSplit_ok (by omega) (ho t (by simp)) h]
        rfl
      rw [List.foldlM_cons, List.foldlM_cons, e]
      cases (csrmvtBuf K base alpha m n val ind ptr x T t >>= fun b => mergeBuf n z b) with
      | none => rfl
      | some z' => exact ih (fun t ht => ho t (by simp [ht])) z'

/-- **C18, integer range (F107).**  If the number of rows times the number of threads is not representable, the call is
undefined as soon as the last thread takes part, although every row number is representable. -/
theorem C18_split_overflow (w K : Nat) (base : Int) (alpha : R) (m : Nat) (n : Int) (val : List R)
    (ind ptr : List Int) (x : List R) (beta : R) (y : List R) (T : Nat) (hT : 0 < T) (order : List Nat)
    (ho : T - 1 ∈ order) (h : intMax w < (m : Int) * T) :
    csrmvtKtInt w K base alpha m n val ind ptr x beta y T order = none := by
  unfold csrmvtKtInt
  cases scaleY beta n y with
  | none => rfl
  | some z =>
    show order.foldlM _ z = none
    refine foldlM_none_of_mem (fun s => ?_) order ho z
    have : csrmvtBufInt w K base alpha m n val ind ptr x T (T - 1) = none := by
      unfold csrmvtBufInt
      rw [mvtSplit_last hT h]
      rfl
    rw [this]
    rfl

end

/-! ### cases that meet the hypotheses -/

/-- two rows, three threads in any order, 32-bit integers -/
example := C18_split_ok (R := Int) 32 4 0 2 2 (by decide) 2 [1, 2, 3] [0, 1, 1] [0, 2, 3] [5, 7] 1 [10, 20] 3 [2, 0, 1]
  (by decide) (by decide)

/-- a matrix of 2^25 rows fits in 32-bit integers; with 64 threads the split of its rows does not -/
example (val x y : List Int) (ind ptr : List Int) :=
  C18_split_overflow (R := Int) 32 4 0 1 (2 ^ 25) 10 val ind ptr x 0 y 64 (by decide) (List.range 64) (by decide)
    (by decide)

end Verif
