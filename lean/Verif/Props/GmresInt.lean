/-
C37  The guard of the working arrays of GMRES.
-/
import Verif.Model.GmresInt
import Verif.Props.Overflow
import Mathlib.Tactic.Linarith

namespace Verif
open Model

theorem chk_rep {w : Nat} {x : Int} (h : Representable w x) : chk w x = some x := by
  unfold chk
  rw [if_pos]
  unfold Representable at h
  unfold intMin intMax
  omega

/-- **C37, GMRES.**  For a number of iterations between restarts below the largest integer, setting up the solver succeeds
with the exact sizes if both are representable, and is refused otherwise. -/
theorem C37_gmres_sizes (w : Nat) (hw : 2 ≤ w) (m n : Int) (hm : 0 ≤ m) (hn : 0 ≤ n) (hrn : Representable w n)
    (hrm : Representable w (m + 1)) :
    (Representable w ((m + 1) * n) ∧ Representable w (m * m) →
      gmresSizes w m n = some (.success, (m + 1) * n, m * m)) ∧
    (¬ (Representable w ((m + 1) * n) ∧ Representable w (m * m)) →
      gmresSizes w m n = some (.invalidSize, 0, 0)) := by
  have hrm' : Representable w m := by unfold Representable at *; omega
  obtain ⟨g, e1, h1⟩ := C37_product_exact w hw (m + 1) n hrm hrn (by omega) hn
  obtain ⟨h, e2, h2⟩ := C37_product_exact w hw m m hrm' hrm' hm hm
  unfold gmresSizes
  rw [chk_rep hrm]
  simp only [Option.bind_eq_bind, Option.bind_some]
  rw [e1]
  simp only [Option.bind_some]
  constructor
  · rintro ⟨a, b⟩
    have hg : g = false := by
      cases g with
      | false => rfl
      | true => exact absurd a (h1.mp rfl)
    have hh : h = false := by
      cases h with
      | false => rfl
      | true => exact absurd b (h2.mp rfl)
    subst hg hh
    rw [e2]
    simp [chk_rep a, chk_rep b]
  · intro hne
    cases g with
    | true => rfl
    | false =>
      have a : Representable w ((m + 1) * n) := by
        by_contra hc
        exact absurd (h1.mpr hc) (by simp)
      have hh : h = true := h2.mpr (fun b => hne ⟨a, b⟩)
      subst hh
      rw [e2]
      rfl

/-- **C37, GMRES (F111).**  With the largest integer as number of iterations between restarts, which the option accepts,
the operand of the guard overflows before the guard is evaluated: undefined for every number of unknowns. -/
theorem C37_gmres_guard_overflow (w : Nat) (n : Int) : gmresSizes w (intMax w) n = none := by
  unfold gmresSizes
  have : chk w (intMax w + 1) = none := by
    unfold chk
    rw [if_neg (by omega)]
  rw [this]
  rfl

/-! ### cases that meet the hypotheses -/

example := C37_gmres_sizes 32 (by decide) 20 1000 (by decide) (by decide) (by unfold Representable; decide)
  (by unfold Representable; decide)

/-- 20 iterations and 1000 unknowns -/
example : gmresSizes 32 20 1000 = some (.success, 21000, 400) := by decide

/-- 46341 iterations: refused -/
example : gmresSizes 32 46341 10 = some (.invalidSize, 0, 0) := by decide

end Verif
