/-
C82  The counts from which aoclsparse_optimize chooses a format: meaning, bounds and integer range.
-/
import Verif.Model.MvStats
import Verif.Model.Ell
import Verif.Spec.Sparse
import Verif.Proofs.SyrkEst
import Mathlib.Algebra.BigOperators.Intervals
import Mathlib.Order.Bounds.Defs
import Mathlib.Tactic.Linarith
import Mathlib.Tactic.Positivity

namespace Verif
open Model

section
variable {R : Type} {A : Csr R}

theorem stat_min (w : Nat) : intMin w ≤ 0 := by
  unfold intMin
  have : (0 : Int) < 2 ^ (w - 1) := by positivity
  omega

theorem chk_in {w : Nat} {x : Int} (h0 : 0 ≤ x) (h : x ≤ intMax w) : chk w x = some x := by
  unfold chk
  have := stat_min w
  rw [if_pos ⟨by omega, h⟩]

/-- number of entries of row `i` -/
def Csr.len (A : Csr R) (i : Nat) : Int := A.p (i + 1) - A.p i

theorem p_first (hA : A.WF) : A.p 0 = A.base := hA.ptr_first

theorem p_le (hA : A.WF) {i : Nat} (hi : i ≤ A.m) : A.base ≤ A.p i ∧ A.p i - A.base ≤ A.nnz := by
  have h1 := hA.mono (i := 0) (j := i) (by omega) hi
  have h2 := hA.mono (i := i) (j := A.m) hi le_rfl
  have h3 := hA.ptr_last
  have h4 := hA.ptr_first
  have : (A.nnz : Int) = A.ind.length := rfl
  omega

/-- the width: at most twice the average length of the rows, and the average itself unless most rows are longer -/
theorem statWidth_ok (hA : A.WF) :
    ∃ W, statWidth A.m A.nnz A.ptr = some W ∧ 0 ≤ W ∧ W * A.m ≤ 2 * A.nnz := by
  obtain ⟨s, e, h1, h2, h3, h4, h5, h6, h7⟩ := forC_inv_nat (n := A.m) (s := (⟨0, A.nnz, 0, 0⟩ : WidthSt))
    (f := widthStep A.m A.nnz A.ptr)
    (P := fun i s => 0 ≤ s.mx ∧ s.mx * A.m ≤ A.nnz ∧ 0 ≤ s.mn ∧ 0 ≤ s.cmx ∧ 0 ≤ s.cmn ∧ s.cmx + s.cmn = i ∧
      s.cmn * s.mn ≤ A.p i - A.base)
    (by
      have := p_first hA
      refine ⟨le_rfl, by simp, by simp, le_rfl, le_rfl, by simp, ?_⟩
      simp [this])
    (by
      rintro i s hi ⟨h1, h2, h3, h4, h5, h6, h7⟩
      obtain ⟨p1, p2⟩ := rd_ptr2 hA hi
      have hm := hA.mono (i := i) (j := i + 1) (by omega) (by omega)
      unfold widthStep
      simp only [p1, p2, Option.bind_eq_bind, Option.bind_some]
      refine ⟨_, rfl, ?_⟩
      by_cases hc : (A.p (i + 1) - A.p i) * (A.m : Int) ≤ A.nnz
      · simp only [hc, decide_true, and_true, Bool.not_true, Bool.false_eq_true, and_false, if_true, if_false]
        refine ⟨?_, ?_, h3, by omega, h5, by push_cast; omega, by omega⟩
        · split <;> omega
        · split <;> assumption
      · simp only [hc, decide_false, Bool.false_eq_true, and_false, Bool.not_false, and_true, if_false]
        refine ⟨h1, h2, ?_, h4, by omega, by push_cast; omega, ?_⟩
        · split <;> omega
        · split <;> nlinarith)
  refine ⟨if s.cmx ≥ s.cmn then s.mx else s.mn, ?_, ?_, ?_⟩
  · unfold statWidth
    rw [e]
    rfl
  · split <;> assumption
  · have hp := p_le hA (i := A.m) le_rfl
    split
    · omega
    · nlinarith

theorem statRest_ok (hA : A.WF) {w : Nat} (h : (A.nnz : Int) ≤ intMax w) (W : Int) :
    ∃ r, statRest w A.m A.ptr W = some r ∧ 0 ≤ r ∧ r ≤ A.nnz := by
  obtain ⟨r, e, h1, h2⟩ := forC_inv_nat (n := A.m) (s := (0 : Int)) (f := fun i s => do
      let b ← rd A.ptr i
      let e ← rd A.ptr (i + 1)
      if e - b ≤ W then some s else chk w (s + (e - b)))
    (P := fun i s => 0 ≤ s ∧ s ≤ A.p i - A.base)
    (by have := p_first hA; omega)
    (by
      rintro i s hi ⟨h1, h2⟩
      obtain ⟨p1, p2⟩ := rd_ptr2 hA hi
      have hm := hA.mono (i := i) (j := i + 1) (by omega) (by omega)
      have hp := p_le hA (i := i + 1) (by omega)
      simp only [p1, p2, Option.bind_eq_bind, Option.bind_some]
      by_cases hc : A.p (i + 1) - A.p i ≤ W
      · exact ⟨s, if_pos hc, h1, by omega⟩
      · exact ⟨_, by rw [if_neg hc]; exact chk_in (by omega) (by omega), by omega, by omega⟩)
  have hp := p_le hA (i := A.m) le_rfl
  exact ⟨r, e, h1, by omega⟩

theorem statBr4_ok (hA : A.WF) {w : Nat} (h : 4 * (A.nnz : Int) ≤ intMax w) :
    ∃ t, statBr4 w A.m A.ptr = some t ∧ A.nnz ≤ t ∧ t ≤ 4 * A.nnz := by
  have hq : (A.m : Int) / 4 = ((A.m / 4 : Nat) : Int) := by omega
  obtain ⟨s, e, h1, h2⟩ := forC_inv_nat (n := A.m / 4) (s := (0 : Int)) (f := statGroup w A.ptr)
    (P := fun g s => A.p (4 * g) - A.base ≤ s ∧ s ≤ 4 * (A.p (4 * g) - A.base))
    (by have := p_first hA; simp [this])
    (by
      rintro g s hg ⟨h1, h2⟩
      have q : ∀ k : Nat, k ≤ 4 → rd A.ptr (4 * (g : Int) + k) = some (A.p (4 * g + k)) := by
        intro k hk
        have := hA.rd_ptr (i := 4 * g + k) (by omega)
        push_cast at this
        exact this
      have q0 := q 0 (by omega)
      have q1 := q 1 (by omega)
      have q2 := q 2 (by omega)
      have q3 := q 3 (by omega)
      have q4 := q 4 (by omega)
      simp only [Nat.cast_zero, add_zero, Nat.cast_one, Nat.cast_ofNat] at q0 q1 q2 q3 q4
      have m1 := hA.mono (i := 4 * g) (j := 4 * g + 1) (by omega) (by omega)
      have m2 := hA.mono (i := 4 * g + 1) (j := 4 * g + 2) (by omega) (by omega)
      have m3 := hA.mono (i := 4 * g + 2) (j := 4 * g + 3) (by omega) (by omega)
      have m4 := hA.mono (i := 4 * g + 3) (j := 4 * g + 4) (by omega) (by omega)
      have hp0 := p_le hA (i := 4 * g) (by omega)
      have hp := p_le hA (i := 4 * g + 4) (by omega)
      unfold statGroup
      simp only [q0, q1, q2, q3, q4, Option.bind_eq_bind, Option.bind_some]
      set M := max (max (A.p (4 * g + 1) - A.p (4 * g)) (A.p (4 * g + 2) - A.p (4 * g + 1)))
        (max (A.p (4 * g + 3) - A.p (4 * g + 2)) (A.p (4 * g + 4) - A.p (4 * g + 3))) with hM
      have b1 : M ≤ A.p (4 * g + 4) - A.p (4 * g) := by omega
      have b2 : A.p (4 * g + 4) - A.p (4 * g) ≤ 4 * M := by omega
      rw [chk_in (by omega) (by omega), Option.bind_some]
      refine ⟨_, chk_in (by omega) (by omega), ?_, ?_⟩
      · rw [show 4 * (g + 1) = 4 * g + 4 by ring]; omega
      · rw [show 4 * (g + 1) = 4 * g + 4 by ring]; omega)
  have hrem : ∃ t, forC (4 * ((A.m : Int) / 4)) A.m (fun j s => do
      let b ← rd A.ptr j
      let e ← rd A.ptr (j + 1)
      chk w (s + (e - b))) s = some t ∧ A.p A.m - A.base ≤ t ∧ t ≤ 4 * (A.p A.m - A.base) := by
    refine forC_inv (lo := 4 * ((A.m : Int) / 4)) (hi := A.m)
      (P := fun (j : Int) (s : Int) => A.p j.toNat - A.base ≤ s ∧ s ≤ 4 * (A.p j.toNat - A.base)) (by omega) ?_ ?_
    · rw [show (4 * ((A.m : Int) / 4)).toNat = 4 * (A.m / 4) by omega]
      exact ⟨h1, h2⟩
    · rintro j s h3 h4 ⟨h5, h6⟩
      obtain ⟨k, rfl⟩ : ∃ k : Nat, j = (k : Int) := ⟨j.toNat, by omega⟩
      have hk : k < A.m := by omega
      obtain ⟨p1, p2⟩ := rd_ptr2 hA hk
      have hm := hA.mono (i := k) (j := k + 1) (by omega) (by omega)
      have hp0 := p_le hA (i := k) (by omega)
      have hp := p_le hA (i := k + 1) (by omega)
      rw [Int.toNat_natCast] at h5 h6
      simp only [p1, p2, Option.bind_eq_bind, Option.bind_some]
      refine ⟨_, chk_in (by omega) (by omega), ?_, ?_⟩
      · rw [show ((k : Int) + 1).toNat = k + 1 by omega]; omega
      · rw [show ((k : Int) + 1).toNat = k + 1 by omega]; omega
  obtain ⟨t, e2, h3, h4⟩ := hrem
  have hl := hA.ptr_last
  have hz : (A.nnz : Int) = A.ind.length := rfl
  refine ⟨t, ?_, by omega, by omega⟩
  unfold statBr4
  rw [hq, e]
  rw [hq] at e2
  exact e2

/-! ### what the counts mean -/

/-- row `i` is not longer than the average row -/
def Csr.Short (A : Csr R) (i : Nat) : Prop := A.len i * A.m ≤ A.nnz

instance (i : Nat) : Decidable (A.Short i) := by unfold Csr.Short; infer_instance

/-- number of rows not longer than the average row -/
def Csr.shorts (A : Csr R) : Nat := ((Finset.range A.m).filter A.Short).card

/-- entries of the rows longer than `W` -/
def Csr.rest (A : Csr R) (W : Int) : Int := ∑ i ∈ Finset.range A.m, if A.len i ≤ W then 0 else A.len i

/-- the longest of the rows 4g … 4g+3 -/
def Csr.long4 (A : Csr R) (g : Nat) : Int :=
  max (max (A.len (4 * g)) (A.len (4 * g + 1))) (max (A.len (4 * g + 2)) (A.len (4 * g + 3)))

/-- the cells of the copy in blocks of four rows: every full block padded to its longest row, the rest as it is -/
def Csr.cells4 (A : Csr R) : Int :=
  (∑ g ∈ Finset.range (A.m / 4), 4 * A.long4 g) + ∑ i ∈ Finset.Ico (4 * (A.m / 4)) A.m, A.len i

theorem chk_eq {w : Nat} {x y : Int} (h : chk w x = some y) : y = x := by
  unfold chk at h
  split at h
  · exact (Option.some.inj h).symm
  · cases h

theorem statWidth_val (hA : A.WF) (hm0 : 0 < A.m) {W : Int} (hW : statWidth A.m A.nnz A.ptr = some W) :
    (A.m ≤ 2 * A.shorts → IsGreatest {l | ∃ i, i < A.m ∧ A.Short i ∧ A.len i = l} W) ∧
      (2 * A.shorts < A.m → IsLeast {l | ∃ i, i < A.m ∧ ¬ A.Short i ∧ A.len i = l} W) := by
  obtain ⟨s, e, h1, h2, h3, h4, h5, h6, h7⟩ := forC_inv_nat (n := A.m) (s := (⟨0, A.nnz, 0, 0⟩ : WidthSt))
    (f := widthStep A.m A.nnz A.ptr)
    (P := fun i s => s.cmx = ((Finset.range i).filter A.Short).card ∧
      s.cmx + s.cmn = i ∧
      (∀ j, j < i → A.Short j → A.len j ≤ s.mx) ∧
      (s.mx = 0 ∨ ∃ j, j < i ∧ A.Short j ∧ A.len j = s.mx) ∧
      (∀ j, j < i → ¬ A.Short j → s.mn ≤ A.len j) ∧
      (s.mn = A.nnz ∨ ∃ j, j < i ∧ ¬ A.Short j ∧ A.len j = s.mn) ∧
      ((0 < s.cmx → ∃ j, j < i ∧ A.Short j) ∧ (0 < s.cmn → ∃ j, j < i ∧ ¬ A.Short j)))
    (by
      refine ⟨by simp, by simp, ?_, Or.inl rfl, ?_, Or.inl rfl, ?_, ?_⟩
      · intro j hj; omega
      · intro j hj; omega
      · intro h; exact absurd h (lt_irrefl _)
      · intro h; exact absurd h (lt_irrefl _))
    (by
      rintro i s hi ⟨h1, h2, h3, h4, h5, h6, h7, h8⟩
      obtain ⟨p1, p2⟩ := rd_ptr2 hA hi
      unfold widthStep
      simp only [p1, p2, Option.bind_eq_bind, Option.bind_some]
      refine ⟨_, rfl, ?_⟩
      have hl : A.p (i + 1) - A.p i = A.len i := rfl
      rw [hl]
      rw [Finset.range_add_one, Finset.filter_insert]
      by_cases hc : A.Short i
      · have hc' : A.len i * (A.m : Int) ≤ A.nnz := hc
        simp only [hc', hc, decide_true, and_true, Bool.not_true, Bool.false_eq_true, and_false, if_true, if_false]
        rw [Finset.card_insert_of_notMem (by simp)]
        refine ⟨by push_cast; omega, by push_cast; omega, ?_, ?_, ?_, ?_, ?_, ?_⟩
        · intro j hj hs
          rcases Nat.lt_succ_iff_lt_or_eq.mp hj with hj | rfl
          · have := h3 j hj hs
            split <;> omega
          · split <;> omega
        · split
          · exact Or.inr ⟨i, by omega, hc, rfl⟩
          · rcases h4 with h4 | ⟨j, a, b, c⟩
            · exact Or.inl h4
            · exact Or.inr ⟨j, by omega, b, c⟩
        · intro j hj hs
          rcases Nat.lt_succ_iff_lt_or_eq.mp hj with hj | rfl
          · exact h5 j hj hs
          · exact absurd hc hs
        · rcases h6 with h6 | ⟨j, a, b, c⟩
          · exact Or.inl h6
          · exact Or.inr ⟨j, by omega, b, c⟩
        · intro _; exact ⟨i, by omega, hc⟩
        · intro h
          obtain ⟨j, a, b⟩ := h8 h
          exact ⟨j, by omega, b⟩
      · have hc' : ¬ A.len i * (A.m : Int) ≤ A.nnz := hc
        simp only [hc', hc, decide_false, Bool.false_eq_true, and_false, Bool.not_false, and_true, if_false]
        refine ⟨h1, by push_cast; omega, ?_, ?_, ?_, ?_, ?_, ?_⟩
        · intro j hj hs
          rcases Nat.lt_succ_iff_lt_or_eq.mp hj with hj | rfl
          · exact h3 j hj hs
          · exact absurd hs hc
        · rcases h4 with h4 | ⟨j, a, b, c⟩
          · exact Or.inl h4
          · exact Or.inr ⟨j, by omega, b, c⟩
        · intro j hj hs
          rcases Nat.lt_succ_iff_lt_or_eq.mp hj with hj | rfl
          · have := h5 j hj hs
            split <;> omega
          · split <;> omega
        · split
          · exact Or.inr ⟨i, by omega, hc, rfl⟩
          · rcases h6 with h6 | ⟨j, a, b, c⟩
            · exact Or.inl h6
            · exact Or.inr ⟨j, by omega, b, c⟩
        · intro h
          obtain ⟨j, a, b⟩ := h7 h
          exact ⟨j, by omega, b⟩
        · intro _; exact ⟨i, by omega, hc⟩)
  have hWe : W = if s.cmx ≥ s.cmn then s.mx else s.mn := by
    unfold statWidth at hW
    rw [e] at hW
    exact (Option.some.inj hW).symm
  have hcx : s.cmx = (A.shorts : Int) := h1
  have len0 : ∀ j, j < A.m → 0 ≤ A.len j ∧ A.len j ≤ A.nnz := by
    intro j hj
    have a := hA.mono (i := j) (j := j + 1) (by omega) (by omega)
    have b := p_le hA (i := j) (by omega)
    have c := p_le hA (i := j + 1) (by omega)
    unfold Csr.len
    omega
  constructor
  · intro hs
    rw [if_pos (by omega)] at hWe
    subst hWe
    refine ⟨?_, ?_⟩
    · rcases h4 with h4 | h4
      · obtain ⟨j, a, b⟩ := h7.1 (by omega)
        have := h3 j a b
        have := len0 j a
        exact ⟨j, a, b, by omega⟩
      · exact h4
    · rintro l ⟨i, a, b, rfl⟩
      exact h3 i a b
  · intro hs
    rw [if_neg (by omega)] at hWe
    subst hWe
    refine ⟨?_, ?_⟩
    · rcases h6 with h6 | h6
      · obtain ⟨j, a, b⟩ := h7.2 (by omega)
        have := h5 j a b
        have := len0 j a
        exact ⟨j, a, b, by omega⟩
      · exact h6
    · rintro l ⟨i, a, b, rfl⟩
      exact h5 i a b

theorem forN_keeps {σ : Type} {f : Int → σ → Option σ} {P : Int → σ → Prop} (k : Nat) :
    ∀ (lo : Int) (s t : σ), forN f k lo s = some t → P lo s →
      (∀ i s s', lo ≤ i → i < lo + k → P i s → f i s = some s' → P (i + 1) s') → P (lo + k) t := by
  induction k with
  | zero =>
    intro lo s t h h0 _
    have : s = t := Option.some.inj h
    subst this
    simpa using h0
  | succ k ih =>
    intro lo s t h h0 hs
    rw [forN] at h
    obtain ⟨s1, e1, e2⟩ := Option.bind_eq_some_iff.mp h
    have h1 := hs lo s s1 le_rfl (by push_cast; omega) h0 e1
    have := ih (lo + 1) s1 t e2 h1 (fun i s s' a b => hs i s s' (by omega) (by push_cast; omega))
    rw [show lo + ((k + 1 : Nat) : Int) = lo + 1 + k by push_cast; ring]
    exact this

/-- a loop that ends keeps what every successful step keeps -/
theorem forC_keeps {σ : Type} {f : Int → σ → Option σ} {a b : Nat} {s t : σ} (P : Nat → σ → Prop) (hab : a ≤ b)
    (h : forC a b f s = some t) (h0 : P a s)
    (hs : ∀ (i : Nat) s s', a ≤ i → i < b → P i s → f i s = some s' → P (i + 1) s') : P b t := by
  have := forN_keeps (f := f) (P := fun i s => P i.toNat s) ((b : Int) - a).toNat a s t h (by simpa using h0)
    (by
      intro i s s' h1 h2 h3 h4
      have := hs i.toNat s s' (by omega) (by omega) h3 (by rw [Int.toNat_of_nonneg (by omega)]; exact h4)
      rw [show (i + 1).toNat = i.toNat + 1 by omega]
      exact this)
  rw [show ((a : Int) + (((b : Int) - a).toNat : Int)).toNat = b by omega] at this
  exact this

theorem statRest_val (hA : A.WF) {w : Nat} {W r : Int} (h : statRest w A.m A.ptr W = some r) : r = A.rest W := by
  refine forC_keeps (a := 0) (fun i s => s = ∑ j ∈ Finset.range i, if A.len j ≤ W then 0 else A.len j) (by omega) h
    (by simp) ?_
  intro i s s' _ hi hs hf
  obtain ⟨p1, p2⟩ := rd_ptr2 hA hi
  have hl : A.p (i + 1) - A.p i = A.len i := rfl
  simp only [p1, p2, Option.bind_eq_bind, Option.bind_some, hl] at hf
  rw [Finset.sum_range_succ, ← hs]
  split at hf
  · rename_i hc
    rw [if_pos hc, add_zero]
    exact (Option.some.inj hf).symm
  · rename_i hc
    rw [if_neg hc]
    exact chk_eq hf

theorem statBr4_val (hA : A.WF) {w : Nat} {t : Int} (h : statBr4 w A.m A.ptr = some t) : t = A.cells4 := by
  unfold statBr4 at h
  obtain ⟨s, e1, e2⟩ := Option.bind_eq_some_iff.mp h
  rw [show (A.m : Int) / 4 = ((A.m / 4 : Nat) : Int) by omega] at e1 e2
  have h1 : s = ∑ g ∈ Finset.range (A.m / 4), 4 * A.long4 g := by
    refine forC_keeps (a := 0) (fun i s => s = ∑ g ∈ Finset.range i, 4 * A.long4 g) (by omega) e1 (by simp) ?_
    intro g s s' _ hg hs hf
    have q : ∀ k : Nat, k ≤ 4 → rd A.ptr (4 * (g : Int) + k) = some (A.p (4 * g + k)) := by
      intro k hk
      have := hA.rd_ptr (i := 4 * g + k) (by omega)
      push_cast at this
      exact this
    have q0 := q 0 (by omega)
    have q1 := q 1 (by omega)
    have q2 := q 2 (by omega)
    have q3 := q 3 (by omega)
    have q4 := q 4 (by omega)
    simp only [Nat.cast_zero, add_zero, Nat.cast_one, Nat.cast_ofNat] at q0 q1 q2 q3 q4
    unfold statGroup at hf
    simp only [q0, q1, q2, q3, q4, Option.bind_eq_bind, Option.bind_some] at hf
    obtain ⟨d, d1, d2⟩ := Option.bind_eq_some_iff.mp hf
    rw [Finset.sum_range_succ, ← hs, chk_eq d2, chk_eq d1]
    rfl
  have h2 := forC_keeps (a := 4 * (A.m / 4)) (b := A.m)
    (fun i t => t = s + ∑ j ∈ Finset.Ico (4 * (A.m / 4)) i, A.len j) (by omega)
    (by push_cast at e2 ⊢; exact e2) (by simp)
    (by
      intro i x x' h3 hi hs hf
      obtain ⟨p1, p2⟩ := rd_ptr2 hA hi
      simp only [p1, p2, Option.bind_eq_bind, Option.bind_some] at hf
      rw [Finset.sum_Ico_succ_top h3, ← add_assoc, ← hs, chk_eq hf]
      rfl)
  rw [h2, h1]
  rfl

/-- **C82, meaning.**  When the counts are computed, the width is the length of the longest row not above the average
length if at least half of the rows are such rows, otherwise the length of the shortest row above it; the second count is
the number of cells of that width plus the entries of longer rows; the third the number of cells of full blocks of four
rows, each padded to its longest row, plus the entries of the rows left. -/
theorem C82_stats_meaning (w : Nat) (A : Csr R) (hA : A.WF) (hm : 0 < A.m) (W ell t : Int)
    (h : mvStats w A.m A.nnz A.ptr = some (W, ell, t)) :
    (A.m ≤ 2 * A.shorts → IsGreatest {l | ∃ i, i < A.m ∧ A.Short i ∧ A.len i = l} W) ∧
      (2 * A.shorts < A.m → IsLeast {l | ∃ i, i < A.m ∧ ¬ A.Short i ∧ A.len i = l} W) ∧
      ell = W * A.m + A.rest W ∧ t = A.cells4 := by
  unfold mvStats at h
  obtain ⟨W', e1, h⟩ := Option.bind_eq_some_iff.mp h
  obtain ⟨l', e2, h⟩ := Option.bind_eq_some_iff.mp h
  obtain ⟨t', e3, h⟩ := Option.bind_eq_some_iff.mp h
  obtain ⟨_, _, hq⟩ := Option.bind_eq_some_iff.mp h
  obtain ⟨rfl, hq2⟩ := Prod.mk.inj (Option.some.inj hq)
  obtain ⟨rfl, rfl⟩ := Prod.mk.inj hq2
  obtain ⟨v1, v2⟩ := statWidth_val hA hm e1
  refine ⟨v1, v2, ?_, statBr4_val hA e3⟩
  unfold statEll at e2
  obtain ⟨r, r1, e2⟩ := Option.bind_eq_some_iff.mp e2
  obtain ⟨a, a1, e2⟩ := Option.bind_eq_some_iff.mp e2
  rw [chk_eq e2, chk_eq a1, statRest_val hA r1]

/-- **C82, range.**  If four times the number of entries is representable, the counts from which the format for products
is chosen are computed without overflow, for every well-formed matrix; the width times the number of rows is at most
twice the number of entries, the cells of the hybrid at most three times, those of the blocks of four rows between one
and four times. -/
theorem C82_stats_range (w : Nat) (A : Csr R) (hA : A.WF) (h : 4 * (A.nnz : Int) ≤ intMax w) :
    ∃ W ell t, mvStats w A.m A.nnz A.ptr = some (W, ell, t) ∧
      0 ≤ W ∧ W * A.m ≤ 2 * A.nnz ∧ W * A.m ≤ ell ∧ ell ≤ 3 * A.nnz ∧ A.nnz ≤ t ∧ t ≤ 4 * A.nnz := by
  obtain ⟨W, e1, w1, w2⟩ := statWidth_ok hA
  obtain ⟨r, e2, r1, r2⟩ := statRest_ok hA (w := w) (by omega) W
  obtain ⟨t, e3, t1, t2⟩ := statBr4_ok hA h
  have w3 : 0 ≤ W * A.m := by positivity
  have hmin : -intMax w ≤ 0 ∧ intMin w ≤ -intMax w := by
    unfold intMin intMax
    have : (0 : Int) < 2 ^ (w - 1) := by positivity
    omega
  have e4 : statEll w A.m A.ptr W = some (W * A.m + r) := by
    unfold statEll
    rw [e2]
    simp only [Option.bind_eq_bind, Option.bind_some]
    rw [chk_in w3 (by omega), Option.bind_some, chk_in (by omega) (by omega)]
  refine ⟨W, W * A.m + r, t, ?_, w1, w2, by omega, by omega, t1, t2⟩
  have e5 : ∃ d, statDiff w t (W * A.m + r) = some d := by
    unfold statDiff
    split
    · unfold chk
      rw [if_pos ⟨by omega, by omega⟩]
      exact ⟨_, rfl⟩
    · exact ⟨_, rfl⟩
  obtain ⟨d, e5⟩ := e5
  unfold mvStats
  rw [e1]
  simp only [Option.bind_eq_bind, Option.bind_some]
  rw [e4, Option.bind_some, e3, Option.bind_some, e5, Option.bind_some]

/-- four rows, the first with `k` entries, the others empty -/
def headRow (k : Nat) : List Int := [0, k, k, k, k]

/-- **C82, overflow (F109).**  With four rows of which only the first has entries, the cells of the blocks of four rows are four times
the entries: if that is not representable, aoclsparse_optimize is undefined although the matrix is representable. -/
theorem C82_stats_overflow (w k : Nat) (h : intMax w < 4 * (k : Int)) :
    mvStats w 4 k (headRow k) = none := by
  have hb : statBr4 w 4 (headRow k) = none := by
    have hg : statGroup w (headRow k) 0 0 = none := by
      show (chk w (4 * max (max ((k : Int) - 0) (k - k)) (max (k - k) (k - k)))).bind _ = none
      have : chk w (4 * max (max ((k : Int) - 0) (k - k)) (max (k - k) (k - k))) = none := by
        unfold chk
        rw [if_neg (by omega)]
      rw [this]
      rfl
    unfold statBr4
    show (((statGroup w (headRow k) 0 0).bind _).bind _) = none
    rw [hg]
    rfl
  unfold mvStats
  cases statWidth 4 k (headRow k) with
  | none => rfl
  | some W =>
    show (statEll w 4 (headRow k) W).bind _ = none
    cases statEll w 4 (headRow k) W with
    | none => rfl
    | some l =>
      show (statBr4 w 4 (headRow k)).bind _ = none
      rw [hb]
      rfl

/-! ### the same width as the conversion -/

theorem forN_conv {σ τ : Type} {f : Int → σ → Option σ} {g : Int → τ → Option τ} (c : σ → τ)
    (h : ∀ i s, g i (c s) = (f i s).map c) (k : Nat) :
    ∀ (lo : Int) (s : σ), forN g k lo (c s) = (forN f k lo s).map c := by
  induction k with
  | zero => intro lo s; rfl
  | succ k ih =>
    intro lo s
    rw [forN, forN, h]
    cases f lo s with
    | none => rfl
    | some x => exact ih (lo + 1) x

theorem le_avg {m nnz k : Int} (hm : 0 < m) (h0 : 0 ≤ nnz) : k ≤ nnz.tdiv m ↔ k * m ≤ nnz := by
  rw [Int.tdiv_eq_ediv_of_nonneg h0]
  exact Int.le_ediv_iff_mul_le hm

theorem widthStep_hyb {m nnz : Int} (hm : 0 < m) (h0 : 0 ≤ nnz) (ptr : List Int) (i : Int)
    (s : Int × Int × Int × Int) :
    widthStep m nnz ptr i ⟨s.1, s.2.1, s.2.2.2, s.2.2.1⟩ =
      (hybStat (nnz.tdiv m) ptr i s).map (fun s => (⟨s.1, s.2.1, s.2.2.2, s.2.2.1⟩ : WidthSt)) := by
  unfold widthStep hybStat
  cases rd ptr i with
  | none => cases rd ptr (i + 1) <;> rfl
  | some b =>
    cases rd ptr (i + 1) with
    | none => rfl
    | some e =>
      simp only [Option.bind_eq_bind, Option.bind_some]
      have := le_avg (k := e - b) hm h0
      by_cases hc : (e - b) * m ≤ nnz
      · have h1 : e - b ≤ nnz.tdiv m := this.mpr hc
        simp [hc, h1]
      · have h1 : ¬ e - b ≤ nnz.tdiv m := fun h => hc (this.mp h)
        have h2 : e - b > nnz.tdiv m := by omega
        simp [hc, h1, h2]

/-- **C82, same width.**  The width from which the decision is made is the width that the conversion to the hybrid format
computes again, although one compares with the average in double precision and the other with the average rounded down to
an integer. -/
theorem C82_same_width (m nnz : Int) (hm : 0 < m) (h0 : 0 ≤ nnz) (ptr : List Int) (em0 w0 em W : Int)
    (h : csr2ellthybWidth m nnz (some ptr) em0 w0 = some (.success, em, W)) : statWidth m nnz ptr = some W := by
  unfold csr2ellthybWidth at h
  rw [if_neg (by omega), if_neg (by omega)] at h
  obtain ⟨r, e1, e2⟩ := Option.bind_eq_some_iff.mp h
  obtain ⟨s, e3, e4⟩ := Option.bind_eq_some_iff.mp e1
  obtain ⟨em', e5, e6⟩ := Option.bind_eq_some_iff.mp e4
  have hW : (if s.2.2.2 ≥ s.2.2.1 then s.1 else s.2.1) = W := by
    have hr := Option.some.inj e6
    have h2 := (Prod.mk.inj (Prod.mk.inj (Option.some.inj e2)).2).2
    rw [← hr] at h2
    exact h2
  have key := forN_conv (fun s : Int × Int × Int × Int => (⟨s.1, s.2.1, s.2.2.2, s.2.2.1⟩ : WidthSt))
    (f := hybStat (nnz.tdiv m) ptr) (g := widthStep m nnz ptr) (fun i s => widthStep_hyb hm h0 ptr i s) (m - 0).toNat 0
    (0, nnz, 0, 0)
  have e3' : forN (hybStat (nnz.tdiv m) ptr) (m - 0).toNat 0 (0, nnz, 0, 0) = some s := e3
  rw [e3'] at key
  have key' : forC 0 m (widthStep m nnz ptr) ⟨0, nnz, 0, 0⟩ = some ⟨s.1, s.2.1, s.2.2.2, s.2.2.1⟩ := key
  unfold statWidth
  rw [key', ← hW]
  rfl

end

/-! ### cases that meet the hypotheses -/

/-- five rows of lengths 2, 1, 0, 2, 1 with 32-bit integers -/
example := C82_stats_range (R := Int) 32 ⟨5, 3, 0, [0, 2, 3, 3, 5, 6], [0, 2, 1, 0, 2, 1], [1, 2, 3, 4, 5, 6]⟩
  (by refine ⟨?_, ?_, ?_, ?_, ?_, ?_, ?_⟩ <;> decide) (by decide)

/-- the values for that matrix: width 1, 1·5 + 4 cells, 4·2 + 1 cells -/
example : mvStats 32 5 6 [0, 2, 3, 3, 5, 6] = some (1, 9, 9) := by decide

example := C82_stats_meaning (R := Int) 32 ⟨5, 3, 0, [0, 2, 3, 3, 5, 6], [0, 2, 1, 0, 2, 1], [1, 2, 3, 4, 5, 6]⟩
  (by refine ⟨?_, ?_, ?_, ?_, ?_, ?_, ?_⟩ <;> decide) (by decide) 1 9 9 (by decide)

example := C82_same_width 5 6 (by decide) (by decide) [0, 2, 3, 3, 5, 6] 0 0 3 1 (by decide)

/-- 2^29 entries: 4 · 2^29 is not a 32-bit integer -/
example := C82_stats_overflow 32 (2 ^ 29) (by decide)

end Verif
