/-
One GMRES cycle in exact arithmetic.
-/
import Verif.Proofs.GmRunInv
import Verif.Proofs.GmMath
import Verif.Spec.GmExact
import Mathlib.Algebra.BigOperators.Fin
import Mathlib.Tactic.FieldSimp

namespace Verif
namespace Proofs
open Model Spec Finset

section
variable {R : Type} [Field R] [LinearOrder R] [IsStrictOrderedRing R] {num : GNum R R} {n m j : Nat}

theorem list_sum_range (f : Nat → R) (k : Nat) : ((List.range k).map f).sum = ∑ i ∈ range k, f i := by
  induction k with
  | zero => simp
  | succ k ih => rw [List.range_succ, List.map_append, List.sum_append, ih, sum_range_succ]; simp

theorem dotv_eq (hE : ExactG num) (f h : Nat → R) (k : Nat) : dotv num f h k = ∑ i ∈ range k, f i * h i := by
  induction k with
  | zero => simp [dotv]
  | succ k ih => rw [dotv, ih, sum_range_succ, hE.conj]

/-- a row of an array of vectors -/
def rowV (n : Nat) (l : List R) (i : Nat) : Fin n → R := fun t => l.getD (i * n + t) 0

theorem dotv_rows (hE : ExactG num) (a b : List R) (i k : Nat) :
    dotv num (fun t => a.getD (i * n + t) 0) (fun t => b.getD (k * n + t) 0) n = rowV n a i ⬝ᵥ rowV n b k := by
  rw [dotv_eq hE, Finset.sum_range]
  rfl

theorem nrm_row (hE : ExactG num) {v : List R} {i : Nat} (h : i * n + n ≤ v.length) :
    num.nrm ((v.drop (i * n)).take n) ^ 2 = rowV n v i ⬝ᵥ rowV n v i := by
  rw [hE.nrm_sq, window_at h, List.map_map, list_sum_range, Finset.sum_range]
  rfl

theorem row_congr {a a' : List R} {i : Nat} (h : ∀ t, t < n → a.getD (i * n + t) 0 = a'.getD (i * n + t) 0) :
    rowV n a i = rowV n a' i := funext fun t => h t t.2

/-- the rotations of the new column -/
theorem rot_content (hE : ExactG num) {h1 h2 s c : List R} (hl : h1.length = m * m) (hs : s.length = m)
    (hc : c.length = m) (hj : j < m) (e : forC 0 (j : Int) (rotBody num m j c s) h1 = some h2) :
    (∀ l, l < j → h2.getD (l * m + j) 0 =
      rotH (fun i => c.getD i 0) (fun i => s.getD i 0) (fun i => h1.getD (i * m + j) 0) l) ∧
    h2.getD (j * m + j) 0 = rotT (fun i => c.getD i 0) (fun i => s.getD i 0) (fun i => h1.getD (i * m + j) 0) j ∧
    ∀ p, (∀ i, i < j + 1 → p ≠ i * m + j) → h2[p]? = h1[p]? := by
  obtain ⟨h2', e', -, q1, q2, q3, q4⟩ := forC_inv_nat (n := j) (f := rotBody num m j c s) (s := h1)
    (P := fun i a => a.length = m * m ∧
      (∀ l, l < i → a.getD (l * m + j) 0 =
        rotH (fun i => c.getD i 0) (fun i => s.getD i 0) (fun i => h1.getD (i * m + j) 0) l) ∧
      a.getD (i * m + j) 0 = rotT (fun i => c.getD i 0) (fun i => s.getD i 0) (fun i => h1.getD (i * m + j) 0) i ∧
      (∀ l, i < l → l ≤ j → a.getD (l * m + j) 0 = h1.getD (l * m + j) 0) ∧
      ∀ p, (∀ i, i < j + 1 → p ≠ i * m + j) → a[p]? = h1[p]?)
    ⟨hl, by omega, rfl, fun _ _ _ => rfl, fun _ _ => rfl⟩ (by
      rintro i a hi ⟨ha, p1, p2, p3, p4⟩
      have e1 : (i : Int) * (m : Int) + (j : Int) = ((i * m + j : Nat) : Int) := by push_cast; ring
      have e2 : ((i : Int) + 1) * (m : Int) + (j : Int) = (((i + 1) * m + j : Nat) : Int) := by push_cast; ring
      have l1 : i * m + j < a.length := by rw [ha]; exact sq_lt (by omega) hj
      have l2 : (i + 1) * m + j < a.length := by rw [ha]; exact sq_lt (by omega) hj
      have hm : 0 < m := by omega
      unfold rotBody
      rw [e1, e2, rd_at l1, rd_at l2, rd_at (by omega), rd_at (by omega)]
      simp only [Option.bind_eq_bind, Option.bind_some]
      rw [wr_ofNat l1]
      simp only [Option.bind_some]
      rw [wr_ofNat (by simpa using l2)]
      have ne1 : ∀ l, l ≠ i → i * m + j ≠ l * m + j := fun l hl e => hl (cell_inj hm e).symm
      have ne2 : ∀ l, l ≠ i + 1 → (i + 1) * m + j ≠ l * m + j := fun l hl e => hl (cell_inj hm e).symm
      refine ⟨_, rfl, by simp [ha], ?_, ?_, ?_, ?_⟩
      · intro l hl
        rw [at_set_ne _ (ne2 l (by omega))]
        rcases Nat.lt_succ_iff_lt_or_eq.1 hl with hl | rfl
        · rw [at_set_ne _ (ne1 l (by omega)), p1 l hl]
        · rw [at_set_eq _ l1, p2, p3 (l + 1) (by omega) (by omega), hE.smul]
          rfl
      · rw [at_set_eq _ (by simpa using l2), p2, p3 (i + 1) (by omega) (by omega), hE.smul]
        rfl
      · intro l hl hl'
        rw [at_set_ne _ (ne2 l (by omega)), at_set_ne _ (ne1 l (by omega)), p3 l (by omega) hl']
      · intro p hp
        rw [List.getElem?_set_ne (fun e => hp (i + 1) (by omega) e.symm),
          List.getElem?_set_ne (fun e => hp i (by omega) e.symm)]
        exact p4 p hp)
  rw [e] at e'
  cases e'
  exact ⟨q1, q2, q4⟩

/-- the backward substitution solves the triangular system -/
theorem back_content (hE : ExactG num) {r gl : List R} (hr : r.length = m * m) (hg : m ≤ gl.length) (k : Nat)
    (hk : k ≤ m) (y : List R) (hy : y.length = m)
    (hrows : ∀ l, k ≤ l → l < m → ∑ i ∈ Ico l m, r.getD (l * m + i) 0 * y.getD i 0 = gl.getD l 0) {q : Status × List R}
    (e : backSolve num m m r gl k y = some q) (hs : q.1 = .success) :
    ∀ l, l < m → ∑ i ∈ Ico l m, r.getD (l * m + i) 0 * q.2.getD i 0 = gl.getD l 0 := by
  induction k generalizing y with
  | zero =>
    unfold backSolve at e
    cases e
    exact fun l hl => hrows l (by omega) hl
  | succ k ih =>
    unfold backSolve at e
    simp only [Option.bind_eq_bind] at e
    rw [rd_at (by omega), Option.bind_some, wr_ofNat (by omega), Option.bind_some] at e
    have hloop : ∃ y', forC ((k : Int) + 1) m (backInner m k r) (y.set k (gl.getD k 0)) = some y' ∧ y'.length = m ∧
        (∀ i, i ≠ k → y'.getD i 0 = y.getD i 0) ∧
        y'.getD k 0 = gl.getD k 0 - ∑ i ∈ Ico (k + 1) m, r.getD (k * m + i) 0 * y.getD i 0 := by
      obtain ⟨y', h1, h2, h3, h4⟩ := forC_inv (f := backInner m k r) (lo := (k : Int) + 1) (hi := m)
        (s := y.set k (gl.getD k 0)) (P := fun p a => a.length = m ∧ (∀ i, i ≠ k → a.getD i 0 = y.getD i 0) ∧
          a.getD k 0 = gl.getD k 0 - ∑ i ∈ Ico (k + 1) p.toNat, r.getD (k * m + i) 0 * y.getD i 0) (by omega)
        ⟨by simp [hy], fun i hi => at_set_ne _ (Ne.symm hi), by
          rw [at_set_eq _ (by omega), show ((k : Int) + 1).toNat = k + 1 by omega, Ico_self, sum_empty, sub_zero]⟩ (by
          rintro i a hlo hhi ⟨ha, p1, p2⟩
          unfold backInner
          obtain ⟨p, rfl⟩ : ∃ p : Nat, i = p := ⟨i.toNat, by omega⟩
          have e1 : (k : Int) * (m : Int) + (p : Int) = ((k * m + p : Nat) : Int) := by push_cast; ring
          rw [e1, rd_at (by rw [hr]; exact sq_lt (by omega) (by omega)), rd_at (by omega), rd_at (by omega)]
          simp only [Option.bind_eq_bind, Option.bind_some]
          rw [wr_ofNat (by omega)]
          refine ⟨_, rfl, by simp [ha], fun i hi => by rw [at_set_ne _ (Ne.symm hi), p1 i hi], ?_⟩
          rw [at_set_eq _ (by omega), p2, p1 p (by omega), show ((p : Int) + 1).toNat = p + 1 by omega,
            show ((p : Int)).toNat = p by omega, sum_Ico_succ_top (by omega)]
          ring)
      exact ⟨y', h1, h2, h3, by rw [h4, Int.toNat_natCast]⟩
    obtain ⟨y', h1, h2, h3, h4⟩ := hloop
    have e1 : (k : Int) * (m : Int) + (k : Int) = ((k * m + k : Nat) : Int) := by push_cast; ring
    rw [h1, Option.bind_some, e1, rd_at (by rw [hr]; exact sq_lt (by omega) (by omega)), Option.bind_some] at e
    by_cases hn : num.nearR (r.getD (k * m + k) 0) = true
    · rw [if_pos hn] at e
      cases e
      simp at hs
    · rw [if_neg hn, rd_at (by omega), Option.bind_some, wr_ofNat (by omega), Option.bind_some] at e
      have hd : r.getD (k * m + k) 0 ≠ 0 := hE.nearR _ (by simpa using hn)
      refine ih (by omega) _ (by simp [h2]) ?_ e
      intro l hl hl'
      have hkeep : ∀ i, i ≠ k → (y'.set k (y'.getD k 0 / r.getD (k * m + k) 0)).getD i 0 = y.getD i 0 := by
        intro i hi
        rw [at_set_ne _ (Ne.symm hi), h3 i hi]
      rcases Nat.eq_or_lt_of_le hl with rfl | hlt
      · rw [sum_eq_sum_Ico_succ_bot (by omega), at_set_eq _ (by omega), h4]
        have hsum : ∑ i ∈ Ico (k + 1) m, r.getD (k * m + i) 0 *
            (y'.set k ((gl.getD k 0 - ∑ i ∈ Ico (k + 1) m, r.getD (k * m + i) 0 * y.getD i 0) /
              r.getD (k * m + k) 0)).getD i 0 = ∑ i ∈ Ico (k + 1) m, r.getD (k * m + i) 0 * y.getD i 0 := by
          refine sum_congr rfl fun i hi => ?_
          rw [mem_Ico] at hi
          rw [← h4, hkeep i (by omega)]
        rw [hsum]
        field_simp
        ring
      · rw [← hrows l (by omega) hl']
        refine sum_congr rfl fun i hi => ?_
        rw [mem_Ico] at hi
        rw [hkeep i (by omega)]

end
end Proofs
end Verif
