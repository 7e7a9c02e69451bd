import Verif.Model.Trsm
import Verif.Spec.SolveMm
import Verif.Proofs.Sp2md
import Mathlib.Data.List.Range

namespace Verif
open Model Finset

/-! ### uniqueness of solutions -/

section unique
variable {R : Type} [Field R]

theorem lower_unique {M : Mat R} {m : Nat} (hz : ∀ i j, i < j → M i j = 0) (hd : ∀ i, i < m → M i i ≠ 0)
    {y z : Nat → R} (h : ∀ i, i < m → ∑ k ∈ range m, M i k * y k = ∑ k ∈ range m, M i k * z k) :
    ∀ i, i < m → y i = z i := by
  intro i
  induction i using Nat.strong_induction_on with
  | _ i ih =>
    intro hi
    have := h i hi
    rw [← sub_eq_zero, ← sum_sub_distrib, sum_eq_single i] at this
    · rw [← mul_sub] at this
      exact sub_eq_zero.mp ((mul_eq_zero.mp this).resolve_left (hd i hi))
    · intro k hk hne
      have hk := mem_range.mp hk
      rcases Nat.lt_or_gt_of_ne hne with h1 | h1
      · rw [ih k h1 hk, sub_self]
      · rw [hz i k h1, zero_mul, zero_mul, sub_self]
    · intro hn
      exact absurd (mem_range.mpr hi) hn

theorem upper_unique {M : Mat R} {m : Nat} (hz : ∀ i j, j < i → M i j = 0) (hd : ∀ i, i < m → M i i ≠ 0)
    {y z : Nat → R} (h : ∀ i, i < m → ∑ k ∈ range m, M i k * y k = ∑ k ∈ range m, M i k * z k) :
    ∀ i, i < m → y i = z i := by
  have key : ∀ d i, m - i = d → i < m → y i = z i := by
    intro d
    induction d using Nat.strong_induction_on with
    | _ d ih =>
      intro i hd' hi
      have := h i hi
      rw [← sub_eq_zero, ← sum_sub_distrib, sum_eq_single i] at this
      · rw [← mul_sub] at this
        exact sub_eq_zero.mp ((mul_eq_zero.mp this).resolve_left (hd i hi))
      · intro k hk hne
        have hk := mem_range.mp hk
        rcases Nat.lt_or_gt_of_ne hne with h1 | h1
        · rw [hz i k h1, zero_mul, zero_mul, sub_self]
        · rw [ih (m - k) (by omega) k rfl hk, sub_self]
      · intro hn
        exact absurd (mem_range.mpr hi) hn
  exact fun i hi => key _ i rfl hi

/-- a triangle with a nonzero diagonal, under any operation, determines the solution -/
theorem tri_unique [StarRing R] (f : Fill) (Dg : Diag) (op : Op) (hdz : Dg ≠ .zero) (M : Mat R) {m : Nat}
    (hd : Dg = .nonUnit → ∀ i, i < m → M i i ≠ 0) {y z : Nat → R}
    (h : ∀ i, i < m → ∑ k ∈ range m, operator .triangular f Dg op M i k * y k
      = ∑ k ∈ range m, operator .triangular f Dg op M i k * z k) : ∀ i, i < m → y i = z i := by
  have hdiag : ∀ i, i < m → operator .triangular f Dg op M i i ≠ 0 := by
    intro i hi
    cases Dg <;> cases op <;> simp_all [operator, applyOp, structured, diagVal]
  cases f <;> cases op
  · exact lower_unique (fun i j hij => by
      simp only [operator, applyOp, structured]
      rw [if_neg (by omega), if_neg (by unfold strictTri; dsimp only; omega)]
      try rw [star_zero]) hdiag h
  · exact upper_unique (fun i j hij => by
      simp only [operator, applyOp, structured]
      rw [if_neg (by omega), if_neg (by unfold strictTri; dsimp only; omega)]
      try rw [star_zero]) hdiag h
  · exact upper_unique (fun i j hij => by
      simp only [operator, applyOp, structured]
      rw [if_neg (by omega), if_neg (by unfold strictTri; dsimp only; omega)]
      try rw [star_zero]) hdiag h
  · exact upper_unique (fun i j hij => by
      simp only [operator, applyOp, structured]
      rw [if_neg (by omega), if_neg (by unfold strictTri; dsimp only; omega)]
      try rw [star_zero]) hdiag h
  · exact lower_unique (fun i j hij => by
      simp only [operator, applyOp, structured]
      rw [if_neg (by omega), if_neg (by unfold strictTri; dsimp only; omega)]
      try rw [star_zero]) hdiag h
  · exact lower_unique (fun i j hij => by
      simp only [operator, applyOp, structured]
      rw [if_neg (by omega), if_neg (by unfold strictTri; dsimp only; omega)]
      try rw [star_zero]) hdiag h

theorem IsSolveMm.unique [StarRing R] {col : Bool} {f : Fill} {Dg : Diag} {op : Op} (hdz : Dg ≠ .zero)
    {M : Mat R} {m n : Nat} (hd : Dg = .nonUnit → ∀ i, i < m → M i i ≠ 0) {alpha : R} {B X X1 X2 : List R}
    {ldb ldx : Nat} (hX : ∀ i j, i < m → j < n → denseOff col ldx i j < X.length)
    (h1 : IsSolveMm col (operator .triangular f Dg op M) m n alpha B ldb X ldx X1)
    (h2 : IsSolveMm col (operator .triangular f Dg op M) m n alpha B ldb X ldx X2) : X1 = X2 := by
  apply List.ext_getElem?
  intro p
  by_cases hp : ∃ i j, i < m ∧ j < n ∧ p = denseOff col ldx i j
  · obtain ⟨i, j, hi, hj, rfl⟩ := hp
    have := tri_unique f Dg op hdz M hd (y := fun k => X1.getD (denseOff col ldx k j) 0)
      (z := fun k => X2.getD (denseOff col ldx k j) 0)
      (fun i hi => by rw [h1.solves i j hi hj, h2.solves i j hi hj]) i hi
    have l1 : denseOff col ldx i j < X1.length := by rw [h1.length]; exact hX i j hi hj
    have l2 : denseOff col ldx i j < X2.length := by rw [h2.length]; exact hX i j hi hj
    rw [List.getD_eq_getElem?_getD, List.getD_eq_getElem?_getD, List.getElem?_eq_getElem l1,
      List.getElem?_eq_getElem l2] at this
    rw [List.getElem?_eq_getElem l1, List.getElem?_eq_getElem l2]
    exact congrArg some this
  · have hp' : ∀ i j, i < m → j < n → p ≠ denseOff col ldx i j := fun i j hi hj e => hp ⟨i, j, hi, hj, e⟩
    rw [h1.rest p hp', h2.rest p hp']

end unique

/-! ### the loop over the columns -/

section loop
variable {R : Type}

theorem ptrAt_ok {a : List R} {off : Nat} (h : off ≤ a.length) : ptrAt a (off : Int) = some (a.drop off) := by
  unfold ptrAt
  rw [if_pos (by omega), Int.toNat_natCast]

/-- stride and offset of the layouts -/
def colInc (col : Bool) (ld : Nat) : Nat := if col then 1 else ld
def colOff (col : Bool) (ld : Nat) : Nat := if col then ld else 1

theorem denseOff_col (col : Bool) (ld i j : Nat) :
    denseOff col ld i j = j * colOff col ld + i * colInc col ld := by
  cases col <;> simp [denseOff, colOff, colInc] <;> ring

theorem trsmLoop_ok [Semiring R] {σ : Type} {solve : σ → List R → List R → Option (Status × List R × σ)} {P : σ → Prop}
    {col : Bool} {M : Mat R} {m n : Nat} (hm : 0 < m) {alpha : R} {ldb ldx : Nat}
    (hs : ∀ h b x, P h → (∀ i, i < m → i * colInc col ldb < b.length) →
      (∀ i, i < m → i * colInc col ldx < x.length) →
      ∃ x' h', solve h b x = some (.success, x', h') ∧ P h' ∧
        IsSolve M m alpha b (colInc col ldb) x (colInc col ldx) x')
    {B : List R} (hB : ∀ i j, i < m → j < n → denseOff col ldb i j < B.length)
    (hld : ∀ i j, i < m → j < n → mnr col i j < ldx) :
    ∀ (sched : List Nat) (_ : sched.Nodup) (_ : ∀ j ∈ sched, j < n) (X : List R) (h : σ) (st : Status), P h →
      (∀ i j, i < m → j < n → denseOff col ldx i j < X.length) →
      ∃ st' X' h', sched.foldlM (trsmCol solve (colOff col ldb : Int) (colOff col ldx : Int) B) (st, X, h)
          = some (st', X', h') ∧ (st = .success → st' = .success) ∧ (sched ≠ [] → st' = .success) ∧ P h' ∧
        X'.length = X.length ∧
        (∀ j ∈ sched, ∀ i, i < m → ∑ k ∈ range m, M i k * X'.getD (denseOff col ldx k j) 0
          = alpha * B.getD (denseOff col ldb i j) 0) ∧
        (∀ p, (∀ j ∈ sched, ∀ i, i < m → p ≠ denseOff col ldx i j) → X'[p]? = X[p]?) := by
  intro sched
  induction sched with
  | nil => exact fun _ _ X h st hP _ => ⟨st, X, h, rfl, id, fun h => absurd rfl h, hP, rfl, by simp, by simp⟩
  | cons j L ih =>
    intro hnd hr X h st hP hX
    obtain ⟨hjL, hnd⟩ := List.nodup_cons.mp hnd
    have hj := hr j (by simp)
    set off := j * colOff col ldx with hoff
    have hoX : off < X.length := by
      have := hX 0 j hm hj
      rw [denseOff_col] at this
      omega
    have hoB : j * colOff col ldb ≤ B.length := by
      have := hB 0 j hm hj
      rw [denseOff_col] at this
      omega
    obtain ⟨x1, h1, e1, p1, s1⟩ := hs h (B.drop (j * colOff col ldb)) (X.drop off) hP
      (by
        intro i hi
        have := hB i j hi hj
        rw [denseOff_col] at this
        rw [List.length_drop]; omega)
      (by
        intro i hi
        have := hX i j hi hj
        rw [denseOff_col] at this
        rw [List.length_drop]; omega)
    have hl1 : x1.length = X.length - off := by rw [s1.length, List.length_drop]
    have hlen : (X.take off ++ x1).length = X.length := by
      rw [List.length_append, List.length_take, hl1]; omega
    have hcell : ∀ q, (X.take off ++ x1)[off + q]? = x1[q]? := by
      intro q
      rw [List.getElem?_append_right (by simp), List.length_take, min_eq_left (by omega)]
      congr 1
      omega
    obtain ⟨st', X', h', e, -, c3, c4, c5, c6, c7⟩ := ih hnd (fun k hk => hr k (by simp [hk])) (X.take off ++ x1) h1
      .success p1 (by rw [hlen]; exact hX)
    have hstep : trsmCol solve (colOff col ldb : Int) (colOff col ldx : Int) B (st, X, h) j
        = some (.success, X.take off ++ x1, h1) := by
      unfold trsmCol
      dsimp only
      have q1 : ((j : Int) * (colOff col ldb : Int)) = ((j * colOff col ldb : Nat) : Int) := by push_cast; rfl
      have q2 : ((j : Int) * (colOff col ldx : Int)) = ((off : Nat) : Int) := by rw [hoff]; push_cast; rfl
      rw [q1, q2, ptrAt_ok hoB, ptrAt_ok (by omega)]
      simp only [Option.bind_eq_bind, Option.bind_some, e1, Int.toNat_natCast]
    have hdis : ∀ i, i < m → ∀ k ∈ L, ∀ i', i' < m → denseOff col ldx i j ≠ denseOff col ldx i' k := by
      intro i hi k hk i' hi' e
      have := (denseOff_ij_inj (hld i j hi hj) (hld i' k hi' (hr k (by simp [hk])))).mp e
      exact hjL (this.2 ▸ hk)
    have hst : st' = .success := by
      cases L with
      | nil => simp only [List.foldlM_nil, Option.pure_def, Option.some.injEq, Prod.mk.injEq] at e; exact e.1.symm
      | cons a L => exact c3 (by simp)
    refine ⟨st', X', h', ?_, fun _ => hst, fun _ => hst, c4, by rw [c5, hlen], ?_, ?_⟩
    · rw [List.foldlM_cons, hstep]
      exact e
    · intro k hk i hi
      rcases List.mem_cons.mp hk with rfl | hk
      · rw [denseOff_col col ldb, show B.getD (k * colOff col ldb + i * colInc col ldb) 0
            = (B.drop (k * colOff col ldb)).getD (i * colInc col ldb) 0 by
          rw [List.getD_eq_getElem?_getD, List.getD_eq_getElem?_getD, List.getElem?_drop], ← s1.solves i hi]
        apply sum_congr rfl
        intro q hq
        have hq := mem_range.mp hq
        congr 1
        rw [List.getD_eq_getElem?_getD, List.getD_eq_getElem?_getD, c7 _ (fun k' hk' i' hi' => hdis q hq k' hk' i' hi'),
          denseOff_col, hcell]
      · exact c6 k hk i hi
    · intro p hp
      rw [c7 p (fun k hk i hi => hp k (by simp [hk]) i hi)]
      by_cases h : p < off
      · rw [List.getElem?_append_left (by rw [List.length_take]; omega), List.getElem?_take_of_lt h]
      · obtain ⟨q, rfl⟩ : ∃ q, p = off + q := ⟨p - off, by omega⟩
        rw [hcell, s1.rest q, List.getElem?_drop]
        intro i hi e
        apply hp j (by simp) i hi
        rw [denseOff_col, e]

/-- a solve that only reports an error leaves X alone, in every order of the columns -/
theorem trsmLoop_err {σ : Type} {solve : σ → List R → List R → Option (Status × List R × σ)} {P : σ → Prop}
    {e : Status} (hs : ∀ h b x, P h → ∃ h', solve h b x = some (e, x, h') ∧ P h')
    {ob ox n : Nat} {B X : List R} (hB : ∀ j, j < n → j * ob ≤ B.length) (hX : ∀ j, j < n → j * ox ≤ X.length) :
    ∀ (sched : List Nat) (_ : ∀ j ∈ sched, j < n) (h : σ) (st : Status), P h →
      ∃ st' h', sched.foldlM (trsmCol solve (ob : Int) (ox : Int) B) (st, X, h) = some (st', X, h') ∧
        (st = e → st' = e) ∧ (sched ≠ [] → st' = e) ∧ P h' := by
  intro sched
  induction sched with
  | nil => exact fun _ h st hP => ⟨st, h, rfl, id, fun h => absurd rfl h, hP⟩
  | cons j L ih =>
    intro hr h st hP
    have hj := hr j (by simp)
    obtain ⟨h1, e1, p1⟩ := hs h (B.drop (j * ob)) (X.drop (j * ox)) hP
    obtain ⟨st', h', e2, c1, -, c3⟩ := ih (fun k hk => hr k (by simp [hk])) h1 e p1
    refine ⟨st', h', ?_, fun _ => c1 rfl, fun _ => c1 rfl, c3⟩
    rw [List.foldlM_cons]
    have hstep : trsmCol solve (ob : Int) (ox : Int) B (st, X, h) j = some (e, X, h1) := by
      unfold trsmCol
      dsimp only
      have q1 : ((j : Int) * (ob : Int)) = ((j * ob : Nat) : Int) := by push_cast; rfl
      have q2 : ((j : Int) * (ox : Int)) = ((j * ox : Nat) : Int) := by push_cast; rfl
      rw [q1, q2, ptrAt_ok (hB j hj), ptrAt_ok (hX j hj)]
      simp only [Option.bind_eq_bind, Option.bind_some, e1, Int.toNat_natCast, List.take_append_drop]
    rw [hstep]
    exact e2

end loop
end Verif
