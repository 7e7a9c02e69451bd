/-
Computations that add something to each cell of the result vector.
-/
import Verif.Proofs.Csrmv
import Verif.Model.CplxVec

namespace Verif
open Model Finset

variable {R : Type}

/-! ### complex registers -/

section
variable {S : Type} [CommRing S]

theorem zip_c_sum : ∀ (L : List (Cx S × Cx S)) (v : List (S × S)), L.length = v.length →
    ((List.zipWith (fun ab c => (ab.1.re * ab.2.re + c.1, ab.1.im * ab.2.im + c.2)) L v).map
      fun c => c.1 + -c.2).sum
      = (v.map fun c => c.1 + -c.2).sum + ((L.map fun ab : Cx S × Cx S => ab.1 * ab.2).sum).re
  | [], [], _ => by simp
  | a :: L, c :: v, h => by
    simp only [List.zipWith_cons_cons, List.sum_cons, List.map_cons, QuadraticAlgebra.re_add,
      QuadraticAlgebra.re_mul]
    rw [zip_c_sum L v (by simpa using h)]
    ring
  | [], _ :: _, h => by simp at h
  | _ :: _, [], h => by simp at h

theorem zip_d_sum : ∀ (L : List (Cx S × Cx S)) (v : List (S × S)), L.length = v.length →
    ((List.zipWith (fun ab d => (ab.1.re * ab.2.im + d.1, ab.1.im * ab.2.re + d.2)) L v).map
      fun d => d.1 + d.2).sum
      = (v.map fun d => d.1 + d.2).sum + ((L.map fun ab : Cx S × Cx S => ab.1 * ab.2).sum).im
  | [], [], _ => by simp
  | a :: L, c :: v, h => by
    simp only [List.zipWith_cons_cons, List.sum_cons, List.map_cons, QuadraticAlgebra.im_add,
      QuadraticAlgebra.im_mul]
    rw [zip_d_sum L v (by simpa using h)]
    ring
  | [], _ :: _, h => by simp at h
  | _ :: _, [], h => by simp at h

/-- the complex registers accumulate the complex products -/
theorem vecCplx_ok [DecidableEq S] {K : Nat} (hK : 0 < K) : (vecCplx (S := S) K).Ok K := by
  refine ⟨hK, fun s => s.1.length = K ∧ s.2.length = K, by simp [vecCplx], ?_, ?_⟩
  · ext <;> simp [vecCplx]
  · intro L (s : List (S × S) × List (S × S)) hL (hs : s.1.length = K ∧ s.2.length = K)
    refine ⟨⟨?_, ?_⟩, ?_⟩
    · simp only [vecCplx, List.length_zipWith, hL, hs.1, min_self]
    · simp only [vecCplx, List.length_zipWith, hL, hs.2, min_self]
    · ext
      · simp only [vecCplx, QuadraticAlgebra.re_add]
        rw [zip_c_sum L s.1 (by rw [hL, hs.1])]
      · simp only [vecCplx, QuadraticAlgebra.im_add]
        rw [zip_d_sum L s.2 (by rw [hL, hs.2])]

end

/-! ### additive computations -/

/-- `body` runs without undefined behaviour on every array of `len` cells and adds `D k` to
cell `k` -/
def Adds [Add R] (len : Nat) (body : List R → Option (List R)) (D : Nat → R) : Prop :=
  ∀ y f, Rep y len f → ∃ y', body y = some y' ∧ Rep y' len (fun k => f k + D k)

section
variable [AddCommMonoid R]

theorem Adds.congr {len : Nat} {body body' : List R → Option (List R)} {D D' : Nat → R}
    (h : Adds len body D) (hb : ∀ y, body' y = body y) (hD : ∀ k, k < len → D' k = D k) :
    Adds len body' D' := by
  intro y f hy
  obtain ⟨y', h1, h2⟩ := h y f hy
  exact ⟨y', by rw [hb, h1], h2.congr (fun k hk => by rw [hD k hk])⟩

theorem adds_id (len : Nat) : Adds (R := R) len some (fun _ => 0) :=
  fun y f hy => ⟨y, rfl, hy.congr (fun k _ => (add_zero _).symm)⟩

theorem Adds.comp {len : Nat} {b1 b2 : List R → Option (List R)} {D1 D2 : Nat → R}
    (h1 : Adds len b1 D1) (h2 : Adds len b2 D2) :
    Adds len (fun y => (b1 y).bind b2) (fun k => D1 k + D2 k) := by
  intro y f hy
  obtain ⟨y1, e1, r1⟩ := h1 y f hy
  obtain ⟨y2, e2, r2⟩ := h2 y1 _ r1
  exact ⟨y2, by simp [e1, e2], r2.congr (fun k _ => add_assoc _ _ _)⟩

theorem adds_addAt {len : Nat} {i : Int} (h0 : 0 ≤ i) (h1 : i < len) (v : R) :
    Adds len (fun y => addAt y i v) (fun k => if (k : Int) = i then v else 0) := by
  intro y f hy
  simp only [addAt, hy.rd h0 h1, Option.bind_eq_bind, Option.bind_some]
  obtain ⟨b, hb, hr⟩ := hy.wr (f i.toNat + v) h0 h1
  refine ⟨b, hb, hr.congr ?_⟩
  intro k _
  by_cases hk : k = i.toNat
  · subst hk
    rw [Function.update_self, if_pos (by omega)]
  · rw [Function.update_of_ne hk, if_neg (by omega), add_zero]

theorem adds_forC {len n : Nat} {body : Int → List R → Option (List R)} {D : Nat → Nat → R}
    (h : ∀ i : Nat, i < n → Adds len (body i) (D i)) :
    Adds len (forC 0 (n : Int) body) (fun k => ∑ i ∈ range n, D i k) := by
  intro y f hy
  refine forC_inv_nat (P := fun i s => Rep s len (fun k => f k + ∑ t ∈ range i, D t k))
    (hy.congr (by simp)) ?_
  intro i s hi hs
  obtain ⟨y', e, r⟩ := h i hi s _ hs
  exact ⟨y', e, r.congr (fun k _ => by rw [sum_range_succ, add_assoc])⟩

theorem adds_forC' {len : Nat} {lo hi : Int} {n : Nat} (hhi : hi = lo + n)
    {body : Int → List R → Option (List R)} {D : Nat → Nat → R}
    (h : ∀ i : Nat, i < n → Adds len (body (lo + i)) (D i)) :
    Adds len (forC lo hi body) (fun k => ∑ i ∈ range n, D i k) := by
  intro y f hy
  obtain ⟨s, h1, i, h2, h3⟩ := forC_inv (lo := lo) (hi := hi) (f := body) (s := y)
    (P := fun j s => ∃ i : Nat, j = lo + i ∧ Rep s len (fun k => f k + ∑ t ∈ range i, D t k))
    (by omega) ⟨0, by simp, hy.congr (by simp)⟩ (by
      rintro j s h1 h2 ⟨i, rfl, hs⟩
      obtain ⟨y', e, r⟩ := h i (by omega) s _ hs
      exact ⟨y', e, i + 1, by push_cast; ring,
        r.congr (fun k _ => by rw [sum_range_succ, add_assoc])⟩)
  have : i = n := by omega
  subst this
  exact ⟨s, h1, h3⟩

theorem adds_forS {len : Nat} {lo hi : Int} {K n : Nat} (hK : 0 < K) (hhi : hi = lo + (K * n : Nat))
    {body : Int → List R → Option (List R)} {D : Nat → Nat → R}
    (h : ∀ i : Nat, i < n → Adds len (body (lo + (K * i : Nat))) (D i)) :
    Adds len (forS lo hi K body) (fun k => ∑ i ∈ range n, D i k) := by
  intro y f hy
  refine forS_inv hK hhi (P := fun i s => Rep s len (fun k => f k + ∑ t ∈ range i, D t k))
    (hy.congr (by simp)) ?_
  intro i s hi hs
  obtain ⟨y', e, r⟩ := h i hi s _ hs
  exact ⟨y', e, r.congr (fun k _ => by rw [sum_range_succ, add_assoc])⟩

theorem adds_foldlM {α : Type} {len : Nat} {body : List R → α → Option (List R)} {D : α → Nat → R}
    {L : List α} (h : ∀ a ∈ L, Adds len (fun y => body y a) (D a)) :
    Adds len (L.foldlM body) (fun k => (L.map fun a => D a k).sum) := by
  induction L with
  | nil => exact (adds_id len).congr (fun _ => rfl) (by simp)
  | cons a L ih =>
    refine ((h a (by simp)).comp (ih (fun b hb => h b (by simp [hb])))).congr ?_ ?_
    · intro y; rw [List.foldlM_cons]; rfl
    · intro k _; simp

end

/-! ### scaling -/

/-- what `scaleY` does to one element -/
def sc [Zero R] [One R] [Mul R] [DecidableEq R] (beta v : R) : R :=
  if beta = 0 then 0 else if beta ≠ 1 then beta * v else v

theorem sc_eq [Semiring R] [DecidableEq R] (beta v : R) : sc beta v = beta * v := by
  unfold sc
  by_cases h0 : beta = 0
  · simp [h0]
  · by_cases h1 : beta = 1
    · simp only [h0, if_false, h1, ne_eq, not_true, one_mul]
      by_cases h2 : (1 : R) = 0
      · exact absurd (h1.trans h2) h0
      · simp [h2]
    · simp [h0, h1]

theorem sc_zero [Zero R] [One R] [Mul R] [DecidableEq R] (v w : R) : sc 0 v = sc 0 w := by
  simp [sc]

theorem scaleY_spec [Zero R] [One R] [Add R] [Mul R] [DecidableEq R] {beta : R} {n len : Nat}
    {y : List R} {f : Nat → R} (hy : Rep y len f) (hn : n ≤ len) :
    ∃ y', scaleY beta (n : Int) y = some y' ∧
      Rep y' len (fun k => if k < n then sc beta (f k) else f k) := by
  unfold scaleY sc
  by_cases h0 : beta = 0
  · simp only [h0, if_true]
    exact rows_spec hy hn (fun _ _ => 0) _ (fun i y f hi hy => hy.wr_nat _ (by omega))
  · by_cases h1 : beta = 1
    · simp only [h0, h1, if_false, ne_eq, not_true]
      by_cases h2 : (1 : R) = 0
      · exact absurd (h1.trans h2) h0
      · simp only [h2, if_false]
        exact ⟨y, rfl, hy.congr (fun k _ => by split <;> rfl)⟩
    · simp only [h0, h1, if_false, ne_eq, not_false_iff, if_true]
      refine rows_spec hy hn (fun _ v => beta * v) _ (fun i y f hi hy => ?_)
      rw [hy.rd_nat (by omega)]
      exact hy.wr_nat _ (by omega)

/-- scaling followed by an additive computation is a matrix-vector product -/
theorem isMv_of_adds [Semiring R] [DecidableEq R] {alpha beta : R} {M : Mat R} {m n : Nat}
    {x y : List R} {body : List R → Option (List R)} {D : Nat → R} (hm : m ≤ y.length)
    (h : Adds y.length body D) (hD : ∀ k, k < m → D k = alpha * matVec M n x k)
    (hD0 : ∀ k, m ≤ k → D k = 0) :
    ∃ y', ((scaleY beta (m : Int) y).bind body) = some y' ∧ IsMv alpha beta M m n x y y' := by
  obtain ⟨y1, e1, r1⟩ := scaleY_spec (beta := beta) (Rep.of_list y 0) hm
  obtain ⟨y2, e2, r2⟩ := h y1 _ r1
  refine ⟨y2, by simp [e1, e2], r2.1, ?_, ?_⟩
  · intro i hi
    rw [r2.2 i (by omega)]
    simp only [if_pos hi, sc_eq, hD i hi]
    rw [add_comm]
  · intro i hi
    by_cases hl : i < y.length
    · rw [r2.2 i hl]
      simp only [if_neg (show ¬ i < m by omega), hD0 i hi, add_zero]
      simp [hl]
    · rw [List.getElem?_eq_none (by rw [r2.1]; omega), List.getElem?_eq_none (by omega)]

end Verif
