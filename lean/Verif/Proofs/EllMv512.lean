/-
Proofs about the AVX-512 ELL kernels.
-/
import Verif.Model.EllMv512
import Verif.Proofs.EllMv
import Verif.Proofs.Csrmv
import Verif.Proofs.Loop

namespace Verif
open Model Finset

variable {R : Type} [Semiring R] [DecidableEq R]

theorem storeRow8_spec {alpha beta : R} {r : Nat → R} {y : List R} {len : Nat} {f : Nat → R}
    (hy : Rep y len f) {j : Nat} (hj : j + 8 ≤ len) :
    ∃ y', storeRow8 alpha beta ((List.range 8).map r) j y = some y' ∧
      Rep y' len (fun k => if j ≤ k ∧ k < j + 8 then comb alpha beta (r (k - j)) (f k) else f k) := by
  have hscale : (if alpha ≠ 1 then ((List.range 8).map r).map (alpha * ·) else (List.range 8).map r)
      = (List.range 8).map fun l => if alpha ≠ 1 then alpha * r l else r l := by
    by_cases ha : alpha = 1
    · simp [ha]
    · simp [ha]
  unfold storeRow8
  simp only [hscale]
  by_cases hb : beta = 0
  · rw [if_neg (by simp [hb])]
    obtain ⟨b, e, rb⟩ := vstore_rep hy (p := (j : Int)) (K := 8)
      (fun l => if alpha ≠ 1 then alpha * r l else r l) (by omega) (by push_cast; omega)
    refine ⟨b, e, rb.congr ?_⟩
    intro k _
    by_cases hk : j ≤ k ∧ k < j + 8
    · rw [if_pos (by push_cast; omega), if_pos hk]
      simp [comb, hb]
    · rw [if_neg (by push_cast; omega), if_neg hk]
  · rw [if_pos hb, vload_rep hy (p := (j : Int)) (K := 8) (by omega) (by push_cast; omega),
      Option.bind_eq_bind, Option.bind_some]
    have hz : List.zipWith (fun a b => beta * a + b) ((List.range 8).map fun l => f ((j : Int).toNat + l))
        ((List.range 8).map fun l => if alpha ≠ 1 then alpha * r l else r l)
        = (List.range 8).map fun l => beta * f (j + l) + (if alpha ≠ 1 then alpha * r l else r l) := by
      rw [List.zipWith_map, List.zipWith_self]
      simp
    rw [hz]
    obtain ⟨b, e, rb⟩ := vstore_rep hy (p := (j : Int)) (K := 8)
      (fun l => beta * f (j + l) + (if alpha ≠ 1 then alpha * r l else r l)) (by omega) (by push_cast; omega)
    refine ⟨b, e, rb.congr ?_⟩
    intro k _
    by_cases hk : j ≤ k ∧ k < j + 8
    · rw [if_pos (by push_cast; omega), if_pos hk]
      simp only [comb, hb, ne_eq, not_false_iff, if_true, Int.toNat_natCast]
      rw [show j + (k - j) = k by omega, add_comm]
    · rw [if_neg (by push_cast; omega), if_neg hk]

variable {m w n : Nat} {base : Int} {pad : Nat → Int}
  {rows : Nat → List (Int × R)} {ec : List Int} {ev x : List R}

theorem elltmvAvx512_spec (hc : EllContent m w (fun i t => t * m + i) base pad rows ec ev)
    (hx : n ≤ x.length) (hr : ∀ i, i < m → ∀ e ∈ rows i, 0 ≤ e.1 ∧ e.1 < n)
    (hp : ∀ i, i < m → (rows i).length < w → 0 ≤ pad i - base ∧ pad i - base < n)
    {alpha beta : R} {y : List R} {len : Nat} {f : Nat → R} (hy : Rep y len f) (hm : m ≤ len) :
    ∃ y', elltmvAvx512 alpha m ev ec w base x beta y = some y' ∧
      Rep y' len (fun k => if k < m then
        comb alpha beta (∑ t ∈ range w, rowF (rows k) x t) (f k) else f k) := by
  unfold elltmvAvx512
  have e1 : ((m : Int)).tdiv 8 = ((m / 8 : Nat) : Int) := by
    rw [Int.tdiv_eq_ediv_of_nonneg (by omega)]; omega
  rw [e1]
  obtain ⟨y1, h1, h2⟩ := forC_inv_nat (n := m / 8) (f := elltGroup8 alpha m ev ec w base x beta) (s := y)
    (P := fun g y => Rep y len (fun k => if k < 8 * g then
      comb alpha beta (∑ t ∈ range w, rowF (rows k) x t) (f k) else f k))
    (hy.congr fun k _ => by rw [if_neg (by omega)]) (by
      intro g y hg hy
      unfold elltGroup8
      obtain ⟨v, e2, r2⟩ := forC_inv_nat (n := w)
        (f := fun i v => elltFma8 ec ev x base ((g : Int) * 8 + i * m) v) (s := List.replicate 8 (0 : R))
        (P := fun k v => v = (List.range 8).map fun l => ∑ t ∈ range k, rowF (rows (8 * g + l)) x t)
        (by simp) (by
          rintro t v ht rfl
          refine ⟨_, ?_, rfl⟩
          unfold elltFma8
          choose! c vv xv q1 q2 q3 q4 using fun (l : Nat) (hl : l < 8) =>
            term_elim (content_term_pad hc hx hr hp (i := 8 * g + l) (t := t) (by omega) ht)
          have hL : lanesAt 8 ec ev x base ((g : Int) * 8 + (t : Int) * m)
              = some ((List.range 8).map fun l => (vv l, xv l)) := by
            apply mapM_range_some
            intro l hl
            have hpos : (g : Int) * 8 + (t : Int) * m + (l : Int) = ((t * m + (8 * g + l) : Nat) : Int) := by
              push_cast; ring
            rw [hpos, q1 l hl, q2 l hl]
            simp only [Option.bind_eq_bind, Option.bind_some]
            rw [q3 l hl]; rfl
          rw [hL, Option.bind_eq_bind, Option.bind_some, List.zipWith_map, List.zipWith_self]
          congr 1
          apply List.map_congr_left
          intro l hl
          dsimp only
          rw [q4 l (List.mem_range.1 hl), sum_range_succ, add_comm])
      rw [e2, Option.bind_eq_bind, Option.bind_some, r2]
      obtain ⟨y', e3, r3⟩ := storeRow8_spec (alpha := alpha) (beta := beta)
        (r := fun l => ∑ t ∈ range w, rowF (rows (8 * g + l)) x t) hy (j := 8 * g) (by omega)
      rw [show (g : Int) * 8 = ((8 * g : Nat) : Int) by push_cast; ring]
      refine ⟨y', e3, r3.congr ?_⟩
      intro k _
      by_cases hk : 8 * g ≤ k ∧ k < 8 * g + 8
      · rw [if_pos hk, if_neg (by omega), if_pos (by omega), show 8 * g + (k - 8 * g) = k by omega]
      · rw [if_neg hk]
        by_cases hk2 : k < 8 * g
        · rw [if_pos hk2, if_pos (by omega)]
        · rw [if_neg hk2, if_neg (by omega)])
  rw [h1]
  simp only [Option.bind_eq_bind, Option.bind_some]
  rw [show ((m / 8 : Nat) : Int) * 8 = ((8 * (m / 8) : Nat) : Int) by push_cast; ring]
  obtain ⟨y2, g1, g2⟩ := rows_spec' h2 hm (lo := 8 * (m / 8)) (by omega)
    (fun k => comb alpha beta (∑ t ∈ range w, rowF (rows k) x t))
    (fun j y => (elltRow m w base ec ev x j).bind fun r => storeRow alpha beta r j y) (by
      intro i y f hi hy
      rw [elltRow_spec hc hx hr hp hi]
      exact storeRow_spec hy (by omega))
  refine ⟨y2, g1, g2.congr ?_⟩
  intro k _
  by_cases hk : k < 8 * (m / 8)
  · rw [if_neg (by omega), if_pos hk, if_pos (by omega)]
  · by_cases hk2 : k < m
    · rw [if_pos (by omega), if_neg hk, if_pos hk2]
    · rw [if_neg (by omega), if_neg hk, if_neg hk2]

theorem ellthybmvAvx512_spec {A : Csr R} (h : A.WF) {w : Nat} {pad : Nat → Int} {ec : List Int}
    {ev x : List R}
    (hc : EllContent A.m w (fun i t => t * A.m + i) A.base pad (hybRow A w) ec ev)
    (hx : A.n ≤ x.length)
    (hp : ∀ i, i < A.m → (hybRow A w i).length < w → 0 ≤ pad i - A.base ∧ pad i - A.base < A.n)
    {alpha beta : R} {y : List R} {len : Nat} {f : Nat → R} (hy : Rep y len f) (hm : A.m ≤ len)
    (rest : List Int) :
    ∃ y', ellthybmvAvx512 alpha A.m ev ec w ((A.m : Int) - ((longRows A w A.m).length : Int))
        A.val A.ptr A.ind ((longRows A w A.m).map (fun (k : Nat) => (k : Int)) ++ rest) A.base
        x beta y = some y' ∧
      Rep y' len (fun k => if k < A.m then comb alpha beta (rowDot A x k) (f k) else f k) :=
  hybMv_spec h hy hm (elltmvAvx512_spec hc hx (hyb_range h w) hp hy hm)
    (fun _ hi => gnDot_row (k := .avx512) trivial h hx hi) rest

end Verif
