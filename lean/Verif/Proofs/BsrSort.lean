/-
The bubble sort of the BSR blocks.
-/
import Verif.Core.Rep
import Verif.Core.Prefix
import Verif.Core.Scatter
import Verif.Model.Bsr
import Mathlib.Logic.Equiv.Basic
import Mathlib.Tactic.Ring

namespace Verif
open Model

variable {R : Type}

theorem swapCells_spec {α : Type} {a : List α} {len : Nat} {f : Nat → α} (ha : Rep a len f)
    {p q : Nat} (hp : p < len) (hq : q < len) {p' q' : Int} (hp' : p' = p) (hq' : q' = q) :
    ∃ b, swapCells a p' q' = some b ∧
      Rep b len (fun x => if x = p then f q else if x = q then f p else f x) := by
  subst hp' hq'
  unfold swapCells
  simp only [ha.rd_nat hp, ha.rd_nat hq, Option.bind_eq_bind, Option.bind_some]
  obtain ⟨b, hb, hr⟩ := ha.wr_nat (i := p) (f q) hp
  simp only [hb, Option.bind_some]
  obtain ⟨c, hc, hr'⟩ := hr.wr_nat (i := q) (f p) hq
  refine ⟨c, hc, hr'.congr (fun x _ => ?_)⟩
  by_cases hxq : x = q
  · subst hxq
    rw [Function.update_self]
    by_cases hxp : x = p
    · subst hxp; simp
    · rw [if_neg hxp, if_pos rfl]
  · rw [Function.update_of_ne hxq]
    by_cases hxp : x = p
    · subst hxp; rw [Function.update_self, if_pos rfl]
    · rw [Function.update_of_ne hxp, if_neg hxp, if_neg hxq]

/-- swapping two adjacent blocks of `Z` cells -/
theorem swapBlocks_spec {a : List R} {len Z k : Nat} {f : Nat → R} (ha : Rep a len f)
    (hk : (k + 2) * Z ≤ len) {z : Int} (hz : z = Z) :
    ∃ b, forC 0 z (fun b v => swapCells v (z * k + b) (z * ((k : Int) + 1) + b)) a = some b ∧
      ∃ g, Rep b len g ∧ ∀ l b, b < Z → g (l * Z + b) = f (Equiv.swap k (k + 1) l * Z + b) := by
  subst hz
  have e0 : (k + 1) * Z = k * Z + Z := Nat.succ_mul _ _
  have e2 : (k + 2) * Z = k * Z + Z + Z := by rw [show k + 2 = (k + 1) + 1 by rfl, Nat.succ_mul, e0]
  obtain ⟨b, hb, hr⟩ := forC_inv_nat (n := Z) (s := a)
    (f := fun b v => swapCells v ((Z : Int) * k + b) ((Z : Int) * ((k : Int) + 1) + b))
    (P := fun i s => Rep s len (fun x => if k * Z ≤ x ∧ x < k * Z + i then f (x + Z)
      else if k * Z + Z ≤ x ∧ x < k * Z + Z + i then f (x - Z) else f x))
    (ha.congr (fun x _ => by rw [if_neg (by omega), if_neg (by omega)])) (by
      intro i s hi hs
      obtain ⟨b, hb, hr⟩ := swapCells_spec hs (p := k * Z + i) (q := k * Z + Z + i) (by omega)
        (by omega) (p' := (Z : Int) * k + i) (q' := (Z : Int) * ((k : Int) + 1) + i)
        (by push_cast; ring) (by push_cast; ring)
      refine ⟨b, hb, hr.congr (fun x _ => ?_)⟩
      by_cases h1 : x = k * Z + i
      · subst h1
        rw [if_pos rfl, if_neg (by omega), if_neg (by omega), if_pos (by omega)]
        congr 1; omega
      · rw [if_neg h1]
        by_cases h2 : x = k * Z + Z + i
        · subst h2
          rw [if_pos rfl, if_neg (by omega), if_neg (by omega), if_neg (by omega), if_pos (by omega)]
          congr 1; omega
        · rw [if_neg h2]
          by_cases h3 : k * Z ≤ x ∧ x < k * Z + i
          · rw [if_pos h3, if_pos (by omega)]
          · rw [if_neg h3, if_neg (show ¬ (k * Z ≤ x ∧ x < k * Z + (i + 1)) by omega)]
            by_cases h4 : k * Z + Z ≤ x ∧ x < k * Z + Z + i
            · rw [if_pos h4, if_pos (by omega)]
            · rw [if_neg h4, if_neg (by omega)])
  refine ⟨b, hb, _, hr, ?_⟩
  intro l b hb
  by_cases hl : l = k
  · subst hl
    rw [Equiv.swap_apply_left, if_pos (by omega), e0]
    congr 1; omega
  · by_cases hl1 : l = k + 1
    · subst hl1
      rw [Equiv.swap_apply_right, e0, if_neg (by omega), if_pos (by omega)]
      congr 1; omega
    · rw [Equiv.swap_apply_of_ne_of_ne hl hl1]
      rcases Nat.lt_or_gt_of_ne hl with h | h
      · have : (l + 1) * Z ≤ k * Z := Nat.mul_le_mul_right _ h
        rw [Nat.succ_mul] at this
        rw [if_neg (by omega), if_neg (by omega)]
      · have : (k + 2) * Z ≤ l * Z := Nat.mul_le_mul_right _ (by omega)
        rw [if_neg (by omega), if_neg (by omega)]

/-- the arrays hold the original blocks, rearranged by `σ` -/
structure Arr (n1 n2 Z : Nat) (fi : Nat → Int) (fv : Nat → R) (σ : Equiv.Perm Nat)
    (s : List Int × List R) : Prop where
  ind : Rep s.1 n1 (fun k => fi (σ k))
  val : ∃ g, Rep s.2 n2 g ∧ ∀ k b, b < Z → g (k * Z + b) = fv (σ k * Z + b)

/-- block `t` dominates the earlier blocks of its block row -/
def GoodAt (lo : Nat) (c : Nat → Int) (t : Nat) : Prop := ∀ s, lo ≤ s → s ≤ t → c s ≤ c t

theorem bsrCmp_spec {n1 n2 bd : Nat} {fi : Nat → Int} {fv : Nat → R} {σ : Equiv.Perm Nat}
    {s : List Int × List R} (h : Arr n1 n2 (bd * bd) fi fv σ s) {k : Nat} (hk1 : k + 1 < n1)
    (hk2 : (k + 2) * (bd * bd) ≤ n2) :
    ∃ s', bsrCmp (bd : Int) (k : Int) s = some s' ∧
      Arr n1 n2 (bd * bd) fi fv
        (if fi (σ k) > fi (σ (k + 1)) then (Equiv.swap k (k + 1)).trans σ else σ) s' := by
  unfold bsrCmp
  have e1 := h.ind.rd_nat (i := k) (by omega)
  have e2 := h.ind.rd_nat (i := k + 1) (by omega)
  rw [show ((k + 1 : Nat) : Int) = (k : Int) + 1 by push_cast; rfl] at e2
  simp only [e1, e2, Option.bind_eq_bind, Option.bind_some]
  by_cases hc : fi (σ k) > fi (σ (k + 1))
  · rw [if_pos hc, if_pos hc]
    obtain ⟨g, hg, hgv⟩ := h.val
    obtain ⟨v, ev, g', hg', hgv'⟩ := swapBlocks_spec hg (Z := bd * bd) (k := k) hk2
      (z := (bd : Int) * bd) (by push_cast; rfl)
    obtain ⟨i, ei, hi⟩ := swapCells_spec h.ind (p := k) (q := k + 1) (by omega) (by omega)
      (p' := (k : Int)) (q' := (k : Int) + 1) rfl (by push_cast; rfl)
    simp only [ev, ei, Option.bind_some]
    refine ⟨_, rfl, hi.congr ?_, g', hg', ?_⟩
    · intro x _
      simp only [Equiv.trans_apply]
      by_cases h1 : x = k
      · subst h1; rw [if_pos rfl, Equiv.swap_apply_left]
      · rw [if_neg h1]
        by_cases h2 : x = k + 1
        · subst h2; rw [if_pos rfl, Equiv.swap_apply_right]
        · rw [if_neg h2, Equiv.swap_apply_of_ne_of_ne h1 h2]
    · intro l b hb
      rw [hgv' l b hb, hgv _ b hb]
      rfl
  · rw [if_neg hc, if_neg hc]
    exact ⟨s, rfl, h⟩

/-- the permutation moves nothing outside `[lo, hi)` -/
def FixOut (lo hi : Nat) (σ : Equiv.Perm Nat) : Prop := ∀ k, ¬ (lo ≤ k ∧ k < hi) → σ k = k

theorem FixOut.maps {lo hi : Nat} {σ : Equiv.Perm Nat} (h : FixOut lo hi σ) {k : Nat}
    (hk : lo ≤ k ∧ k < hi) : lo ≤ σ k ∧ σ k < hi := by
  by_contra hc
  have := h (σ k) hc
  have := σ.injective this
  rw [this] at hc
  exact hc hk

theorem FixOut.swap {lo hi k : Nat} {σ : Equiv.Perm Nat} (h : FixOut lo hi σ) (h1 : lo ≤ k)
    (h2 : k + 1 < hi) : FixOut lo hi ((Equiv.swap k (k + 1)).trans σ) := by
  intro x hx
  rw [Equiv.trans_apply, Equiv.swap_apply_of_ne_of_ne (by omega) (by omega), h x hx]

theorem bsrSortRow_spec {n1 n2 bd lo hi : Nat} {fi : Nat → Int} {fv : Nat → R}
    {s : List Int × List R} (h : Arr n1 n2 (bd * bd) fi fv (Equiv.refl _) s) (hle : lo ≤ hi)
    (h1 : hi ≤ n1) (h2 : hi * (bd * bd) ≤ n2) {rp : List Int} {i base : Int}
    (e1 : rd rp i = some (base + lo)) (e2 : rd rp (i + 1) = some (base + hi)) :
    ∃ s' σ, bsrSortRow base bd rp i s = some s' ∧ FixOut lo hi σ ∧
      Arr n1 n2 (bd * bd) fi fv σ s' ∧
      ∀ t, lo ≤ t → t < hi → GoodAt lo (fun k => fi (σ k)) t := by
  unfold bsrSortRow
  simp only [e1, e2, Option.bind_eq_bind, Option.bind_some, add_sub_cancel_left]
  obtain ⟨s', e, σ, g1, g2, g3⟩ := forC_inv_off (a := (lo : Int)) (b := (hi : Int)) (n := hi - lo)
    (f := fun _ s => forC (lo : Int) ((hi : Int) - 1) (bsrCmp (bd : Int)) s) (s := s)
    (P := fun p s => ∃ σ, FixOut lo hi σ ∧ Arr n1 n2 (bd * bd) fi fv σ s ∧
      ∀ t, lo ≤ t → hi - p ≤ t → t < hi → GoodAt lo (fun k => fi (σ k)) t) (by omega)
    ⟨Equiv.refl _, fun k _ => rfl, h, fun t _ _ _ => by omega⟩ (by
      rintro p s hp ⟨σ, g1, g2, g3⟩
      obtain ⟨s', e, σ', q1, q2, q3⟩ := forC_inv_off (a := (lo : Int)) (b := (hi : Int) - 1)
        (n := hi - 1 - lo) (f := bsrCmp (bd : Int)) (s := s)
        (P := fun q s => ∃ σ, FixOut lo hi σ ∧ Arr n1 n2 (bd * bd) fi fv σ s ∧
          ∀ t, lo ≤ t → t < hi → (hi - p ≤ t ∨ t = lo + q ∨ (hi - p - 1 ≤ t ∧ t ≤ lo + q)) →
            GoodAt lo (fun k => fi (σ k)) t) (by omega)
        ⟨σ, g1, g2, fun t ht ht' hor => by
          rcases hor with h | h | h
          · exact g3 t ht h ht'
          · intro s hs hs'
            have : s = t := by omega
            rw [this]
          · intro s hs hs'
            have : s = t := by omega
            rw [this]⟩ (by
          rintro q s hq ⟨σ, g1, g2, g3⟩
          have hk2 : (lo + q + 2) * (bd * bd) ≤ n2 :=
            le_trans (Nat.mul_le_mul_right _ (by omega)) h2
          obtain ⟨s', e, hA⟩ := bsrCmp_spec g2 (k := lo + q) (by omega) hk2
          rw [show ((lo + q : Nat) : Int) = (lo : Int) + q by push_cast; rfl] at e
          refine ⟨s', e, _, ?_, hA, ?_⟩
          · by_cases hc : fi (σ (lo + q)) > fi (σ (lo + q + 1))
            · rw [if_pos hc]; exact g1.swap (by omega) (by omega)
            · rw [if_neg hc]; exact g1
          · intro t ht ht' hor
            by_cases hc : fi (σ (lo + q)) > fi (σ (lo + q + 1))
            · rw [if_pos hc]
              -- a swap only happens below the sorted part
              have hlow : ¬ (hi - p ≤ lo + q + 1) := by
                intro hh
                have := g3 (lo + q + 1) (by omega) (by omega) (Or.inl hh) (lo + q) (by omega) (by omega)
                simp only at this
                omega
              have hgood := g3 (lo + q) (by omega) (by omega) (Or.inr (Or.inl rfl))
              intro x hx hxt
              simp only [Equiv.trans_apply]
              by_cases ht1 : t = lo + (q + 1)
              · subst ht1
                rw [show lo + (q + 1) = lo + q + 1 by omega, Equiv.swap_apply_right]
                by_cases hx1 : x = lo + q + 1
                · subst hx1; rw [Equiv.swap_apply_right]
                · by_cases hx2 : x = lo + q
                  · subst hx2; rw [Equiv.swap_apply_left]; omega
                  · rw [Equiv.swap_apply_of_ne_of_ne hx2 hx1]
                    exact hgood x hx (by omega)
              · have htp : hi - p ≤ t := by omega
                have hgt := g3 t ht ht' (Or.inl htp)
                rw [Equiv.swap_apply_of_ne_of_ne (x := t) (by omega) (by omega)]
                by_cases hx1 : x = lo + q + 1
                · subst hx1; rw [Equiv.swap_apply_right]; exact hgt _ (by omega) (by omega)
                · by_cases hx2 : x = lo + q
                  · subst hx2; rw [Equiv.swap_apply_left]; exact hgt _ (by omega) (by omega)
                  · rw [Equiv.swap_apply_of_ne_of_ne hx2 hx1]
                    exact hgt x hx hxt
            · rw [if_neg hc]
              by_cases ht1 : t = lo + (q + 1)
              · subst ht1
                intro x hx hxt
                by_cases hx1 : x = lo + (q + 1)
                · subst hx1; exact le_refl _
                · have := g3 (lo + q) (by omega) (by omega) (Or.inr (Or.inl rfl)) x hx (by omega)
                  simp only at this ⊢
                  rw [show lo + (q + 1) = lo + q + 1 by omega]
                  omega
              · exact g3 t ht ht' (by omega))
      refine ⟨s', e, σ', q1, q2, ?_⟩
      intro t ht hp' ht'
      refine q3 t ht ht' ?_
      omega)
  refine ⟨s', σ, e, g1, g2, ?_⟩
  intro t ht ht'
  exact g3 t ht (by omega) ht'

end Verif
