/-
Bridges from index loops to folds over stored entries; vector block loops.
-/
import Verif.Proofs.CsrLemmas
import Verif.Core.Scatter
import Verif.Core.Rep
import Verif.Model.VecOps
import Verif.Proofs.Csrmv

namespace Verif
open Model

variable {R σ : Type}

namespace Csr
variable {A : Csr R}

/-- a loop over the positions of row `i` is a fold over the row, whatever the order in which the
body reads the two arrays -/
theorem forC_row' (h : A.WF) {i : Nat} (hi : i < A.m) {F : Int → σ → Option σ}
    {G : Int → R → σ → Option σ}
    (hF : ∀ (j : Int) c v s, rd A.ind j = some (c + A.base) → rd A.val j = some v →
      (c, v) ∈ A.row i → F j s = G c v s) (s : σ) :
    forC (A.p i - A.base) (A.p (i + 1) - A.base) F s
      = (A.row i).foldlM (fun s e => G e.1 e.2 s) s := by
  have hm := h.mono (i := i) (j := i + 1) (by omega) (by omega)
  rw [← Csr.forC_row h hi (fun c v s => G c v s)]
  apply forC_congr
  intro j s h1 h2
  obtain ⟨t, rfl⟩ : ∃ t : Nat, j = A.p i - A.base + t := ⟨(j - (A.p i - A.base)).toNat, by omega⟩
  obtain ⟨c, v, e1, e2, e3⟩ := Csr.row_getElem? h hi (t := t) (by omega)
  simp only [e1, e2, Option.bind_eq_bind, Option.bind_some]
  exact hF _ _ _ _ (by rw [e1]; congr 1; omega) e2 (List.mem_of_getElem? e3)

/-- the double loop over rows and positions is a fold over the entries -/
theorem forC_entries (h : A.WF) {F : Int → Int → σ → Option σ}
    {G : Nat × Int × R → σ → Option σ}
    (hF : ∀ (i : Nat) (j : Int) c v s, i < A.m → rd A.ind j = some (c + A.base) →
      rd A.val j = some v → (c, v) ∈ A.row i → F i j s = G (i, c, v) s) (s : σ) :
    forC 0 (A.m : Int) (fun i s => do
      let b ← rd A.ptr i
      let e ← rd A.ptr (i + 1)
      forC (b - A.base) (e - A.base) (F i) s) s
      = A.entries.foldlM (fun s e => G e s) s := by
  rw [forC_eq_foldlM, Csr.entries, foldlM_flatMap']
  apply foldlM_congr'
  intro s i hi
  have hi : i < A.m := by simpa using hi
  have e1 := h.rd_ptr (i := i) (by omega)
  have e2 := h.rd_ptr (i := i + 1) (by omega)
  rw [show ((i + 1 : Nat) : Int) = (i : Int) + 1 by omega] at e2
  rw [e1, e2]
  simp only [Option.bind_eq_bind, Option.bind_some]
  rw [foldlM_map']
  exact Csr.forC_row' h hi (G := fun c v s => G (i, c, v) s)
    (fun j c v s h1 h2 h3 => hF i j c v s hi h1 h2 h3) s

end Csr

/-! ### vector loads and stores -/

theorem vload_rep {a : List R} {len : Nat} {f : Nat → R} (ha : Rep a len f) {p : Int} {K : Nat}
    (h0 : 0 ≤ p) (h1 : p + K ≤ len) :
    vload a p K = some ((List.range K).map fun l => f (p.toNat + l)) := by
  apply mapM_range_some
  intro l hl
  rw [ha.rd (by omega) (by omega)]
  congr 2
  omega

theorem vstore_rep {a : List R} {len : Nat} {f : Nat → R} (ha : Rep a len f) {p : Int} {K : Nat}
    (g : Nat → R) (h0 : 0 ≤ p) (h1 : p + K ≤ len) :
    ∃ b, vstore a p ((List.range K).map g) = some b ∧
      Rep b len (fun k => if p ≤ (k : Int) ∧ (k : Int) < p + K then g (k - p.toNat) else f k) := by
  unfold vstore
  rw [List.length_map, List.length_range]
  obtain ⟨b, hb1, hb2⟩ := forC_inv_nat (n := K) (s := a)
    (f := fun l a => do
      let x ← rd ((List.range K).map g) l
      wr a (p + l) x)
    (P := fun i b => Rep b len
      (fun k => if p ≤ (k : Int) ∧ (k : Int) < p + i then g (k - p.toNat) else f k))
    (ha.congr (fun k _ => by rw [if_neg (by omega)])) (by
      intro i s hi hs
      have e : rd ((List.range K).map g) (i : Int) = some (g i) := by
        rw [rd_ofNat]; simp [hi]
      simp only [e, Option.bind_eq_bind, Option.bind_some]
      obtain ⟨b, hb, hr⟩ := hs.wr (i := p + i) (g i) (by omega) (by omega)
      refine ⟨b, hb, hr.congr ?_⟩
      intro k hk
      by_cases hki : k = (p + i).toNat
      · subst hki
        rw [Function.update_self, if_pos (by omega)]
        congr 1
        omega
      · rw [Function.update_of_ne hki]
        by_cases hc : p ≤ (k : Int) ∧ (k : Int) < p + i
        · rw [if_pos hc, if_pos (by push_cast; omega)]
        · rw [if_neg hc, if_neg (by push_cast; omega)])
  exact ⟨b, hb1, hb2⟩

theorem whileBlk_inv {K : Nat} {lo e : Int} {f : Int → σ → Option σ} {P : Int → σ → Prop}
    (hstep : ∀ i s, lo ≤ i → i + K ≤ e → P i s → ∃ s', f i s = some s' ∧ P (i + K) s') :
    ∀ n i s, lo ≤ i → P i s → ∃ i' s', whileBlk K e f n i s = some (i', s') ∧ P i' s' ∧ i ≤ i' ∧
      (i ≤ e → i' ≤ e) ∧ (e < i → i' = i) := by
  intro n
  induction n with
  | zero => intro i s _ hp; exact ⟨i, s, rfl, hp, le_refl _, id, fun _ => rfl⟩
  | succ n ih =>
    intro i s hlo hp
    unfold whileBlk
    by_cases hc : i + (K : Int) ≤ e
    · rw [if_pos hc]
      obtain ⟨s', h1, h2⟩ := hstep i s hlo hc hp
      obtain ⟨i2, s2, e1, e2, e3, e4, e5⟩ := ih (i + K) s' (by omega) h2
      exact ⟨i2, s2, by rw [h1, Option.bind_some, e1], e2, by omega, fun _ => e4 hc,
        fun h => by omega⟩
    · rw [if_neg hc]
      exact ⟨i, s, rfl, hp, le_refl _, id, fun _ => rfl⟩

theorem whileFrom_inv {K : Nat} {lo e : Int} {f : Int → σ → Option σ} {P : Int → σ → Prop} {s : σ}
    (h0 : P lo s)
    (hstep : ∀ i s, lo ≤ i → i + K ≤ e → P i s → ∃ s', f i s = some s' ∧ P (i + K) s') :
    ∃ i' s', whileFrom K lo e f s = some (i', s') ∧ P i' s' ∧ lo ≤ i' ∧ (lo ≤ e → i' ≤ e) ∧
      (e < lo → i' = lo) :=
  whileBlk_inv hstep _ lo s (le_refl _) h0

end Verif
