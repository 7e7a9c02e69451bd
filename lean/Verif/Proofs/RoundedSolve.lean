/-
Backward error of a difference of products.
-/
import Verif.Proofs.Rounding
import Verif.Proofs.RoundedTrsv2

namespace Verif
open Finset

namespace Rounding
variable {ρ : Rounding}

/-- `t` is a product of at most `n` factors `1 + δ` or `1 / (1 + δ)` -/
def Th (ρ : Rounding) (n : Nat) (t : ℝ) : Prop := (1 - ρ.u) ^ n ≤ t ∧ t * (1 - ρ.u) ^ n ≤ 1

variable (hu : ρ.u < 1)
include hu

theorem q_pos (n : Nat) : 0 < (1 - ρ.u) ^ n := pow_pos (by linarith) n

theorem q_le_one (n : Nat) : (1 - ρ.u) ^ n ≤ 1 :=
  pow_le_one₀ (by linarith) (by have := ρ.u_nonneg; linarith)

theorem Th.pos {n : Nat} {t : ℝ} (h : ρ.Th n t) : 0 < t := lt_of_lt_of_le (q_pos hu n) h.1

theorem Th.one (n : Nat) : ρ.Th n 1 := ⟨q_le_one hu n, by rw [one_mul]; exact q_le_one hu n⟩

theorem Th.mul {n k : Nat} {s t : ℝ} (h1 : ρ.Th n s) (h2 : ρ.Th k t) : ρ.Th (n + k) (s * t) := by
  refine ⟨?_, ?_⟩
  · rw [pow_add]
    exact mul_le_mul h1.1 h2.1 (q_pos hu k).le (h1.pos hu).le
  · rw [pow_add, show s * t * ((1 - ρ.u) ^ n * (1 - ρ.u) ^ k)
      = (s * (1 - ρ.u) ^ n) * (t * (1 - ρ.u) ^ k) by ring]
    exact mul_le_one₀ h1.2 (mul_nonneg (h2.pos hu).le (q_pos hu k).le) h2.2

theorem Th.mono {n k : Nat} {t : ℝ} (h : ρ.Th n t) (hk : n ≤ k) : ρ.Th k t := by
  obtain ⟨j, rfl⟩ := Nat.exists_eq_add_of_le hk
  have := h.mul hu (Th.one hu j)
  rwa [mul_one] at this

theorem Th.inv {n : Nat} {t : ℝ} (h : ρ.Th n t) : ρ.Th n t⁻¹ := by
  have ht := h.pos hu
  refine ⟨?_, ?_⟩
  · rw [le_inv_comm₀ (q_pos hu n) ht, inv_eq_one_div, le_div_iff₀ (q_pos hu n)]
    exact h.2
  · rw [inv_mul_le_iff₀ ht, mul_one]
    exact h.1

theorem Th.err {n : Nat} {t : ℝ} (h : ρ.Th n t) : |t - 1| ≤ ρ.gi n := by
  have hq := q_pos hu n
  have h1 := q_le_one hu n
  unfold gi
  rw [abs_le]
  have hle : t ≤ 1 / (1 - ρ.u) ^ n := by rw [le_div_iff₀ hq]; exact h.2
  refine ⟨?_, by linarith⟩
  have : 1 ≤ 1 / (1 - ρ.u) ^ n := by rw [le_div_iff₀ hq]; linarith
  have h2 : 2 - (1 - ρ.u) ^ n ≤ 1 / (1 - ρ.u) ^ n := by
    rw [le_div_iff₀ hq]
    nlinarith [sq_nonneg ((1 - ρ.u) ^ n - 1)]
  have := h.1
  linarith

/-- one rounding is one factor -/
theorem fl_factor (t : ℝ) : ∃ s, ρ.Th 1 s ∧ ρ.fl t = t * s := by
  have he := ρ.err t
  by_cases h0 : t = 0
  · subst h0
    simp only [sub_zero, abs_zero, mul_zero] at he
    exact ⟨1, Th.one hu 1, by rw [zero_mul]; exact abs_nonpos_iff.mp he⟩
  · refine ⟨ρ.fl t / t, ?_, by field_simp⟩
    have hd : |ρ.fl t / t - 1| ≤ ρ.u := by
      rw [show ρ.fl t / t - 1 = (ρ.fl t - t) / t by field_simp, abs_div,
        div_le_iff₀ (abs_pos.mpr h0)]
      exact he
    rw [abs_le] at hd
    have := ρ.u_nonneg
    refine ⟨by rw [pow_one]; linarith, ?_⟩
    rw [pow_one]
    nlinarith [sq_nonneg ρ.u]

end Rounding

open Rounding

variable {ρ : Rounding}

/-- the sum of the products `M`, each with a factor of `n` roundings -/
def Weighted (ρ : Rounding) (n : Nat) (M : Multiset (Fp ρ × Fp ρ)) (s : ℝ) : Prop :=
  ∃ w : Multiset ((Fp ρ × Fp ρ) × ℝ), w.map Prod.fst = M ∧ (∀ p ∈ w, ρ.Th n p.2) ∧
    s = (w.map fun p => p.1.1.v * p.1.2.v * p.2).sum

theorem Weighted.zero (n : Nat) : Weighted ρ n 0 0 := ⟨0, by simp, by simp, by simp⟩

theorem Weighted.cons {n : Nat} {M : Multiset (Fp ρ × Fp ρ)} {s : ℝ} (h : Weighted ρ n M s)
    (a b : Fp ρ) {t : ℝ} (ht : ρ.Th n t) : Weighted ρ n ((a, b) ::ₘ M) (a.v * b.v * t + s) := by
  obtain ⟨w, h1, h2, h3⟩ := h
  refine ⟨((a, b), t) ::ₘ w, by simp [h1], ?_, by simp [h3]⟩
  intro p hp
  rcases Multiset.mem_cons.mp hp with rfl | hp
  · exact ht
  · exact h2 p hp

theorem Weighted.add {n : Nat} {M N : Multiset (Fp ρ × Fp ρ)} {s t : ℝ} (h : Weighted ρ n M s)
    (h' : Weighted ρ n N t) : Weighted ρ n (M + N) (s + t) := by
  obtain ⟨w, h1, h2, h3⟩ := h
  obtain ⟨w', h1', h2', h3'⟩ := h'
  refine ⟨w + w', by simp [h1, h1'], ?_, by simp [h3, h3']⟩
  intro p hp
  rcases Multiset.mem_add.mp hp with hp | hp
  · exact h2 p hp
  · exact h2' p hp

theorem Weighted.mono (hu : ρ.u < 1) {n k : Nat} {M : Multiset (Fp ρ × Fp ρ)} {s : ℝ}
    (h : Weighted ρ n M s) (hk : n ≤ k) : Weighted ρ k M s := by
  obtain ⟨w, h1, h2, h3⟩ := h
  exact ⟨w, h1, fun p hp => (h2 p hp).mono hu hk, h3⟩

theorem Weighted.scale (hu : ρ.u < 1) {n k : Nat} {M : Multiset (Fp ρ × Fp ρ)} {s t : ℝ}
    (h : Weighted ρ n M s) (ht : ρ.Th k t) : Weighted ρ (n + k) M (s * t) := by
  obtain ⟨w, h1, h2, h3⟩ := h
  refine ⟨w.map fun p => (p.1, p.2 * t), ?_, ?_, ?_⟩
  · rw [Multiset.map_map]; exact h1
  · intro p hp
    obtain ⟨q, hq, rfl⟩ := Multiset.mem_map.mp hp
    exact (h2 q hq).mul hu ht
  · rw [h3, ← Multiset.sum_map_mul_right, Multiset.map_map]
    congr 1
    apply Multiset.map_congr rfl
    intro p _
    simp only [Function.comp]
    ring

/-- a multiply-accumulate, fused or not -/
theorem mac_factor (hu : ρ.u < 1) {f : Fp ρ → Fp ρ → Fp ρ → Fp ρ} (hf : MacRounds ρ f)
    (a b c : Fp ρ) : ∃ s t, ρ.Th 1 s ∧ ρ.Th 1 t ∧ (f a b c).v = (a.v * b.v * s + c.v) * t := by
  rcases hf a b c with e | e
  · obtain ⟨t, ht, e1⟩ := fl_factor hu (a.v * b.v + c.v)
    exact ⟨1, t, Th.one hu 1, ht, by rw [e, e1, mul_one]⟩
  · obtain ⟨s, hs, e1⟩ := fl_factor hu (a.v * b.v)
    obtain ⟨t, ht, e2⟩ := fl_factor hu (ρ.fl (a.v * b.v) + c.v)
    exact ⟨s, t, hs, ht, by rw [e, e2, e1]⟩

/-- a sum of products in some order -/
theorem SumTree.weighted (hu : ρ.u < 1) {F : Fpu (Fp ρ)} (hF : F.Rounds) (t : SumTree (Fp ρ)) :
    Weighted ρ t.depth t.leaves (t.eval F).v := by
  induction t with
  | zero => exact Weighted.zero 0
  | mac vec a b s ih =>
    have hm : MacRounds ρ (if vec then F.vmac else F.smac) := by
      cases vec
      · exact hF.smac
      · exact hF.vmac
    obtain ⟨p, t, hp, ht, e⟩ := mac_factor hu hm a b (s.eval F)
    show Weighted ρ _ _ ((if vec then F.vmac else F.smac) a b (s.eval F)).v
    rw [e]
    exact ((ih.mono hu (le_max_right 1 _)).cons a b (hp.mono hu (le_max_left _ _))).scale hu ht
  | add s t ih1 ih2 =>
    obtain ⟨p, hp, e⟩ := fl_factor hu ((s.eval F).v + (t.eval F).v)
    show Weighted ρ _ _ (ρ.fl ((s.eval F).v + (t.eval F).v))
    rw [e]
    exact ((ih1.mono hu (le_max_left _ _)).add (ih2.mono hu (le_max_right _ _))).scale hu hp

/-- a difference of products in some order -/
theorem DiffTree.weighted (hu : ρ.u < 1) {F : SolveFpu (Fp ρ)} (hF : F.Rounds)
    (t : DiffTree (Fp ρ)) :
    ∃ p s, ρ.Th t.size p ∧ Weighted ρ t.size t.leaves s ∧
      (t.eval F).v = p * (t.from'.1.v * t.from'.2.v - s) := by
  induction t with
  | start al b =>
    obtain ⟨p, hp, e⟩ := fl_factor hu (al.v * b.v)
    refine ⟨p, 0, hp, Weighted.zero 1, ?_⟩
    show ρ.fl (al.v * b.v) = _
    rw [e]
    simp only [DiffTree.from']
    ring
  | sub a x s ih =>
    obtain ⟨p, w, hp, hw, e⟩ := ih
    have hp0 := (hp.pos hu).ne'
    have : ∃ f t, ρ.Th 1 f ∧ ρ.Th 1 t ∧
        (F.msub a x (s.eval F)).v = ((s.eval F).v - a.v * x.v * f) * t := by
      rcases hF.msub a x (s.eval F) with h | h
      · obtain ⟨t, ht, e1⟩ := fl_factor hu ((s.eval F).v - a.v * x.v)
        exact ⟨1, t, Th.one hu 1, ht, by rw [h, e1, mul_one]⟩
      · obtain ⟨f, hf, e1⟩ := fl_factor hu (a.v * x.v)
        obtain ⟨t, ht, e2⟩ := fl_factor hu ((s.eval F).v - ρ.fl (a.v * x.v))
        exact ⟨f, t, hf, ht, by rw [h, e2, e1]⟩
    obtain ⟨f, t, hf, ht, e1⟩ := this
    refine ⟨p * t, a.v * x.v * (p⁻¹ * f) + w, hp.mul hu ht,
      (hw.mono hu (Nat.le_succ _)).cons a x ((hp.inv hu).mul hu hf), ?_⟩
    show (F.msub a x (s.eval F)).v = _
    rw [e1, e]
    simp only [DiffTree.from']
    field_simp
    ring
  | vsub a x s ih =>
    obtain ⟨p, w, hp, hw, e⟩ := ih
    have hp0 := (hp.pos hu).ne'
    obtain ⟨f, t, hf, ht, e1⟩ := mac_factor hu hF.mac.vmac a (-x) (s.eval F)
    refine ⟨p * t, a.v * x.v * (p⁻¹ * f) + w, hp.mul hu ht,
      (hw.mono hu (Nat.le_succ _)).cons a x ((hp.inv hu).mul hu hf), ?_⟩
    show (F.vmac a (-x) (s.eval F)).v = _
    rw [e1, e, show (-x).v = -x.v from rfl]
    simp only [DiffTree.from']
    field_simp
    ring
  | minus s t ih =>
    obtain ⟨p, w, hp, hw, e⟩ := ih
    have hp0 := (hp.pos hu).ne'
    obtain ⟨f, hf, e1⟩ := fl_factor hu ((s.eval F).v - (t.eval F.toFpu).v)
    have ht := (t.weighted hu hF.mac).scale hu (hp.inv hu)
    refine ⟨p * f, (t.eval F.toFpu).v * p⁻¹ + w,
      (hp.mul hu hf).mono hu (by simp only [DiffTree.size]; omega),
      (ht.mono hu (by simp only [DiffTree.size]; omega)).add
        (hw.mono hu (by simp only [DiffTree.size]; omega)), ?_⟩
    show ρ.fl ((s.eval F).v - (t.eval F.toFpu).v) = _
    rw [e1, e]
    simp only [DiffTree.from']
    field_simp
    ring

/-- removing a product of two zeros -/
theorem Weighted.drop {n : Nat} {M : Multiset (Fp ρ × Fp ρ)} {s : ℝ} {p : Fp ρ × Fp ρ}
    (h : Weighted ρ n (p ::ₘ M) s) : ∃ t s', ρ.Th n t ∧ Weighted ρ n M s' ∧
      s = p.1.v * p.2.v * t + s' := by
  classical
  obtain ⟨w, h1, h2, h3⟩ := h
  obtain ⟨q, hq, e1, e2⟩ := (Multiset.map_eq_cons _ _ _ _).mpr h1
  refine ⟨q.2, _, h2 q hq, ⟨w.erase q, e2, fun r hr => h2 r (Multiset.mem_of_mem_erase hr), rfl⟩, ?_⟩
  rw [h3]
  conv_lhs => rw [← Multiset.cons_erase hq]
  rw [Multiset.map_cons, Multiset.sum_cons, e1]

/-- a perturbed row: every entry has its own factor -/
theorem Weighted.row {n : Nat} {S : List (Int × Fp ρ)} {g : Nat → Fp ρ} {s : ℝ}
    (h : Weighted ρ n (prodsOf S g) s) : ∃ S' : List (Int × ℝ),
      List.Forall₂ (fun e e' => e'.1 = e.1 ∧ ∃ t, ρ.Th n t ∧ e'.2 = e.2.v * t) S S' ∧
      s = (S'.map fun e => e.2 * (g e.1.toNat).v).sum := by
  induction S generalizing s with
  | nil =>
    obtain ⟨w, h1, h2, h3⟩ := h
    have : w = 0 := by
      rw [show prodsOf ([] : List (Int × Fp ρ)) g = 0 from rfl] at h1
      exact Multiset.map_eq_zero.mp h1
    subst this
    exact ⟨[], .nil, by simpa using h3⟩
  | cons e S ih =>
    obtain ⟨t, s', ht, h1, h2⟩ := Weighted.drop (p := (e.2, g e.1.toNat)) (M := prodsOf S g) h
    obtain ⟨S', h3, h4⟩ := ih h1
    refine ⟨(e.1, e.2.v * t) :: S', .cons ⟨rfl, t, ht, rfl⟩ h3, ?_⟩
    rw [List.map_cons, List.sum_cons, ← h4, h2]
    ring

theorem Weighted.zeros {n z : Nat} {M : Multiset (Fp ρ × Fp ρ)} {s : ℝ}
    (h : Weighted ρ n (M + Multiset.replicate z (0, 0)) s) : Weighted ρ n M s := by
  induction z generalizing s with
  | zero => simpa using h
  | succ z ih =>
    rw [Multiset.replicate_succ, Multiset.add_cons] at h
    obtain ⟨t, s', _, h1, h2⟩ := h.drop
    rw [show ((0 : Fp ρ), (0 : Fp ρ)).1.v = 0 from rfl, zero_mul, zero_mul, zero_add] at h2
    exact ih (h2 ▸ h1)

/-- the entries of a perturbed row are close -/
theorem forall₂_colSum (hu : ρ.u < 1) {n : Nat} {S : List (Int × Fp ρ)} {S' : List (Int × ℝ)}
    (h : List.Forall₂ (fun e e' => e'.1 = e.1 ∧ ∃ t, ρ.Th n t ∧ e'.2 = e.2.v * t) S S') (j : Nat) :
    |colSum S' j - colSum (S.map fun e => (e.1, e.2.v)) j|
      ≤ ρ.gi n * colSum (S.map fun e => (e.1, |e.2.v|)) j := by
  induction h with
  | nil => simp [colSum]
  | @cons e e' S S' he _ ih =>
    obtain ⟨h1, t, ht, h2⟩ := he
    have c : ∀ (a : Int × ℝ) (T : List (Int × ℝ)), colSum (a :: T) j
        = (if a.1 = (j : Int) then a.2 else 0) + colSum T j := by
      intro a T
      unfold colSum
      by_cases ha : a.1 = (j : Int) <;> simp [ha]
    rw [List.map_cons, List.map_cons, c, c, c]
    simp only [h1]
    split
    · have e1 : e'.2 + colSum S' j - (e.2.v + colSum (S.map fun e => (e.1, e.2.v)) j)
          = e.2.v * (t - 1) + (colSum S' j - colSum (S.map fun e => (e.1, e.2.v)) j) := by
        rw [h2]; ring
      rw [e1, mul_add]
      refine (abs_add_le _ _).trans (add_le_add ?_ ih)
      rw [abs_mul, mul_comm]
      exact mul_le_mul_of_nonneg_right (ht.err hu) (abs_nonneg _)
    · simpa using ih

theorem gi_le (ρ : Rounding) (k : Nat) (h : k * ρ.u < 1) :
    ρ.gi k ≤ k * ρ.u / (1 - k * ρ.u) := by
  have hu := ρ.u_nonneg
  have hpos : (0 : ℝ) < 1 - k * ρ.u := by linarith
  rcases Nat.eq_zero_or_pos k with rfl | hk
  · simp [Rounding.gi]
  have hu1 : ρ.u < 1 := by
    have : (1 : ℝ) ≤ k := by exact_mod_cast hk
    nlinarith
  have b1 : 1 - k * ρ.u ≤ (1 - ρ.u) ^ k := by
    have := one_add_mul_le_pow (a := -ρ.u) (by linarith) k
    rw [mul_neg, ← sub_eq_add_neg, ← sub_eq_add_neg] at this
    exact this
  unfold Rounding.gi
  have b2 : 1 / (1 - ρ.u) ^ k ≤ 1 / (1 - k * ρ.u) := one_div_le_one_div_of_le hpos b1
  have b3 : 1 / (1 - k * ρ.u) - 1 = k * ρ.u / (1 - k * ρ.u) := by field_simp; ring
  linarith

end Verif
