/-
Incomplete factorisation: the factorisation loop in terms of positions in the arrays.
-/
import Verif.Model.Ilu
import Verif.Core.Rep
import Verif.Core.Prefix
import Verif.Proofs.Trsv
import Mathlib.Algebra.BigOperators.Ring.Finset
import Mathlib.Algebra.Field.Basic
import Mathlib.Algebra.BigOperators.Intervals
import Mathlib.Algebra.Order.Interval.Finset.SuccPred
import Mathlib.Tactic.Ring
import Mathlib.Tactic.LinearCombination

namespace Verif
open Model Finset

/-- The pattern of the arrays: row `i` is stored at positions `o i .. o (i + 1)`, position `q` holds
column `col q`, `dg i` is the position of the diagonal; the columns before it ascend. -/
structure IluPat (n nnz : Nat) (o col dg : Nat → Nat) : Prop where
  zero : o 0 = 0
  mono : ∀ i, i < n → o i ≤ o (i + 1)
  last : o n = nnz
  rng : ∀ i q, i < n → o i ≤ q → q < o (i + 1) → col q < n
  dgl : ∀ i, i < n → o i ≤ dg i
  dgr : ∀ i, i < n → dg i < o (i + 1)
  dgc : ∀ i, i < n → col (dg i) = i
  low : ∀ i q q', i < n → o i ≤ q → q < q' → q' ≤ dg i → col q < col q'
  up : ∀ i q, i < n → dg i < q → q < o (i + 1) → i < col q
  inj : ∀ i q q', i < n → o i ≤ q → q < o (i + 1) → o i ≤ q' → q' < o (i + 1) → col q = col q' → q = q'

/-- the arrays hold the pattern -/
structure IluArr (n nnz : Nat) (o col : Nat → Nat) (base : Int) (ptr ind : List Int) : Prop where
  ptr : ∀ i : Nat, i ≤ n → rd ptr (i : Int) = some (base + o i)
  ind : ∀ q : Nat, q < nnz → rd ind (q : Int) = some (base + col q)

namespace IluPat
variable {n nnz : Nat} {o col dg : Nat → Nat}

theorem le (h : IluPat n nnz o col dg) : ∀ {i j : Nat}, i ≤ j → j ≤ n → o i ≤ o j := by
  intro i j hij hj
  induction j with
  | zero => simp_all
  | succ j ih =>
    rcases Nat.lt_or_eq_of_le hij with h1 | h1
    · exact le_trans (ih (by omega) (by omega)) (h.mono j (by omega))
    · subst h1; exact le_refl _

theorem lt_nnz (h : IluPat n nnz o col dg) {i q : Nat} (hi : i < n) (hq : q < o (i + 1)) : q < nnz := by
  have := h.le (i := i + 1) (j := n) (by omega) (le_refl _)
  rw [h.last] at this
  omega

theorem low_lt (h : IluPat n nnz o col dg) {i q : Nat} (hi : i < n) (h1 : o i ≤ q) (h2 : q < dg i) :
    col q < i := by
  have := h.low i q (dg i) hi h1 h2 (le_refl _)
  rwa [h.dgc i hi] at this

end IluPat

section sums
variable {R : Type} [Field R]

/-- entry `(k, c)` strictly right of the diagonal -/
def uStrict (o col dg : Nat → Nat) (f : Nat → R) (k c : Nat) : R :=
  ∑ q ∈ Ico (dg k + 1) (o (k + 1)), if col q = c then f q else 0

/-- entry `(k, c)` of the upper triangular factor -/
def uFull (o col dg : Nat → Nat) (f : Nat → R) (k c : Nat) : R :=
  ∑ q ∈ Ico (dg k) (o (k + 1)), if col q = c then f q else 0

variable {n nnz : Nat} {o col dg : Nat → Nat}

theorem uFull_eq (h : IluPat n nnz o col dg) (f : Nat → R) {k : Nat} (hk : k < n) (c : Nat) :
    uFull o col dg f k c = (if c = k then f (dg k) else 0) + uStrict o col dg f k c := by
  unfold uFull uStrict
  rw [sum_eq_sum_Ico_succ_bot (h.dgr k hk), h.dgc k hk]
  congr 1
  by_cases hc : c = k
  · rw [if_pos hc, if_pos hc.symm]
  · rw [if_neg hc, if_neg (fun e => hc e.symm)]

theorem uStrict_zero (h : IluPat n nnz o col dg) (f : Nat → R) {k c : Nat} (hk : k < n) (hc : c ≤ k) :
    uStrict o col dg f k c = 0 := by
  unfold uStrict
  apply sum_eq_zero
  intro q hq
  rw [mem_Ico] at hq
  have := h.up k q hk (by omega) hq.2
  rw [if_neg (by omega)]

theorem uStrict_congr {f g : Nat → R} {k : Nat} (e : ∀ q, q < o (k + 1) → f q = g q) (c : Nat) :
    uStrict o col dg f k c = uStrict o col dg g k c := by
  unfold uStrict
  apply sum_congr rfl
  intro q hq
  rw [mem_Ico] at hq
  rw [e q hq.2]

theorem uFull_congr {f g : Nat → R} {k : Nat} (e : ∀ q, q < o (k + 1) → f q = g q) (c : Nat) :
    uFull o col dg f k c = uFull o col dg g k c := by
  unfold uFull
  apply sum_congr rfl
  intro q hq
  rw [mem_Ico] at hq
  rw [e q hq.2]

/-- row `r` of the product of the factors `f` agrees with `a` at its stored positions -/
def RowDone (o col dg : Nat → Nat) (a f : Nat → R) (r : Nat) : Prop :=
  ∀ q, o r ≤ q → q < o (r + 1) →
    a q = (∑ t ∈ Ico (o r) (dg r), f t * uFull o col dg f (col t) (col q)) + if q < dg r then 0 else f q

/-- row `i` after the entries before position `e` were eliminated; `f0` the values before -/
structure RowPart (o col dg : Nat → Nat) (a f0 f : Nat → R) (i e : Nat) : Prop where
  off : ∀ q, q < o i ∨ o (i + 1) ≤ q → f q = f0 q
  left : ∀ q, o i ≤ q → q < e → a q = (∑ t ∈ Ico (o i) q, f t * uStrict o col dg f0 (col t) (col q))
    + f q * f0 (dg (col q))
  right : ∀ q, e ≤ q → q < o (i + 1) → f q = a q - ∑ t ∈ Ico (o i) e, f t * uStrict o col dg f0 (col t) (col q)

theorem RowPart.done (h : IluPat n nnz o col dg) {a f0 f : Nat → R} {i : Nat} (hi : i < n)
    (hp : RowPart o col dg a f0 f i (dg i)) : RowDone o col dg a f i := by
  have hlt : ∀ t, o i ≤ t → t < dg i → col t < i := fun t h1 h2 => h.low_lt hi h1 h2
  have hsame : ∀ k, k < i → ∀ q, q < o (k + 1) → f q = f0 q := by
    intro k hk q hq
    have := h.le (i := k + 1) (j := i) (by omega) (by omega)
    exact hp.off q (.inl (by omega))
  intro q h1 h2
  by_cases hq : q < dg i
  · rw [if_pos hq, add_zero, hp.left q h1 hq]
    rw [← sum_Ico_consecutive _ h1 (le_of_lt hq), sum_eq_sum_Ico_succ_bot hq, ← add_assoc]
    have h3 : ∑ t ∈ Ico (q + 1) (dg i), f t * uFull o col dg f (col t) (col q) = 0 := by
      apply sum_eq_zero
      intro t ht
      rw [mem_Ico] at ht
      have ht1 := h.low i q t hi h1 (by omega) (by omega)
      have ht2 := hlt t (by omega) ht.2
      rw [uFull_eq h f (by omega : col t < n), if_neg (by omega), uStrict_zero h f (by omega) (by omega)]
      simp
    have h4 : ∑ t ∈ Ico (o i) q, f t * uFull o col dg f (col t) (col q)
        = ∑ t ∈ Ico (o i) q, f t * uStrict o col dg f0 (col t) (col q) := by
      apply sum_congr rfl
      intro t ht
      rw [mem_Ico] at ht
      have ht1 := h.low i t q hi ht.1 ht.2 (by omega)
      have ht2 := hlt t ht.1 (by omega)
      rw [uFull_eq h f (by omega : col t < n), if_neg (by omega), zero_add,
        uStrict_congr (hsame _ ht2)]
    have hq2 := hlt q h1 hq
    rw [h3, h4, add_zero, uFull_eq h f (by omega : col q < n), if_pos rfl,
      uStrict_zero h f (by omega) (le_refl _), add_zero,
      hsame (col q) hq2 (dg (col q)) (h.dgr _ (by omega))]
  · rw [if_neg hq, hp.right q (by omega) h2]
    have hc : i ≤ col q := by
      rcases Nat.eq_or_lt_of_le (Nat.le_of_not_lt hq) with h5 | h5
      · rw [← h5, h.dgc i hi]
      · exact le_of_lt (h.up i q hi h5 h2)
    have h4 : ∑ t ∈ Ico (o i) (dg i), f t * uFull o col dg f (col t) (col q)
        = ∑ t ∈ Ico (o i) (dg i), f t * uStrict o col dg f0 (col t) (col q) := by
      apply sum_congr rfl
      intro t ht
      rw [mem_Ico] at ht
      have ht2 := hlt t ht.1 ht.2
      rw [uFull_eq h f (by omega : col t < n), if_neg (by omega), zero_add,
        uStrict_congr (hsame _ ht2)]
    rw [h4]
    ring

theorem RowDone.congr (h : IluPat n nnz o col dg) {a f g : Nat → R} {r i : Nat} (hr : r < i) (hi : i ≤ n)
    (e : ∀ q, q < o i → f q = g q) (hd : RowDone o col dg a f r) : RowDone o col dg a g r := by
  have hle := h.le (i := r + 1) (j := i) (by omega) hi
  intro q h1 h2
  rw [hd q h1 h2, e q (by omega)]
  congr 1
  apply sum_congr rfl
  intro t ht
  rw [mem_Ico] at ht
  have := h.dgr r (by omega)
  have hc := h.low_lt (by omega) ht.1 ht.2
  have hle2 := h.le (i := col t + 1) (j := i) (by omega) hi
  rw [e t (by omega), uFull_congr (fun q hq => e q (by omega))]

end sums

/-! ### the loops -/

section loops
variable {R : Type} [Field R] {n nnz : Nat} {o col dg : Nat → Nat} {base : Int} {ptr ind : List Int}

/-- the mapper for the positions `lo .. hi` -/
def MapOk (n : Nat) (col : Nat → Nat) (lo hi : Nat) (map : List Int) : Prop :=
  ∃ mp : Nat → Int, Rep map n mp ∧ (∀ q, lo ≤ q → q < hi → mp (col q) = q) ∧
    ∀ c, c < n → (∀ q, lo ≤ q → q < hi → col q ≠ c) → mp c = 0

theorem iluMap_loop (h : IluPat n nnz o col dg) (ha : IluArr n nnz o col base ptr ind) {i : Nat}
    (hi : i < n) {map : List Int} (hm : MapOk n col (o i) (o i) map) :
    ∃ map', forC (o i : Int) (o (i + 1) : Int) (iluMap base ind) map = some map' ∧
      MapOk n col (o i) (o (i + 1)) map' := by
  have hmono := h.mono i hi
  obtain ⟨map', e, hp⟩ := forC_inv_off (a := (o i : Int)) (b := (o (i + 1) : Int)) (n := o (i + 1) - o i)
    (f := iluMap base ind) (s := map) (fun t m => MapOk n col (o i) (o i + t) m) (by omega) hm (by
      rintro t s ht ⟨mp, h1, h2, h3⟩
      have hc := h.rng i (o i + t) hi (by omega) (by omega)
      have hn := h.lt_nnz (q := o i + t) hi (by omega)
      unfold iluMap
      rw [show (o i : Int) + t = ((o i + t : Nat) : Int) by push_cast; rfl, ha.ind _ hn]
      simp only [Option.bind_eq_bind, Option.bind_some]
      rw [show base + (col (o i + t) : Int) - base = (col (o i + t) : Int) by omega]
      obtain ⟨b, e, hb⟩ := h1.wr_nat (((o i + t : Nat)) : Int) hc
      refine ⟨b, e, _, hb, ?_, ?_⟩
      · intro q hq1 hq2
        by_cases hq : q = o i + t
        · subst hq; simp
        · have : col q ≠ col (o i + t) := fun hcq =>
            hq (h.inj i _ _ hi hq1 (by omega) (by omega) (by omega) hcq)
          rw [Function.update_of_ne this]
          exact h2 q hq1 (by omega)
      · intro c hc' hcq
        rw [Function.update_of_ne (fun e => hcq (o i + t) (by omega) (by omega) e.symm)]
        exact h3 c hc' (fun q h4 h5 => hcq q h4 (by omega)))
  rw [show o i + (o (i + 1) - o i) = o (i + 1) by omega] at hp
  exact ⟨map', e, hp⟩

theorem iluUnmap_loop (h : IluPat n nnz o col dg) (ha : IluArr n nnz o col base ptr ind) {i : Nat}
    (hi : i < n) {map : List Int} (hm : MapOk n col (o i) (o (i + 1)) map) :
    ∃ map', forC (o i : Int) (o (i + 1) : Int) (iluUnmap base ind) map = some map' ∧
      Rep map' n (fun _ => 0) := by
  have hmono := h.mono i hi
  obtain ⟨mp, k1, k2, k3⟩ := hm
  obtain ⟨map', e, mp', h1, h2⟩ := forC_inv_off (a := (o i : Int)) (b := (o (i + 1) : Int))
    (n := o (i + 1) - o i) (f := iluUnmap base ind) (s := map)
    (fun t m => ∃ mp : Nat → Int, Rep m n mp ∧
      ∀ c, c < n → (∀ q, o i + t ≤ q → q < o (i + 1) → col q ≠ c) → mp c = 0) (by omega)
    ⟨mp, k1, fun c hc hq => k3 c hc (fun q h1 h2 => hq q (by omega) h2)⟩ (by
      rintro t s ht ⟨mp, h1, h3⟩
      have hc := h.rng i (o i + t) hi (by omega) (by omega)
      have hn := h.lt_nnz (q := o i + t) hi (by omega)
      unfold iluUnmap
      rw [show (o i : Int) + t = ((o i + t : Nat) : Int) by push_cast; rfl, ha.ind _ hn]
      simp only [Option.bind_eq_bind, Option.bind_some]
      rw [show base + (col (o i + t) : Int) - base = (col (o i + t) : Int) by omega]
      obtain ⟨b, e, hb⟩ := h1.wr_nat (0 : Int) hc
      refine ⟨b, e, _, hb, ?_⟩
      intro c hc' hcq
      by_cases hcc : c = col (o i + t)
      · subst hcc; simp
      · rw [Function.update_of_ne hcc]
        refine h3 c hc' (fun q h4 h5 => ?_)
        by_cases hq : q = o i + t
        · subst hq; exact fun e => hcc e.symm
        · exact hcq q (by omega) h5)
  exact ⟨map', e, h1.congr (fun c hc => h2 c hc (fun q h4 h5 => by omega))⟩

/-- elimination of entry `j` of row `i` with row `k` -/
theorem iluElim_loop (h : IluPat n nnz o col dg) (ha : IluArr n nnz o col base ptr ind) {i j : Nat}
    (hi : i < n) {map : List Int} (hm : MapOk n col (o i) (o (i + 1)) map) (hj1 : o i ≤ j) (hj2 : j < dg i)
    {v : List R} {f : Nat → R} (hv : Rep v nnz f) :
    ∃ v', forC ((dg (col j) : Int) + 1) (o (col j + 1) : Int) (iluElim base ind map j) v = some v' ∧
      Rep v' nnz (fun q => if o i ≤ q ∧ q < o (i + 1) then f q - f j * uStrict o col dg f (col j) (col q)
        else f q) := by
  have hk : col j < i := h.low_lt hi hj1 hj2
  have hkn : col j < n := by omega
  have hdr := h.dgr (col j) hkn
  have hle := h.le (i := col j + 1) (j := i) (by omega) (by omega)
  have hdi := h.dgr i hi
  have ho1 : 0 < o i := by
    have := h.dgl (col j) hkn
    omega
  obtain ⟨mp, k1, k2, k3⟩ := hm
  obtain ⟨v', e, hp⟩ := forC_inv_off (a := (dg (col j) : Int) + 1) (b := (o (col j + 1) : Int))
    (n := o (col j + 1) - (dg (col j) + 1)) (f := iluElim base ind map j) (s := v)
    (fun t v => Rep v nnz (fun q => if o i ≤ q ∧ q < o (i + 1) then
      f q - f j * ∑ p ∈ Ico (dg (col j) + 1) (dg (col j) + 1 + t), (if col p = col q then f p else 0)
        else f q)) (by omega) (by simpa using hv) (by
      intro t s ht hs
      have hpn : dg (col j) + 1 + t < nnz := h.lt_nnz (i := col j) hkn (by omega)
      have hup := h.up (col j) (dg (col j) + 1 + t) hkn (by omega) (by omega)
      have hcn := h.rng (col j) (dg (col j) + 1 + t) hkn (by have := h.dgl (col j) hkn; omega) (by omega)
      unfold iluElim
      rw [show (dg (col j) : Int) + 1 + t = ((dg (col j) + 1 + t : Nat) : Int) by push_cast; rfl,
        ha.ind _ hpn]
      simp only [Option.bind_eq_bind, Option.bind_some]
      rw [show base + (col (dg (col j) + 1 + t) : Int) - base = (col (dg (col j) + 1 + t) : Int) by omega,
        k1.rd_nat hcn]
      simp only [Option.bind_some]
      have hsucc : ∀ q, ∑ p ∈ Ico (dg (col j) + 1) (dg (col j) + 1 + (t + 1)), (if col p = col q then f p else 0)
          = (∑ p ∈ Ico (dg (col j) + 1) (dg (col j) + 1 + t), (if col p = col q then f p else 0))
            + (if col (dg (col j) + 1 + t) = col q then f (dg (col j) + 1 + t) else 0) := by
        intro q
        rw [show dg (col j) + 1 + (t + 1) = dg (col j) + 1 + t + 1 by omega,
          sum_Ico_succ_top (by omega)]
      by_cases hex : ∃ q, o i ≤ q ∧ q < o (i + 1) ∧ col q = col (dg (col j) + 1 + t)
      · obtain ⟨q, h1, h2, h3⟩ := hex
        rw [← h3, k2 q h1 h2, if_pos (by omega), hs.rd_nat (h.lt_nnz hi h2), hs.rd_nat
          (h.lt_nnz hi (by omega : j < o (i + 1))), hs.rd_nat hpn]
        simp only [Option.bind_some]
        obtain ⟨b, e, hb⟩ := hs.wr_nat ((if o i ≤ q ∧ q < o (i + 1) then
            f q - f j * ∑ p ∈ Ico (dg (col j) + 1) (dg (col j) + 1 + t), (if col p = col q then f p else 0)
              else f q) - (if o i ≤ j ∧ j < o (i + 1) then
            f j - f j * ∑ p ∈ Ico (dg (col j) + 1) (dg (col j) + 1 + t), (if col p = col j then f p else 0)
              else f j) * (if o i ≤ dg (col j) + 1 + t ∧ dg (col j) + 1 + t < o (i + 1) then
            f (dg (col j) + 1 + t) - f j * ∑ p ∈ Ico (dg (col j) + 1) (dg (col j) + 1 + t),
              (if col p = col (dg (col j) + 1 + t) then f p else 0)
              else f (dg (col j) + 1 + t))) (h.lt_nnz hi h2)
        refine ⟨b, e, hb.congr ?_⟩
        have hz : ∑ p ∈ Ico (dg (col j) + 1) (dg (col j) + 1 + t), (if col p = col j then f p else 0) = 0 := by
          apply sum_eq_zero
          intro p hp
          rw [mem_Ico] at hp
          have := h.up (col j) p hkn (by omega) (by omega)
          rw [if_neg (by omega)]
        intro r hr
        by_cases hrq : r = q
        · subst hrq
          rw [Function.update_self, if_pos ⟨h1, h2⟩, if_pos ⟨hj1, by omega⟩, if_neg (by omega), if_pos ⟨h1, h2⟩,
            hsucc, if_pos h3.symm, hz]
          ring
        · rw [Function.update_of_ne hrq]
          by_cases hri : o i ≤ r ∧ r < o (i + 1)
          · rw [if_pos hri, if_pos hri, hsucc, if_neg, add_zero]
            intro hc
            exact hrq (h.inj i r q hi hri.1 hri.2 h1 h2 (by rw [← hc, h3]))
          · rw [if_neg hri, if_neg hri]
      · rw [k3 _ hcn (fun q h1 h2 h3 => hex ⟨q, h1, h2, h3⟩), if_neg (by simp)]
        refine ⟨s, rfl, hs.congr ?_⟩
        intro r hr
        by_cases hri : o i ≤ r ∧ r < o (i + 1)
        · rw [if_pos hri, if_pos hri, hsucc, if_neg, add_zero]
          intro hc
          exact hex ⟨r, hri.1, hri.2, hc.symm⟩
        · rw [if_neg hri, if_neg hri])
  refine ⟨v', e, hp.congr ?_⟩
  intro q hq
  rw [show dg (col j) + 1 + (o (col j + 1) - (dg (col j) + 1)) = o (col j + 1) by omega]
  rfl

/-- one step of the loop over `j` -/
theorem iluPiv_step (nz : R → Bool) (hz : ∀ d, nz d = false → d ≠ 0) (h : IluPat n nnz o col dg)
    (ha : IluArr n nnz o col base ptr ind) {i j : Nat} (hi : i < n) {map diag : List Int}
    (hm : MapOk n col (o i) (o (i + 1)) map) (hdiag : ∀ r : Nat, r < i → rd diag (r : Int) = some (dg r : Int))
    (hj1 : o i ≤ j) (hj2 : j < dg i) {a f0 f : Nat → R} {v : List R} (hv : Rep v nnz f)
    (hp : RowPart o col dg a f0 f i j) (hpiv : ∀ r, r < i → nz (f0 (dg r)) = false) (k : Option Int) :
    ∃ v' f', iluPiv nz base ptr ind diag map i j (v, k) = some (.ok (v', some (col j : Int))) ∧
      Rep v' nnz f' ∧ RowPart o col dg a f0 f' i (j + 1) := by
  have hk : col j < i := h.low_lt hi hj1 hj2
  have hkn : col j < n := by omega
  have hdi := h.dgr i hi
  have hjn : j < nnz := h.lt_nnz hi (by omega)
  have hdn : dg (col j) < nnz := h.lt_nnz hkn (h.dgr _ hkn)
  have hdk := h.dgr (col j) hkn
  have hle := h.le (i := col j + 1) (j := i) (by omega) (by omega)
  have hfd : f (dg (col j)) = f0 (dg (col j)) := hp.off _ (.inl (by omega))
  have hd0 := hz _ (hpiv _ hk)
  unfold iluPiv
  rw [ha.ind j hjn]
  simp only [Option.bind_eq_bind, Option.bind_some]
  rw [show base + (col j : Int) - base = (col j : Int) by omega, if_pos (by omega), hdiag _ hk]
  simp only [Option.bind_some]
  rw [hv.rd_nat hdn]
  simp only [Option.bind_some]
  rw [hfd, hpiv _ hk, if_neg (by simp), hv.rd_nat hjn]
  simp only [Option.bind_some]
  obtain ⟨v1, e1, hv1⟩ := hv.wr_nat (f j / f0 (dg (col j))) hjn
  rw [e1]
  simp only [Option.bind_some]
  have := ha.ptr (col j + 1) (by omega)
  rw [show ((col j + 1 : Nat) : Int) = (col j : Int) + 1 by push_cast; rfl] at this
  rw [this]
  simp only [Option.bind_some]
  rw [show base + (o (col j + 1) : Int) - base = (o (col j + 1) : Int) by omega]
  obtain ⟨v2, e2, hv2⟩ := iluElim_loop h ha hi hm hj1 hj2 hv1
  rw [e2]
  refine ⟨v2, _, rfl, hv2, ?_⟩
  have hu : ∀ c, uStrict o col dg (Function.update f j (f j / f0 (dg (col j)))) (col j) c
      = uStrict o col dg f0 (col j) c := by
    intro c
    apply uStrict_congr
    intro q hq
    rw [Function.update_of_ne (by omega)]
    exact hp.off q (.inl (by omega))
  simp only [hu, Function.update_self]
  have hkeep : ∀ t, o i ≤ t → t < j →
      (if o i ≤ t ∧ t < o (i + 1) then Function.update f j (f j / f0 (dg (col j))) t
        - f j / f0 (dg (col j)) * uStrict o col dg f0 (col j) (col t)
        else Function.update f j (f j / f0 (dg (col j))) t) = f t := by
    intro t h1 h2
    have := h.low i t j hi h1 h2 (by omega)
    rw [if_pos ⟨h1, by omega⟩, uStrict_zero h f0 hkn (by omega), Function.update_of_ne (by omega)]
    ring
  have hnew : (if o i ≤ j ∧ j < o (i + 1) then Function.update f j (f j / f0 (dg (col j))) j
        - f j / f0 (dg (col j)) * uStrict o col dg f0 (col j) (col j)
        else Function.update f j (f j / f0 (dg (col j))) j) = f j / f0 (dg (col j)) := by
    rw [if_pos ⟨hj1, by omega⟩, uStrict_zero h f0 hkn (le_refl _), Function.update_self]
    ring
  refine ⟨?_, ?_, ?_⟩
  · intro q hq
    rw [if_neg (by omega), Function.update_of_ne (by omega)]
    exact hp.off q hq
  · intro q h1 h2
    have hsum : ∑ t ∈ Ico (o i) q, (if o i ≤ t ∧ t < o (i + 1) then
        Function.update f j (f j / f0 (dg (col j))) t
        - f j / f0 (dg (col j)) * uStrict o col dg f0 (col j) (col t)
        else Function.update f j (f j / f0 (dg (col j))) t) * uStrict o col dg f0 (col t) (col q)
        = ∑ t ∈ Ico (o i) q, f t * uStrict o col dg f0 (col t) (col q) := by
      apply sum_congr rfl
      intro t ht
      rw [mem_Ico] at ht
      rw [hkeep t ht.1 (by omega)]
    rw [hsum]
    by_cases hq : q = j
    · subst hq
      rw [hnew, div_mul_cancel₀ _ hd0, hp.right q (le_refl _) (by omega)]
      ring
    · rw [hkeep q h1 (by omega)]
      exact hp.left q h1 (by omega)
  · intro q h1 h2
    have hsum : ∑ t ∈ Ico (o i) j, (if o i ≤ t ∧ t < o (i + 1) then
        Function.update f j (f j / f0 (dg (col j))) t
        - f j / f0 (dg (col j)) * uStrict o col dg f0 (col j) (col t)
        else Function.update f j (f j / f0 (dg (col j))) t) * uStrict o col dg f0 (col t) (col q)
        = ∑ t ∈ Ico (o i) j, f t * uStrict o col dg f0 (col t) (col q) := by
      apply sum_congr rfl
      intro t ht
      rw [mem_Ico] at ht
      rw [hkeep t ht.1 (by omega)]
    rw [sum_Ico_succ_top hj1, hsum, hnew, if_pos ⟨by omega, h2⟩, Function.update_of_ne (by omega),
      hp.right q (by omega) h2]
    ring

/-- the state before row `i` -/
structure IluInv (nz : R → Bool) (n nnz : Nat) (o col dg : Nat → Nat) (a : Nat → R) (i : Nat) (v : List R)
    (diag : List Int) (f : Nat → R) : Prop where
  rep : Rep v nnz f
  dlen : diag.length = n
  diag : ∀ r : Nat, r < i → rd diag (r : Int) = some (dg r : Int)
  done : ∀ r, r < i → RowDone o col dg a f r
  piv : ∀ r, r < i → nz (f (dg r)) = false
  rest : ∀ q, o i ≤ q → f q = a q

/-- the factorisation broke down: a pivot is near zero -/
def IluBreak (nz : R → Bool) (n nnz : Nat) (o col dg : Nat → Nat) (a : Nat → R) (v : List R)
    (diag : List Int) : Prop :=
  v.length = nnz ∧ diag.length = n ∧ ∃ r f, r < n ∧ Rep v nnz f ∧ (∀ k, k ≤ r → RowDone o col dg a f k) ∧
    (∀ k, k < r → nz (f (dg k)) = false) ∧ nz (f (dg r)) = true

theorem iluRow_spec (nz : R → Bool) (hz : ∀ d, nz d = false → d ≠ 0) (h : IluPat n nnz o col dg)
    (ha : IluArr n nnz o col base ptr ind) {i : Nat} (hi : i < n) {a f0 : Nat → R} {s : IluSt R}
    (hs : IluInv nz n nnz o col dg a i s.v s.diag f0) (hmap : Rep s.map n (fun _ => 0)) :
    (∃ s' f, iluRow nz base ptr ind i s = some (.ok s') ∧ IluInv nz n nnz o col dg a (i + 1) s'.v s'.diag f ∧
      Rep s'.map n (fun _ => 0)) ∨
    (∃ e, iluRow nz base ptr ind i s = some (.error e) ∧ IluBreak nz n nnz o col dg a e.1 e.2) := by
  have hmono := h.mono i hi
  have hdl := h.dgl i hi
  have hdr := h.dgr i hi
  have hdn := h.lt_nnz hi hdr
  unfold iluRow
  have p1 := ha.ptr i (by omega)
  have p2 := ha.ptr (i + 1) (by omega)
  rw [show ((i + 1 : Nat) : Int) = (i : Int) + 1 by push_cast; rfl] at p2
  rw [p1, p2]
  simp only [Option.bind_eq_bind, Option.bind_some]
  rw [show base + (o i : Int) - base = (o i : Int) by omega,
    show base + (o (i + 1) : Int) - base = (o (i + 1) : Int) by omega]
  obtain ⟨map, e1, hm⟩ := iluMap_loop h ha hi (map := s.map)
    ⟨_, hmap, fun q h1 h2 => by omega, fun _ _ _ => rfl⟩
  rw [e1]
  simp only [Option.bind_some]
  have hstart : RowPart o col dg a f0 f0 i (o i) :=
    ⟨fun _ _ => rfl, fun q h1 h2 => by omega, fun q h1 h2 => by rw [hs.rest q h1]; simp⟩
  rcases forE_inv (lo := (o i : Int)) (hi := (o (i + 1) : Int)) (f := iluPiv nz base ptr ind s.diag map i)
    (s := (s.v, s.k)) (fun q t => ∃ j : Nat, q = j ∧ o i ≤ j ∧ j ≤ dg i ∧ ∃ f, Rep t.1 nnz f ∧
      RowPart o col dg a f0 f i j)
    (fun e => ∃ v f, e = .brk (dg i : Int) (i : Int) v ∧ Rep v nnz f ∧ RowPart o col dg a f0 f i (dg i))
    (by omega) ⟨o i, rfl, le_refl _, hdl, f0, hs.rep, hstart⟩ (by
      rintro q ⟨v, k⟩ h1 h2 ⟨j, rfl, h3, h4, f, h5, h6⟩
      by_cases hj : j = dg i
      · right
        subst hj
        refine ⟨_, ?_, v, f, rfl, h5, h6⟩
        unfold iluPiv
        rw [ha.ind _ hdn]
        simp only [Option.bind_eq_bind, Option.bind_some]
        rw [h.dgc i hi, show base + (i : Int) - base = (i : Int) by omega, if_neg (by omega)]
      · left
        obtain ⟨v', f', e, k1, k2⟩ := iluPiv_step nz hz h ha hi hm hs.diag h3 (by omega) h5 h6 hs.piv k
        exact ⟨_, e, j + 1, by push_cast; rfl, by omega, by omega, f', k1, k2⟩)
    with ⟨s', e, j, h1, h2, h3, -⟩ | ⟨e, he, v, f, rfl, hv, hp⟩
  · omega
  rw [he]
  simp only [Option.bind_some]
  have hdone : RowDone o col dg a f i := hp.done h hi
  have hprev : ∀ r, r < i → RowDone o col dg a f r := fun r hr =>
    (hs.done r hr).congr h hr (by omega) (fun q hq => (hp.off q (.inl hq)).symm)
  have hpiv : ∀ r, r < i → nz (f (dg r)) = false := fun r hr => by
    have h1 := h.dgr r (by omega)
    have h2 := h.le (i := r + 1) (j := i) (by omega) (by omega)
    rw [hp.off (dg r) (.inl (by omega))]
    exact hs.piv r hr
  have hall : ∀ r, r ≤ i → RowDone o col dg a f r := by
    intro r hr
    by_cases hri : r = i
    · subst hri; exact hdone
    · exact hprev r (by omega)
  unfold iluPivot
  rw [wr_ofNat (by rw [hs.dlen]; exact hi)]
  simp only [Option.bind_eq_bind, Option.bind_some]
  rw [if_neg (by simp), hv.rd_nat hdn]
  simp only [Option.bind_some]
  by_cases hnz : nz (f (dg i)) = true
  · right
    rw [if_pos hnz]
    exact ⟨_, rfl, hv.1, by simp [hs.dlen], i, f, hi, hv, hall, hpiv, hnz⟩
  · left
    rw [if_neg hnz]
    obtain ⟨map', e2, hm2⟩ := iluUnmap_loop h ha hi hm
    rw [e2]
    refine ⟨_, f, rfl, ⟨hv, by simp [hs.dlen], ?_, fun r hr => hall r (by omega), ?_, ?_⟩, hm2⟩
    · intro r hr
      dsimp only
      rw [rd_ofNat, List.getElem?_set]
      by_cases hri : i = r
      · subst hri
        rw [if_pos rfl, if_pos (by rw [hs.dlen]; exact hi)]
      · rw [if_neg hri, ← rd_ofNat]
        exact hs.diag r (by omega)
    · intro r hr
      by_cases hri : r = i
      · subst hri; simpa using hnz
      · exact hpiv r (by omega)
    · intro q hq
      rw [hp.off q (.inr hq)]
      exact hs.rest q (by omega)

theorem ilu0Fact_spec (nz : R → Bool) (hz : ∀ d, nz d = false → d ≠ 0) (h : IluPat n nnz o col dg)
    (ha : IluArr n nnz o col base ptr ind) {a : Nat → R} {v : List R} (hv : Rep v nnz a) {diag : List Int}
    (hd : diag.length = n) :
    (∃ v' diag' f, ilu0Fact nz n base diag v ptr ind = some (.success, v', diag') ∧
      IluInv nz n nnz o col dg a n v' diag' f) ∨
    (∃ v' diag', ilu0Fact nz n base diag v ptr ind = some (.numericalError, v', diag') ∧
      IluBreak nz n nnz o col dg a v' diag') := by
  unfold ilu0Fact
  rcases forE_inv (lo := 0) (hi := (n : Int)) (f := iluRow nz base ptr ind)
    (s := ⟨v, diag, List.replicate (n : Int).toNat 0, none⟩)
    (fun q t => ∃ i : Nat, q = i ∧ i ≤ n ∧ ∃ f, IluInv nz n nnz o col dg a i t.v t.diag f ∧
      Rep t.map n (fun _ => 0))
    (fun e => IluBreak nz n nnz o col dg a e.1 e.2) (by omega)
    ⟨0, rfl, by omega, a, ⟨hv, hd, fun r hr => by omega, fun r hr => by omega, fun r hr => by omega,
      fun _ _ => rfl⟩, by simp, fun k hk => by simp [hk]⟩ (by
      rintro q s h1 h2 ⟨i, rfl, h3, f, h4, h5⟩
      rcases iluRow_spec nz hz h ha (by omega : i < n) h4 h5 with ⟨s', f', e, k1, k2⟩ | ⟨e, h6, h7⟩
      · exact .inl ⟨s', e, i + 1, by push_cast; rfl, by omega, f', k1, k2⟩
      · exact .inr ⟨e, h6, h7⟩)
    with ⟨s', e, i, h1, h2, f, h3, -⟩ | ⟨e, he, h1⟩
  · have : i = n := by omega
    subst this
    rw [e]
    exact .inl ⟨_, _, f, rfl, h3⟩
  · rw [he]
    exact .inr ⟨_, _, rfl, h1⟩

/-! ### the triangular solves -/

/-- the loop of one row: `s` minus the products with the positions `lo .. hi` -/
theorem iluSub_loop {lo hi : Nat} (hle : lo ≤ hi) (hn : hi ≤ nnz) (hc : ∀ q, lo ≤ q → q < hi → col q < n)
    (ha : IluArr n nnz o col base ptr ind) {v x : List R} {f g : Nat → R} (hv : Rep v nnz f) {len : Nat}
    (hlen : n ≤ len) (hx : Rep x len g) (s : R) :
    forC (lo : Int) (hi : Int) (iluSub base v ind x) s = some (s - ∑ q ∈ Ico lo hi, f q * g (col q)) := by
  obtain ⟨s', e, h⟩ := forC_inv_off (a := (lo : Int)) (b := (hi : Int)) (n := hi - lo)
    (f := iluSub base v ind x) (s := s) (fun t r => r = s - ∑ q ∈ Ico lo (lo + t), f q * g (col q))
    (by omega) (by simp) (by
      rintro t r ht rfl
      unfold iluSub
      have := hc (lo + t) (by omega) (by omega)
      rw [show (lo : Int) + t = ((lo + t : Nat) : Int) by push_cast; rfl, ha.ind _ (by omega),
        hv.rd_nat (by omega)]
      simp only [Option.bind_eq_bind, Option.bind_some]
      rw [show base + (col (lo + t) : Int) - base = (col (lo + t) : Int) by omega, hx.rd_nat (by omega)]
      refine ⟨_, rfl, ?_⟩
      rw [show lo + (t + 1) = lo + t + 1 by omega, sum_Ico_succ_top (by omega)]
      ring)
  rw [e, h, show lo + (hi - lo) = hi by omega]

/-- the solves: `y` solves the unit lower system, `x'` the upper one -/
theorem iluSolve_spec (nz : R → Bool) (hz : ∀ d, nz d = false → d ≠ 0) (h : IluPat n nnz o col dg)
    (ha : IluArr n nnz o col base ptr ind) {v : List R} {f : Nat → R} (hv : Rep v nnz f) {diag : List Int}
    (hdiag : ∀ r : Nat, r < n → rd diag (r : Int) = some (dg r : Int))
    (hpiv : ∀ r, r < n → nz (f (dg r)) = false) {x b : List R} (hx : n ≤ x.length) (hb : n ≤ b.length) :
    ∃ (x' : List R) (y g : Nat → R), iluSolve nz n base diag v ptr ind x b = some x' ∧ Rep x' x.length g ∧
      (∀ k, n ≤ k → x'[k]? = x[k]?) ∧
      (∀ i, i < n → y i + ∑ q ∈ Ico (o i) (dg i), f q * y (col q) = b.getD i 0) ∧
      (∀ i, i < n → ∑ q ∈ Ico (dg i) (o (i + 1)), f q * g (col q) = y i) := by
  have hbr := Rep.of_list b (0 : R)
  have hxr := Rep.of_list x (0 : R)
  have hrn : ∀ i, i < n → o (i + 1) ≤ nnz := fun i hi => by
    rw [← h.last]; exact h.le (by omega) (le_refl _)
  unfold iluSolve
  obtain ⟨x1, e1, y, h1, h2, h3⟩ := forC_inv_nat (n := n) (f := iluFwd base diag v ptr ind b) (s := x)
    (fun i s => ∃ y, Rep s x.length y ∧ (∀ k, i ≤ k → k < x.length → y k = x.getD k 0) ∧
      ∀ r, r < i → y r + ∑ q ∈ Ico (o r) (dg r), f q * y (col q) = b.getD r 0)
    ⟨_, hxr, fun _ _ _ => rfl, fun r hr => by omega⟩ (by
      rintro i s hi ⟨y, k1, k2, k3⟩
      have hdl := h.dgl i hi
      have hdr := h.dgr i hi
      have hrr := hrn i hi
      unfold iluFwd
      rw [hbr.rd_nat (by omega), ha.ptr i (by omega), hdiag i hi]
      simp only [Option.bind_eq_bind, Option.bind_some]
      rw [show base + (o i : Int) - base = (o i : Int) by omega,
        iluSub_loop hdl (by omega) (fun q h1 h2 => h.rng i q hi h1 (by omega)) ha hv hx k1]
      simp only [Option.bind_some]
      obtain ⟨s', e, k4⟩ := k1.wr_nat (b.getD i 0 - ∑ q ∈ Ico (o i) (dg i), f q * y (col q))
        (by omega : i < x.length)
      have hun : ∀ r, r ≤ i → ∑ q ∈ Ico (o r) (dg r), f q * Function.update y i
          (b.getD i 0 - ∑ q ∈ Ico (o i) (dg i), f q * y (col q)) (col q)
          = ∑ q ∈ Ico (o r) (dg r), f q * y (col q) := by
        intro r hr
        apply sum_congr rfl
        intro q hq
        rw [mem_Ico] at hq
        have := h.low_lt (by omega) hq.1 hq.2
        rw [Function.update_of_ne (by omega)]
      refine ⟨s', e, _, k4, ?_, ?_⟩
      · intro k hk hk2
        rw [Function.update_of_ne (by omega)]
        exact k2 k (by omega) hk2
      · intro r hr
        rw [hun r (by omega)]
        by_cases hri : r = i
        · subst hri
          rw [Function.update_self]
          ring
        · rw [Function.update_of_ne hri]
          exact k3 r (by omega))
  rw [e1]
  simp only [Option.bind_eq_bind, Option.bind_some]
  obtain ⟨x2, e2, g, h4, h5, h6⟩ := forD_inv_nat (m := n) (f := iluBwd nz base diag v ptr ind) (s := x1)
    (fun i s => ∃ g, Rep s x.length g ∧ (∀ k, k < i ∨ n ≤ k → k < x.length → g k = y k) ∧
      ∀ r, i ≤ r → r < n → ∑ q ∈ Ico (dg r) (o (r + 1)), f q * g (col q) = y r)
    ⟨y, h1, fun _ _ _ => rfl, fun r hr hr2 => by omega⟩ (by
      rintro i s hi ⟨g, k1, k2, k3⟩
      have hdl := h.dgl i hi
      have hdr := h.dgr i hi
      have hrr := hrn i hi
      unfold iluBwd
      have p2 := ha.ptr (i + 1) (by omega)
      rw [show ((i + 1 : Nat) : Int) = (i : Int) + 1 by push_cast; rfl] at p2
      rw [hdiag i hi, p2]
      simp only [Option.bind_eq_bind, Option.bind_some]
      rw [show base + (o (i + 1) : Int) - base = (o (i + 1) : Int) by omega]
      obtain ⟨s1, d1, d2⟩ := forC_inv_off (a := (dg i : Int) + 1) (b := (o (i + 1) : Int))
        (n := o (i + 1) - (dg i + 1)) (f := iluBwdSub base v ind i) (s := s)
        (fun t s => Rep s x.length (Function.update g i
          (g i - ∑ q ∈ Ico (dg i + 1) (dg i + 1 + t), f q * g (col q)))) (by omega)
        (by simpa using k1) (by
          intro t s ht hs
          have hup := h.up i (dg i + 1 + t) hi (by omega) (by omega)
          have hcn := h.rng i (dg i + 1 + t) hi (by omega) (by omega)
          unfold iluBwdSub iluSub
          rw [show (dg i : Int) + 1 + t = ((dg i + 1 + t : Nat) : Int) by push_cast; rfl,
            hs.rd_nat (by omega : i < x.length), ha.ind _ (by omega), hv.rd_nat (by omega)]
          simp only [Option.bind_eq_bind, Option.bind_some]
          rw [show base + (col (dg i + 1 + t) : Int) - base = (col (dg i + 1 + t) : Int) by omega,
            hs.rd_nat (by omega)]
          simp only [Option.bind_some]
          obtain ⟨s', e, k4⟩ := hs.wr_nat (Function.update g i
            (g i - ∑ q ∈ Ico (dg i + 1) (dg i + 1 + t), f q * g (col q)) i - f (dg i + 1 + t) *
            Function.update g i (g i - ∑ q ∈ Ico (dg i + 1) (dg i + 1 + t), f q * g (col q))
              (col (dg i + 1 + t))) (by omega : i < x.length)
          refine ⟨s', e, k4.congr ?_⟩
          intro k hk
          by_cases hki : k = i
          · subst hki
            rw [Function.update_self, Function.update_self, Function.update_self, Function.update_of_ne (by omega),
              show dg k + 1 + (t + 1) = dg k + 1 + t + 1 by omega, sum_Ico_succ_top (by omega)]
            ring
          · rw [Function.update_of_ne hki, Function.update_of_ne hki, Function.update_of_ne hki])
      rw [show dg i + 1 + (o (i + 1) - (dg i + 1)) = o (i + 1) by omega] at d2
      rw [d1]
      simp only [Option.bind_some]
      rw [hv.rd_nat (by omega)]
      simp only [Option.bind_some]
      rw [if_pos (hpiv i hi), d2.rd_nat (by omega : i < x.length)]
      simp only [Option.bind_some]
      obtain ⟨s2, d3, d4⟩ := d2.wr_nat (Function.update g i
        (g i - ∑ q ∈ Ico (dg i + 1) (o (i + 1)), f q * g (col q)) i / f (dg i)) (by omega : i < x.length)
      have hsame : ∀ r, i ≤ r → r < n → ∀ w, ∑ q ∈ Ico (dg r + 1) (o (r + 1)), f q * Function.update g i w (col q)
          = ∑ q ∈ Ico (dg r + 1) (o (r + 1)), f q * g (col q) := by
        intro r hr hrn w
        apply sum_congr rfl
        intro q hq
        rw [mem_Ico] at hq
        have := h.up r q hrn (by omega) hq.2
        rw [Function.update_of_ne (by omega)]
      refine ⟨s2, d3, Function.update g i
        ((g i - ∑ q ∈ Ico (dg i + 1) (o (i + 1)), f q * g (col q)) / f (dg i)), d4.congr ?_, ?_, ?_⟩
      · intro k hk
        by_cases hki : k = i
        · subst hki; simp
        · rw [Function.update_of_ne hki, Function.update_of_ne hki, Function.update_of_ne hki]
      · intro k hk hk2
        rw [Function.update_of_ne (by omega)]
        exact k2 k (by omega) hk2
      · intro r hr hrn
        rw [sum_eq_sum_Ico_succ_bot (h.dgr r hrn), hsame r hr hrn, h.dgc r hrn]
        by_cases hri : r = i
        · subst hri
          rw [Function.update_self, mul_div_cancel₀ _ (hz _ (hpiv r hrn)), k2 r (.inl (by omega)) (by omega)]
          ring
        · rw [Function.update_of_ne hri, ← k3 r (by omega) hrn, sum_eq_sum_Ico_succ_bot (h.dgr r hrn),
            h.dgc r hrn])
  refine ⟨x2, y, g, e2, h4, ?_, h3, fun i hi => h6 i (by omega) hi⟩
  intro k hk
  by_cases hkx : k < x.length
  · rw [h4.getElem? hkx, h5 k (.inr hk) hkx, h2 k hk hkx]
    simp [hkx]
  · rw [List.getElem?_eq_none (by rw [h4.1]; omega), List.getElem?_eq_none (by omega)]

end loops
end Verif
