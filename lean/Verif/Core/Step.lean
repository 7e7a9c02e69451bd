/-
Counting loops with a stride: `for(j = lo; j < hi; j += step)`.
-/
import Verif.Core.Mem
import Mathlib.Tactic.Ring

namespace Verif

variable {σ : Type}

/-- `for(j = lo; j < hi; j += step) f j` for a positive `step`. -/
def forS (lo hi step : Int) (f : Int → σ → Option σ) (s : σ) : Option σ :=
  forC 0 ((hi - lo + step - 1) / step) (fun t s => f (lo + step * t) s) s

/-- the loop does nothing when the test fails at once -/
theorem forS_ge {lo hi step : Int} (hs : 0 < step) (h : hi ≤ lo) (f : Int → σ → Option σ) (s : σ) :
    forS lo hi step f s = some s := by
  unfold forS
  apply forC_ge
  by_contra hn
  have h1 : 1 ≤ (hi - lo + step - 1) / step := by omega
  have := (Int.le_ediv_iff_mul_le hs).1 h1
  omega

private theorem forN_shift (f g : Int → σ → Option σ) (h : ∀ t s, f (t + 1) s = g t s) :
    ∀ (n : Nat) (i : Int) (s : σ), forN f n (i + 1) s = forN g n i s
  | 0, _, _ => rfl
  | n + 1, i, s => by
    simp only [forN, h]
    congr 1
    funext s'
    exact forN_shift f g h n (i + 1) s'

/-- one iteration, then the loop from `lo + step` -/
theorem forS_lt {lo hi step : Int} (hs : 0 < step) (h : lo < hi) (f : Int → σ → Option σ) (s : σ) :
    forS lo hi step f s = (f lo s).bind (forS (lo + step) hi step f) := by
  have e : (hi - lo + step - 1) / step = (hi - (lo + step) + step - 1) / step + 1 := by
    rw [show hi - lo + step - 1 = (hi - (lo + step) + step - 1) + 1 * step by ring,
      Int.add_mul_ediv_right _ _ (by omega)]
  have hge : 0 ≤ (hi - (lo + step) + step - 1) / step := Int.ediv_nonneg (by omega) (by omega)
  unfold forS
  rw [e, forC_lt (by omega)]
  simp only [mul_zero, add_zero]
  congr 1
  funext s'
  unfold forC
  have e2 : ((hi - (lo + step) + step - 1) / step + 1 - (0 + 1)).toNat
      = ((hi - (lo + step) + step - 1) / step - 0).toNat := by congr 1; ring
  rw [e2]
  exact forN_shift _ _ (fun t s => by congr 1; ring) _ 0 s'

/-- invariant rule when the range is a multiple of the stride -/
theorem forS_inv {lo hi : Int} {K k : Nat} (hK : 0 < K) (hhi : hi = lo + (K * k : Nat))
    {f : Int → σ → Option σ} {s : σ} (P : Nat → σ → Prop) (h0 : P 0 s)
    (hs : ∀ (t : Nat) s, t < k → P t s → ∃ s', f (lo + (K * t : Nat)) s = some s' ∧ P (t + 1) s') :
    ∃ s', forS lo hi K f s = some s' ∧ P k s' := by
  unfold forS
  have e : (hi - lo + (K : Int) - 1) / (K : Int) = (k : Int) := by
    rw [hhi, show lo + ((K * k : Nat) : Int) - lo + K - 1 = (K - 1 : Int) + k * K by
      push_cast; ring, Int.add_mul_ediv_right _ _ (by omega),
      Int.ediv_eq_zero_of_lt (by omega) (by omega)]
    ring
  rw [e]
  refine forC_inv_nat P h0 ?_
  intro t s ht hp
  obtain ⟨s', h1, h2⟩ := hs t s ht hp
  refine ⟨s', ?_, h2⟩
  rw [← h1]
  congr 1

/-- a loop is the loop up to `mid` followed by the loop from `mid` -/
theorem forC_split {lo mid hi : Int} (h1 : lo ≤ mid) (h2 : mid ≤ hi) (f : Int → σ → Option σ)
    (s : σ) : forC lo hi f s = (forC lo mid f s).bind (forC mid hi f) := by
  obtain ⟨n, hn⟩ : ∃ n : Nat, mid = lo + n := ⟨(mid - lo).toNat, by omega⟩
  induction n generalizing lo s with
  | zero =>
    have : lo = mid := by omega
    subst this
    rw [forC_ge (le_refl _)]
    rfl
  | succ n ih =>
    rw [forC_lt (by omega : lo < hi), forC_lt (by omega : lo < mid), Option.bind_assoc]
    congr 1
    funext s'
    exact ih (by omega) s' (by push_cast at hn; omega)

/-- renaming of the loop variable -/
theorem forC_shift (c lo hi : Int) (f : Int → σ → Option σ) (s : σ) :
    forC lo hi (fun k s => f (c + k) s) s = forC (c + lo) (c + hi) f s := by
  unfold forC
  rw [show c + hi - (c + lo) = hi - lo by ring]
  generalize (hi - lo).toNat = n
  induction n generalizing lo s with
  | zero => rfl
  | succ n ih =>
    simp only [forN]
    congr 1
    funext s'
    rw [show c + lo + 1 = c + (lo + 1) by ring]
    exact ih (lo + 1) s'

/-- a loop unrolled by `K` -/
theorem forS_unroll {K : Nat} (hK : 0 < K) {f g : Int → σ → Option σ}
    (hg : ∀ k s, g k s = forC k (k + K) f s) (q : Nat) (lo : Int) (s : σ) :
    forS lo (lo + (K * q : Nat)) K g s = forC lo (lo + (K * q : Nat)) f s := by
  induction q generalizing lo s with
  | zero => rw [forS_ge (by omega) (by simp), forC_ge (by simp)]
  | succ q ih =>
    have hp : 0 < K * (q + 1) := Nat.mul_pos hK (by omega)
    have e : lo + ((K * (q + 1) : Nat) : Int) = (lo + K) + ((K * q : Nat) : Int) := by
      push_cast; ring
    rw [forS_lt (by omega) (by omega), hg, forC_split (lo := lo) (mid := lo + K)
      (hi := lo + ((K * (q + 1) : Nat) : Int)) (by omega) (by rw [e]; omega), e]
    congr 1
    funext s'
    exact ih (lo + K) s'

theorem forC_four (k : Int) (f : Int → σ → Option σ) (s : σ) :
    forC k (k + (4 : Nat)) f s
      = (f k s).bind fun s => (f (k + 1) s).bind fun s => (f (k + 2) s).bind (f (k + 3)) := by
  unfold forC
  rw [show (k + ((4 : Nat) : Int) - k).toNat = 4 by omega]
  simp only [forN, Option.bind_eq_bind]
  congr 1; funext s; congr 1; funext s
  rw [show k + 1 + 1 = k + 2 by ring]
  congr 1; funext s
  rw [show k + 2 + 1 = k + 3 by ring]
  cases f (k + 3) s <;> rfl

end Verif
