/-
The Krylov space of a GMRES cycle, and one call of the solver in exact arithmetic.
-/
import Verif.Proofs.GmCycle
import Verif.Proofs.GmTalk

namespace Verif
namespace Proofs
open Model Spec Finset Matrix

section
variable {R : Type} [Field R] {n : Nat}

/-- sums of the first `k` vectors of a sequence -/
def Comb (V : Nat → Fin n → R) (k : Nat) (u : Fin n → R) : Prop := ∃ y : Nat → R, u = ∑ i ∈ range k, y i • V i

theorem Comb.zero {V : Nat → Fin n → R} {k : Nat} : Comb V k 0 := ⟨fun _ => 0, by simp⟩

theorem Comb.add {V : Nat → Fin n → R} {k : Nat} {u v : Fin n → R} (hu : Comb V k u) (hv : Comb V k v) :
    Comb V k (u + v) := by
  obtain ⟨y, rfl⟩ := hu
  obtain ⟨z, rfl⟩ := hv
  refine ⟨fun i => y i + z i, ?_⟩
  rw [← sum_add_distrib]
  exact sum_congr rfl fun i _ => (add_smul _ _ _).symm

theorem Comb.smul {V : Nat → Fin n → R} {k : Nat} {u : Fin n → R} (c : R) (hu : Comb V k u) : Comb V k (c • u) := by
  obtain ⟨y, rfl⟩ := hu
  refine ⟨fun i => c * y i, ?_⟩
  rw [smul_sum]
  exact sum_congr rfl fun i _ => by rw [smul_smul]

theorem Comb.sum {V : Nat → Fin n → R} {k : Nat} (l : Nat) (c : Nat → R) (f : Nat → Fin n → R)
    (h : ∀ i, i < l → Comb V k (f i)) : Comb V k (∑ i ∈ range l, c i • f i) := by
  induction l with
  | zero => simpa using Comb.zero
  | succ l ih =>
    rw [sum_range_succ]
    exact (ih fun i hi => h i (by omega)).add ((h l (by omega)).smul _)

theorem Comb.mem {V : Nat → Fin n → R} {k i : Nat} (h : i < k) : Comb V k (V i) := by
  refine ⟨fun l => if l = i then 1 else 0, ?_⟩
  rw [sum_eq_single i]
  · simp
  · intro l _ hl; simp [hl]
  · intro hi; exact absurd (mem_range.2 h) hi

theorem Comb.mono {V : Nat → Fin n → R} {k l : Nat} {u : Fin n → R} (h : k ≤ l) (hu : Comb V k u) : Comb V l u := by
  obtain ⟨y, rfl⟩ := hu
  exact Comb.sum k y V fun i hi => Comb.mem (by omega)

theorem Comb.trans {V W : Nat → Fin n → R} {k l : Nat} {u : Fin n → R} (hu : Comb V k u)
    (h : ∀ i, i < k → Comb W l (V i)) : Comb W l u := by
  obtain ⟨y, rfl⟩ := hu
  exact Comb.sum k y V h

/-- the basis vectors span the Krylov space -/
theorem krylov {B : Matrix (Fin n) (Fin n) R} {V : Nat → Fin n → R} {r : Fin n → R} {β : R} {J : Nat} (hr : r = β • V 0)
    (hne : r ≠ 0)
    (h : ∀ i, i < J → ∃ (a : Nat → R) (hh : R), hh ≠ 0 ∧
      B *ᵥ V i = ∑ l ∈ range (i + 1), a l • V l + hh • V (i + 1)) :
    ∀ i, i ≤ J → Comb (fun k => (B ^ k) *ᵥ r) (i + 1) (V i) ∧ Comb V (i + 1) ((B ^ i) *ᵥ r) := by
  have hβ : β ≠ 0 := fun e => hne (by rw [hr, e, zero_smul])
  -- a product with B of a sum
  have step : ∀ i, i < J → ∀ u, Comb V (i + 1) u → Comb V (i + 2) (B *ᵥ u) := by
    rintro i hi u ⟨y, rfl⟩
    rw [Matrix.mulVec_sum]
    simp only [Matrix.mulVec_smul]
    refine Comb.sum _ y (fun l => B *ᵥ V l) fun l hl => ?_
    obtain ⟨a, hh, -, e⟩ := h l (by omega)
    show Comb V (i + 2) (B *ᵥ V l)
    rw [e]
    exact (Comb.sum _ a V fun k hk => Comb.mem (by omega)).add ((Comb.mem (by omega)).smul hh)
  have stepK : ∀ i u, Comb (fun k => (B ^ k) *ᵥ r) (i + 1) u → Comb (fun k => (B ^ k) *ᵥ r) (i + 2) (B *ᵥ u) := by
    rintro i u ⟨y, rfl⟩
    rw [Matrix.mulVec_sum]
    simp only [Matrix.mulVec_smul]
    refine Comb.sum _ y (fun l => B *ᵥ ((B ^ l) *ᵥ r)) fun l hl => ?_
    have e : B *ᵥ ((B ^ l) *ᵥ r) = (B ^ (l + 1)) *ᵥ r := by rw [Matrix.mulVec_mulVec, pow_succ']
    show Comb _ (i + 2) (B *ᵥ ((B ^ l) *ᵥ r))
    rw [e]
    exact Comb.mem (V := fun k => (B ^ k) *ᵥ r) (by omega)
  intro i
  induction i using Nat.strong_induction_on with
  | _ i ih =>
    intro hi
    cases i with
    | zero =>
      constructor
      · have e : V 0 = β⁻¹ • ((B ^ 0) *ᵥ r) := by
          rw [pow_zero, Matrix.one_mulVec, hr, smul_smul, inv_mul_cancel₀ hβ, one_smul]
        rw [e]
        exact (Comb.mem (V := fun k => (B ^ k) *ᵥ r) (by omega)).smul _
      · rw [pow_zero, Matrix.one_mulVec, hr]
        exact (Comb.mem (by omega)).smul _
    | succ i =>
      have ih1 := ih i (by omega) (by omega)
      constructor
      · obtain ⟨a, hh, h1, e⟩ := h i (by omega)
        have e' : V (i + 1) = hh⁻¹ • (B *ᵥ V i + (-1 : R) • ∑ l ∈ range (i + 1), a l • V l) := by
          rw [e, neg_one_smul, add_neg_cancel_comm, smul_smul, inv_mul_cancel₀ h1, one_smul]
        rw [e']
        refine ((stepK i _ ih1.1).add ((Comb.sum _ a V fun k hk => ?_).smul _)).smul _
        exact (ih k (by omega) (by omega)).1.mono (by omega)
      · rw [pow_succ', ← Matrix.mulVec_mulVec]
        exact step i (by omega) _ ih1.2

end

section
variable {R : Type} [Field R] [LinearOrder R] [IsStrictOrderedRing R] {num : GNum R R} {n m j : Nat}
variable {A M : Matrix (Fin n) (Fin n) R} {o : GmOpt R} {S : GmSt R R} {r : Status × GmSt R R}

/-- what the answer to a product leads to -/
theorem ex_product (hE : ExactG num) {b : Fin n → R} (h : GmIn num o n m j (.product j) S) (hat : 0 < o.atol ∨ 0 < S.gm.brtol)
    (hx : GmEx A b m j S.gm (vecOf n S.x)) (hA : rowV n S.gm.v (j + 1) = A *ᵥ rowV n (gmZ S.gm) j)
    (e : gmStartIter num n S = some r) :
    (r.2.c.job = .stop ∨ r.1 ≠ .success) ∨
    (j + 1 < m ∧ r.2.x = S.x ∧ r.2.gm.brtol = S.gm.brtol ∧ GmEx A b m (j + 1) r.2.gm (vecOf n S.x) ∧
      r.2.gm.z = S.gm.z ∧ r.2.gm.precond = S.gm.precond ∧ ∀ i, i ≤ j → rowV n r.2.gm.v i = rowV n S.gm.v i) ∨
    (j + 1 = m ∧ r.2.gm.brtol = S.gm.brtol ∧ 0 < r.2.gm.rnorm2 ∧ r.2.gm.rnorm2 ^ 2 = resSq A b (vecOf n r.2.x) ∧
      (∃ T : GmData R R, GmEx A b m m T (vecOf n S.x) ∧ ∀ i, i < m → rowV n T.v i = rowV n S.gm.v i ∧
        rowV n (gmZ T) i = rowV n (gmZ S.gm) i) ∧
      (∃ y : Nat → R, vecOf n r.2.x = vecOf n S.x + ∑ i ∈ range m, y i • rowV n (gmZ S.gm) i) ∧
      ∀ y : Nat → R, resSq A b (vecOf n r.2.x) ≤ resSq A b (vecOf n S.x + ∑ i ∈ range m, y i • rowV n (gmZ S.gm) i)) := by
  obtain ⟨h1, v1, e1, e2, l1, l2, hc⟩ := startIter_shape (num := num) h.sz h.jlt h.info
  rcases hc with ⟨hh, -, -, e'⟩ | ⟨hh, v2, h2, hn, hlt, e3, e4, l3, l4, e'⟩
  · rw [e] at e'
    cases e'
    exact Or.inl (Or.inl rfl)
  have hpos : 0 < hh := by
    rw [Bool.or_eq_false_iff] at hlt
    obtain ⟨h1, h2⟩ := hlt
    rw [hE.lt, decide_eq_false_iff_not] at h1 h2
    rw [show S.gm.atol = o.atol from h.atol] at h1
    rcases hat with hat | hat
    · exact lt_of_lt_of_le hat (not_lt.1 h1)
    · exact lt_of_lt_of_le hat (not_lt.1 h2)
  obtain ⟨hx', hV⟩ := ex_turned hE h.sz h.jlt hx hA e1 e2 l1 l2 hn hpos e3 e4 l4
  have hsz := turned_sz (num := num) (hh := hh) h.sz l3 l4
  have hp : (turned num j m hh v2 h2 S).gm.precond = S.gm.precond := rfl
  have hzrow : ∀ i, i ≤ j → rowV n (gmZ (turned num j m hh v2 h2 S).gm) i = rowV n (gmZ S.gm) i := by
    intro i hi
    unfold gmZ
    rw [hp]
    split
    · exact hV i hi
    · rfl
  have hVt : (turned num j m hh v2 h2 S).gm.v = v2 := rfl
  have hinfo : (turned num j m hh v2 h2 S).rinfo.length = 100 := by simp [turned, h.info]
  rw [e] at e'
  unfold afterTurn at e'
  rw [hsz.j] at e'
  by_cases hlast : j + 1 = m
  · rw [if_pos (by omega)] at e'
    subst hlast
    have hsz' : GmSz n (j + 1) (j + 1) { (turned num j (j + 1) hh v2 h2 S).gm with task := .xUpdate } :=
      ⟨hsz.v, hsz.z, hsz.h, hsz.g, hsz.s, hsz.c, hsz.restart, hsz.j⟩
    obtain ⟨bs, b1, l5, hc⟩ := xUpdate_shape (num := num) (S := { turned num j (j + 1) hh v2 h2 S with
      gm := { (turned num j (j + 1) hh v2 h2 S).gm with task := .xUpdate } }) hsz' hinfo h.x
    rcases hc with ⟨-, e2⟩ | ⟨x', b2, b3, lx, fx, S', hS', e2⟩
    · rw [e2] at e'
      cases e'
      exact Or.inl (Or.inr (by simp))
    · right
      right
      have hex : GmEx A b (j + 1) (j + 1) { (turned num j (j + 1) hh v2 h2 S).gm with task := .xUpdate } (vecOf n S.x) :=
        hx'.congr (fun _ _ => rfl) (fun _ _ => rfl) rfl rfl rfl rfl
      obtain ⟨q1, q2, q3⟩ := ex_end (A := A) (b := b) (S := { turned num j (j + 1) hh v2 h2 S with
        gm := { (turned num j (j + 1) hh v2 h2 S).gm with task := .xUpdate } }) hE hsz' h.x hex b1 b2 l5 b3
      have hsum : ∀ y : Nat → R, ∑ i ∈ range (j + 1), y i • rowV n (gmZ (turned num j (j + 1) hh v2 h2 S).gm) i =
          ∑ i ∈ range (j + 1), y i • rowV n (gmZ S.gm) i := by
        intro y
        refine sum_congr rfl fun i hi => ?_
        rw [mem_range] at hi
        rw [hzrow i (by omega)]
      rw [e2] at e'
      have hr : r.2.x = S'.x ∧ r.2.gm.brtol = S'.gm.brtol ∧ r.2.gm.rnorm2 = S'.gm.rnorm2 := by
        cases e'
        dsimp only
        split <;> exact ⟨rfl, rfl, rfl⟩
      have hx2 : r.2.x = x' := by rw [hr.1, hS']; rfl
      have hn2 : r.2.gm.rnorm2 = |(turned num j (j + 1) hh v2 h2 S).gm.g.getD (j + 1) 0| := by
        rw [hr.2.2, hS']
        exact hE.abs _
      refine ⟨rfl, by rw [hr.2.1, hS']; rfl, by rw [hn2]; exact abs_pos.2 hx'.gnz, ?_,
        ⟨(turned num j (j + 1) hh v2 h2 S).gm, hx', fun i hi => ⟨hV i (by omega), hzrow i (by omega)⟩⟩,
        ⟨fun i => bs.2.getD i 0, ?_⟩, ?_⟩
      · rw [hn2, sq_abs, hx2]
        exact q2
      · rw [hx2, ← hsum]
        exact q1
      · intro y
        rw [hx2, ← hsum]
        exact q3 y
  · right
    left
    have hjm : j + 1 < m := by have := h.jlt; omega
    rw [if_neg (by omega)] at e'
    split at e'
    · cases e'
      exact ⟨hjm, rfl, rfl, hx'.congr (fun _ _ => rfl) (fun _ _ => rfl) rfl rfl rfl rfl, rfl, rfl, hV⟩
    · cases e'
      exact ⟨hjm, rfl, rfl, hx'.congr (fun _ _ => rfl) (fun _ _ => rfl) rfl rfl rfl rfl, rfl, rfl, hV⟩

end
end Proofs
end Verif
