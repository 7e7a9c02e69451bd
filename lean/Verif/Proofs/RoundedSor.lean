/-
Rounding errors of successive over-relaxation.
-/
import Verif.Model.RoundedSor
import Verif.Proofs.Sor
import Verif.Props.Rounded

namespace Verif
open Model Finset Rounding

section
variable {ρ : Rounding}

/-- a multiply-accumulate, fused or not, of a factor that has an error itself -/
theorem near_mac {f : Fp ρ → Fp ρ → Fp ρ → Fp ρ} (hf : MacRounds ρ f) (a b c : Fp ρ) {k l : Nat} (hl : l + 1 ≤ k)
    {p q v w : ℝ} (hb : ρ.Near l p q b.v) (hc : ρ.Near k v w c.v) :
    ρ.Near (k + 1) (a.v * p + v) (|a.v| * q + w) (f a b c).v := by
  rcases hf a b c with e | e <;> rw [e]
  · exact (((hb.smul a.v).mono (by omega)).add hc).round
  · exact (((hb.smul a.v).round.mono hl).add hc).round

theorem near_neg {k : Nat} {v w t : ℝ} (h : ρ.Near k v w t) : ρ.Near k (-v) w (-t) := by
  have := h.smul (-1)
  simpa using this

theorem near_sub {k : Nat} {a b A B x y : ℝ} (h1 : ρ.Near k a A x) (h2 : ρ.Near k b B y) :
    ρ.Near k (a - b) (A + B) (x - y) := by
  rw [sub_eq_add_neg, sub_eq_add_neg]
  exact h1.add (near_neg h2)

variable {A : Csr (Fp ρ)}

/-- the products of a row without its diagonal -/
theorem off_sum {B : Csr ℝ} (hB : B.WF) (hsq : B.m = B.n) {i : Nat} (Y : Nat → ℝ) :
    (((B.row i).filter fun e => decide (e.1 ≠ (i : Int))).map fun e => e.2 * Y e.1.toNat).sum
      = ∑ j ∈ range B.m with j ≠ i, B.mat i j * Y j := by
  rw [filter_sum_mul _ B.m Y (by
    intro e he
    have := Csr.row_range hB (List.mem_filter.1 he).1
    omega), sum_filter]
  apply sum_congr rfl
  intro j _
  rw [List.filter_filter]
  by_cases hj : j = i
  · subst hj
    have : (B.row j).filter (fun e => decide (e.1 = (j : Int)) && decide (e.1 ≠ (j : Int))) = [] := by
      rw [List.filter_eq_nil_iff]; intro e _; simp
    rw [this]; simp
  · rw [if_pos hj]
    congr 1
    unfold Csr.mat Csr.entry
    congr 2
    apply List.filter_congr
    intro e _
    by_cases he : e.1 = (j : Int)
    · simp [he, hj]
    · simp [he]

theorem off_sum_map (fn : Fp ρ → ℝ) (hA : A.WF) (hsq : A.m = A.n) {i : Nat} (Y : Nat → ℝ) :
    (((A.row i).filter fun e => decide (e.1 ≠ (i : Int))).map fun e => fn e.2 * Y e.1.toNat).sum
      = ∑ j ∈ range A.m with j ≠ i,
        Csr.mat (⟨A.m, A.n, A.base, A.ptr, A.ind, A.val.map fn⟩ : Csr ℝ) i j * Y j := by
  have hB : (⟨A.m, A.n, A.base, A.ptr, A.ind, A.val.map fn⟩ : Csr ℝ).WF :=
    ⟨hA.base01, hA.ptr_len, hA.ptr_first, hA.ptr_mono, hA.ptr_last, by simpa using hA.val_len, hA.ind_range⟩
  rw [← off_sum hB hsq Y, real_row, List.filter_map, List.map_map]
  rfl

/-- the entries of one row -/
theorem sorRowFp_sum {F : Fpu (Fp ρ)} (hF : F.Rounds) (hA : A.WF) (hsq : A.m = A.n) {i : Nat} (hi : i < A.m)
    {d : Fp ρ} (hd : (A.row i).filter (fun e => decide (e.1 = (i : Int))) = [((i : Int), d)])
    {z : List (Fp ρ)} (hz : A.m ≤ z.length) {Y : Nat → ℝ}
    (hY : ∀ j, j < A.m → ρ.Near 1 (Y j) |Y j| (z.getD j 0).v) :
    ∃ s, forC (A.p i) (A.p (i + 1)) (sorRowStepFp F A.base A.ind A.val z i) ((0 : Fp ρ), (1 : Fp ρ)) = some (s, d) ∧
      ρ.Near ((A.row i).length + 2) (∑ j ∈ range A.m with j ≠ i, A.real.mat i j * Y j)
        (∑ j ∈ range A.m with j ≠ i, A.sizes.mat i j * |Y j|) s.v := by
  have hsh : forC (A.p i) (A.p (i + 1)) (sorRowStepFp F A.base A.ind A.val z i) ((0 : Fp ρ), (1 : Fp ρ))
      = forC (A.p i - A.base) (A.p (i + 1) - A.base)
        (fun k s => sorRowStepFp F A.base A.ind A.val z i (A.base + k) s) (0, 1) := by
    rw [forC_shift A.base]
    congr 1 <;> ring
  rw [hsh, Csr.forC_row' (G := fun c v s =>
    if (i : Int) ≠ c then (rd z c).bind fun xc => some (F.smac v xc s.1, s.2) else some (s.1, v)) hA hi (by
      intro j c v s e1 e2 _
      unfold sorRowStepFp
      have : A.base + j - A.base = j := by ring
      have h2 : c + A.base - A.base = c := by ring
      simp only [this, e1, e2, Option.bind_eq_bind, Option.bind_some, h2])]
  obtain ⟨s, es, hs1, hs2⟩ := foldlM_inv (l := A.row i) (s := ((0 : Fp ρ), (1 : Fp ρ)))
    (f := fun s e => if (i : Int) ≠ e.1 then (rd z e.1).bind fun xc => some (F.smac e.2 xc s.1, s.2)
      else some (s.1, e.2))
    (fun pre s => ρ.Near (pre.length + 2)
        ((pre.filter fun e => decide (e.1 ≠ (i : Int))).map fun e => e.2.v * Y e.1.toNat).sum
        ((pre.filter fun e => decide (e.1 ≠ (i : Int))).map fun e => |e.2.v| * |Y e.1.toNat|).sum s.1.v ∧
      s.2 = (((pre.filter fun e => decide (e.1 = (i : Int))).map (·.2)).getLast?).getD 1)
    ⟨(Near.zero (ρ := ρ)).mono (Nat.zero_le _), by simp⟩ (by
      rintro pre e suf s hl ⟨p1, p2⟩
      have hr := Csr.row_range hA (i := i) (e := e) (by rw [hl]; simp)
      by_cases hc : (i : Int) = e.1
      · refine ⟨_, if_neg (by simp [hc]), ?_, ?_⟩
        · simp only [List.filter_append, List.filter_cons, ← hc, List.length_append]
          simpa using p1.mono (by simp)
        · simp [List.filter_append, List.filter_cons, ← hc]
      · have hx' : rd z e.1 = some (z.getD e.1.toNat 0) := by
          rw [rd_eq hr.1, List.getD_eq_getElem?_getD, List.getElem?_eq_getElem (by omega)]; rfl
        refine ⟨(F.smac e.2 (z.getD e.1.toNat 0) s.1, s.2), ?_, ?_, ?_⟩
        · rw [if_pos hc, hx']; rfl
        · have := near_mac hF.smac e.2 (z.getD e.1.toNat 0) s.1 (by omega) (hY e.1.toNat (by omega)) p1
          have hc' : ¬ e.1 = (i : Int) := fun h => hc h.symm
          have q : (pre ++ [e]).filter (fun e => decide (e.1 ≠ (i : Int)))
              = pre.filter (fun e => decide (e.1 ≠ (i : Int))) ++ [e] := by
            simp [List.filter_append, List.filter_cons, hc']
          rw [q, List.map_append, List.map_append, List.sum_append, List.sum_append, List.length_append]
          simp only [List.map_cons, List.map_nil, List.sum_cons, List.sum_nil, add_zero, List.length_cons,
            List.length_nil, zero_add]
          rw [add_comm (List.sum _), add_comm (List.sum _)]
          exact this.mono (by omega)
        · simp [List.filter_append, List.filter_cons, Ne.symm hc, p2])
  rw [es]
  refine ⟨s.1, ?_, ?_⟩
  · have : s.2 = d := by rw [hs2, hd]; rfl
    rw [← this]
  · rw [off_sum_map Fp.v hA hsq Y, off_sum_map (fun a => |a.v|) hA hsq fun j => |Y j|] at hs1
    exact hs1

/-- one row -/
theorem sorRowFp_near {F : Fpu (Fp ρ)} (hF : F.Rounds) (hA : A.WF) (hsq : A.m = A.n) {i : Nat} (hi : i < A.m)
    {d : Fp ρ} (hd : (A.row i).filter (fun e => decide (e.1 = (i : Int))) = [((i : Int), d)])
    {z b : List (Fp ρ)} (hz : A.m ≤ z.length) (hb : A.m ≤ b.length) {Y : Nat → ℝ} (omega : Fp ρ)
    (hY : ∀ j, j < A.m → ρ.Near 1 (Y j) |Y j| (z.getD j 0).v) :
    ∃ v, sorRowFp F A.base A.ptr A.ind A.val omega b i z = some (z.set i v) ∧
      ρ.Near ((A.row i).length + 7)
        (omega.v * (d.v⁻¹ * ((b.getD i 0).v - ∑ j ∈ range A.m with j ≠ i, A.real.mat i j * Y j) - Y i) + Y i)
        (|omega.v| * (|d.v⁻¹| * (|(b.getD i 0).v| + ∑ j ∈ range A.m with j ≠ i, A.sizes.mat i j * |Y j|) + |Y i|)
          + |Y i|) v.v := by
  have e1 := hA.rd_ptr (i := i) (by omega)
  have e2 : rd A.ptr ((i : Int) + 1) = some (A.p (i + 1)) := by
    have := hA.rd_ptr (i := i + 1) (by omega)
    push_cast at this
    exact this
  obtain ⟨s, e3, hs⟩ := sorRowFp_sum hF hA hsq hi hd hz hY
  have e4 : rd z (i : Int) = some (z.getD i 0) := by
    rw [rd_ofNat, List.getD_eq_getElem?_getD, List.getElem?_eq_getElem (by omega)]; rfl
  have e5 : rd b (i : Int) = some (b.getD i 0) := by
    rw [rd_ofNat, List.getD_eq_getElem?_getD, List.getElem?_eq_getElem (by omega)]; rfl
  refine ⟨F.smac omega ((b.getD i 0 - s) / d - z.getD i 0) (z.getD i 0), ?_, ?_⟩
  · unfold sorRowFp
    simp only [e1, e2, e3, e4, e5, Option.bind_eq_bind, Option.bind_some]
    exact wr_ofNat (by omega)
  · have h1 := (near_sub ((Near.exact (ρ := ρ) (b.getD i 0).v).mono (Nat.zero_le _)) hs).round
    have h2 := (h1.smul d.v⁻¹).round
    have h3 := (near_sub h2 ((hY i hi).mono (by omega))).round
    have h4 := near_mac hF.smac omega ((b.getD i 0 - s) / d - z.getD i 0) (z.getD i 0)
      (k := (A.row i).length + 6) (l := (A.row i).length + 5) (by omega)
      (hb := by
        have e : ((b.getD i 0 - s) / d - z.getD i 0).v
            = ρ.fl (ρ.fl (d.v⁻¹ * ρ.fl ((b.getD i 0).v - s.v)) - (z.getD i 0).v) := by
          rw [← div_eq_inv_mul]; rfl
        rw [e]
        exact h3) ((hY i hi).mono (by omega))
    exact h4

theorem sorScale_near {n : Nat} {alpha : Fp ρ} {x : List (Fp ρ)} (hx : n ≤ x.length) :
    ∃ y, sorScale (n : Int) alpha x = some y ∧ y.length = x.length ∧
      (∀ j, j < n → ρ.Near 1 (alpha.v * (x.getD j 0).v) |alpha.v * (x.getD j 0).v| (y.getD j 0).v) ∧
      ∀ j, n ≤ j → y[j]? = x[j]? := by
  unfold sorScale
  have key : ∀ (f : Int → List (Fp ρ) → Option (List (Fp ρ))) (g : Nat → Fp ρ),
      (∀ (k : Nat) (z : List (Fp ρ)), k < n → z.length = x.length → z[k]? = x[k]? → f k z = some (z.set k (g k))) →
      ∃ y, forC 0 (n : Int) f x = some y ∧ y.length = x.length ∧
        (∀ j, j < n → y.getD j 0 = g j) ∧ ∀ j, n ≤ j → y[j]? = x[j]? := by
    intro f g hf
    refine forC_inv_nat (P := fun k y => y.length = x.length ∧ (∀ j, j < k → y.getD j 0 = g j) ∧
      ∀ j, k ≤ j → y[j]? = x[j]?) ⟨rfl, fun j hj => absurd hj (by omega), fun _ _ => rfl⟩ ?_
    rintro k z hk ⟨p1, p2, p3⟩
    refine ⟨z.set k (g k), hf k z hk p1 (p3 k le_rfl), by simpa using p1, ?_, ?_⟩
    · intro j hj
      by_cases hjk : j = k
      · subst hjk
        rw [List.getD_eq_getElem?_getD, List.getElem?_set_self (by omega)]; rfl
      · rw [List.getD_eq_getElem?_getD, List.getElem?_set_ne (by omega), ← List.getD_eq_getElem?_getD]
        exact p2 j (by omega)
    · intro j hj
      rw [List.getElem?_set_ne (by omega)]
      exact p3 j (by omega)
  by_cases ha : alpha = 0
  · rw [if_neg (by simp [ha])]
    obtain ⟨y, e, h1, h2, h3⟩ := key (fun i x => wr x i alpha) (fun _ => alpha)
      (fun k z hk hl _ => wr_ofNat (by omega))
    refine ⟨y, e, h1, fun j hj => ?_, h3⟩
    have : alpha.v = 0 := by rw [ha]; rfl
    rw [h2 j hj, this, zero_mul, abs_zero]
    exact Near.zero.mono (by omega)
  · rw [if_pos ha]
    obtain ⟨y, e, h1, h2, h3⟩ := key (fun i x => do
        let xi ← rd x i
        wr x i (alpha * xi)) (fun k => alpha * x.getD k 0)
      (fun k z hk hl hz => by
        have e4 : rd z (k : Int) = some (x.getD k 0) := by
          rw [rd_ofNat, hz, List.getD_eq_getElem?_getD, List.getElem?_eq_getElem (by omega)]; rfl
        simp only [e4, Option.bind_eq_bind, Option.bind_some]
        exact wr_ofNat (by omega))
    refine ⟨y, e, h1, fun j hj => ?_, h3⟩
    rw [h2 j hj]
    exact (Near.exact (ρ := ρ) (alpha.v * (x.getD j 0).v)).round

end
end Verif
