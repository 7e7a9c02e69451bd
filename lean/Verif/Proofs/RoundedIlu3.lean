/-
Incomplete factorisation in floating-point arithmetic: backward errors.
-/
import Verif.Proofs.RoundedIlu2
import Verif.Proofs.RoundedSolve

namespace Verif
open Model Finset Rounding

section weights
variable {ρ : Rounding} (hu : ρ.u < 1) {F : SolveFpu (Fp ρ)} (hF : F.Rounds)
include hu hF

/-- a difference with a product, fused or not -/
theorem msub_factor (a x s : Fp ρ) : ∃ f t, ρ.Th 1 f ∧ ρ.Th 1 t ∧
    (F.msub a x s).v = (s.v - a.v * x.v * f) * t := by
  rcases hF.msub a x s with h | h
  · obtain ⟨t, ht, e1⟩ := fl_factor hu (s.v - a.v * x.v)
    exact ⟨1, t, Th.one hu 1, ht, by rw [h, e1, mul_one]⟩
  · obtain ⟨f, hf, e1⟩ := fl_factor hu (a.v * x.v)
    obtain ⟨t, ht, e2⟩ := fl_factor hu (s.v - ρ.fl (a.v * x.v))
    exact ⟨f, t, hf, ht, by rw [h, e2, e1]⟩

/-- differences one after the other: every product has its own factor -/
theorem chain_weighted (s : Nat → Fp ρ) (c : Nat → ℝ) (lo : Nat)
    (step : ∀ k, lo ≤ k → s (k + 1) = s k ∧ c k = 0 ∨
      ∃ a x : Fp ρ, s (k + 1) = F.msub a x (s k) ∧ c k = a.v * x.v) :
    ∀ m, ∃ (p : ℝ) (θ : Nat → ℝ), ρ.Th m p ∧ (∀ q, ρ.Th m (θ q)) ∧
      (s (lo + m)).v = p * ((s lo).v - ∑ q ∈ Ico lo (lo + m), c q * θ q) := by
  intro m
  induction m with
  | zero => exact ⟨1, fun _ => 1, Th.one hu 0, fun _ => Th.one hu 0, by simp⟩
  | succ m ih =>
    obtain ⟨p, θ, h1, h2, h3⟩ := ih
    have hp0 := (h1.pos hu).ne'
    rcases step (lo + m) (by omega) with ⟨e1, e2⟩ | ⟨a, x, e1, e2⟩
    · refine ⟨p, θ, h1.mono hu (by omega), fun q => (h2 q).mono hu (by omega), ?_⟩
      rw [show lo + (m + 1) = lo + m + 1 by omega, e1, h3, sum_Ico_succ_top (by omega), e2]
      ring
    · obtain ⟨f, t, hf, ht, e3⟩ := msub_factor hu hF a x (s (lo + m))
      refine ⟨p * t, Function.update θ (lo + m) (p⁻¹ * f), h1.mul hu ht, fun q => ?_, ?_⟩
      · by_cases hq : q = lo + m
        · rw [hq, Function.update_self]
          exact (h1.inv hu).mul hu hf
        · rw [Function.update_of_ne hq]
          exact (h2 q).mono hu (by omega)
      · rw [show lo + (m + 1) = lo + m + 1 by omega, e1, e3, h3, sum_Ico_succ_top (by omega),
          Function.update_self, e2]
        have : ∑ q ∈ Ico lo (lo + m), c q * Function.update θ (lo + m) (p⁻¹ * f) q
            = ∑ q ∈ Ico lo (lo + m), c q * θ q := by
          apply sum_congr rfl
          intro q hq
          rw [mem_Ico] at hq
          rw [Function.update_of_ne (by omega)]
        rw [this]
        field_simp
        ring

theorem subRow_weighted {col : Nat → Nat} (f g : Nat → Fp ρ) {lo hi : Nat} (h : lo ≤ hi) (s : Fp ρ) :
    ∃ (p : ℝ) (θ : Nat → ℝ), ρ.Th (hi - lo) p ∧ (∀ q, ρ.Th (hi - lo) (θ q)) ∧
      (subRow F col f g lo hi s).v
        = p * (s.v - ∑ q ∈ Ico lo hi, (f q).v * (g (col q)).v * θ q) := by
  have := chain_weighted hu hF (fun k => subRow F col f g lo k s) (fun q => (f q).v * (g (col q)).v) lo
    (fun k hk => .inr ⟨f k, g (col k), subRow_succ f g hk s, rfl⟩) (hi - lo)
  rw [show lo + (hi - lo) = hi by omega] at this
  simpa only [subRow_nil] using this

omit hu hF in
theorem uStrict_uPos {n nnz : Nat} {o col dg : Nat → Nat} (hP : IluPat n nnz o col dg) (h : Nat → ℝ)
    {k : Nat} (hk : k < n) (c : Nat) :
    uStrict o col dg h k c = ((uPos o col dg k c).map h).getD 0 := by
  unfold uStrict
  have hdl := hP.dgl k hk
  cases e : uPos o col dg k c with
  | none =>
    rw [sum_eq_zero]
    · rfl
    · intro q hq
      rw [mem_Ico] at hq
      rw [if_neg (uPos_none e q (by omega) hq.2)]
  | some p =>
    obtain ⟨h1, h2, h3⟩ := uPos_some e
    rw [sum_eq_single p]
    · rw [if_pos h3]; rfl
    · intro q hq hqp
      rw [mem_Ico] at hq
      rw [if_neg (fun hc => hqp (hP.inj k q p hk (by omega) hq.2 (by omega) h2 (by rw [hc, h3])))]
    · intro hn
      exact absurd (mem_Ico.2 ⟨by omega, h2⟩) hn

omit hu hF in
theorem uStrict_abs {n nnz : Nat} {o col dg : Nat → Nat} (hP : IluPat n nnz o col dg) (h : Nat → ℝ)
    {k : Nat} (hk : k < n) (c : Nat) :
    |uStrict o col dg h k c| = uStrict o col dg (fun q => |h q|) k c := by
  rw [uStrict_uPos hP _ hk, uStrict_uPos hP _ hk]
  cases uPos o col dg k c <;> simp

theorem elimRow_weighted {n nnz : Nat} {o col dg : Nat → Nat} (hP : IluPat n nnz o col dg)
    (f : Nat → Fp ρ) {i e : Nat} (hi : i < n) (h : o i ≤ e) (he : e ≤ dg i) (c : Nat) (s : Fp ρ) :
    ∃ (p : ℝ) (θ : Nat → ℝ), ρ.Th (e - o i) p ∧ (∀ q, ρ.Th (e - o i) (θ q)) ∧
      (elimRow F o col dg f i e c s).v = p * (s.v
        - ∑ t ∈ Ico (o i) e, (f t).v * uStrict o col dg (fun q => (f q).v) (col t) c * θ t) := by
  have hs : ∀ k, o i ≤ k → (fun k => if k ≤ dg i then elimRow F o col dg f i k c s
        else elimRow F o col dg f i (dg i) c s) (k + 1)
        = (fun k => if k ≤ dg i then elimRow F o col dg f i k c s
        else elimRow F o col dg f i (dg i) c s) k ∧
        (if k < dg i then (f k).v * uStrict o col dg (fun q => (f q).v) (col k) c else 0) = 0 ∨
      ∃ a x : Fp ρ, (fun k => if k ≤ dg i then elimRow F o col dg f i k c s
        else elimRow F o col dg f i (dg i) c s) (k + 1)
        = F.msub a x ((fun k => if k ≤ dg i then elimRow F o col dg f i k c s
        else elimRow F o col dg f i (dg i) c s) k) ∧
        (if k < dg i then (f k).v * uStrict o col dg (fun q => (f q).v) (col k) c else 0) = a.v * x.v := by
    intro k hk
    dsimp only
    by_cases hkd : k < dg i
    · have hcn : col k < n := by
        have := hP.low_lt hi hk hkd
        omega
      rw [if_pos (by omega : k + 1 ≤ dg i), if_pos (by omega : k ≤ dg i), if_pos hkd, elimRow_succ hk,
        uStrict_uPos hP _ hcn]
      unfold elimStep
      cases e : uPos o col dg (col k) c with
      | none => exact .inl ⟨rfl, by simp⟩
      | some p => exact .inr ⟨f k, f p, rfl, rfl⟩
    · refine .inl ⟨?_, if_neg hkd⟩
      rw [if_neg (by omega)]
      by_cases hk2 : k = dg i
      · rw [if_pos (by omega), hk2]
      · rw [if_neg (by omega)]
  obtain ⟨p, θ, h1, h2, h3⟩ := chain_weighted hu hF (fun k => if k ≤ dg i then elimRow F o col dg f i k c s
    else elimRow F o col dg f i (dg i) c s)
    (fun k => if k < dg i then (f k).v * uStrict o col dg (fun q => (f q).v) (col k) c else 0) (o i) hs (e - o i)
  rw [show o i + (e - o i) = e by omega] at h3
  rw [if_pos he, if_pos (by omega), elimRow_zero] at h3
  refine ⟨p, θ, h1, h2, ?_⟩
  rw [h3]
  congr 2
  apply sum_congr rfl
  intro q hq
  rw [mem_Ico] at hq
  rw [if_pos (by omega)]

omit hF in
theorem sum_weights {c θ : Nat → ℝ} {N : Nat} (S : Finset Nat) (h : ∀ q, ρ.Th N (θ q)) :
    |∑ q ∈ S, c q * θ q - ∑ q ∈ S, c q| ≤ ρ.gi N * ∑ q ∈ S, |c q| := by
  rw [← sum_sub_distrib, mul_sum]
  refine (abs_sum_le_sum_abs _ _).trans (sum_le_sum fun q _ => ?_)
  rw [show c q * θ q - c q = c q * (θ q - 1) by ring, abs_mul, mul_comm]
  exact mul_le_mul_of_nonneg_right ((h q).err hu) (abs_nonneg _)

end weights

/-! ### matrices -/

section mats
variable {ρ : Rounding} {A : Csr (Fp ρ)} (hA : A.WF) (hsq : A.m = A.n)
  (hP : IluPat A.n A.nnz (iluO A) (iluCol A) (iluDg A))
include hA hsq hP

/-- the values `w` in the pattern of `A` -/
def patVal (A : Csr (Fp ρ)) (w : List ℝ) : Csr ℝ := ⟨A.m, A.n, A.base, A.ptr, A.ind, w⟩

omit hsq hP in
theorem patVal_wf {w : List ℝ} (hw : w.length = A.nnz) : (patVal A w).WF :=
  ⟨hA.base01, hA.ptr_len, hA.ptr_first, hA.ptr_mono, hA.ptr_last, hw, hA.ind_range⟩

omit hA hsq hP in
theorem cols_ind {R : Type} {B : Csr R} (h : B.val.length = B.ind.length) (i : Nat) :
    B.cols i = ((B.ind.drop (B.p i - B.base).toNat).take (B.p (i + 1) - B.p i).toNat).map (· - B.base) := by
  unfold Csr.cols Csr.row
  have e : (B.ind.zip B.val).map Prod.fst = B.ind := List.map_fst_zip (by omega)
  rw [List.map_map]
  conv_rhs => rw [← e, ← List.map_drop, ← List.map_take, List.map_map]
  rfl

omit hsq hP in
theorem pat_dg {w : List ℝ} (hw : w.length = A.nnz) : iluDg (patVal A w) = iluDg A := by
  funext i
  unfold iluDg
  rw [cols_ind (B := patVal A w) hw, cols_ind (B := A) hA.val_len]
  rfl

omit hsq in
theorem pat_pat {w : List ℝ} (hw : w.length = A.nnz) : IluPat (patVal A w).n (patVal A w).nnz
    (iluO (patVal A w)) (iluCol (patVal A w)) (iluDg (patVal A w)) := by
  rw [pat_dg hA hw]
  exact hP

/-- the product of the factors at a stored position -/
theorem prod_pos {w : List ℝ} {h : Nat → ℝ} (hw : Rep w A.nnz h) {i q : Nat} (hi : i < A.n)
    (h1 : iluO A i ≤ q) (h2 : q < iluO A (i + 1)) :
    ∑ k ∈ range A.n, unitLower (patVal A w).mat i k * upperPart (patVal A w).mat k (iluCol A q)
      = (∑ t ∈ Ico (iluO A i) (min q (iluDg A i)),
          h t * uStrict (iluO A) (iluCol A) (iluDg A) h (iluCol A t) (iluCol A q))
        + if q < iluDg A i then h q * h (iluDg A (iluCol A q)) else h q := by
  let a : Nat → ℝ := fun q => (∑ t ∈ Ico (iluO A i) (min q (iluDg A i)),
      h t * uStrict (iluO A) (iluCol A) (iluDg A) h (iluCol A t) (iluCol A q))
    + if q < iluDg A i then h q * h (iluDg A (iluCol A q)) else h q
  let wa : List ℝ := (List.range A.nnz).map a
  have hwa : Rep wa A.nnz a := Rep.of_map
  have hWF := patVal_wf hA (w := wa) hwa.1
  have hpart : RowPart (iluO A) (iluCol A) (iluDg A) a h h i (iluDg A i) := by
    refine ⟨fun _ _ => rfl, ?_, ?_⟩
    · intro q _ hq
      show (∑ t ∈ _, _) + _ = _
      rw [if_pos hq, min_eq_left (le_of_lt hq)]
    · intro q hq _
      show h q = ((∑ t ∈ _, _) + _) - _
      rw [if_neg (by omega), min_eq_right hq]
      ring
  have hdone := hpart.done hP hi
  have hrow := iluRowOk_of (A := patVal A wa) hWF hsq (pat_pat hA hP hwa.1) (v := w) (f := h) hw hwa hi
    (by rw [pat_dg hA hwa.1]; exact hdone)
  have hcol : ((iluCol A q : Nat) : Int) ∈ (patVal A wa).cols i := by
    have hlen := cols_len hWF (i := i) (show i < A.m by omega)
    have := cols_pos hWF (i := i) (t := q - iluO A i) (show i < A.m by omega)
      (show iluO A i + (q - iluO A i) < iluO A (i + 1) by omega)
    rw [show iluO (patVal A wa) i + (q - iluO A i) = q by
      show iluO A i + (q - iluO A i) = q
      omega] at this
    exact List.mem_of_getElem? this
  have := hrow (iluCol A q) hcol
  rw [show (patVal A wa).mat i (iluCol A q) = a q from
    mat_at (A := patVal A wa) hWF hsq (pat_pat hA hP hwa.1) hwa hi h1 h2] at this
  exact this

variable (hu : ρ.u < 1) {F : SolveFpu (Fp ρ)} (hF : F.Rounds)
include hu hF

/-- backward error of one entry -/
theorem factor_bound {v : List (Fp ρ)} {f a : Nat → Fp ρ} (hv : Rep v A.nnz f) {i q N : Nat} (hi : i < A.n)
    (hd : RowDoneF F (iluO A) (iluCol A) (iluDg A) a f i) (h1 : iluO A i ≤ q) (h2 : q < iluO A (i + 1))
    (hpiv : ∀ r, r < i → (f (iluDg A r)).v ≠ 0) (hN : iluO A (i + 1) - iluO A i ≤ N) :
    |∑ k ∈ range A.n, unitLower (A.withVal v).real.mat i k * upperPart (A.withVal v).real.mat k (iluCol A q)
        - (a q).v|
      ≤ ρ.gi N * ∑ k ∈ range A.n,
          unitLower (A.withVal v).sizes.mat i k * upperPart (A.withVal v).sizes.mat k (iluCol A q) := by
  have hr : Rep (v.map Fp.v) A.nnz (fun q => (f q).v) :=
    ⟨by rw [List.length_map, hv.1], fun k hk => by rw [List.getElem?_map, hv.2 k hk]; rfl⟩
  have hs : Rep (v.map fun a => |a.v|) A.nnz (fun q => |(f q).v|) :=
    ⟨by rw [List.length_map, hv.1], fun k hk => by rw [List.getElem?_map, hv.2 k hk]; rfl⟩
  have e1 := prod_pos hA hsq hP hr hi h1 h2
  have e2 := prod_pos hA hsq hP hs hi h1 h2
  have hdl := hP.dgl i hi
  have hdr := hP.dgr i hi
  show |∑ k ∈ range A.n, unitLower (patVal A (v.map Fp.v)).mat i k *
      upperPart (patVal A (v.map Fp.v)).mat k (iluCol A q) - (a q).v|
    ≤ ρ.gi N * ∑ k ∈ range A.n, unitLower (patVal A (v.map fun a => |a.v|)).mat i k *
      upperPart (patVal A (v.map fun a => |a.v|)).mat k (iluCol A q)
  rw [e1, e2]
  -- the sums
  have habs : ∑ t ∈ Ico (iluO A i) (min q (iluDg A i)), |(f t).v| *
        uStrict (iluO A) (iluCol A) (iluDg A) (fun q => |(f q).v|) (iluCol A t) (iluCol A q)
      = ∑ t ∈ Ico (iluO A i) (min q (iluDg A i)), |(f t).v *
        uStrict (iluO A) (iluCol A) (iluDg A) (fun q => (f q).v) (iluCol A t) (iluCol A q)| := by
    apply sum_congr rfl
    intro t ht
    rw [mem_Ico] at ht
    have := hP.low_lt hi ht.1 (by omega)
    rw [abs_mul, uStrict_abs hP _ (by omega)]
  rw [habs]
  have hq := hd q h1 h2
  have fin : ∀ (z p : ℝ) (θ : Nat → ℝ), ρ.Th N p → (∀ q, ρ.Th N (θ q)) →
      (a q).v = z * p⁻¹ + ∑ t ∈ Ico (iluO A i) (min q (iluDg A i)), (f t).v *
        uStrict (iluO A) (iluCol A) (iluDg A) (fun q => (f q).v) (iluCol A t) (iluCol A q) * θ t →
      |(∑ t ∈ Ico (iluO A i) (min q (iluDg A i)), (f t).v *
        uStrict (iluO A) (iluCol A) (iluDg A) (fun q => (f q).v) (iluCol A t) (iluCol A q)) + z - (a q).v|
      ≤ ρ.gi N * ((∑ t ∈ Ico (iluO A i) (min q (iluDg A i)), |(f t).v *
        uStrict (iluO A) (iluCol A) (iluDg A) (fun q => (f q).v) (iluCol A t) (iluCol A q)|) + |z|) := by
    intro z p θ hp hθ ha
    rw [ha]
    have b1 := sum_weights hu (c := fun t => (f t).v *
        uStrict (iluO A) (iluCol A) (iluDg A) (fun q => (f q).v) (iluCol A t) (iluCol A q))
        (Ico (iluO A i) (min q (iluDg A i))) hθ
    have b2 : |z * p⁻¹ - z| ≤ ρ.gi N * |z| := by
      rw [show z * p⁻¹ - z = z * (p⁻¹ - 1) by ring, abs_mul, mul_comm]
      exact mul_le_mul_of_nonneg_right ((hp.inv hu).err hu) (abs_nonneg _)
    rw [mul_add]
    rw [abs_le] at b1 b2 ⊢
    constructor <;> linarith [b1.1, b1.2, b2.1, b2.2]
  by_cases hqd : q < iluDg A i
  · rw [if_pos hqd] at hq ⊢
    rw [if_pos hqd, ← abs_mul]
    have hm : min q (iluDg A i) = q := min_eq_left (le_of_lt hqd)
    obtain ⟨p, θ, t1, t2, t3⟩ := elimRow_weighted hu hF hP f hi h1 (le_of_lt hqd) (iluCol A q) (a q)
    have hc := hP.low_lt hi h1 hqd
    have hd0 := hpiv _ hc
    obtain ⟨t, ht, e3⟩ := fl_factor hu ((elimRow F (iluO A) (iluCol A) (iluDg A) f i q (iluCol A q) (a q)).v
      / (f (iluDg A (iluCol A q))).v)
    have hqv : (f q).v = ρ.fl ((elimRow F (iluO A) (iluCol A) (iluDg A) f i q (iluCol A q) (a q)).v
      / (f (iluDg A (iluCol A q))).v) := congrArg Fp.v hq
    rw [e3, t3] at hqv
    have hp0 := (t1.pos hu).ne'
    have ht0 := (ht.pos hu).ne'
    refine fin _ (p * t) θ ((t1.mul hu ht).mono hu (by omega)) (fun q => (t2 q).mono hu (by omega)) ?_
    rw [hm]
    rw [show (f q).v * (f (iluDg A (iluCol A q))).v * (p * t)⁻¹ = (a q).v - ∑ t ∈ Ico (iluO A i) q, (f t).v *
        uStrict (iluO A) (iluCol A) (iluDg A) (fun q => (f q).v) (iluCol A t) (iluCol A q) * θ t from ?_]
    · ring
    · rw [hqv]
      field_simp
  · rw [if_neg hqd] at hq ⊢
    rw [if_neg hqd]
    have hm : min q (iluDg A i) = iluDg A i := min_eq_right (by omega)
    obtain ⟨p, θ, t1, t2, t3⟩ := elimRow_weighted hu hF hP f hi hdl (le_refl _) (iluCol A q) (a q)
    have hqv : (f q).v = _ := (congrArg Fp.v hq).trans t3
    have hp0 := (t1.pos hu).ne'
    refine fin _ p θ (t1.mono hu (by omega)) (fun q => (t2 q).mono hu (by omega)) ?_
    rw [hm]
    rw [show (f q).v * p⁻¹ = (a q).v - ∑ t ∈ Ico (iluO A i) (iluDg A i), (f t).v *
        uStrict (iluO A) (iluCol A) (iluDg A) (fun q => (f q).v) (iluCol A t) (iluCol A q) * θ t from ?_]
    · ring
    · rw [hqv]
      field_simp

omit hu hF in
theorem lower_entry {w : List ℝ} {h : Nat → ℝ} (hw : Rep w A.nnz h) {i : Nat} (hi : i < A.n) {j : Nat}
    (hj : j < A.n) : unitLower (patVal A w).mat i j
      = (∑ q ∈ Ico (iluO A i) (iluDg A i), if iluCol A q = j then h q else 0) + if i = j then 1 else 0 := by
  have := lower_sum (A := patVal A w) (patVal_wf hA hw.1) hsq (pat_pat hA hP hw.1) (v := w) hw hi
    (fun k => if k = j then 1 else 0)
  rw [pat_dg hA hw.1, show (patVal A w).n = A.n from rfl, sum_eq_single j (fun k _ hk => by rw [if_neg hk, mul_zero])
    (fun h => absurd (mem_range.2 hj) h), if_pos rfl, mul_one] at this
  refine Eq.trans this ?_
  congr 1
  apply sum_congr rfl
  intro q _
  show h q * (if iluCol A q = j then 1 else 0) = _
  split <;> simp

omit hu hF in
theorem upper_entry' {w : List ℝ} {h : Nat → ℝ} (hw : Rep w A.nnz h) {i : Nat} (hi : i < A.n) {j : Nat}
    (hj : j < A.n) : upperPart (patVal A w).mat i j
      = ∑ q ∈ Ico (iluDg A i) (iluO A (i + 1)), if iluCol A q = j then h q else 0 := by
  have := upper_entry (A := patVal A w) (patVal_wf hA hw.1) hsq (pat_pat hA hP hw.1) (v := w) hw hi j hj
  rw [pat_dg hA hw.1] at this
  exact this

omit hA hsq hP hu hF in
theorem pick_sum {S : Finset Nat} {n : Nat} {col : Nat → Nat} (hc : ∀ q ∈ S, col q < n) (w x : Nat → ℝ) :
    ∑ j ∈ range n, (∑ q ∈ S, if col q = j then w q else 0) * x j = ∑ q ∈ S, w q * x (col q) := by
  simp only [sum_mul]
  rw [sum_comm]
  apply sum_congr rfl
  intro q hq
  rw [sum_eq_single (col q)]
  · rw [if_pos rfl]
  · intro j _ hj
    rw [if_neg (fun e => hj e.symm), zero_mul]
  · intro h
    exact absurd (mem_range.2 (hc q hq)) h

omit hA hsq hP hF in
theorem pick_bound {S : Finset Nat} {col : Nat → Nat} {N : Nat} {w θ : Nat → ℝ} (h : ∀ q, ρ.Th N (θ q))
    (j : Nat) : |(∑ q ∈ S, if col q = j then w q * θ q else 0) - ∑ q ∈ S, if col q = j then w q else 0|
      ≤ ρ.gi N * ∑ q ∈ S, if col q = j then |w q| else 0 := by
  rw [← sum_sub_distrib, mul_sum]
  refine (abs_sum_le_sum_abs _ _).trans (sum_le_sum fun q _ => ?_)
  by_cases hq : col q = j
  · simp only [if_pos hq]
    rw [show w q * θ q - w q = w q * (θ q - 1) by ring, abs_mul, mul_comm]
    exact mul_le_mul_of_nonneg_right ((h q).err hu) (abs_nonneg _)
  · simp [hq]

/-- backward error of the substitutions -/
theorem subst_bound {v : List (Fp ρ)} {f : Nat → Fp ρ} (hv : Rep v A.nnz f)
    (hpiv : ∀ r, r < A.n → (f (iluDg A r)).v ≠ 0) {N : Nat}
    (hN : ∀ i, i < A.n → iluO A (i + 1) - iluO A i ≤ N) {b y g : Nat → Fp ρ}
    (h1 : ∀ i, i < A.n → y i = subRow F (iluCol A) f y (iluO A i) (iluDg A i) (b i))
    (h2 : ∀ i, i < A.n → g i
      = subRow F (iluCol A) f g (iluDg A i + 1) (iluO A (i + 1)) (y i) / f (iluDg A i)) :
    ∃ L' U' : Mat ℝ,
      (∀ i j, i < A.n → j < A.n → |L' i j - unitLower (A.withVal v).real.mat i j|
        ≤ ρ.gi N * unitLower (A.withVal v).sizes.mat i j) ∧
      (∀ i j, i < A.n → j < A.n → |U' i j - upperPart (A.withVal v).real.mat i j|
        ≤ ρ.gi N * upperPart (A.withVal v).sizes.mat i j) ∧
      ∀ i, i < A.n → ∑ k ∈ range A.n, L' i k * ∑ j ∈ range A.n, U' k j * (g j).v = (b i).v := by
  have hr : Rep (v.map Fp.v) A.nnz (fun q => (f q).v) :=
    ⟨by rw [List.length_map, hv.1], fun k hk => by rw [List.getElem?_map, hv.2 k hk]; rfl⟩
  have hs : Rep (v.map fun a => |a.v|) A.nnz (fun q => |(f q).v|) :=
    ⟨by rw [List.length_map, hv.1], fun k hk => by rw [List.getElem?_map, hv.2 k hk]; rfl⟩
  -- the rows of the lower factor
  have low : ∀ i, ∃ (p : ℝ) (θ : Nat → ℝ), i < A.n → ρ.Th N p ∧ (∀ q, ρ.Th N (θ q)) ∧
      (b i).v = (y i).v * p⁻¹ + ∑ q ∈ Ico (iluO A i) (iluDg A i), (f q).v * θ q * (y (iluCol A q)).v := by
    intro i
    by_cases hi : i < A.n
    · have hdl := hP.dgl i hi
      have hdr := hP.dgr i hi
      have hNi := hN i hi
      obtain ⟨p, θ, t1, t2, t3⟩ := subRow_weighted hu hF (col := iluCol A) f y hdl (b i)
      have hp0 := (t1.pos hu).ne'
      refine ⟨p, θ, fun _ => ⟨t1.mono hu (by omega), fun q => (t2 q).mono hu (by omega), ?_⟩⟩
      have : (y i).v = _ := (congrArg Fp.v (h1 i hi)).trans t3
      rw [show (y i).v * p⁻¹ = (b i).v - ∑ q ∈ Ico (iluO A i) (iluDg A i), (f q).v * (y (iluCol A q)).v * θ q by
        rw [this]; field_simp]
      rw [sum_congr rfl fun q _ => (show (f q).v * θ q * (y (iluCol A q)).v
        = (f q).v * (y (iluCol A q)).v * θ q by ring)]
      ring
    · exact ⟨1, fun _ => 1, fun h => absurd h hi⟩
  choose pL θL hL using low
  have upp : ∀ i, ∃ (θ : Nat → ℝ), i < A.n → (∀ q, ρ.Th N (θ q)) ∧
      (y i).v = ∑ q ∈ Ico (iluDg A i) (iluO A (i + 1)), (f q).v * θ q * (g (iluCol A q)).v := by
    intro i
    by_cases hi : i < A.n
    · have hdl := hP.dgl i hi
      have hdr := hP.dgr i hi
      have hNi := hN i hi
      obtain ⟨p, θ, t1, t2, t3⟩ := subRow_weighted hu hF (col := iluCol A) f g
        (by omega : iluDg A i + 1 ≤ iluO A (i + 1)) (y i)
      have hp0 := (t1.pos hu).ne'
      have hd0 := hpiv i hi
      obtain ⟨t, ht, e3⟩ := fl_factor hu
        ((subRow F (iluCol A) f g (iluDg A i + 1) (iluO A (i + 1)) (y i)).v / (f (iluDg A i)).v)
      have ht0 := (ht.pos hu).ne'
      have hgv : (g i).v = ρ.fl ((subRow F (iluCol A) f g (iluDg A i + 1) (iluO A (i + 1)) (y i)).v
        / (f (iluDg A i)).v) := congrArg Fp.v (h2 i hi)
      rw [e3, t3] at hgv
      refine ⟨Function.update θ (iluDg A i) (p * t)⁻¹, fun _ => ⟨fun q => ?_, ?_⟩⟩
      · by_cases hq : q = iluDg A i
        · rw [hq, Function.update_self]
          exact ((t1.mul hu ht).inv hu).mono hu (by omega)
        · rw [Function.update_of_ne hq]
          exact (t2 q).mono hu (by omega)
      · rw [sum_eq_sum_Ico_succ_bot hdr, Function.update_self, hP.dgc i hi]
        have e4 : ∑ q ∈ Ico (iluDg A i + 1) (iluO A (i + 1)), (f q).v *
            Function.update θ (iluDg A i) (p * t)⁻¹ q * (g (iluCol A q)).v
            = ∑ q ∈ Ico (iluDg A i + 1) (iluO A (i + 1)), (f q).v * (g (iluCol A q)).v * θ q := by
          apply sum_congr rfl
          intro q hq
          rw [mem_Ico] at hq
          rw [Function.update_of_ne (by omega)]
          ring
        rw [e4]
        have e5 : (f (iluDg A i)).v * (p * t)⁻¹ * (g i).v = (y i).v
            - ∑ q ∈ Ico (iluDg A i + 1) (iluO A (i + 1)), (f q).v * (g (iluCol A q)).v * θ q := by
          rw [hgv]
          field_simp
        rw [e5]
        ring
    · exact ⟨fun _ => 1, fun h => absurd h hi⟩
  choose θU hU using upp
  refine ⟨fun i j => (∑ q ∈ Ico (iluO A i) (iluDg A i), if iluCol A q = j then (f q).v * θL i q else 0)
      + if i = j then (pL i)⁻¹ else 0,
    fun i j => ∑ q ∈ Ico (iluDg A i) (iluO A (i + 1)), if iluCol A q = j then (f q).v * θU i q else 0,
    ?_, ?_, ?_⟩
  · intro i j hi hj
    obtain ⟨t1, t2, -⟩ := hL i hi
    show |_ - unitLower (patVal A (v.map Fp.v)).mat i j|
      ≤ ρ.gi N * unitLower (patVal A (v.map fun a => |a.v|)).mat i j
    rw [lower_entry hA hsq hP hr hi hj, lower_entry hA hsq hP hs hi hj]
    have b1 := pick_bound hu (S := Ico (iluO A i) (iluDg A i)) (col := iluCol A)
      (w := fun q => (f q).v) t2 j
    have b2 : |(if i = j then (pL i)⁻¹ else 0) - (if i = j then 1 else 0)|
        ≤ ρ.gi N * if i = j then 1 else 0 := by
      by_cases h : i = j
      · simp only [if_pos h, mul_one]
        exact (t1.inv hu).err hu
      · simp [h]
    rw [mul_add]
    rw [abs_le] at b1 b2 ⊢
    constructor <;> linarith [b1.1, b1.2, b2.1, b2.2]
  · intro i j hi hj
    show |_ - upperPart (patVal A (v.map Fp.v)).mat i j|
      ≤ ρ.gi N * upperPart (patVal A (v.map fun a => |a.v|)).mat i j
    rw [upper_entry' hA hsq hP hr hi hj, upper_entry' hA hsq hP hs hi hj]
    exact pick_bound hu (hU i hi).1 j
  · intro i hi
    have hrow : ∀ k, k < A.n → ∑ j ∈ range A.n, (∑ q ∈ Ico (iluDg A k) (iluO A (k + 1)),
        if iluCol A q = j then (f q).v * θU k q else 0) * (g j).v = (y k).v := by
      intro k hk
      rw [pick_sum (fun q hq => by
        rw [mem_Ico] at hq
        have := hP.dgl k hk
        exact hP.rng k q hk (by omega) hq.2) (fun q => (f q).v * θU k q) (fun j => (g j).v)]
      exact (hU k hk).2.symm
    rw [sum_congr rfl fun k hk => by rw [hrow k (mem_range.1 hk)]]
    simp only [add_mul, sum_add_distrib]
    rw [pick_sum (fun q hq => by
      rw [mem_Ico] at hq
      have := hP.dgr i hi
      exact hP.rng i q hi hq.1 (by omega)) (fun q => (f q).v * θL i q) (fun j => (y j).v)]
    rw [sum_eq_single i (fun k _ hk => by rw [if_neg (fun e => hk e.symm), zero_mul])
      (fun h => absurd (mem_range.2 hi) h), if_pos rfl, (hL i hi).2.2]
    ring

end mats
end Verif
