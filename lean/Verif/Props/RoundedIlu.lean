/-
C58: rounding errors of the incomplete factorisation smoother (real data).
-/
import Verif.Proofs.RoundedIlu3
import Verif.Proofs.Oft3
import Verif.Props.RoundedTrsv
import Verif.Props.Ilu

namespace Verif
open Model Rounding Finset

section
variable {R : Type}

/-- The matrices the factorisation is meant for (no arithmetic is involved). -/
structure IluFit (A : Csr R) : Prop where
  wf : A.WF
  square : A.m = A.n
  diag : A.FullDiag
  lower : A.LowerSorted
  nodup : A.NoDup

variable [Zero R] [Div R]

/-- Handles reached from a created matrix by `aoclsparse_optimize` and successful calls. -/
inductive IluReachedF (F : SolveFpu R) (nz : R → Bool) (A : Csr R) : IluHandle R → Prop
  | create (sort : MatSort) (hs : sort = .fully ∨ sort = .partially) :
      IluReachedF F nz A (.fresh (A.raw false) sort true)
  | optimize {H : IluHandle R} (g : Nat → Int) (hH : IluReachedF F nz A H) :
      IluReachedF F nz A (optimizeIlu g H)
  | call {H H' : IluHandle R} (g : Nat → Int) (fl dd : Nat) (x b : List R) (x' : Option (List R)) (p : Bool)
      (hH : IluReachedF F nz A H) (hx : A.n ≤ x.length) (hb : A.n ≤ b.length)
      (e : iluF F nz g true 111 (some H) (some ⟨0, fl, dd, A.base⟩) true (some x) (some b)
        = some (.success, p, x', some H')) : IluReachedF F nz A H'

/-- the values in the handle are what the elimination makes of `A`, and no pivot is near zero -/
def IluElims (F : SolveFpu R) (nz : R → Bool) (A : Csr R) (v : List R) : Prop :=
  ∀ i, i < A.n → ElimRowOk F A (A.withVal v) i ∧
    ∃ d, (A.withVal v).stored i i = some d ∧ nz d = false

/-- the elimination broke down in row `r`: its pivot is near zero -/
def IluElimStops (F : SolveFpu R) (nz : R → Bool) (A : Csr R) (v : List R) : Prop :=
  ∃ r, r < A.n ∧ (∀ i, i ≤ r → ElimRowOk F A (A.withVal v) i) ∧
    (∀ i, i < r → ∃ d, (A.withVal v).stored i i = some d ∧ nz d = false) ∧
    ∃ d, (A.withVal v).stored r r = some d ∧ nz d = true

/-- the values in terms of positions -/
def PosFactors (F : SolveFpu R) (nz : R → Bool) (A : Csr R) (v : List R) (f : Nat → R) : Prop :=
  Rep v A.nnz f ∧ ∀ i, i < A.n →
    RowDoneF F (iluO A) (iluCol A) (iluDg A) (fun k => A.val.getD k 0) f i ∧ nz (f (iluDg A i)) = false

/-- handles as they are left by creation, optimisation and successful calls -/
structure IluOkF (F : SolveFpu R) (nz : R → Bool) (A : Csr R) (H : IluHandle R) : Prop where
  raw : H.raw = A.raw false
  sort : H.sort = .fully ∨ H.sort = .partially
  full : H.fulldiag = true
  state : (H.ready = false ∧ H.factorized = false) ∨
    (H.ready = true ∧ H.factorized = false ∧ H.val = A.val ∧ H.diag.length = A.n) ∨
    (H.ready = true ∧ H.factorized = true ∧ (∃ f, PosFactors F nz A H.val f) ∧
      ∀ r : Nat, r < A.n → rd H.diag (r : Int) = some (iluDg A r : Int))

variable {F : SolveFpu R} {nz : R → Bool} {A : Csr R} (hA : IluFit A)
include hA

theorem optimizeIluF_ok (g : Nat → Int) {H : IluHandle R} (hH : IluOkF F nz A H) :
    IluOkF F nz A (optimizeIlu g H) ∧ (optimizeIlu g H).ready = true := by
  unfold optimizeIlu
  by_cases hr : H.ready = true
  · rw [if_pos hr]; exact ⟨hH, hr⟩
  · rw [if_neg hr]
    refine ⟨⟨hH.raw, hH.sort, hH.full, .inr (.inl ⟨rfl, ?_, ?_, ?_⟩)⟩, rfl⟩
    · rcases hH.state with h | h | h
      · exact h.2
      · exact absurd h.1 hr
      · exact absurd h.1 hr
    · rw [hH.raw]
      show List.take (A.nnz : Int).toNat A.val = A.val
      rw [Int.toNat_natCast, List.take_of_length_le (by rw [hA.wf.val_len]; exact le_refl _)]
    · dsimp only
      rw [hH.raw]
      show (alloc (A.m : Int).toNat g).length = A.n
      rw [Int.toNat_natCast, hA.square]
      simp [alloc]

/-- what a successful call produces, in terms of positions -/
def PosSubst (F : SolveFpu R) (A : Csr R) (f : Nat → R) (b x x' : List R) : Prop :=
  ∃ y g : Nat → R, Rep x' x.length g ∧ (∀ k, A.n ≤ k → x'[k]? = x[k]?) ∧
    (∀ i, i < A.n → y i = subRow F (iluCol A) f y (iluO A i) (iluDg A i) (b.getD i 0)) ∧
    ∀ i, i < A.n → g i = subRow F (iluCol A) f g (iluDg A i + 1) (iluO A (i + 1)) (y i) / f (iluDg A i)

theorem ilu0TemplateF_ok {H : IluHandle R} (hH : IluOkF F nz A H) (hr : H.ready = true) {x b : List R}
    (hx : A.n ≤ x.length) (hb : A.n ≤ b.length) :
    (∃ x' H' f, ilu0TemplateF F nz H x b = some (.success, true, x', H') ∧ IluOkF F nz A H' ∧
      H'.factorized = true ∧ (H.factorized = true → H' = H) ∧ PosFactors F nz A H'.val f ∧
      PosSubst F A f b x x') ∨
    (∃ H', ilu0TemplateF F nz H x b = some (.numericalError, false, x, H') ∧ H.factorized = false ∧
      IluElimStops F nz A H'.val) := by
  have hP := iluPat_of hA.wf hA.square hA.diag hA.lower hA.nodup
  have hR := iluArr_of hA.wf hA.square
  have e1 : H.raw.un = (A.n : Int) := by rw [hH.raw]; rfl
  have e2 : H.raw.base = A.base := by rw [hH.raw]; rfl
  have e3 : H.raw.ptr = A.ptr := by rw [hH.raw]; rfl
  have e4 : H.raw.ind = A.ind := by rw [hH.raw]; rfl
  have hxr := Rep.of_list x (0 : R)
  have hbr := Rep.of_list b (0 : R)
  unfold ilu0TemplateF
  rw [e1, e2, e3, e4]
  rcases hH.state with h | ⟨-, hf, hval, hdl⟩ | ⟨-, hf, ⟨f, hfac⟩, hdg⟩
  · rw [h.1] at hr; cases hr
  · rw [if_neg (by simp [hf]), hval]
    have hrep : Rep A.val A.nnz (fun k => A.val.getD k 0) := by
      have := Rep.of_list A.val (0 : R)
      rwa [hA.wf.val_len] at this
    rcases ilu0FactF_spec (F := F) nz hP hR hrep hdl with
      ⟨v', dg', f, e, hi⟩ | ⟨v', dg', e, h1, h2, r, f, k1, k2, k3, k4, k5⟩
    · left
      rw [e]
      simp only [Option.bind_eq_bind, Option.bind_some]
      rw [if_neg (by simp)]
      obtain ⟨x', y, g, e5, h5, h6, h7, h8⟩ := iluSolveF_spec (F := F) nz hP hR hi.rep hi.diag hi.piv hx hb hxr hbr
      have hpf : PosFactors F nz A v' f := ⟨hi.rep, fun i hin => ⟨hi.done i hin, hi.piv i hin⟩⟩
      rw [e5]
      refine ⟨x', _, f, rfl, ⟨hH.raw, hH.sort, hH.full, .inr (.inr ⟨hr, rfl, ⟨f, hpf⟩, hi.diag⟩)⟩, rfl,
        fun h => ?_, hpf, y, g, h5, h6, h7, h8⟩
      rw [hf] at h; cases h
    · right
      rw [e]
      simp only [Option.bind_eq_bind, Option.bind_some]
      rw [if_pos (by simp)]
      have hst : ∀ i, i < A.n → (A.withVal v').stored i i = some (f (iluDg A i)) := by
        intro i hi
        have := stored_pos hA.wf hA.square hP k2 hi (hP.dgl i hi) (hP.dgr i hi)
        rwa [hP.dgc i hi] at this
      exact ⟨_, rfl, hf, r, k1, fun i hir => elimRowOk_of hA.wf hA.square hP k2 F hrep (by omega) (k3 i hir),
        fun i hir => ⟨_, hst i (by omega), k4 i hir⟩, _, hst r k1, k5⟩
  · left
    rw [if_pos hf]
    obtain ⟨x', y, g, e5, h5, h6, h7, h8⟩ := iluSolveF_spec (F := F) nz hP hR hfac.1 hdg
      (fun r hr => (hfac.2 r hr).2) hx hb hxr hbr
    rw [e5]
    exact ⟨x', H, f, rfl, hH, hf, fun _ => rfl, hfac, y, g, h5, h6, h7, h8⟩

theorem iluF_ok {H : IluHandle R} (hH : IluOkF F nz A H) (h0 : 0 < A.n) (g : Nat → Int) (fl dd : Nat)
    {x b : List R} (hx : A.n ≤ x.length) (hb : A.n ≤ b.length) :
    (∃ x' H' f, iluF F nz g true 111 (some H) (some ⟨0, fl, dd, A.base⟩) true (some x) (some b)
        = some (.success, true, some x', some H') ∧ IluOkF F nz A H' ∧ H'.factorized = true ∧
      (H.factorized = true → H' = H) ∧ PosFactors F nz A H'.val f ∧ PosSubst F A f b x x') ∨
    (∃ H', iluF F nz g true 111 (some H) (some ⟨0, fl, dd, A.base⟩) true (some x) (some b)
        = some (.numericalError, false, some x, some H') ∧ H.factorized = false ∧
      IluElimStops F nz A H'.val) := by
  have hum : H.raw.um = (A.n : Int) := by rw [hH.raw, ← hA.square]; rfl
  have hun : H.raw.un = (A.n : Int) := by rw [hH.raw]; rfl
  have hbase : H.raw.base = A.base := by rw [hH.raw]; rfl
  have hfmt : H.raw.fmt = 0 := by rw [hH.raw]; rfl
  unfold iluF
  dsimp only
  rw [if_neg (by simp), if_neg (by simp [hbase]), if_neg (by simp), if_neg (by simp [hfmt]),
    if_neg (by simp), if_neg (by have := hH.sort; tauto), if_neg (by simp [hH.full]), if_neg (by simp),
    if_neg (by rw [hum, hun]; omega), if_neg (by rw [hum, hun]; omega)]
  obtain ⟨h1, h2⟩ := optimizeIluF_ok hA g hH
  have hfe : (optimizeIlu g H).factorized = H.factorized := by
    unfold optimizeIlu
    split <;> rfl
  have hsame : H.factorized = true → optimizeIlu g H = H := by
    intro hf
    have : H.ready = true := by
      rcases hH.state with h | h | h
      · rw [h.2] at hf; cases hf
      · exact h.1
      · exact h.1
    unfold optimizeIlu
    rw [if_pos this]
  rcases ilu0TemplateF_ok hA h1 h2 hx hb with ⟨x', H', f, e, k1, k2, k3, k4⟩ | ⟨H', e, k1, k2⟩
  · left
    rw [e]
    refine ⟨x', H', f, rfl, k1, k2, fun hf => ?_, k4⟩
    have := k3 (by rw [hfe]; exact hf)
    rw [this, hsame hf]
  · right
    rw [e]
    exact ⟨H', rfl, by rw [← hfe]; exact k1, k2⟩

theorem IluReachedF.ok (h0 : 0 < A.n) {H : IluHandle R} (hH : IluReachedF F nz A H) : IluOkF F nz A H := by
  induction hH with
  | create sort hs => exact ⟨rfl, hs, rfl, .inl ⟨rfl, rfl⟩⟩
  | optimize g hH ih => exact (optimizeIluF_ok hA g ih).1
  | call g fl dd x b x' p hH hx hb e ih =>
    rcases iluF_ok hA ih h0 g fl dd hx hb with ⟨x1, H1, f, e1, h1, -⟩ | ⟨H1, e1, -⟩
    · rw [e] at e1
      cases e1
      exact h1
    · rw [e] at e1
      cases e1

/-- **C58** In any arithmetic (no algebraic law is assumed) and after any number of successful calls and
optimisations, the smoother either reports a numerical error because a computed pivot is near zero and
leaves `x` alone, or succeeds.  Then every factor is the entry of the matrix minus the products with the
factors before it, in the order of the columns, divided by the pivot below the diagonal; and `x'` is what
the forward and backward substitutions with these factors make of `b`, in the order of the columns.  So the
result is the same bit for bit in every call.  A handle that holds factors keeps them. -/
theorem C58_entries {H : IluHandle R} (h0 : 0 < A.n) (hH : IluReachedF F nz A H) (g : Nat → Int) (fl dd : Nat)
    {x b : List R} (hx : A.n ≤ x.length) (hb : A.n ≤ b.length) :
    (∃ x' H', iluF F nz g true 111 (some H) (some ⟨0, fl, dd, A.base⟩) true (some x) (some b)
        = some (.success, true, some x', some H') ∧ H'.factorized = true ∧
      (H.factorized = true → H' = H) ∧ IluElims F nz A H'.val ∧
      SubstOk F (A.withVal H'.val) A.n b x x') ∨
    (∃ H', iluF F nz g true 111 (some H) (some ⟨0, fl, dd, A.base⟩) true (some x) (some b)
        = some (.numericalError, false, some x, some H') ∧ H.factorized = false ∧
      IluElimStops F nz A H'.val) := by
  have hP := iluPat_of hA.wf hA.square hA.diag hA.lower hA.nodup
  have hrep : Rep A.val A.nnz (fun k => A.val.getD k 0) := by
    have := Rep.of_list A.val (0 : R)
    rwa [hA.wf.val_len] at this
  rcases iluF_ok hA (hH.ok hA h0) h0 g fl dd hx hb with
    ⟨x', H', f, e, -, k2, k3, ⟨k4, k5⟩, y, gg, k6, k7, k8, k9⟩ | h
  · refine .inl ⟨x', H', e, k2, k3, fun i hi => ?_, substOk_of hA.wf hA.square hP k4 F hx k6 k7 k8 k9⟩
    refine ⟨elimRowOk_of hA.wf hA.square hP k4 F hrep hi (k5 i hi).1, f (iluDg A i), ?_, (k5 i hi).2⟩
    have := stored_pos hA.wf hA.square hP k4 hi (hP.dgl i hi) (hP.dgr i hi)
    rwa [hP.dgc i hi] at this
  · exact .inr h

end

/-! ### rounding errors -/

section
variable {ρ : Rounding}

/-- entry `(i, j)` of the product of the factors in `v` -/
noncomputable def luReal (A : Csr (Fp ρ)) (v : List (Fp ρ)) : Mat ℝ := fun i j =>
  ∑ k ∈ range A.n, unitLower (A.withVal v).real.mat i k * upperPart (A.withVal v).real.mat k j

/-- the same with the absolute values of the factors: `|L| * |U|` -/
noncomputable def luSizes (A : Csr (Fp ρ)) (v : List (Fp ρ)) : Mat ℝ := fun i j =>
  ∑ k ∈ range A.n, unitLower (A.withVal v).sizes.mat i k * upperPart (A.withVal v).sizes.mat k j

variable (hu : ρ.u < 1) {F : SolveFpu (Fp ρ)} (hF : F.Rounds) {nz : Fp ρ → Bool}
  (hz : ∀ d, nz d = false → d.v ≠ 0) {A : Csr (Fp ρ)} (hA : IluFit A)

theorem sizes_nonneg (B : Csr (Fp ρ)) (i j : Nat) : 0 ≤ B.sizes.mat i j := by
  show 0 ≤ (((B.sizes.row i).filter fun e => e.1 = (j : Int)).map (·.2)).sum
  apply List.sum_nonneg
  intro t ht
  obtain ⟨e, he, rfl⟩ := List.mem_map.1 ht
  have := (List.mem_filter.1 he).1
  unfold Csr.row at this
  obtain ⟨p, hp, rfl⟩ := List.mem_map.1 this
  have hp' := List.of_mem_zip (List.mem_of_mem_drop (List.mem_of_mem_take hp))
  obtain ⟨a, -, h⟩ := List.mem_map.1 hp'.2
  show 0 ≤ p.2
  rw [← h]
  exact abs_nonneg _

theorem lower_size_nonneg (B : Csr (Fp ρ)) (i j : Nat) : 0 ≤ unitLower B.sizes.mat i j := by
  unfold unitLower
  split
  · exact sizes_nonneg B i j
  · split <;> norm_num

theorem upper_size_nonneg (B : Csr (Fp ρ)) (i j : Nat) : 0 ≤ upperPart B.sizes.mat i j := by
  unfold upperPart
  split
  · exact sizes_nonneg B i j
  · exact le_refl _

theorem gi_add (hu : ρ.u < 1) (k l : Nat) : (1 + ρ.gi k) * (1 + ρ.gi l) = 1 + ρ.gi (k + l) := by
  have h1 := (q_pos hu k).ne'
  have h2 := (q_pos hu l).ne'
  unfold Rounding.gi
  rw [pow_add]
  field_simp
  ring

theorem mat_abs_le {B : Csr (Fp ρ)} (i j : Nat) : |B.real.mat i j| ≤ B.sizes.mat i j := by
  have key : ∀ (L : List (Int × Fp ρ)),
      |(((L.map fun e => (e.1, e.2.v)).filter fun e => e.1 = (j : Int)).map Prod.snd).sum|
        ≤ (((L.map fun e => (e.1, |e.2.v|)).filter fun e => e.1 = (j : Int)).map Prod.snd).sum := by
    intro L
    induction L with
    | nil => simp
    | cons e L ih =>
      by_cases h : e.1 = (j : Int)
      · simp only [List.map_cons, List.filter_cons, h, decide_true, if_true, List.sum_cons]
        exact (abs_add_le _ _).trans (add_le_add (le_refl _) ih)
      · simpa [h] using ih
  have hr : ∀ (h : Fp ρ → ℝ), (⟨B.m, B.n, B.base, B.ptr, B.ind, B.val.map h⟩ : Csr ℝ).row i
      = (B.row i).map fun e => (e.1, h e.2) := by
    intro h
    unfold Csr.row
    dsimp only
    rw [List.zip_map_right, ← List.map_drop, ← List.map_take, List.map_map, List.map_map]
    rfl
  show |(((B.real.row i).filter fun e => e.1 = (j : Int)).map Prod.snd).sum|
    ≤ (((B.sizes.row i).filter fun e => e.1 = (j : Int)).map Prod.snd).sum
  rw [show B.real.row i = _ from hr Fp.v, show B.sizes.row i = _ from hr fun a => |a.v|]
  exact key _

theorem lower_abs_le (B : Csr (Fp ρ)) (i j : Nat) :
    |unitLower B.real.mat i j| ≤ unitLower B.sizes.mat i j := by
  unfold unitLower
  split
  · exact mat_abs_le i j
  · split <;> simp

theorem upper_abs_le (B : Csr (Fp ρ)) (i j : Nat) :
    |upperPart B.real.mat i j| ≤ upperPart B.sizes.mat i j := by
  unfold upperPart
  split
  · exact mat_abs_le i j
  · simp

/-- perturbed factors -/
theorem near_prod {n N : Nat} {L U L' U' SL SU : Mat ℝ} (hu : ρ.u < 1)
    (hL : ∀ i j, i < n → j < n → |L' i j - L i j| ≤ ρ.gi N * SL i j)
    (hU : ∀ i j, i < n → j < n → |U' i j - U i j| ≤ ρ.gi N * SU i j)
    (sL : ∀ i j, |L i j| ≤ SL i j) (sU : ∀ i j, |U i j| ≤ SU i j) {i j : Nat} (hi : i < n) (hj : j < n) :
    |∑ k ∈ range n, L' i k * U' k j - ∑ k ∈ range n, L i k * U k j|
      ≤ ρ.gi (2 * N) * ∑ k ∈ range n, SL i k * SU k j := by
  rw [← sum_sub_distrib, mul_sum]
  refine (abs_sum_le_sum_abs _ _).trans (sum_le_sum fun k hk => ?_)
  have hk := mem_range.1 hk
  have a1 := hL i k hi hk
  have a2 := hU k j hk hj
  have g0 := gi_nonneg hu N
  have g2 : ρ.gi (2 * N) = 2 * ρ.gi N + ρ.gi N * ρ.gi N := by
    have := gi_add hu N N
    rw [show N + N = 2 * N by omega] at this
    linarith
  have s1 := sL i k
  have s2 := sU k j
  have n1 := (abs_nonneg (L i k)).trans s1
  have n2 := (abs_nonneg (U k j)).trans s2
  rw [show L' i k * U' k j - L i k * U k j = (L' i k - L i k) * (U' k j - U k j)
    + (L' i k - L i k) * U k j + L i k * (U' k j - U k j) by ring, g2]
  have b1 : |(L' i k - L i k) * (U' k j - U k j)| ≤ (ρ.gi N * SL i k) * (ρ.gi N * SU k j) := by
    rw [abs_mul]; exact mul_le_mul a1 a2 (abs_nonneg _) (mul_nonneg g0 n1)
  have b2 : |(L' i k - L i k) * U k j| ≤ (ρ.gi N * SL i k) * SU k j := by
    rw [abs_mul]; exact mul_le_mul a1 s2 (abs_nonneg _) (mul_nonneg g0 n1)
  have b3 : |L i k * (U' k j - U k j)| ≤ SL i k * (ρ.gi N * SU k j) := by
    rw [abs_mul]; exact mul_le_mul s1 a2 (abs_nonneg _) n1
  refine (abs_add_three _ _ _).trans ?_
  nlinarith [b1, b2, b3]

include hu hF hz hA

/-- **C58** Backward error of the factors.  In floating-point arithmetic with unit roundoff `u < 1`,
products fused or not, after a successful call the product of the computed factors agrees with the matrix
at every stored entry up to `1/(1-u)^N - 1` times the product of the absolute values of the factors, with
`N` the largest number of entries in a row. -/
theorem C58_factors (h0 : 0 < A.n) {H H' : IluHandle (Fp ρ)} (hH : IluReachedF F nz A H) (g : Nat → Int)
    (fl dd : Nat) {x b : List (Fp ρ)} (hx : A.n ≤ x.length) (hb : A.n ≤ b.length) {p : Bool}
    {x' : Option (List (Fp ρ))}
    (e : iluF F nz g true 111 (some H) (some ⟨0, fl, dd, A.base⟩) true (some x) (some b)
      = some (.success, p, x', some H')) {N : Nat} (hN : ∀ i, i < A.n → (A.cols i).length ≤ N)
    (i j : Nat) (hi : i < A.n) (hj : (j : Int) ∈ A.cols i) :
    |luReal A H'.val i j - A.real.mat i j| ≤ ρ.gi N * luSizes A H'.val i j := by
  have hP := iluPat_of hA.wf hA.square hA.diag hA.lower hA.nodup
  rcases iluF_ok hA (hH.ok hA h0) h0 g fl dd hx hb with ⟨x1, H1, f, e1, -, -, -, ⟨k4, k5⟩, -⟩ | ⟨H1, e1, -⟩
  swap
  · rw [e] at e1; cases e1
  rw [e] at e1
  cases e1
  obtain ⟨t, ht, hget⟩ := List.mem_iff_getElem.1 hj
  have hlen := cols_len hA.wf (i := i) (by rw [hA.square]; exact hi)
  have hp := cols_pos hA.wf (i := i) (t := t) (by rw [hA.square]; exact hi) (by omega)
  rw [List.getElem?_eq_getElem ht, hget] at hp
  have hjc : j = iluCol A (iluO A i + t) := by
    have := Option.some.inj hp
    omega
  have hq1 : iluO A i ≤ iluO A i + t := by omega
  have hq2 : iluO A i + t < iluO A (i + 1) := by omega
  have hNi := hN i hi
  have := factor_bound hA.wf hA.square hP hu hF k4 hi (k5 i hi).1 hq1 hq2
    (fun r hr => hz _ (k5 r (by omega)).2) (N := N) (by omega)
  rw [← hjc] at this
  have hrep : Rep (A.val.map Fp.v) A.nnz (fun q => (A.val.getD q 0).v) := by
    have := Rep.of_list A.val (0 : Fp ρ)
    rw [hA.wf.val_len] at this
    exact ⟨by rw [List.length_map, this.1]; rfl, fun k hk => by rw [List.getElem?_map, this.2 k hk]; rfl⟩
  have hm : A.real.mat i j = (A.val.getD (iluO A i + t) 0).v := by
    rw [hjc]
    exact mat_at (A := patVal A (A.val.map Fp.v)) (patVal_wf hA.wf hrep.1) hA.square (pat_pat hA.wf hP hrep.1)
      hrep hi hq1 hq2
  rw [hm]
  exact this

/-- **C58** Backward error of the substitutions.  The returned vector is the exact solution of a system
whose factors differ from the computed ones by at most `1/(1-u)^N - 1` in every entry, relative to its
size.  The right-hand side is not perturbed. -/
theorem C58_backward (h0 : 0 < A.n) {H H' : IluHandle (Fp ρ)} (hH : IluReachedF F nz A H) (g : Nat → Int)
    (fl dd : Nat) {x b x' : List (Fp ρ)} (hx : A.n ≤ x.length) (hb : A.n ≤ b.length) {p : Bool}
    (e : iluF F nz g true 111 (some H) (some ⟨0, fl, dd, A.base⟩) true (some x) (some b)
      = some (.success, p, some x', some H')) {N : Nat} (hN : ∀ i, i < A.n → (A.cols i).length ≤ N) :
    ∃ L' U' : Mat ℝ,
      (∀ i j, i < A.n → j < A.n → |L' i j - unitLower (A.withVal H'.val).real.mat i j|
        ≤ ρ.gi N * unitLower (A.withVal H'.val).sizes.mat i j) ∧
      (∀ i j, i < A.n → j < A.n → |U' i j - upperPart (A.withVal H'.val).real.mat i j|
        ≤ ρ.gi N * upperPart (A.withVal H'.val).sizes.mat i j) ∧
      ∀ i, i < A.n →
        ∑ k ∈ range A.n, L' i k * ∑ j ∈ range A.n, U' k j * (reals x').getD j 0 = (reals b).getD i 0 := by
  have hP := iluPat_of hA.wf hA.square hA.diag hA.lower hA.nodup
  rcases iluF_ok hA (hH.ok hA h0) h0 g fl dd hx hb with
    ⟨x1, H1, f, e1, -, -, -, ⟨k4, k5⟩, y, gg, k6, k7, k8, k9⟩ | ⟨H1, e1, -⟩
  swap
  · rw [e] at e1; cases e1
  rw [e] at e1
  cases e1
  obtain ⟨L', U', h1, h2, h3⟩ := subst_bound hA.wf hA.square hP hu hF k4 (fun r hr => hz _ (k5 r hr).2) (N := N)
    (fun i hi => by
      have hlen := cols_len hA.wf (i := i) (by rw [hA.square]; exact hi)
      have := hN i hi
      omega) k8 k9
  refine ⟨L', U', h1, h2, fun i hi => ?_⟩
  have hbv : (reals b).getD i 0 = (b.getD i 0).v := by
    rw [reals, List.getD_eq_getElem?_getD, List.getElem?_map, List.getD_eq_getElem?_getD]
    cases b[i]? <;> rfl
  rw [hbv, ← h3 i hi]
  apply sum_congr rfl
  intro k _
  congr 1
  apply sum_congr rfl
  intro j hj
  have hj := mem_range.1 hj
  congr 1
  rw [reals, List.getD_eq_getElem?_getD, List.getElem?_map, k6.getElem? (by omega)]
  rfl

/-- **C58** The substitutions together: the returned vector solves a system exactly whose matrix differs
from the product of the computed factors by at most `(1/(1-u)^(2N) - 1) |L| |U|`. -/
theorem C58_solves (h0 : 0 < A.n) {H H' : IluHandle (Fp ρ)} (hH : IluReachedF F nz A H) (g : Nat → Int)
    (fl dd : Nat) {x b x' : List (Fp ρ)} (hx : A.n ≤ x.length) (hb : A.n ≤ b.length) {p : Bool}
    (e : iluF F nz g true 111 (some H) (some ⟨0, fl, dd, A.base⟩) true (some x) (some b)
      = some (.success, p, some x', some H')) {N : Nat} (hN : ∀ i, i < A.n → (A.cols i).length ≤ N) :
    ∃ M : Mat ℝ, (∀ i j, i < A.n → j < A.n →
        |M i j - luReal A H'.val i j| ≤ ρ.gi (2 * N) * luSizes A H'.val i j) ∧
      ∀ i, i < A.n → ∑ j ∈ range A.n, M i j * (reals x').getD j 0 = (reals b).getD i 0 := by
  obtain ⟨L', U', h1, h2, h3⟩ := C58_backward hu hF hz hA h0 hH g fl dd hx hb e hN
  refine ⟨fun i j => ∑ k ∈ range A.n, L' i k * U' k j, fun i j hi hj => ?_, fun i hi => ?_⟩
  · exact near_prod hu h1 h2 (lower_abs_le _) (upper_abs_le _) hi hj
  · rw [← h3 i hi]
    simp only [sum_mul, mul_sum]
    rw [sum_comm]
    exact sum_congr rfl fun k _ => sum_congr rfl fun j _ => by ring

/-- no entry is dropped: wherever the elimination makes a non-zero, the matrix has an entry -/
def Csr.NoFill {R : Type} (A : Csr R) : Prop :=
  ∀ i k j : Nat, i < A.n → k < i → k < j → (k : Int) ∈ A.cols i → (j : Int) ∈ A.cols k → (j : Int) ∈ A.cols i

omit hu hF hz in
theorem lu_pat_outside (hnf : A.NoFill) {w : List ℝ} (hw : w.length = A.nnz) {i j : Nat} (hi : i < A.n)
    (hj : (j : Int) ∉ A.cols i) :
    ∑ k ∈ range A.n, unitLower (patVal A w).mat i k * upperPart (patVal A w).mat k j = 0 := by
  have hc : ∀ i j : Nat, (j : Int) ∉ A.cols i → (patVal A w).mat i j = 0 := by
    intro i j h
    refine mat_zero_of_not_mem (A := patVal A w) ?_
    rw [cols_ind (B := patVal A w) hw]
    rw [cols_ind (B := A) hA.wf.val_len] at h
    exact h
  generalize (patVal A w).mat = M at hc ⊢
  apply sum_eq_zero
  intro k _
  unfold unitLower upperPart
  by_cases h1 : k < i
  · rw [if_pos h1]
    by_cases h2 : k < j
    · rw [if_pos (by omega)]
      by_cases h3 : (k : Int) ∈ A.cols i
      · rw [hc k j (fun h4 => hj (hnf i k j hi h1 h2 h3 h4)), mul_zero]
      · rw [hc i k h3, zero_mul]
    · by_cases h3 : k = j
      · subst h3
        rw [hc i k hj, zero_mul]
      · rw [if_neg (by omega), mul_zero]
  · rw [if_neg h1]
    by_cases h2 : k = i
    · subst h2
      rw [hc k j hj]
      simp
    · rw [if_neg h2, zero_mul]

omit hu hF hz in
theorem lu_outside (hnf : A.NoFill) {v : List (Fp ρ)} (hv : v.length = A.nnz) {i j : Nat} (hi : i < A.n)
    (hj : (j : Int) ∉ A.cols i) : luReal A v i j = 0 ∧ luSizes A v i j = 0 := by
  have h1 := lu_pat_outside hA hnf (w := v.map Fp.v) (by rw [List.length_map, hv]) hi hj
  have h2 := lu_pat_outside hA hnf (w := v.map fun a => |a.v|) (by rw [List.length_map, hv]) hi hj
  exact ⟨h1, h2⟩

/-- **C58** Without fill-in the smoother solves the system of the matrix itself: the returned vector is the
exact solution of a system whose matrix differs from `A` by at most `(1/(1-u)^(3N) - 1) |L| |U|`. -/
theorem C58_no_fill (hnf : A.NoFill) (h0 : 0 < A.n) {H H' : IluHandle (Fp ρ)} (hH : IluReachedF F nz A H)
    (g : Nat → Int) (fl dd : Nat) {x b x' : List (Fp ρ)} (hx : A.n ≤ x.length) (hb : A.n ≤ b.length) {p : Bool}
    (e : iluF F nz g true 111 (some H) (some ⟨0, fl, dd, A.base⟩) true (some x) (some b)
      = some (.success, p, some x', some H')) {N : Nat} (hN : ∀ i, i < A.n → (A.cols i).length ≤ N) :
    ∃ M : Mat ℝ, (∀ i j, i < A.n → j < A.n →
        |M i j - A.real.mat i j| ≤ ρ.gi (3 * N) * luSizes A H'.val i j) ∧
      ∀ i, i < A.n → ∑ j ∈ range A.n, M i j * (reals x').getD j 0 = (reals b).getD i 0 := by
  obtain ⟨M, h1, h2⟩ := C58_solves hu hF hz hA h0 hH g fl dd hx hb e hN
  refine ⟨M, fun i j hi hj => ?_, h2⟩
  have b1 := h1 i j hi hj
  have hs : 0 ≤ luSizes A H'.val i j :=
    sum_nonneg fun k _ => mul_nonneg (lower_size_nonneg _ _ _) (upper_size_nonneg _ _ _)
  have b2 : |luReal A H'.val i j - A.real.mat i j| ≤ ρ.gi N * luSizes A H'.val i j := by
    by_cases hc : (j : Int) ∈ A.cols i
    · exact C58_factors hu hF hz hA h0 hH g fl dd hx hb e hN i j hi hc
    · have hlen : H'.val.length = A.nnz := by
        rcases iluF_ok hA (hH.ok hA h0) h0 g fl dd hx hb with ⟨x1, H1, f, e1, -, -, -, ⟨k4, -⟩, -⟩ | ⟨H1, e1, -⟩
        · rw [e] at e1; cases e1; exact k4.1
        · rw [e] at e1; cases e1
      obtain ⟨c1, c2⟩ := lu_outside hA hnf hlen hi hc
      have c3 : A.real.mat i j = 0 := by
        refine mat_zero_of_not_mem (A := A.real) ?_
        rw [cols_ind (B := A.real) (by show (A.val.map Fp.v).length = _; rw [List.length_map, hA.wf.val_len]; rfl)]
        rw [cols_ind (B := A) hA.wf.val_len] at hc
        exact hc
      rw [c1, c2, c3]
      simp
  have g3 : ρ.gi N + ρ.gi (2 * N) ≤ ρ.gi (3 * N) := by
    have := gi_add hu N (2 * N)
    rw [show N + 2 * N = 3 * N by omega] at this
    have := mul_nonneg (gi_nonneg hu N) (gi_nonneg hu (2 * N))
    linarith
  calc |M i j - A.real.mat i j| = |(M i j - luReal A H'.val i j) + (luReal A H'.val i j - A.real.mat i j)| := by
        congr 1; ring
    _ ≤ _ := (abs_add_le _ _).trans (add_le_add b1 b2)
    _ = (ρ.gi N + ρ.gi (2 * N)) * luSizes A H'.val i j := by ring
    _ ≤ _ := mul_le_mul_of_nonneg_right g3 hs

end

/-! ### the operations one by one -/

/-- **C58** With products and differences evaluated one by one the smoother of this property is the
smoother of C34. -/
theorem C58_plain {R : Type} [Add R] [Sub R] [Mul R] [Div R] (nz : R → Bool) (g : Nat → Int)
    (same : Bool) (op : Int) (A : Option (IluHandle R)) (d : Option Descr) (pc : Bool) (x b : Option (List R)) :
    iluF SolveFpu.plain nz g same op A d pc x b = ilu nz g same op A d pc x b := rfl

/-! ### examples -/

/-- the matrix `1 2 ; 3 10` -/
def fpDense (ρ : Rounding) : Csr (Fp ρ) :=
  ⟨2, 2, 0, [0, 2, 4], [0, 1, 0, 1], [1, 2, 3, 10].map (fpInt ρ)⟩

theorem fpDense_fit (ρ : Rounding) : IluFit (fpDense ρ) := by
  refine ⟨⟨Or.inl rfl, rfl, rfl, ?_, rfl, rfl, ?_⟩, rfl, ?_, ?_, ?_⟩
  · show ∀ i, i < 2 → ([0, 2, 4] : List Int).getD i 0 ≤ ([0, 2, 4] : List Int).getD (i + 1) 0
    decide
  · show ∀ c ∈ ([0, 1, 0, 1] : List Int), (0 : Int) ≤ c ∧ c < 0 + 2
    decide
  · intro i h1 _
    have hi : i < 2 := h1
    obtain rfl | rfl : i = 0 ∨ i = 1 := by omega
    · show (0 : Int) ∈ ([0, 1] : List Int)
      decide
    · show (1 : Int) ∈ ([0, 1] : List Int)
      decide
  · intro i hi
    have hi : i < 2 := hi
    obtain rfl | rfl : i = 0 ∨ i = 1 := by omega
    · show ([0, 1] : List Int).Pairwise (fun a b => b ≤ ((0 : Nat) : Int) → a < b)
      decide
    · show ([0, 1] : List Int).Pairwise (fun a b => b ≤ ((1 : Nat) : Int) → a < b)
      decide
  · intro i hi
    have hi : i < 2 := hi
    obtain rfl | rfl : i = 0 ∨ i = 1 := by omega
    · show ([0, 1] : List Int).Nodup
      decide
    · show ([0, 1] : List Int).Nodup
      decide

theorem fpDense_nofill (ρ : Rounding) : (fpDense ρ).NoFill := by
  intro i k j hi h1 h2 h3 h4
  have hi : i < 2 := hi
  obtain rfl : i = 1 := by omega
  obtain rfl : k = 0 := by omega
  exact h4

/-- double precision, products fused: the smoother of the dense matrix succeeds, and its result solves a
system whose matrix differs from `1 2 ; 3 10` by rounding errors -/
example : ∃ (nz : Fp (binary 53) → Bool) (x' : List (Fp (binary 53))) (H' : IluHandle (Fp (binary 53))),
    iluF (SolveFpu.fused (binary 53)) nz (fun _ => 0) true 111
        (some (.fresh ((fpDense (binary 53)).raw false) .fully true)) (some ⟨0, 0, 0, 0⟩) true
        (some [0, 0]) (some [fpInt _ 1, fpInt _ 7])
      = some (.success, true, some x', some H') ∧
    ∃ M : Mat ℝ, (∀ i j, i < 2 → j < 2 → |M i j - (fpDense (binary 53)).real.mat i j|
        ≤ (binary 53).gi (3 * 2) * luSizes (fpDense (binary 53)) H'.val i j) ∧
      ∀ i, i < 2 → ∑ j ∈ range 2, M i j * (reals x').getD j 0
        = (reals [fpInt (binary 53) 1, fpInt _ 7]).getD i 0 := by
  classical
  have hA := fpDense_fit (binary 53)
  have hu : (binary 53).u < 1 := by
    show (1 / 2 ^ 53 : ℝ) < 1
    norm_num
  let nz : Fp (binary 53) → Bool := fun d => decide (|d.v| ≤ 1 / 2 ^ 52)
  have hz : ∀ d, nz d = false → d.v ≠ 0 := by
    intro d h h0
    have := of_decide_eq_false h
    rw [h0] at this
    norm_num at this
  have ex : ∀ z : Int, z.natAbs ≤ 2 ^ 53 → (binary 53).fl (z : ℝ) = z := binary_exact 53 (by norm_num)
  have hfit : IluReachedF (SolveFpu.fused (binary 53)) nz (fpDense (binary 53))
      (.fresh ((fpDense (binary 53)).raw false) .fully true) := .create _ (.inl rfl)
  rcases C58_entries hA (by show 0 < 2; norm_num) hfit (fun _ => 0) 0 0
    (x := [0, 0]) (b := [fpInt _ 1, fpInt _ 7]) (le_refl _) (le_refl _) with ⟨x', H', e, -⟩ | ⟨H', e, -, r, h1, h2, h3, d, h4, h5⟩
  · refine ⟨nz, x', H', e, ?_⟩
    refine C58_no_fill hu (solve_fused_rounds _) hz hA (fpDense_nofill _) (by show 0 < 2; norm_num) hfit
      (fun _ => 0) 0 0 (le_refl _) (le_refl _) e ?_
    intro i hi
    have hi : i < 2 := hi
    obtain rfl | rfl : i = 0 ∨ i = 1 := by omega
    · exact le_refl _
    · exact le_refl _
  · exfalso
    generalize H'.val = v at h2 h3 h4
    have a0 := h2 0 (Nat.zero_le _)
    have b0 := a0 0 (fpInt _ 1) rfl
    have b1 := a0 1 (fpInt _ 2) rfl
    rw [if_neg (by norm_num)] at b0 b1
    rcases v with - | ⟨v0, - | ⟨v1, v⟩⟩
    · cases b0
    · cases b1
    have b0 : some v0 = some (fpInt _ 1) := b0
    have b1 : some v1 = some (fpInt _ 2) := b1
    cases b0
    cases b1
    have hr : r < 2 := h1
    obtain rfl | rfl : r = 0 ∨ r = 1 := by omega
    · have h4 : some (fpInt _ 1) = some d := h4
      cases h4
      have := of_decide_eq_true h5
      simp only [fpInt] at this
      norm_num at this
    · have a1 := h2 1 (le_refl _)
      have c0 := a1 0 (fpInt _ 3) rfl
      have c1 := a1 1 (fpInt _ 10) rfl
      rw [if_pos (by norm_num)] at c0
      rw [if_neg (by norm_num)] at c1
      obtain ⟨d0, c2, c3⟩ := c0
      have c2 : some (fpInt _ 1) = some d0 := c2
      cases c2
      rcases v with - | ⟨v2, - | ⟨v3, v⟩⟩
      · cases c3
      · cases c1
      have c3 : some v2 = some (fpInt _ 3 / fpInt _ 1) := c3
      have c1 : some v3 = some ((SolveFpu.fused (binary 53)).msub v2 (fpInt _ 2) (fpInt _ 10)) := c1
      have h4 : some v3 = some d := h4
      have e2 : v2.v = 3 := by
        rw [Option.some.inj c3]
        show (binary 53).fl (((3 : Int) : ℝ) / ((1 : Int) : ℝ)) = 3
        have := ex 3 (by norm_num)
        norm_num at this ⊢
        exact this
      have e3 : d.v = 4 := by
        rw [← Option.some.inj h4, Option.some.inj c1]
        show (binary 53).fl (((10 : Int) : ℝ) - v2.v * ((2 : Int) : ℝ)) = 4
        rw [e2]
        have := ex 4 (by norm_num)
        norm_num at this ⊢
        exact this
      have := of_decide_eq_true h5
      rw [e3] at this
      norm_num at this

/-- the other outcome: the second pivot of `1 2 ; 3 6` is zero (integers, division rounds) -/
example : (iluF (SolveFpu.plain : SolveFpu Int) (fun d => d == 0) (fun _ => 0) true 111
      (some (.fresh ((⟨2, 2, 0, [0, 2, 4], [0, 1, 0, 1], [1, 2, 3, 6]⟩ : Csr Int).raw false) .fully true))
      (some ⟨0, 0, 0, 0⟩) true (some [8, 9]) (some [1, 7])).map (fun r => (r.1, r.2.1, r.2.2.1))
    = some (.numericalError, false, some [8, 9]) := by decide +kernel

end Verif
