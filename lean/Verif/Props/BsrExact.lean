/-
C74: the elements and the rounding error of the BSR matrix-vector product.
-/
import Verif.Proofs.BsrExact
import Verif.Props.Bsrmv
import Verif.Props.MdExact
import Verif.Spec.MvErr

namespace Verif
open Model Finset

variable {R : Type} [Zero R] [One R] [Add R] [Mul R] [DecidableEq R]

/-- In any arithmetic, for every well-formed BSR structure with column-major blocks: the elements of y are
computed by the operations that `bsrElt` lists, in that order; the elements after them keep their value. -/
theorem C74_value (B : Bsr R) (hB : B.WF) (hcol : B.rowMajor = false) (hmb : B.mb ≠ 0) (hnb : B.nb ≠ 0)
    (ty : ScalarTy) (avx512 : Bool) (alpha beta : R) (d : Descr) (hd : d.base = B.base) (ht : d.type = 0)
    (x y : List R) (hx : B.nb * B.bd ≤ x.length) (hy : B.mb * B.bd ≤ y.length) :
    ∃ y', bsrmv ty avx512 111 (some alpha) B.mb B.nb B.bd (some B.val) (some B.ind) (some B.ptr)
        (some d) (some x) (some beta) (some y) = some (.success, some y') ∧
      y'.length = y.length ∧
      (∀ i, i < B.mb * B.bd → ∃ w, y[i]? = some w ∧
        y'[i]? = some (bsrElt (bsrWay ty B.bd) alpha beta B x w (i / B.bd) (i % B.bd))) ∧
      ∀ i, B.mb * B.bd ≤ i → y'[i]? = y[i]? := by
  obtain ⟨y', e, h⟩ := bsrRows_is hB (alpha := alpha) (beta := beta) (x := x) (y := y) hy
    (bsrKernel_is hB hcol hx hy ty avx512)
  rw [bsrKernel_way] at h
  refine ⟨y', ?_, h.1, ?_, ?_⟩
  · unfold bsrmv
    have := hB.base01
    have := hB.bd_pos
    simp only
    rw [if_neg (by omega), if_neg (by omega), if_neg (by decide), if_neg (by omega),
      if_neg (by omega), hd, e]
    rfl
  · intro i hi
    have hil : i < y.length := by omega
    refine ⟨y[i], List.getElem?_eq_getElem hil, ?_⟩
    rw [h.2 i hil]
    beta_reduce
    rw [if_pos hi, List.getD_eq_getElem?_getD, List.getElem?_eq_getElem hil]
    rfl
  · intro i hi
    by_cases hil : i < y.length
    · rw [h.2 i hil]
      beta_reduce
      rw [if_neg (by omega), List.getD_eq_getElem?_getD, List.getElem?_eq_getElem hil]
      rfl
    · have := h.1
      rw [List.getElem?_eq_none (by omega), List.getElem?_eq_none (by omega)]

/-- In any arithmetic, so bit for bit in floating point: the result does not depend on the instruction set. -/
theorem C74_isa (B : Bsr R) (hB : B.WF) (hcol : B.rowMajor = false) (hmb : B.mb ≠ 0) (hnb : B.nb ≠ 0)
    (ty : ScalarTy) (alpha beta : R) (d : Descr) (hd : d.base = B.base) (ht : d.type = 0)
    (x y : List R) (hx : B.nb * B.bd ≤ x.length) (hy : B.mb * B.bd ≤ y.length) :
    bsrmv ty true 111 (some alpha) B.mb B.nb B.bd (some B.val) (some B.ind) (some B.ptr)
        (some d) (some x) (some beta) (some y)
      = bsrmv ty false 111 (some alpha) B.mb B.nb B.bd (some B.val) (some B.ind) (some B.ptr)
        (some d) (some x) (some beta) (some y) := by
  obtain ⟨y1, e1, -, h1, r1⟩ := C74_value B hB hcol hmb hnb ty true alpha beta d hd ht x y hx hy
  obtain ⟨y2, e2, -, h2, r2⟩ := C74_value B hB hcol hmb hnb ty false alpha beta d hd ht x y hx hy
  rw [e1, e2]
  congr 3
  apply List.ext_getElem?
  intro i
  by_cases hi : i < B.mb * B.bd
  · obtain ⟨w, hw, g1⟩ := h1 i hi
    obtain ⟨w', hw', g2⟩ := h2 i hi
    rw [hw] at hw'
    cases hw'
    rw [g1, g2]
  · rw [r1 i (by omega), r2 i (by omega)]

/-! ### rounding -/

omit [Zero R] [One R] [Add R] [Mul R] [DecidableEq R] in
theorem Bsr.mapTo_wf {S : Type} {f : R → S} {B : Bsr R} (h : B.WF) : (B.mapTo f).WF := by
  obtain ⟨h1, h2, h3, h4, h5, h6, h7, h8⟩ := h
  exact ⟨h1, h2, h3, h4, h5, h6, by simpa [Bsr.mapTo, Bsr.p] using h7, h8⟩

omit [One R] [Add R] [Mul R] [DecidableEq R] in
theorem getD_map0 {S : Type} [Zero S] {f : R → S} (h0 : f 0 = 0) (x : List R) (k : Nat) :
    (x.map f).getD k 0 = f (x.getD k 0) := by
  simp only [List.getD_eq_getElem?_getD, List.getElem?_map]
  cases x[k]? <;> simp [h0]

omit [One R] [Add R] [Mul R] [DecidableEq R] in
theorem Bsr.mapTo_elem {S : Type} [Zero S] {f : R → S} (h0 : f 0 = 0) (B : Bsr R) (k r c : Nat) :
    (B.mapTo f).elem k r c = f (B.elem k r c) := by
  exact getD_map0 h0 _ _

omit [One R] [Add R] [Mul R] [DecidableEq R] in
theorem bsrPairs_sum (f : R → ℝ) (h0 : f 0 = 0) (rev : Bool) {B : Bsr R} (hB : B.WF) (x : List R) {I r : Nat}
    (hI : I < B.mb) :
    ((bsrPairs rev B x I r).map fun ab => f ab.1 * f ab.2).sum = bsrDot (B.mapTo f) (x.map f) I r := by
  unfold bsrPairs bsrDot
  rw [List.map_flatMap, list_sum_flatMap, list_range_sum]
  have hlo : (B.mapTo f).lo I = B.lo I := rfl
  have hhi : (B.mapTo f).hi I = B.hi I := rfl
  rw [hlo, hhi, sum_Ico_eq_sum_range]
  apply sum_congr rfl
  intro t _
  unfold bsrBlockPairs bsrBlk
  simp only [Bsr.mapTo_elem h0, getD_map0 h0]
  have hbd : (B.mapTo f).bd = B.bd := rfl
  have hcl : (B.mapTo f).col (B.lo I + t) = B.col (B.lo I + t) := rfl
  rw [hbd, hcl, ← list_range_sum]
  cases rev
  · simp [Function.comp_def]
  · simp only [if_true, List.map_map, List.map_reverse, List.sum_reverse]
    rfl

omit [One R] [Add R] [Mul R] [DecidableEq R] in
theorem bsrPairs_length (rev : Bool) (B : Bsr R) (x : List R) (I r : Nat) :
    (bsrPairs rev B x I r).length = (B.hi I - B.lo I) * B.bd := by
  unfold bsrPairs bsrBlockPairs
  rw [List.length_flatMap]
  cases rev <;> simp

section
variable {ρ : Rounding} {v : R → ℝ} {fac : R → Option (ℝ × ℝ)}

omit [One R] [DecidableEq R] in
theorem dotRight_near (hR : Contracts ρ v fac) {L : List (R × R)} (hL : PlainL fac L) :
    ∀ {r : R} {k : Nat} {e s : ℝ}, 1 ≤ k → NearC ρ v fac k e s r →
      NearC ρ v fac (k + L.length) (e + dotV v L) (s + dotS v L) (dotRight r L) := by
  induction L with
  | nil => intro r k e s _ h; simpa [dotV, dotS, dotRight] using h
  | cons ab L ih =>
    intro r k e s hk h
    have hp := h.add hR ((NearC.prod hR (a := ab.1) (hL ab (.head _)).2).mono hk)
    have := ih (fun x hx => hL x (.tail _ hx)) (by omega) hp
    have e1 : e + v ab.1 * v ab.2 + dotV v L = e + dotV v (ab :: L) := by unfold dotV; simp; ring
    have e2 : s + |v ab.1| * |v ab.2| + dotS v L = s + dotS v (ab :: L) := by unfold dotS; simp; ring
    rw [e1, e2, show k + 1 + L.length = k + (ab :: L).length by simp; omega] at this
    exact this

theorem bsrElt_near (hR : Contracts ρ v fac) (h1 : v 1 = 1) (way : BsrWay) (alpha beta : R) {B : Bsr R}
    (hB : B.WF) {x : List R} (pB : ∀ a ∈ B.val, fac a = none) (pX : ∀ a ∈ x, fac a = none) {w : R}
    (pw : fac w = none) {I r : Nat} (hI : I < B.mb) :
    NearC ρ v fac ((B.hi I - B.lo I) * B.bd + 3)
      (v alpha * bsrDot (B.mapTo v) (x.map v) I r + v beta * v w)
      (|v alpha| * bsrDot (B.mapTo fun a => |v a|) (x.map fun a => |v a|) I r + |v beta| * |v w|)
      (bsrElt way alpha beta B x w I r) := by
  have hpl : ∀ rev, PlainL fac (bsrPairs rev B x I r) := by
    have g : ∀ (l : List R), (∀ a ∈ l, fac a = none) → ∀ k, fac (l.getD k 0) = none := by
      intro l hl k
      rw [List.getD_eq_getElem?_getD]
      rcases hk : l[k]? with _ | a
      · exact hR.zero_fac
      · exact hl a (List.mem_of_getElem? hk)
    intro rev ab hab
    unfold bsrPairs at hab
    obtain ⟨t, -, ht⟩ := List.mem_flatMap.1 hab
    obtain ⟨c, -, rfl⟩ := List.mem_map.1 ht
    exact ⟨g _ pB _, g _ pX _⟩
  have hV : ∀ rev, dotV v (bsrPairs rev B x I r) = bsrDot (B.mapTo v) (x.map v) I r :=
    fun rev => bsrPairs_sum v hR.zero rev hB x hI
  have hS : ∀ rev, dotS v (bsrPairs rev B x I r) = bsrDot (B.mapTo fun a => |v a|) (x.map fun a => |v a|) I r :=
    fun rev => bsrPairs_sum (fun a => |v a|) (by simp [hR.zero]) rev hB x hI
  have hs : NearC ρ v fac ((B.hi I - B.lo I) * B.bd + 1) (bsrDot (B.mapTo v) (x.map v) I r)
      (bsrDot (B.mapTo fun a => |v a|) (x.map fun a => |v a|) I r)
      (bsrSum way B x I r) := by
    have a1 := dotLeft0_near hR (hpl true)
    have a2 := dotRight_near hR (hpl false) (le_refl 1) ((NearC.zero hR).mono (Nat.zero_le 1))
    rw [hV, hS, bsrPairs_length] at a1 a2
    rw [zero_add, zero_add, Nat.add_comm] at a2
    cases way
    · exact a2
    · exact a1
    · exact a1
  unfold bsrElt
  generalize bsrSum way B x I r = s at hs ⊢
  have ha : NearC ρ v fac ((B.hi I - B.lo I) * B.bd + 1 + 1) (v alpha * bsrDot (B.mapTo v) (x.map v) I r)
      (|v alpha| * bsrDot (B.mapTo fun a => |v a|) (x.map fun a => |v a|) I r)
      (if alpha = 1 then s else s * alpha) := by
    by_cases h : alpha = 1
    · rw [if_pos h, h, h1, abs_one, one_mul, one_mul]
      exact hs.mono (Nat.le_succ _)
    · rw [if_neg h]
      exact NearC.mul_right hR alpha hs
  dsimp only
  by_cases hb : beta = 0
  · rw [if_pos hb, hb, hR.zero, abs_zero, zero_mul, zero_mul, add_zero, add_zero]
    exact ha.mono (Nat.le_succ _)
  · rw [if_neg hb]
    cases way
    · exact lin_near hR alpha beta pw ha (.inl rfl) (.inl rfl)
    · exact lin_near hR alpha beta pw ha (.inl rfl) (.inl rfl)
    · exact lin_near hR alpha beta pw ha (.inr rfl) (.inr rfl)

/-- In floating point, whichever products the compiler fuses and whichever kernel runs, every element of the
result differs from `alpha * B * x + beta * y` by at most `(1+u)^(t+3) - 1` times the sum of the sizes of the
terms, where `t` is the number of elements that the blocks of its row hold in that row. -/
theorem C74_error (hR : Contracts ρ v fac) (h1 : v 1 = 1) (B : Bsr R) (hB : B.WF) (hcol : B.rowMajor = false)
    (hmb : B.mb ≠ 0) (hnb : B.nb ≠ 0)
    (ty : ScalarTy) (avx512 : Bool) (alpha beta : R) (d : Descr) (hd : d.base = B.base) (ht : d.type = 0)
    (x y : List R) (hx : B.nb * B.bd ≤ x.length) (hy : B.mb * B.bd ≤ y.length)
    (pB : ∀ a ∈ B.val, fac a = none) (pX : ∀ a ∈ x, fac a = none) (pY : ∀ a ∈ y, fac a = none) :
    ∃ y', bsrmv ty avx512 111 (some alpha) B.mb B.nb B.bd (some B.val) (some B.ind) (some B.ptr)
        (some d) (some x) (some beta) (some y) = some (.success, some y') ∧
      MvErr ρ v (fun i => (B.hi (i / B.bd) - B.lo (i / B.bd)) * B.bd + 3) alpha beta (B.mapTo v).mat
        (B.mapTo fun a => |v a|).mat (B.mb * B.bd) (B.nb * B.bd) x y y' := by
  obtain ⟨y', e, hl, h, hr⟩ := C74_value B hB hcol hmb hnb ty avx512 alpha beta d hd ht x y hx hy
  refine ⟨y', e, hl, ?_, hr⟩
  intro i hi
  obtain ⟨w, hw, hz⟩ := h i hi
  refine ⟨w, _, hw, hz, ?_⟩
  have hI : i / B.bd < B.mb := (Nat.div_lt_iff_lt_mul hB.bd_pos).2 hi
  have := (bsrElt_near hR h1 (bsrWay ty B.bd) alpha beta hB pB pX (pY w (List.mem_of_getElem? hw)) (I := i / B.bd)
    (r := i % B.bd) hI).1.2
  have m1 : matVec (B.mapTo v).mat (B.nb * B.bd) (x.map v) i = bsrDot (B.mapTo v) (x.map v) (i / B.bd) (i % B.bd) :=
    matVec_bsr (Bsr.mapTo_wf hB) _ hI
  have m2 : matVec (B.mapTo fun a => |v a|).mat (B.nb * B.bd) (x.map fun a => |v a|) i
      = bsrDot (B.mapTo fun a => |v a|) (x.map fun a => |v a|) (i / B.bd) (i % B.bd) :=
    matVec_bsr (Bsr.mapTo_wf hB) _ hI
  rw [m1, m2]
  exact this
end

/-! ### examples -/

/-- one block row of two 8 x 8 blocks -/
def bsrxB : Bsr (Fp (binary 53)) := ⟨1, 2, 8, false, 1, [1, 3], [2, 1], List.replicate 128 ⟨3⟩⟩
theorem bsrxB_wf : bsrxB.WF :=
  ⟨by decide, by decide, by decide, by decide, by decide, by decide, by simp [bsrxB, Bsr.p], by
    intro k hk
    have : k < 2 := by
      have h : bsrxB.p bsrxB.mb - bsrxB.base = 2 := by decide
      omega
    interval_cases k <;> decide⟩

example := C74_value bsrxB bsrxB_wf rfl (by decide) (by decide) .double true ⟨7⟩ ⟨10⟩ ⟨0, 0, 0, 1⟩ rfl rfl
  (List.replicate 16 ⟨2⟩) (List.replicate 9 ⟨1⟩) (by simp [bsrxB]) (by simp [bsrxB])
/-- four registers of 4 on one machine, two of 8 on the other -/
example : bsrKernel .double true 8 = .vec 8 8 ∧ bsrKernel .double false 8 = .vec 4 8 := by decide
example := C74_isa bsrxB bsrxB_wf rfl (by decide) (by decide) .double ⟨7⟩ ⟨10⟩ ⟨0, 0, 0, 1⟩ rfl rfl
  (List.replicate 16 ⟨2⟩) (List.replicate 9 ⟨1⟩) (by simp [bsrxB]) (by simp [bsrxB])
/-- every element: 16 products, at most 19 roundings -/
example := C74_error (fp_contracts (binary 53)) rfl bsrxB bsrxB_wf rfl (by decide) (by decide) .double true ⟨7⟩ ⟨10⟩
  ⟨0, 0, 0, 1⟩ rfl rfl (List.replicate 16 ⟨2⟩) (List.replicate 9 ⟨1⟩) (by simp [bsrxB]) (by simp [bsrxB])
  (fun _ _ => rfl) (fun _ _ => rfl) (fun _ _ => rfl)
example : (bsrxB.hi 0 - bsrxB.lo 0) * bsrxB.bd + 3 = 19 := by decide

/-- which products, in which order: 2 x 2 blocks, a stored block of column 1 before one of column 0 -/
example : bsrElt .unrolled (7 : ℤ) 10 ⟨1, 2, 2, false, 0, [0, 2], [1, 0], [1, 2, 3, 4, 5, 6, 7, 8]⟩ [1, 10, 100, 1000] 9 0 1
    = (6 * 1 + (8 * 10 + (2 * 100 + (4 * 1000 + 0)))) * 7 + 10 * 9 := by decide

end Verif
