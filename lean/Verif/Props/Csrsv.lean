/-
C53  The deprecated triangular solver on raw CSR arrays.
-/
import Verif.Proofs.Csrsv
import Verif.Proofs.Trsm
import Mathlib.Data.Rat.Star

namespace Verif
open Model Finset

variable {R : Type} [Field R] [DecidableEq R] [StarRing R]

/-- What a caller has to provide: a square zero-based CSR matrix; for the lower solve rows that
list the strictly lower entries first, then the diagonal, then the rest (sorted rows do); with a
stored (non-unit) diagonal, one non-zero diagonal entry per row; arrays of `m` elements. -/
structure SvInput (A : Csr R) (f : Fill) (Dg : Diag) (b y : List R) : Prop where
  wf : A.WF
  square : A.n = A.m
  base : A.base = 0
  order : f = .lower → A.Grouped
  type : Dg ≠ .zero
  diag : Dg = .nonUnit → A.OneDiag ∧ A.FullDiag ∧ ∀ i, i < A.m → A.mat i i ≠ 0
  rhs : A.m ≤ b.length
  sol : A.m ≤ y.length

theorem SvInput.ctx {A : Csr R} {f : Fill} {Dg : Diag} {x : SvRhs R} {y : List R}
    (h : SvInput A f Dg (x.arr y) y) : SvCtx A (decide (Dg = .nonUnit)) x y := by
  refine ⟨h.wf, h.square, h.base, ?_, h.rhs, h.sol⟩
  intro hnu i hi
  obtain ⟨h1, h2, -⟩ := h.diag (by simpa using hnu)
  have hl : (dgPart i (A.row i)).length = 1 := by
    have a := h1 i hi
    have b : 0 < (A.cols i).count (i : Int) :=
      List.count_pos_iff.mpr (h2 i hi (by have := h.square; omega))
    rw [dgPart_length]
    unfold Csr.cols at a b
    omega
  obtain ⟨⟨c, w⟩, he⟩ := List.length_eq_one_iff.mp hl
  have : (c, w) ∈ dgPart i (A.row i) := by rw [he]; simp
  have hc := (mem_dgPart.mp this).2
  exact ⟨w, by rw [he]; simp only at hc; rw [hc]⟩

theorem SvInput.ne {A : Csr R} {f : Fill} {Dg : Diag} {b y : List R}
    (h : SvInput A f Dg b y) (i : Nat) (hi : i < A.m) : svD A (decide (Dg = .nonUnit)) i ≠ 0 := by
  unfold svD
  split
  · next hn => exact (h.diag (by simpa using hn)).2.2 i hi
  · exact one_ne_zero

/-- **C53** On such an input, with a general or symmetric descriptor and no transposition, the
call succeeds and leaves in `y` the solution of the triangular system the descriptor selects
(entries outside the triangle, and a stored diagonal under "unit", play no role); nothing else
changes.  `x` and `y` may be the same array. -/
theorem C53_solve (A : Csr R) (f : Fill) (Dg : Diag) (t : Nat) (ht : t = 0 ∨ t = 1) (alpha : R)
    (x : SvRhs R) (y : List R) (h : SvInput A f Dg (x.arr y) y) :
    ∃ y', csrsv Op.none.code (some alpha) A.m (some A.val) (some A.ind) (some A.ptr)
        (some ⟨t, f.code, Dg.code, 0⟩) (some x) (some y) = some (.success, some y') ∧
      IsSolve (operator .triangular f Dg .none A.mat) A.m alpha (x.arr y) 1 y 1 y' := by
  have hchk : ∀ r, csrsvRun alpha A.m A.val A.ind A.ptr ⟨t, f.code, Dg.code, 0⟩ x y = some r →
      0 < A.m → csrsv Op.none.code (some alpha) A.m (some A.val) (some A.ind) (some A.ptr)
        (some ⟨t, f.code, Dg.code, 0⟩) (some x) (some y) = some r := by
    intro r hr hm
    show csrsvChecked _ _ _ _ _ _ _ _ _ = _
    unfold csrsvChecked
    rw [if_neg (by simp), if_neg (by simp only; omega), if_neg (by simp [Op.code]),
      if_neg (by omega), if_neg (by omega), hr]
  have hdg : decide (Dg.code = 0) = decide (Dg = .nonUnit) := by cases Dg <;> rfl
  rcases Nat.eq_zero_or_pos A.m with hm | hm
  · refine ⟨y, ?_, rfl, fun i hi => by omega, fun _ _ => rfl⟩
    show csrsvChecked _ _ _ _ _ _ _ _ _ = _
    unfold csrsvChecked
    rw [if_neg (by simp), if_neg (by simp only; omega), if_neg (by simp [Op.code]),
      if_neg (by omega), if_pos (by omega)]
  · cases f with
    | lower =>
      obtain ⟨s, g, e, h1, h2⟩ := lsolve_spec (alpha := alpha) _ h.ctx (h.order rfl) h.ne
      refine ⟨s.1, hchk _ ?_ hm, svIsSolve .lower h.type rfl h1 h2⟩
      simp only [csrsvRun, Fill.code, if_true, hdg, e]
      rfl
    | upper =>
      obtain ⟨s, g, e, h1, h2⟩ := usolve_spec (alpha := alpha) _ h.ctx h.ne
      refine ⟨s.1, hchk _ ?_ hm, svIsSolve .upper h.type rfl h1 h2⟩
      simp only [csrsvRun, Fill.code, hdg, e]
      rfl

/-- **C53** The result is the only array that solves the system and agrees with the old `y`
elsewhere: whatever other solver is used, it gives the same. -/
theorem C53_unique (A : Csr R) (f : Fill) (Dg : Diag) (t : Nat) (ht : t = 0 ∨ t = 1) (alpha : R)
    (x : SvRhs R) (y z : List R) (h : SvInput A f Dg (x.arr y) y)
    (hz : IsSolve (operator .triangular f Dg .none A.mat) A.m alpha (x.arr y) 1 y 1 z) :
    csrsv Op.none.code (some alpha) A.m (some A.val) (some A.ind) (some A.ptr)
        (some ⟨t, f.code, Dg.code, 0⟩) (some x) (some y) = some (.success, some z) := by
  obtain ⟨y', e, hy⟩ := C53_solve A f Dg t ht alpha x y h
  have key := tri_unique f Dg .none h.type A.mat (fun hd i hi => (h.diag hd).2.2 i hi)
    (y := fun j => y'.getD (j * 1) 0) (z := fun j => z.getD (j * 1) 0)
    (fun i hi => (hy.solves i hi).trans (hz.solves i hi).symm)
  have : y' = z := by
    apply List.ext_getElem?
    intro k
    by_cases hk : k < A.m
    · have h1 := key k hk
      simp only [Nat.mul_one] at h1
      have l1 : k < y'.length := by have := hy.length; have := h.sol; omega
      have l2 : k < z.length := by have := hz.length; have := h.sol; omega
      rw [List.getElem?_eq_getElem l1, List.getElem?_eq_getElem l2]
      rw [List.getD_eq_getElem?_getD, List.getD_eq_getElem?_getD, List.getElem?_eq_getElem l1,
        List.getElem?_eq_getElem l2] at h1
      exact congrArg some h1
    · rw [hy.rest k (by intro i hi; omega), hz.rest k (by intro i hi; omega)]
  rw [e, this]

/-- **C53** What is refused, with which status, in the order of the checks; a refused call leaves
`y` as it was.  No assumption on the arrays, the sizes or the scalars. -/
theorem C53_refused {K : Type} [Sub K] [Mul K] [Div K] (trans : Int) (alpha : Option K) (m : Int)
    (val : Option (List K)) (ind ptr : Option (List Int)) (d : Option Descr) (x : Option (SvRhs K))
    (y : Option (List K)) :
    ((alpha = none ∨ val = none ∨ ind = none ∨ ptr = none ∨ d = none ∨ x = none ∨ y = none) →
      csrsv trans alpha m val ind ptr d x y = some (.invalidPointer, y)) ∧
    (∀ a v i p D X Y, alpha = some a → val = some v → ind = some i → ptr = some p → d = some D →
      x = some X → y = some Y →
      ((D.base ≠ 0 ∨ ¬ (D.type = MType.general.code ∨ D.type = MType.symmetric.code) ∨
          trans ≠ Op.none.code) →
        csrsv trans alpha m val ind ptr d x y = some (.notImplemented, y)) ∧
      (D.base = 0 → (D.type = MType.general.code ∨ D.type = MType.symmetric.code) →
        trans = Op.none.code →
        (m < 0 → csrsv trans alpha m val ind ptr d x y = some (.invalidSize, y)) ∧
        (m = 0 → csrsv trans alpha m val ind ptr d x y = some (.success, y)))) := by
  constructor
  · intro h
    unfold csrsv
    split
    · simp_all
    · rfl
  · rintro a v i p D X Y rfl rfl rfl rfl rfl rfl rfl
    constructor
    · intro h
      show csrsvChecked _ _ _ _ _ _ _ _ _ = _
      unfold csrsvChecked
      split_ifs with h1 h2 h3 <;> try rfl
      all_goals (exfalso; simp only [MType.code, Op.code] at h; omega)
    · intro hb ht htr
      simp only [MType.code, Op.code] at ht htr
      constructor
      · intro hm
        show csrsvChecked _ _ _ _ _ _ _ _ _ = _
        unfold csrsvChecked
        rw [if_neg (by omega), if_neg (by omega), if_neg (by omega), if_pos hm]
      · intro hm
        show csrsvChecked _ _ _ _ _ _ _ _ _ = _
        unfold csrsvChecked
        rw [if_neg (by omega), if_neg (by omega), if_neg (by omega), if_neg (by omega), if_pos hm]

/-- the lower triangle `(2 . . / 1 4 . / 3 5 8)`, with one entry above the diagonal -/
def svEx : Csr ℚ := ⟨3, 3, 0, [0, 2, 4, 7], [0, 2, 0, 1, 0, 1, 2], [2, 9, 1, 4, 3, 5, 8]⟩

instance (A : Csr ℚ) (f : Fill) (Dg : Diag) (b y : List ℚ) : Decidable (SvInput A f Dg b y) :=
  decidable_of_iff (A.WF ∧ A.n = A.m ∧ A.base = 0 ∧ (f = .lower → A.Grouped) ∧ Dg ≠ .zero ∧
    (Dg = .nonUnit → A.OneDiag ∧ A.FullDiag ∧ ∀ i, i < A.m → A.mat i i ≠ 0) ∧
    A.m ≤ b.length ∧ A.m ≤ y.length)
    ⟨fun ⟨a, b, c, d, e, f, g, h⟩ => ⟨a, b, c, d, e, f, g, h⟩,
     fun ⟨a, b, c, d, e, f, g, h⟩ => ⟨a, b, c, d, e, f, g, h⟩⟩

/-- a case: separate arrays and in place, both diagonals -/
example : SvInput svEx .lower .nonUnit [2, 5, 16] [7, 7, 7] ∧
    SvInput svEx .upper .unit [2, 5, 16] [2, 5, 16] ∧
    csrsv 111 (some (2 : ℚ)) 3 (some svEx.val) (some svEx.ind) (some svEx.ptr)
      (some ⟨0, 0, 0, 0⟩) (some (.own [2, 5, 16])) (some [7, 7, 7])
      = some (.success, some [2, 2, 2]) ∧
    csrsv 111 (some (1 : ℚ)) 3 (some svEx.val) (some svEx.ind) (some svEx.ptr)
      (some ⟨0, 1, 1, 0⟩) (some .same) (some [2, 5, 16])
      = some (.success, some [-142, 5, 16]) := by decide +kernel

/-- the same matrix with the last row stored as `8 3 5` (columns 2, 0, 1) -/
def svShuffled : Csr ℚ := ⟨3, 3, 0, [0, 2, 4, 7], [0, 2, 0, 1, 2, 0, 1], [2, 9, 1, 4, 8, 3, 5]⟩

/-- **C53** finding: the lower solve stops reading a row at the first entry that is not below the
diagonal.  On unsorted rows it drops entries and still reports success. -/
theorem C53_unsorted_lower :
    svShuffled.WF ∧ (∀ i < 3, ∀ j < 3, svShuffled.mat i j = svEx.mat i j) ∧
    ∃ y', csrsv 111 (some (2 : ℚ)) 3 (some svShuffled.val) (some svShuffled.ind)
        (some svShuffled.ptr) (some ⟨0, 0, 0, 0⟩) (some (.own [2, 5, 16])) (some [7, 7, 7])
        = some (.success, some y') ∧ y' = [2, 2, 4] ∧
      ¬ IsSolve (operator .triangular .lower .nonUnit .none svShuffled.mat) 3 2 [2, 5, 16] 1
        [7, 7, 7] 1 y' := by
  refine ⟨by decide +kernel, by decide +kernel, [2, 2, 4], by decide +kernel, rfl, ?_⟩
  intro h
  have h2 := h.solves 2 (by omega)
  revert h2
  decide +kernel

/-- row 1 has no diagonal entry -/
def svNoDiag : Csr ℚ := ⟨2, 2, 0, [0, 1, 2], [0, 0], [4, 1]⟩

/-- **C53** finding: a row without a diagonal entry is divided by the diagonal of an earlier row
(the position is not reset from row to row; for the first row it is entry 0 of the matrix), and
success is reported for a singular matrix. -/
theorem C53_missing_diagonal :
    svNoDiag.mat 1 1 = 0 ∧
    csrsv 111 (some (1 : ℚ)) 2 (some svNoDiag.val) (some svNoDiag.ind) (some svNoDiag.ptr)
      (some ⟨0, 0, 0, 0⟩) (some (.own [4, 9])) (some [0, 0]) = some (.success, some [1, 2]) ∧
    ∀ z, ¬ IsSolve (operator .triangular .lower .nonUnit .none svNoDiag.mat) 2 1 [4, 9] 1
      [0, 0] 1 z := by
  refine ⟨by decide +kernel, by decide +kernel, ?_⟩
  intro z h
  have h0 := h.solves 0 (by omega)
  have h1 := h.solves 1 (by omega)
  have e : operator .triangular .lower .nonUnit .none svNoDiag.mat 0 0 = 4 ∧
      operator .triangular .lower .nonUnit .none svNoDiag.mat 0 1 = 0 ∧
      operator .triangular .lower .nonUnit .none svNoDiag.mat 1 0 = 1 ∧
      operator .triangular .lower .nonUnit .none svNoDiag.mat 1 1 = 0 := by decide +kernel
  rw [sum_range_succ, sum_range_one] at h0 h1
  rw [e.1, e.2.1] at h0
  rw [e.2.2.1, e.2.2.2] at h1
  simp only [zero_mul, add_zero, one_mul] at h0 h1
  rw [h1] at h0
  revert h0
  decide +kernel

/-- **C53** finding: the diagonal type "zero" is treated as "unit". -/
theorem C53_zero_diagonal {K : Type} [Sub K] [Mul K] [Div K] (trans : Int) (alpha : Option K)
    (m : Int) (val : Option (List K)) (ind ptr : Option (List Int)) (t f : Nat) (base : Int)
    (x : Option (SvRhs K)) (y : Option (List K)) :
    csrsv trans alpha m val ind ptr (some ⟨t, f, Diag.zero.code, base⟩) x y
      = csrsv trans alpha m val ind ptr (some ⟨t, f, Diag.unit.code, base⟩) x y := by
  rcases val with _ | val
  · rfl
  rcases ptr with _ | ptr
  · rfl
  rcases ind with _ | ind
  · rfl
  rcases x with _ | x
  · rfl
  rcases y with _ | y
  · rfl
  rcases alpha with _ | alpha
  · rfl
  rfl

/-- **C53** finding: a symmetric descriptor is accepted, but what is solved is the triangular
system of the selected half, not the symmetric one. -/
theorem C53_symmetric_not_solved :
    csrsv 111 (some (1 : ℚ)) 2 (some [1, 1, 3]) (some [0, 0, 1]) (some [0, 1, 3])
      (some ⟨MType.symmetric.code, 0, 0, 0⟩) (some (.own [2, 8])) (some [0, 0])
      = some (.success, some [2, 2]) ∧
    ¬ IsSolve (operator .symmetric .lower .nonUnit .none
      (⟨2, 2, 0, [0, 1, 3], [0, 0, 1], [1, 1, 3]⟩ : Csr ℚ).mat) 2 1 [2, 8] 1 [0, 0] 1 [2, 2] := by
  refine ⟨by decide +kernel, ?_⟩
  intro h
  have h0 := h.solves 0 (by omega)
  revert h0
  decide +kernel

end Verif
