/-
C19, C20: products with symmetric, Hermitian and triangular CSR matrices.
-/
import Verif.Proofs.CsrmvTri
import Verif.Props.Csrmv

namespace Verif
open Model Finset

variable {R : Type}

/-! ## C19 -/

section
variable [CommSemiring R] [StarRing R] [DecidableEq R]

theorem strictTri_flip (f : Fill) {i j : Nat} (h : i ≠ j) :
    strictTri f j i ↔ ¬ strictTri f i j := by
  cases f <;> simp only [strictTri] <;> omega

/-- conjugation, as an additive map -/
def conjAdd : R →+ R := (starAddEquiv (R := R)).toAddMonoidHom

/-- **C19** Symmetric, op = none or transpose: vectorised kernel and scalar kernel. -/
theorem C19_symmetric (V : Vec R) (K : Nat) (hV : V.Ok K) (A : Csr R) (hA : A.WF) (hsq : A.m = A.n)
    (idiag iurow : List Int) (hcl : Clean A idiag iurow) (f : Fill) (Dg : Diag) (op : Op)
    (hop : op ≠ .conjTrans) (alpha beta : R) (x y : List R) (hx : A.n ≤ x.length)
    (hy : A.m ≤ y.length) :
    (∃ y', csrmvSymmKt V K id A.base alpha A.m Dg.code f.code A.val A.ind A.ptr idiag iurow x beta y
        = some y' ∧ IsMv alpha beta (operator .symmetric f Dg op A.mat) A.m A.m x y y') ∧
    (∃ y', csrmvSymmInternal A.base alpha A.m Dg.code f.code A.val A.ind A.ptr idiag iurow x beta y
        = some y' ∧ IsMv alpha beta (operator .symmetric f Dg op A.mat) A.m A.m x y y') := by
  have key : ∀ i j : Nat, operator .symmetric f Dg op A.mat i j
      = if i = j then dv id Dg A.mat i else if strictTri f i j then A.mat i j else A.mat j i := by
    intro i j
    have hd : ∀ i, dv id Dg A.mat i = diagVal Dg A.mat i := by
      intro i; cases Dg <;> rfl
    cases op
    · simp only [operator, applyOp, structured, hd]
    · simp only [operator, applyOp, structured, hd]
      by_cases hij : i = j
      · simp [hij]
      · rw [if_neg hij, if_neg (Ne.symm hij)]
        by_cases hs : strictTri f i j
        · simp [hs, (strictTri_flip f hij), conjAdd]
        · simp [hs, (strictTri_flip f hij), conjAdd]
    · exact absurd rfl hop
  constructor
  · obtain ⟨y', h1, h2⟩ := csrmvSymmKt_spec hV (AddMonoidHom.id R) hA hsq hcl f Dg alpha beta hx hy
    exact ⟨y', h1, h2.congr fun i j _ _ => key i j⟩
  · obtain ⟨y', h1, h2⟩ := csrmvSymmInternal_spec hA hsq hcl f Dg alpha beta hx hy
    exact ⟨y', h1, h2.congr fun i j _ _ => key i j⟩

/-- **C19** Symmetric, op = conjugate transpose. -/
theorem C19_symmetric_conj (A : Csr R) (hA : A.WF) (hsq : A.m = A.n)
    (idiag iurow : List Int) (hcl : Clean A idiag iurow) (f : Fill) (Dg : Diag)
    (alpha beta : R) (x y : List R) (hx : A.n ≤ x.length) (hy : A.m ≤ y.length) :
    ∃ y', csrmvSymmScalar star star star A.base alpha A.m Dg.code f.code A.val A.ind A.ptr idiag x
        beta y = some y' ∧
      IsMv alpha beta (operator .symmetric f Dg .conjTrans A.mat) A.m A.m x y y' := by
  obtain ⟨y', h1, h2⟩ := csrmvSymmScalar_spec (conjAdd (R := R)) conjAdd conjAdd hA hsq hcl f Dg
    alpha beta hx hy
  refine ⟨y', h1, h2.congr ?_⟩
  intro i j _ _
  simp only [operator, applyOp, structured]
  by_cases hij : i = j
  · subst hij
    simp only [if_true]
    cases Dg <;> simp [dv, diagVal, conjAdd]
  · rw [if_neg hij, if_neg (Ne.symm hij)]
    by_cases hs : strictTri f i j
    · simp [hs, (strictTri_flip f hij), conjAdd]
    · simp [hs, (strictTri_flip f hij), conjAdd]

/-- **C19** Hermitian, op = none: vectorised kernel and scalar kernel. -/
theorem C19_hermitian (V : Vec R) (K : Nat) (hV : V.Ok K) (A : Csr R) (hA : A.WF) (hsq : A.m = A.n)
    (idiag iurow : List Int) (hcl : Clean A idiag iurow) (f : Fill) (Dg : Diag)
    (alpha beta : R) (x y : List R) (hx : A.n ≤ x.length) (hy : A.m ≤ y.length) :
    (∃ y', csrmvSymmKt V K star A.base alpha A.m Dg.code f.code A.val A.ind A.ptr idiag iurow x beta
        y = some y' ∧ IsMv alpha beta (operator .hermitian f Dg .none A.mat) A.m A.m x y y') ∧
    (∃ y', csrmvSymmScalar id star id A.base alpha A.m Dg.code f.code A.val A.ind A.ptr idiag x beta
        y = some y' ∧ IsMv alpha beta (operator .hermitian f Dg .none A.mat) A.m A.m x y y') := by
  have hd : ∀ i, dv id Dg A.mat i = diagVal Dg A.mat i := by
    intro i; cases Dg <;> rfl
  constructor
  · obtain ⟨y', h1, h2⟩ := csrmvSymmKt_spec hV (conjAdd (R := R)) hA hsq hcl f Dg alpha beta hx hy
    refine ⟨y', h1, h2.congr fun i j _ _ => ?_⟩
    simp only [operator, applyOp, structured, hd]
    rfl
  · obtain ⟨y', h1, h2⟩ := csrmvSymmScalar_spec (AddMonoidHom.id R) (conjAdd (R := R))
      (AddMonoidHom.id R) hA hsq hcl f Dg alpha beta hx hy
    refine ⟨y', h1, h2.congr fun i j _ _ => ?_⟩
    simp only [operator, applyOp, structured, ← hd]
    rfl

/-- **C19** Hermitian, op = conjugate transpose: the kernel used is that of op = none, right
because a Hermitian matrix has a real diagonal (assumed only where the stored one is used). -/
theorem C19_hermitian_conj (V : Vec R) (K : Nat) (hV : V.Ok K) (A : Csr R) (hA : A.WF)
    (hsq : A.m = A.n) (idiag iurow : List Int) (hcl : Clean A idiag iurow) (f : Fill) (Dg : Diag)
    (hreal : Dg = .nonUnit → RealDiag A.mat)
    (alpha beta : R) (x y : List R) (hx : A.n ≤ x.length) (hy : A.m ≤ y.length) :
    ∃ y', csrmvSymmKt V K star A.base alpha A.m Dg.code f.code A.val A.ind A.ptr idiag iurow x beta
        y = some y' ∧
      IsMv alpha beta (operator .hermitian f Dg .conjTrans A.mat) A.m A.m x y y' := by
  obtain ⟨y', h1, h2⟩ := csrmvSymmKt_spec hV (conjAdd (R := R)) hA hsq hcl f Dg alpha beta hx hy
  refine ⟨y', h1, h2.congr fun i j _ _ => ?_⟩
  simp only [operator, applyOp, structured]
  by_cases hij : i = j
  · subst hij
    simp only [if_true]
    cases Dg
    · simp [dv, diagVal, hreal rfl i]
    · simp [dv, diagVal]
    · simp [dv, diagVal]
  · rw [if_neg hij, if_neg (Ne.symm hij)]
    by_cases hs : strictTri f i j
    · simp [hs, (strictTri_flip f hij), conjAdd]
    · simp [hs, (strictTri_flip f hij), conjAdd]

/-- **C19** Hermitian, op = transpose. -/
theorem C19_hermitian_trans (A : Csr R) (hA : A.WF)
    (hsq : A.m = A.n) (idiag iurow : List Int) (hcl : Clean A idiag iurow) (f : Fill) (Dg : Diag)
    (alpha beta : R) (x y : List R) (hx : A.n ≤ x.length) (hy : A.m ≤ y.length) :
    ∃ y', csrmvHermt star A.base alpha A.m Dg.code f.code A.val A.ind A.ptr idiag x beta
        y = some y' ∧
      IsMv alpha beta (operator .hermitian f Dg .trans A.mat) A.m A.m x y y' := by
  obtain ⟨y', h1, h2⟩ := csrmvHermt_spec (conjAdd (R := R)) hA hsq hcl f Dg alpha beta hx hy
  refine ⟨y', h1, h2.congr fun i j _ _ => ?_⟩
  simp only [operator, applyOp, structured]
  by_cases hij : i = j
  · subst hij
    simp only [if_true]
    cases Dg <;> simp [dv, diagVal]
  · rw [if_neg hij, if_neg (Ne.symm hij)]
    by_cases hs : strictTri f i j
    · simp [hs, (strictTri_flip f hij), conjAdd]
    · simp [hs, (strictTri_flip f hij), conjAdd]

/-- **C19** The public csrmv on a symmetric matrix: right for a lower triangular matrix whose rows
end with their diagonal entry (when it is stored), if the first row is not empty. -/
theorem C19_public_symmetric (A : Csr R) (hA : A.WF) (hsq : A.m = A.n)
    (hlow : ∀ i, i < A.m → ∃ L D, A.row i = L ++ D ∧ (∀ e ∈ L, e.1 < (i : Int)) ∧
      (D = [] ∨ ∃ v, D = [((i : Int), v)]))
    (h0 : 0 < A.m → A.row 0 ≠ []) (alpha beta : R) (x y : List R) (hx : A.n ≤ x.length)
    (hy : A.m ≤ y.length) :
    ∃ y', csrmvSymm A.base alpha A.m A.val A.ind A.ptr x beta y = some y' ∧
      IsMv alpha beta (operator .symmetric .lower .nonUnit .none A.mat) A.m A.m x y y' := by
  classical
  have : ∀ i, ∃ LD : List (Int × R) × List (Int × R), i < A.m → LowRow A i LD.1 LD.2 := by
    intro i
    by_cases hi : i < A.m
    · obtain ⟨L, D, h⟩ := hlow i hi
      exact ⟨(L, D), fun _ => h⟩
    · exact ⟨([], []), fun h => absurd h hi⟩
  choose LD hLD using this
  exact csrmvSymm_spec hA hsq (L := fun i => (LD i).1) (D := fun i => (LD i).2) hLD h0
    alpha beta hx hy

/-! ## C20 -/

/-- **C20** Triangular, op = none, scalar kernel; for a unit or zero diagonal the matrix must not
have more rows than columns. -/
theorem C20_triangular (A : Csr R) (hA : A.WF) (idiag iurow : List Int)
    (hcl : Clean A idiag iurow) (f : Fill) (Dg : Diag) (hsh : Dg = .nonUnit ∨ A.m ≤ A.n)
    (alpha beta : R) (x y : List R) (hx : A.n ≤ x.length) (hy : A.m ≤ y.length) :
    ∃ y', csrmvTri A.base alpha A.m Dg.code f.code A.val A.ind A.ptr idiag iurow x beta y
        = some y' ∧
      IsMv alpha beta (operator .triangular f Dg .none A.mat) A.m A.n x y y' :=
  csrmvTri_spec hA hcl f Dg hsh alpha beta hx hy

/-- **C20** Triangular, op = transpose. -/
theorem C20_transpose (A : Csr R) (hA : A.WF) (idiag iurow : List Int)
    (hcl : Clean A idiag iurow) (f : Fill) (Dg : Diag) (hsh : Dg = .nonUnit ∨ A.m ≤ A.n)
    (alpha beta : R) (x y : List R) (hx : A.m ≤ x.length) (hy : A.n ≤ y.length) :
    ∃ y', csrmvTriTh id A.base alpha A.m A.n Dg.code f.code A.val A.ind A.ptr idiag iurow x beta y
        = some y' ∧
      IsMv alpha beta (operator .triangular f Dg .trans A.mat) A.n A.m x y y' :=
  csrmvTriTh_spec (AddMonoidHom.id R) rfl hA hcl f Dg hsh alpha beta hx hy

/-- **C20** Triangular, op = conjugate transpose. -/
theorem C20_conj_transpose (A : Csr R) (hA : A.WF) (idiag iurow : List Int)
    (hcl : Clean A idiag iurow) (f : Fill) (Dg : Diag) (hsh : Dg = .nonUnit ∨ A.m ≤ A.n)
    (alpha beta : R) (x y : List R) (hx : A.m ≤ x.length) (hy : A.n ≤ y.length) :
    ∃ y', csrmvTriTh star A.base alpha A.m A.n Dg.code f.code A.val A.ind A.ptr idiag iurow x beta y
        = some y' ∧
      IsMv alpha beta (operator .triangular f Dg .conjTrans A.mat) A.n A.m x y y' :=
  csrmvTriTh_spec (conjAdd (R := R)) (star_one R) hA hcl f Dg hsh alpha beta hx hy

/-- number of stored entries strictly right of the diagonal in row `i` -/
def upperCount (A : Csr R) (i : Nat) : Nat :=
  ((A.row i).filter fun e => decide ((i : Int) < e.1)).length

/-- **C20** Triangular, op = none, double-precision kernel: right except for an upper triangle
with a unit diagonal and a row of four or more strictly upper entries. -/
theorem C20_avx2 (A : Csr R) (hA : A.WF) (idiag iurow : List Int)
    (hcl : Clean A idiag iurow) (f : Fill) (Dg : Diag) (hsh : Dg = .nonUnit ∨ A.m ≤ A.n)
    (hok : f = .upper → Dg = .unit → ∀ i, i < A.m → upperCount A i < 4)
    (alpha beta : R) (x y : List R) (hx : A.n ≤ x.length) (hy : A.m ≤ y.length) :
    ∃ y', csrmvTriAvx2 A.base alpha A.m Dg.code f.code A.val A.ind A.ptr idiag iurow x beta y
        = some y' ∧
      IsMv alpha beta (operator .triangular f Dg .none A.mat) A.m A.n x y y' := by
  obtain ⟨y', h1, h2⟩ := csrmvTriAvx2_spec hA hcl f Dg hsh alpha beta hx hy
  refine ⟨y', h1, h2.congr ?_⟩
  intro i j hi _
  have : avx2Diag A f Dg i = Dg := by
    unfold avx2Diag
    rw [if_neg]
    rintro ⟨h1, h2, h3⟩
    have := hok h1 h2 i hi
    unfold upperCount at this
    omega
  rw [this]
  rfl

/-- **C20** Finding: in every row with four or more strictly upper entries the double-precision
kernel computes, for an upper triangle with a unit diagonal, the product with a *zero* diagonal. -/
theorem C20_avx2_loses_unit_diagonal (A : Csr R) (hA : A.WF) (idiag iurow : List Int)
    (hcl : Clean A idiag iurow) (hsh : A.m ≤ A.n) (alpha beta : R) (x y : List R)
    (hx : A.n ≤ x.length) (hy : A.m ≤ y.length) :
    ∃ y', csrmvTriAvx2 A.base alpha A.m 1 1 A.val A.ind A.ptr idiag iurow x beta y
        = some y' ∧
      ∀ i, i < A.m → 4 ≤ upperCount A i →
        y'[i]? = some (alpha * matVec (operator .triangular .upper .zero .none A.mat) A.n x i
          + beta * y.getD i 0) := by
  obtain ⟨y', h1, h2⟩ := csrmvTriAvx2_spec hA hcl .upper .unit (Or.inr hsh) alpha beta hx hy
  refine ⟨y', h1, ?_⟩
  intro i hi h4
  have := h2.rows i hi
  rw [this]
  have e : avx2Diag A .upper .unit i = .zero := by
    unfold avx2Diag
    rw [if_pos ⟨rfl, rfl, h4⟩]
  simp only [matVec, e]
  rfl

end

/-! ## Non-vacuity and findings -/

/-- 5 x 5 one-based, first row with four strictly upper entries; entries in both triangles -/
def exSym : Csr Int :=
  ⟨5, 5, 1, [1, 6, 8, 11, 12, 14], [1, 2, 3, 4, 5, 1, 2, 2, 3, 5, 4, 1, 5],
    [1, 2, 3, 4, 5, 6, 7, 8, 9, 10, 11, 12, 13]⟩
def exSymD : List Int := [1, 7, 9, 11, 13]
def exSymU : List Int := [2, 8, 10, 12, 14]

theorem exSym_wf : exSym.WF := by constructor <;> decide +kernel

theorem exSym_clean : Clean exSym exSymD exSymU := by
  have h : ∀ i : Fin 5, ∃ a : Fin 6, ∃ b : Fin 6,
      CleanRow exSym exSymD exSymU i ((exSym.row i).take a) (((exSym.row i).drop a).take b)
        (((exSym.row i).drop a).drop b) := by
    unfold CleanRow
    decide +kernel
  intro i hi
  obtain ⟨a, b, h⟩ := h ⟨i, hi⟩
  exact ⟨_, _, _, h⟩

example : csrmvSymmKt (vecLanes 4 List.sum) 4 id 1 2 5 0 1 exSym.val exSym.ind exSym.ptr exSymD exSymU
    [1, 10, 100, 1000, 10000] 3 [1, 1, 1, 1, 1]
    = some [2 * (1 + 20 + 300 + 4000 + 50000) + 3, 2 * (2 + 70) + 3, 2 * (3 + 900 + 100000) + 3,
      2 * (4 + 11000) + 3, 2 * (5 + 1000 + 130000) + 3] := by decide +kernel

example : ∃ i, i < exSym.m ∧ 4 ≤ upperCount exSym i := ⟨0, by decide, by decide +kernel⟩

/-- lower triangular with an absent diagonal entry and an empty row -/
def exLow : Csr Int := ⟨4, 4, 0, [0, 1, 2, 2, 4], [0, 0, 1, 3], [5, 6, 7, 8]⟩

example : exLow.WF := by constructor <;> decide +kernel
example : ∀ i, i < exLow.m → ∃ L D, exLow.row i = L ++ D ∧ (∀ e ∈ L, e.1 < (i : Int)) ∧
      (D = [] ∨ ∃ v, D = [((i : Int), v)]) := by
  intro i hi
  match i, hi with
  | 0, _ => exact ⟨[], [(0, 5)], by decide +kernel, by simp, Or.inr ⟨5, rfl⟩⟩
  | 1, _ => exact ⟨[(0, 6)], [], by decide +kernel, by simp, Or.inl rfl⟩
  | 2, _ => exact ⟨[], [], by decide +kernel, by simp, Or.inl rfl⟩
  | 3, _ => exact ⟨[(1, 7)], [(3, 8)], by decide +kernel, by simp, Or.inr ⟨8, rfl⟩⟩

/-- Finding: the public csrmv reads before the start of the index array when the first row of a
symmetric matrix is empty. -/
theorem C19_public_empty_first_row :
    ∃ A : Csr Int, A.WF ∧ A.m = A.n ∧ 0 < A.m ∧
      csrmvSymm A.base 1 A.m A.val A.ind A.ptr [1, 1] 0 [0, 0] = none :=
  ⟨⟨2, 2, 0, [0, 0, 1], [1], [5]⟩, by constructor <;> decide +kernel, rfl, by decide,
    by decide +kernel⟩

/-- Finding: the public csrmv ignores the triangle selected by the descriptor: on a full symmetric
matrix (both triangles stored) it does not compute the symmetric product of either triangle. -/
theorem C19_public_needs_lower :
    ∃ (A : Csr Int) (y' : List Int), A.WF ∧ A.m = A.n ∧
      csrmvSymm A.base 1 A.m A.val A.ind A.ptr [1, 1] 0 [0, 0] = some y' ∧
      ¬ IsMv 1 0 (operator .symmetric .lower .nonUnit .none A.mat) A.m A.m [1, 1] [0, 0] y' ∧
      ¬ IsMv 1 0 (operator .symmetric .upper .nonUnit .none A.mat) A.m A.m [1, 1] [0, 0] y' := by
  refine ⟨⟨2, 2, 0, [0, 2, 4], [0, 1, 0, 1], [1, 2, 2, 3]⟩, [6, 7], by constructor <;> decide +kernel,
    rfl, by decide +kernel, ?_, ?_⟩
  · intro h
    have := h.rows 0 (by decide)
    revert this
    decide +kernel
  · intro h
    have := h.rows 0 (by decide)
    revert this
    decide +kernel

/-- Finding: with more rows than columns and a unit diagonal, the triangular kernel reads `x` past
its end. -/
theorem C20_tall_unit_out_of_bounds :
    ∃ (A : Csr Int) (idiag iurow : List Int), A.WF ∧ Clean A idiag iurow ∧
      csrmvTri A.base 1 A.m 1 0 A.val A.ind A.ptr idiag iurow (List.replicate A.n 1) 0 [0, 0]
        = none := by
  refine ⟨⟨2, 1, 0, [0, 1, 2], [0, 0], [5, 6]⟩, [0, 2], [1, 2], by constructor <;> decide +kernel,
    ?_, by decide +kernel⟩
  intro i hi
  match i, hi with
  | 0, _ => exact ⟨[], [(0, 5)], [], by unfold CleanRow; decide +kernel⟩
  | 1, _ => exact ⟨[(0, 6)], [], [], by unfold CleanRow; decide +kernel⟩

/-- Finding: with more rows than columns and a zero diagonal, the lower triangular kernel drops
the last entry of the rows below the square part. -/
theorem C20_tall_zero_drops_entry :
    ∃ (A : Csr Int) (idiag iurow y' : List Int), A.WF ∧ Clean A idiag iurow ∧
      csrmvTri A.base 1 A.m 2 0 A.val A.ind A.ptr idiag iurow [1] 0 [0, 0] = some y' ∧
      ¬ IsMv 1 0 (operator .triangular .lower .zero .none A.mat) A.m A.n [1] [0, 0] y' := by
  refine ⟨⟨2, 1, 0, [0, 1, 2], [0, 0], [5, 6]⟩, [0, 2], [1, 2], [0, 0],
    by constructor <;> decide +kernel, ?_, by decide +kernel, ?_⟩
  · intro i hi
    match i, hi with
    | 0, _ => exact ⟨[], [(0, 5)], [], by unfold CleanRow; decide +kernel⟩
    | 1, _ => exact ⟨[(0, 6)], [], [], by unfold CleanRow; decide +kernel⟩
  · intro h
    have := h.rows 1 (by decide)
    revert this
    decide +kernel

end Verif
