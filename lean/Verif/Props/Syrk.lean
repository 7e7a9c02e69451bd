/-
C32  Product of a sparse matrix with its own (conjugate) transpose.
-/
import Verif.Proofs.Syrk3
import Verif.Props.Sp2m
import Verif.Model.Convert
import Verif.Model.MatCheck
import Mathlib.NumberTheory.Zsqrtd.Basic

namespace Verif
open Model Finset

variable {R : Type} [CommRing R] [StarRing R] [DecidableEq R]

omit [StarRing R] [DecidableEq R] in
theorem empty_mat {A : Csr R} (hA : A.WF) (h : A.nnz = 0) (i j : Nat) : A.mat i j = 0 :=
  mat_zero_of_not_mem ((nnz_zero_iff hA).mp h i j)

theorem quick_empty {A : Csr R} (hA : A.WF) {isT : Bool}
    (h : (A.raw isT).um = 0 ∨ (A.raw isT).un = 0 ∨ (A.raw isT).nnz = 0) : A.nnz = 0 := by
  have hmn : (A.m = 0 ∨ A.n = 0) ∨ A.nnz = 0 := by
    rcases h with h | h | h
    · refine .inl ?_
      cases isT <;> simp [RawMat.um, Csr.raw] at h <;> simp [h]
    · refine .inl ?_
      cases isT <;> simp [RawMat.un, Csr.raw] at h <;> simp [h]
    · right
      have h' : (A.nnz : Int) = 0 := h
      exact_mod_cast h'
  rcases hmn with (h | h) | h
  · have h1 := hA.ptr_first
    have h2 := hA.ptr_last
    rw [h] at h2
    simp only [Csr.nnz]
    omega
  · rw [Csr.nnz, List.length_eq_zero_iff, List.eq_nil_iff_forall_not_mem]
    intro c hc
    have := hA.ind_range c hc
    omega
  · exact h

/-- **C32, the product.**  For every well-formed CSR or CSC matrix without repeated entries, sorted
when the operation works along its stored columns, every operation (the plain transpose of real matrices
only), base and content of fresh memory: aoclsparse_syrk succeeds, provided `K·(K/2+1)` fits in an
integer, where `K` is the order of the result, and stores a handle of a `K × K` matrix with the base of A
holding the upper triangle of op(A)·op(A)ᴴ.  No element is stored below the diagonal, twice, or at a
position without a product of stored elements.  Otherwise the only other outcome is `invalid_size`,
without a matrix. -/
theorem C32_syrk {A : Csr R} (hA : A.WF) (hnd : A.NoDup) (isT : Bool) (op : Op) {vt : Nat}
    (hvt : vt < 4) (hop : vt = 0 ∨ vt = 1 ∨ op ≠ .trans)
    (hreal : vt = 0 ∨ vt = 1 → ∀ x : R, star x = x) {sorted : Bool} (hs : sorted = true → A.Sorted)
    (hsrt : sorted = true ∨ ¬ (isT = true ↔ op = .none)) (w : Nat) (g : Garb R)
    (old : Option (SyOut R)) :
    (∃ (o : SyOut R) (C : Csr R),
      syrkApi w g star op.code (some ⟨A.raw isT, vt, sorted⟩) true old = some (.success, some o) ∧
      IsUpper (opRows op isT A) A.base (gram op (userMat isT A) (opCols op isT A)) (gramStored op isT A) C ∧
      HoldsCsr C o.ptr o.ind o.val ∧
      o.m = opRows op isT A ∧ o.n = opRows op isT A ∧ o.base = A.base ∧ o.nnz = C.nnz) ∨
    (syrkApi w g star op.code (some ⟨A.raw isT, vt, sorted⟩) true old = some (.invalidSize, none) ∧
      intMax w < (opRows op isT A : Int) * ((opRows op isT A : Int) / 2 + 1)) := by
  have hreal' : op = .trans → ∀ x : R, star x = x := by
    intro ht
    rcases hop with h | h | h
    · exact hreal (.inl h)
    · exact hreal (.inr h)
    · exact absurd ht h
  obtain ⟨est, e1, hle, hK⟩ := kernel_ok hA hnd isT op (fun h => hs (hsrt.resolve_right (not_not.mpr h)))
    hreal' w
  have hrun : syrkApi w g star op.code (some ⟨A.raw isT, vt, sorted⟩) true old
      = syrkRun w g star op.code ⟨A.raw isT, vt, sorted⟩ := by
    unfold syrkApi
    dsimp only
    rw [if_pos hvt, if_neg (by simp), if_neg (by cases op <;> simp [isOp, Op.code]),
      if_neg (by simp [Csr.raw]), if_neg]
    rintro ⟨h1, h2⟩
    have : op = .trans := by cases op <;> simp_all [Op.code]
    rcases hop with h | h | h
    · omega
    · omega
    · exact h this
  rw [hrun]
  unfold syrkRun
  dsimp only
  have heff : syEff (A.raw isT).isT op.code = 111 ↔ ¬ (isT = true ↔ op = .none) := by
    cases isT <;> cases op <;> simp [Csr.raw, syEff, Op.code]
  rw [if_neg (by
    rintro ⟨h1, h2⟩
    rw [Ne, heff, not_not] at h2
    rcases hsrt with h | h
    · rw [h] at h1; exact absurd h1 (by simp)
    · exact h h2)]
  have e1' : estimateNnz w (syEff (A.raw isT).isT op.code) (A.raw isT).m (A.raw isT).n (A.raw isT).arrs
      = some (if sumOverflow 64 w est then .error .invalidSize else .ok est) := e1
  rw [e1', Option.bind_some]
  by_cases hov : sumOverflow 64 w est = true
  · right
    rw [if_pos hov]
    refine ⟨rfl, ?_⟩
    unfold sumOverflow at hov
    split at hov
    · simp only [decide_eq_true_eq] at hov
      omega
    · exact absurd hov (by simp)
  · left
    rw [if_neg hov]
    dsimp only
    have hmC : (if syEff (A.raw isT).isT op.code = 111 then (A.raw isT).m else (A.raw isT).n)
        = (opRows op isT A : Int) := by
      cases isT <;> cases op <;> simp [Csr.raw, syEff, Op.code, opRows, userRows, userCols]
    rw [hmC]
    have hpl : (newPtr g (opRows op isT A : Int) est (A.raw isT).base).length = opRows op isT A + 1 := by
      unfold newPtr
      split <;> simp <;> omega
    by_cases hq : (A.raw isT).um = 0 ∨ (A.raw isT).un = 0 ∨ (A.raw isT).nnz = 0
    · rw [if_pos hq]
      have h0 := quick_empty hA hq
      have hfill := fill_pre (a := newPtr g (opRows op isT A : Int) est (A.raw isT).base)
        (N := opRows op isT A + 1) hpl (fun _ => A.base)
        (body := fun i p => wr p i (A.raw isT).base) (fun i s _ => rfl)
      rw [show ((opRows op isT A : Int) + 1) = ((opRows op isT A + 1 : Nat) : Int) by omega, hfill,
        Option.bind_some]
      refine ⟨_, mkCsr (opRows op isT A) (opRows op isT A) A.base (fun _ => []), rfl, ?_, ?_, rfl, rfl,
        rfl, ?_⟩
      · refine ⟨rfl, rfl, rfl, mkCsr_wf hA.base01 (by simp), ?_, ?_, ?_⟩
        · intro i hi
          replace hi : i < opRows op isT A := hi
          rw [mkCsr_row hi]
          simp
        · intro i j hi hj
          rw [Csr.cols, mkCsr_row hi] at hj
          simp at hj
        · intro i j hij hj
          rw [mat_eq_colSum, mkCsr_row (by omega)]
          unfold gram
          rw [Finset.sum_eq_zero]
          · rfl
          · intro k _
            cases isT <;> cases op <;> simp [applyOp, userMat, transM, empty_mat hA h0]
      · refine ⟨?_, ?_, ?_⟩
        · simp [mkCsr, offs]
        · rw [mkCsr_nnz]; simp [mkCsr, offs]
        · rw [mkCsr_nnz]; simp [mkCsr, offs]
      · rw [mkCsr_nnz]; simp [offs]
    · rw [if_neg hq]
      obtain ⟨p, a, b, C, e, l1, l2, hH, hU⟩ := hK (newPtr g (opRows op isT A : Int) est (A.raw isT).base)
        (alloc est.toNat g.i) (alloc est.toNat g.v) hpl (by rw [alloc_length]; omega)
        (by rw [alloc_length]; omega)
      have e' : syrkKernel star (syEff (A.raw isT).isT op.code) (A.raw isT)
          (newPtr g (opRows op isT A : Int) est (A.raw isT).base) (alloc est.toNat g.i)
          (alloc est.toNat g.v) = some (.ok (p, a, b, (C.nnz : Int))) := e
      rw [e', Option.bind_some]
      exact ⟨_, C, rfl, hU, hH, rfl, rfl, rfl, rfl⟩

/-- **C32, refusals.**  A null matrix or output pointer, an unknown operation, a format other than CSR
or CSC, the plain transpose of a complex matrix, and an unsorted matrix when the operation works along its
stored columns: the documented status; after a null pointer or an unknown type nothing is written,
otherwise the output is a null pointer. -/
theorem C32_syrk_refused (w : Nat) (g : Garb R) (cj : R → R) (op : Int) (dest : Bool)
    (old : Option (SyOut R)) (A : SyMat R) :
    syrkApi w g cj op none dest old = some (.invalidPointer, old) ∧
    (A.vt < 4 → syrkApi w g cj op (some A) false old = some (.invalidPointer, old)) ∧
    (4 ≤ A.vt → syrkApi w g cj op (some A) dest old = some (.wrongType, old)) ∧
    (A.vt < 4 → (∀ o : Op, op ≠ o.code) → syrkApi w g cj op (some A) true old = some (.invalidValue, none)) ∧
    (A.vt < 4 → (∃ o : Op, op = o.code) → A.raw.fmt ≠ 0 →
      syrkApi w g cj op (some A) true old = some (.notImplemented, none)) ∧
    (A.vt = 2 ∨ A.vt = 3 → op = Op.trans.code →
      syrkApi w g cj op (some A) true old = some (.notImplemented, none)) ∧
    (∀ o : Op, A.vt < 4 → (A.vt = 0 ∨ A.vt = 1 ∨ o ≠ .trans) → A.raw.fmt = 0 → A.sorted = false →
      (A.raw.isT = true ↔ o = .none) →
      syrkApi w g cj o.code (some A) true old = some (.unsortedInput, none)) := by
  have hisop : ∀ o : Op, isOp o.code := by intro o; cases o <;> simp [isOp, Op.code]
  refine ⟨rfl, ?_, ?_, ?_, ?_, ?_, ?_⟩
  · intro h
    simp [syrkApi, h]
  · intro h
    unfold syrkApi
    dsimp only
    rw [if_neg (by omega)]
  · intro h hop
    unfold syrkApi
    dsimp only
    rw [if_pos h, if_neg (by simp), if_pos]
    intro ho
    simp only [isOp, decide_eq_true_eq] at ho
    rcases ho with h | h | h
    · exact hop .none h
    · exact hop .trans h
    · exact hop .conjTrans h
  · rintro h ⟨o, rfl⟩ hf
    unfold syrkApi
    dsimp only
    rw [if_pos h, if_neg (by simp), if_neg (not_not.mpr (hisop o)), if_pos hf]
  · rintro h rfl
    unfold syrkApi
    dsimp only
    rw [if_pos (by omega), if_neg (by simp), if_neg (not_not.mpr (hisop .trans))]
    split
    · rfl
    · rw [if_pos ⟨h, rfl⟩]
  · intro o h1 h2 h3 h4 h5
    unfold syrkApi
    dsimp only
    rw [if_pos h1, if_neg (by simp), if_neg (not_not.mpr (hisop o)), if_neg (not_not.mpr h3), if_neg]
    · unfold syrkRun
      dsimp only
      rw [if_pos]
      refine ⟨h4, ?_⟩
      revert h5
      cases A.raw.isT <;> cases o <;> simp [syEff, Op.code]
    · rintro ⟨h6, h7⟩
      have : o = .trans := by cases o <;> simp_all [Op.code]
      rcases h2 with h | h | h
      · omega
      · omega
      · exact h this

/-! ### cases that meet the hypotheses -/

/-- Gaussian integers: a ring with a conjugation -/
abbrev Gau := ℤ√(-1)

/-- a 2×3 complex matrix, base 1, sorted -/
def syA : Csr Gau := ⟨2, 3, 1, [1, 3, 5], [1, 3, 2, 3], [⟨1, 1⟩, 2, ⟨0, 1⟩, 1]⟩

/-- fresh memory full of sevens -/
def syG : Garb Gau := ⟨fun _ => 7, fun _ => 7, fun _ => 7⟩

theorem syA_ok : syA.WF ∧ syA.NoDup ∧ syA.Sorted := by decide +kernel

example : ∃ (o : SyOut Gau) (C : Csr Gau),
    syrkApi 32 syG star Op.conjTrans.code (some ⟨syA.raw false, 3, true⟩) true none = some (.success, some o) ∧
    IsUpper 3 1 (gram .conjTrans syA.mat 2) (gramStored .conjTrans false syA) C ∧
    HoldsCsr C o.ptr o.ind o.val ∧ o.m = 3 ∧ o.n = 3 ∧ o.base = 1 ∧ o.nnz = C.nnz := by
  obtain ⟨h1, h2, h3⟩ := syA_ok
  rcases C32_syrk h1 h2 false .conjTrans (vt := 3) (by omega) (.inr (.inr (by simp)))
    (fun h => absurd h (by omega)) (sorted := true) (fun _ => h3) (.inl rfl) 32 syG none with h | h
  · exact h
  · exact absurd h.2 (by decide +kernel)

example : syrkApi 32 syG star Op.conjTrans.code (some ⟨syA.raw false, 3, true⟩) true none
    = some (.success, some ⟨3, 3, 5, 6, 1, [1, 3, 5, 6], [1, 3, 2, 3, 3, 7],
        [2, ⟨2, -2⟩, 1, ⟨0, -1⟩, 5, 7]⟩) := by decide +kernel

/-- A·Aᴴ: by a dense row (2 < 3), and for the same arrays as columns after an explicit transposition -/
example : syrkApi 32 syG star Op.none.code (some ⟨syA.raw false, 3, false⟩) true none
      = some (.success, some ⟨2, 2, 3, 4, 1, [1, 3, 4], [1, 2, 2, 7], [6, 2, 2, 7]⟩) ∧
    syrkApi 32 syG star Op.conjTrans.code (some ⟨syA.raw true, 3, false⟩) true none
      = some (.success, some ⟨2, 2, 3, 4, 1, [1, 3, 4], [1, 2, 2, 7], [6, 2, 2, 7]⟩) ∧
    syrkApi 32 syG star Op.none.code (some ⟨syA.raw true, 3, true⟩) true none
      = some (.success, some ⟨3, 3, 5, 6, 1, [1, 3, 5, 6], [1, 3, 2, 3, 3, 7],
        [2, ⟨2, 2⟩, 1, ⟨0, 1⟩, 5, 7]⟩) := by decide +kernel

/-! ### findings -/

/-- a fully sorted matrix of one row with column 1 stored twice, accepted at creation; its element
(0, 1) is 3 -/
def syDup : Csr Int := ⟨1, 3, 0, [0, 3], [1, 1, 2], [1, 2, 3]⟩

/-- **C32, repeated entries.**  Without `NoDup` the claim is false: for the sorted matrix above, accepted at
creation, Aᵀ·A has 9 at (1, 1), (1, 2) and (2, 2), but syrk stores 3 and 3 in row 1 and nothing in row 2;
and A·Aᵀ, by a dense row, is 18, but syrk stores 15. -/
theorem C32_syrk_duplicates :
    (∃ h, createCsr 0 1 3 3 (some syDup.ptr) (some syDup.ind) (some syDup.val) false
      = some (.success, some h) ∧ h.sort = .fully) ∧
    syDup.WF ∧ syDup.Sorted ∧
    (gram .trans syDup.mat 1 1 1 = 9 ∧ gram .trans syDup.mat 1 1 2 = 9 ∧ gram .trans syDup.mat 1 2 2 = 9) ∧
    gram .none syDup.mat 3 0 0 = 18 ∧
    syrkApi 32 ⟨fun _ => 7, fun _ => 7, fun _ => 7⟩ id Op.trans.code (some ⟨syDup.raw false, 0, true⟩) true none
      = some (.success, some ⟨3, 3, 2, 5, 0, [0, 0, 2, 2], [1, 2, 7, 7, 7], [3, 3, 7, 7, 7]⟩) ∧
    syrkApi 32 ⟨fun _ => 7, fun _ => 7, fun _ => 7⟩ id Op.none.code (some ⟨syDup.raw false, 0, true⟩) true none
      = some (.success, some ⟨1, 1, 1, 1, 0, [0, 1], [0], [15]⟩) := by
  refine ⟨⟨_, rfl, rfl⟩, ?_⟩
  decide +kernel

/-- the handle of a result of syrk as a source of a conversion -/
def Model.SyOut.handle (o : SyOut R) (vt : Nat) : CvH R :=
  ⟨o.m, o.n, o.nnz, vt, 0, some (.csr ⟨false, o.m, o.n, o.objNnz, o.base, o.ptr, o.ind, o.val⟩)⟩

/-- **C32, converting a result.**  The CSR object in a handle returned by syrk keeps the estimate as its
number of elements while the handle holds the true number.  aoclsparse_convert_csr allocates the second and
copies the first: for the product below, 3 elements of an estimate of 4, it writes past the end of its new
arrays. -/
theorem C32_convert_overrun :
    ∃ o : SyOut Gau, syrkApi 32 syG star Op.none.code (some ⟨syA.raw false, 3, false⟩) true none
        = some (.success, some o) ∧ o.nnz = 3 ∧ o.objNnz = 4 ∧
      convertCsr syG star (some (o.handle 3)) 111 true = none :=
  ⟨⟨2, 2, 3, 4, 1, [1, 3, 4], [1, 2, 2, 7], [6, 2, 2, 7]⟩, by decide +kernel⟩

end Verif
