/-
C03 creation accepts exactly the consistent compressed arrays.
C04 the sortedness / full-diagonal classification is exact.
-/
import Verif.Proofs.MatCheck

namespace Verif
open Model
variable {R : Type}

theorem accept_general_iff (A : Csr R) (hv : A.val.length = A.ind.length) :
    Accept A .general ↔ A.Valid ∧ A.OneDiag := by
  constructor
  · intro h
    refine ⟨⟨h.first, h.mono, h.last, ?_⟩, h.diag⟩
    intro c hc
    obtain ⟨q, hq, rfl⟩ := List.getElem_of_mem hc
    obtain ⟨i, hi, h1, h2⟩ := find_row A.p A.m (A.base + q)
      (by rw [h.first]; omega) (by rw [h.last]; omega)
    have hmm : ∀ {i j : Nat}, i ≤ j → j ≤ A.m → A.p i ≤ A.p j := by
      intro i j hij
      induction hij with
      | refl => intro _; exact le_refl _
      | step hle ih => intro hj; exact le_trans (ih (by omega)) (h.mono _ (Nat.lt_of_succ_le hj))
    have hlo : A.base ≤ A.p i := by
      have := hmm (Nat.zero_le i) (by omega); rw [h.first] at this; exact this
    have hmem : A.ind[q] ∈ seg A i := by
      unfold seg
      rw [List.mem_iff_getElem?]
      refine ⟨q - (A.p i - A.base).toNat, ?_⟩
      rw [List.getElem?_take_of_lt (by omega), List.getElem?_drop]
      rw [show (A.p i - A.base).toNat + (q - (A.p i - A.base).toNat) = q by omega]
      exact List.getElem?_eq_getElem hq
    have := h.idx i hi (A.ind[q] - A.base) (by
      rw [cols_eq_seg A hv]; exact List.mem_map_of_mem hmem)
    simp only [jminOf, jmaxOf] at this
    simp at this
    omega
  · rintro ⟨h, hd⟩
    refine ⟨h.ptr_first, h.ptr_last, h.ptr_mono, ?_, hd⟩
    intro i hi j hj
    rw [cols_eq_seg A hv] at hj
    obtain ⟨c, hc, rfl⟩ := List.mem_map.1 hj
    have : c ∈ A.ind := List.mem_of_mem_drop (List.mem_of_mem_take hc)
    have := h.ind_range c this
    simp [jminOf, jmaxOf]
    omega

/-- **C03 (CSR).**  For every size, base and content of the arrays (with the lengths the
caller promises: `m+1` pointers, `nnz` indices and values), creating a CSR handle never
reads outside the arrays and succeeds exactly when the arrays are consistent — the
pointers start at the base, never decrease and end at base+nnz, all indices are in
range — and no row stores its diagonal twice.  On failure no handle is produced. -/
theorem C03_createCsr (A : Csr R) (hp : A.ptr.length = A.m + 1)
    (hv : A.val.length = A.ind.length) :
    ∃ st h, createCsr A.base A.m A.n A.nnz (some A.ptr) (some A.ind) (some A.val) false
        = some (st, h) ∧
      (st = .success ↔ A.Valid ∧ A.OneDiag) ∧ (h.isSome ↔ st = .success) := by
  rw [← accept_general_iff A hv]
  unfold createCsr Csr.nnz
  rcases matCheck_spec A .general hp hv with ⟨s, fd, h1, h2, -, -⟩ | ⟨e, h1, h2, h3⟩
  · rw [h1]; exact ⟨_, _, rfl, by simp [h2], by simp⟩
  · rw [h1]
    exact ⟨e, none, rfl, by simp [h2, h3.ne], by simp [h3.ne]⟩

/-- **C03 (CSC).**  Same for a CSC handle of an `M × N` matrix: `A` describes the
`N` compressed columns. -/
theorem C03_createCsc (A : Csr R) (hp : A.ptr.length = A.m + 1)
    (hv : A.val.length = A.ind.length) :
    ∃ st h, createCsc A.base A.n A.m A.nnz (some A.ptr) (some A.ind) (some A.val)
        = some (st, h) ∧
      (st = .success ↔ A.Valid ∧ A.OneDiag) ∧ (h.isSome ↔ st = .success) := by
  rw [← accept_general_iff A hv]
  unfold createCsc Csr.nnz
  rcases matCheck_spec A .general hp hv with ⟨s, fd, h1, h2, -, -⟩ | ⟨e, h1, h2, h3⟩
  · rw [h1]; exact ⟨_, _, rfl, by simp [h2], by simp⟩
  · rw [h1]
    exact ⟨e, none, rfl, by simp [h2, h3.ne], by simp [h3.ne]⟩

/-- For bases 0 and 1 the accepted matrices are exactly the well-formed ones
(with at most one diagonal entry per row). -/
theorem C03_valid_iff_wf (A : Csr R) (hb : A.base = 0 ∨ A.base = 1)
    (hp : A.ptr.length = A.m + 1) (hv : A.val.length = A.ind.length) : A.Valid ↔ A.WF :=
  ⟨fun h => ⟨hb, hp, h.ptr_first, h.ptr_mono, h.ptr_last, hv, h.ind_range⟩,
   fun h => ⟨h.ptr_first, h.ptr_mono, h.ptr_last, h.ind_range⟩⟩

/-- Null pointers and negative sizes are rejected whatever the rest. -/
theorem C03_rejects_bad_args (base M N nnz : Int) (ptr ind : Option (List Int))
    (val : Option (List R)) (fast : Bool) :
    ((ptr = none ∨ ind = none ∨ val = none) →
      createCsr base M N nnz ptr ind val fast = some (.invalidPointer, none)) ∧
    ((M < 0 ∨ N < 0 ∨ nnz < 0) → ptr.isSome → ind.isSome → val.isSome →
      createCsr base M N nnz ptr ind val fast = some (.invalidSize, none)) := by
  refine ⟨?_, ?_⟩
  · rintro (rfl | rfl | rfl)
    · rfl
    · cases ptr <;> rfl
    · cases ptr <;> cases ind <;> rfl
  · intro h h1 h2 h3
    obtain ⟨p, rfl⟩ := Option.isSome_iff_exists.1 h1
    obtain ⟨i, rfl⟩ := Option.isSome_iff_exists.1 h2
    obtain ⟨v, rfl⟩ := Option.isSome_iff_exists.1 h3
    unfold createCsr matCheck
    simp only []
    rw [if_pos (by omega)]
    rfl

/-- accepted: one-based 3×4, unsorted rows, off-diagonal duplicate -/
example : let A : Csr Int := ⟨3, 4, 1, [1, 4, 4, 6], [3, 1, 3, 4, 1], [5, 6, 7, 8, 9]⟩
    A.Valid ∧ A.OneDiag := by
  refine ⟨⟨by decide, by decide, by decide, by decide⟩, by decide⟩
/-- rejected: duplicate diagonal entry in row 0 -/
example : createCsr 0 2 2 3 (some [0, 2, 3]) (some [0, 0, 1]) (some [5, 6, 7]) false
    = some (.invalidValue, (none : Option (Created Int))) := by decide
/-- rejected: out of range column, and decreasing pointers -/
example : createCsr 0 2 2 2 (some [0, 1, 2]) (some [0, 2]) (some [5, 6]) false
      = some (.invalidIndexValue, (none : Option (Created Int))) ∧
    createCsr 0 2 2 1 (some [0, 5, 1]) (some [0]) (some [5]) false
      = some (.invalidValue, (none : Option (Created Int))) := by decide

/-- The base is not validated: a matrix in base 7 is accepted. -/
theorem C03_base_not_validated : ∃ h, createCsr 7 1 1 1 (some [7, 8]) (some [7]) (some [(1 : Int)])
    false = some (.success, some h) := ⟨_, rfl⟩

/-- The quick variant of the check (`fast_chck`) looks only at the two outer pointers. -/
theorem C03_fast_check (A : Csr R) (hp : A.ptr.length = A.m + 1) :
    ∃ st h, createCsr A.base A.m A.n A.nnz (some A.ptr) (some A.ind) (some A.val) true
        = some (st, h) ∧
      (st = .success ↔ A.p 0 = A.base ∧ A.p A.m = A.base + A.nnz) := by
  have hrep : Rep A.ptr (A.m + 1) A.p := by
    have := Rep.of_list A.ptr 0
    rw [hp] at this
    exact this
  have r0 : rd A.ptr 0 = some (A.p 0) := hrep.rd_nat (i := 0) (by omega)
  have rm : rd A.ptr (A.m : Int) = some (A.p A.m) := hrep.rd_nat (by omega)
  unfold createCsr matCheck
  simp only []
  rw [if_neg (by omega), r0]
  simp only [Option.bind_eq_bind, Option.bind_some]
  by_cases h0 : A.p 0 - A.base ≠ 0
  · rw [if_pos h0]
    refine ⟨_, _, rfl, ?_⟩
    simp; intro h; omega
  · rw [if_neg h0, rm]
    simp only [Option.bind_some]
    by_cases h1 : A.p A.m - A.base ≠ (A.nnz : Int)
    · rw [if_pos h1]
      refine ⟨_, _, rfl, ?_⟩
      simp; intro h; omega
    · rw [if_neg h1]
      refine ⟨_, _, rfl, ?_⟩
      simp; omega

/-! ### C04 -/

theorem rowRank_eq_zero {i : Nat} {js : List Int} : rowRank i js = 0 ↔ js.Pairwise (· ≤ ·) := by
  unfold rowRank
  by_cases h : js.Pairwise (· ≤ ·)
  · have : js.Pairwise (fun a b => Csr.grp i a ≤ Csr.grp i b) := h.imp (fun h => grp_le_of_le h)
    simp [h, this]
  · simp only [h, not_false_eq_true, if_true, iff_false]
    split_ifs <;> simp

theorem rowRank_eq_two {i : Nat} {js : List Int} :
    rowRank i js = 2 ↔ ¬ js.Pairwise (fun a b => Csr.grp i a ≤ Csr.grp i b) := by
  unfold rowRank
  split_ifs <;> simp_all

theorem maxRank_le (A : Csr R) : ∀ k, maxRank A k ≤ 2
  | 0 => by simp [maxRank]
  | k + 1 => by
    have := maxRank_le A k
    have h2 : rowRank k (A.cols k) ≤ 2 := by unfold rowRank; split_ifs <;> simp
    simp only [maxRank]; omega

theorem maxRank_zero (A : Csr R) : ∀ k, maxRank A k = 0 ↔
    ∀ i, i < k → (A.cols i).Pairwise (· ≤ ·)
  | 0 => by simp [maxRank]
  | k + 1 => by
    have ih := maxRank_zero A k
    have : maxRank A (k + 1) = 0 ↔ maxRank A k = 0 ∧ rowRank k (A.cols k) = 0 := by
      simp only [maxRank]; omega
    rw [this, ih, rowRank_eq_zero]
    constructor
    · rintro ⟨h1, h2⟩ i hi
      by_cases hik : i = k
      · subst hik; exact h2
      · exact h1 i (by omega)
    · intro h; exact ⟨fun i hi => h i (by omega), h k (by omega)⟩

theorem maxRank_two (A : Csr R) : ∀ k, maxRank A k = 2 ↔
    ¬ ∀ i, i < k → (A.cols i).Pairwise (fun a b => Csr.grp i a ≤ Csr.grp i b)
  | 0 => by simp [maxRank]
  | k + 1 => by
    have ih := maxRank_two A k
    have h1 := maxRank_le A k
    have h2 : rowRank k (A.cols k) ≤ 2 := by unfold rowRank; split_ifs <;> simp
    have : maxRank A (k + 1) = 2 ↔ maxRank A k = 2 ∨ rowRank k (A.cols k) = 2 := by
      simp only [maxRank]; omega
    rw [this, ih, rowRank_eq_two, ← not_and_or]
    apply not_congr
    constructor
    · rintro ⟨h1, h2⟩ i hi
      by_cases hik : i = k
      · subst hik; exact h2
      · exact h1 i (by omega)
    · intro h; exact ⟨fun i hi => h i (by omega), h k (by omega)⟩

/-- **C04.**  After a successful creation the recorded order class is "fully sorted" iff
every row lists its columns in non-decreasing order, "unsorted" iff some row breaks the
lower/diagonal/upper grouping, "partially sorted" otherwise (and never "unknown"); and
"full diagonal" is recorded iff every row below min(m,n) stores its diagonal entry. -/
theorem C04_classification (A : Csr R) (hp : A.ptr.length = A.m + 1)
    (hv : A.val.length = A.ind.length) (h : Created R)
    (hc : createCsr A.base A.m A.n A.nnz (some A.ptr) (some A.ind) (some A.val) false
        = some (.success, some h)) :
    (h.sort = .fully ↔ A.Sorted) ∧ (h.sort = .unsorted ↔ ¬ A.Grouped) ∧
    (h.sort = .partially ↔ A.Grouped ∧ ¬ A.Sorted) ∧
    (h.fulldiag = true ↔ A.FullDiag) ∧
    h.ptr = A.ptr ∧ h.ind = A.ind ∧ h.val = A.val ∧ h.base = A.base ∧ h.m = A.m ∧ h.n = A.n := by
  unfold createCsr Csr.nnz at hc
  rcases matCheck_spec A .general hp hv with ⟨s, fd, h1, h2, h3, h4⟩ | ⟨e, h1, h2⟩
  · rw [h1] at hc
    simp only [Option.bind_eq_bind, Option.bind_some, Option.some.injEq, Prod.mk.injEq,
      true_and] at hc
    subst hc
    have e0 : A.Sorted ↔ maxRank A A.m = 0 := (maxRank_zero A A.m).symm
    have e2 : ¬ A.Grouped ↔ maxRank A A.m = 2 := (maxRank_two A A.m).symm
    have hle := maxRank_le A A.m
    rw [← h3] at e0 e2 hle
    refine ⟨?_, ?_, ?_, h4, rfl, rfl, rfl, rfl, rfl, rfl⟩
    · rw [e0]; cases s <;> simp [sortRank]
    · rw [e2]; cases s <;> simp [sortRank]
    · have e2' : A.Grouped ↔ ¬ sortRank s = 2 := by rw [← e2, not_not]
      rw [e0, e2']; revert hle; cases s <;> simp [sortRank]
  · rw [h1] at hc
    simp at hc

/-- C04 for CSC creation (same check on the compressed columns). -/
theorem C04_classification_csc (A : Csr R) (hp : A.ptr.length = A.m + 1)
    (hv : A.val.length = A.ind.length) (h : Created R)
    (hc : createCsc A.base A.n A.m A.nnz (some A.ptr) (some A.ind) (some A.val)
        = some (.success, some h)) :
    (h.sort = .fully ↔ A.Sorted) ∧ (h.sort = .unsorted ↔ ¬ A.Grouped) ∧
    (h.sort = .partially ↔ A.Grouped ∧ ¬ A.Sorted) ∧
    (h.fulldiag = true ↔ A.FullDiag) ∧
    h.ptr = A.ptr ∧ h.ind = A.ind ∧ h.val = A.val ∧ h.base = A.base ∧ h.m = A.n ∧ h.n = A.m := by
  unfold createCsc Csr.nnz at hc
  rcases matCheck_spec A .general hp hv with ⟨s, fd, h1, h2, h3, h4⟩ | ⟨e, h1, h2⟩
  · rw [h1] at hc
    simp only [Option.bind_eq_bind, Option.bind_some, Option.some.injEq, Prod.mk.injEq,
      true_and] at hc
    subst hc
    have e0 : A.Sorted ↔ maxRank A A.m = 0 := (maxRank_zero A A.m).symm
    have e2 : ¬ A.Grouped ↔ maxRank A A.m = 2 := (maxRank_two A A.m).symm
    have hle := maxRank_le A A.m
    rw [← h3] at e0 e2 hle
    refine ⟨?_, ?_, ?_, h4, rfl, rfl, rfl, rfl, rfl, rfl⟩
    · rw [e0]; cases s <;> simp [sortRank]
    · rw [e2]; cases s <;> simp [sortRank]
    · have e2' : A.Grouped ↔ ¬ sortRank s = 2 := by rw [← e2, not_not]
      rw [e0, e2']; revert hle; cases s <;> simp [sortRank]
  · rw [h1] at hc
    simp at hc

/-- a partially sorted matrix with full diagonal, as created -/
example : (createCsr 0 3 3 6 (some [0, 2, 5, 6]) (some [0, 2, 0, 1, 2, 2])
      (some [1, 2, 3, 4, 5, (6 : Int)]) false).map (fun r => r.2.map (fun h => (h.sort, h.fulldiag)))
    = some (some (.fully, true)) := by decide
example : (createCsr 0 3 3 6 (some [0, 3, 5, 6]) (some [0, 2, 1, 0, 1, 0])
      (some [1, 2, 3, 4, 5, (6 : Int)]) false).map (fun r => r.2.map (fun h => (h.sort, h.fulldiag)))
    = some (some (.partially, false)) := by decide
example : (createCsr 0 2 2 3 (some [0, 1, 3]) (some [0, 1, 0])
      (some [1, 2, (3 : Int)]) false).map (fun r => r.2.map (fun h => (h.sort, h.fulldiag)))
    = some (some (.unsorted, true)) := by decide

/-- COO creation accepts exactly the in-range coordinate lists. -/
theorem C03_createCoo (A : Coo R) (hc : A.col.length = A.row.length) :
    ∃ st, createCoo A.base A.m A.n A.row.length (some A.row) (some A.col) (some A.val) = some st ∧
      (st = .success ↔ (∀ c ∈ A.row, A.base ≤ c ∧ c < A.base + A.m) ∧
        (∀ c ∈ A.col, A.base ≤ c ∧ c < A.base + A.n)) := by
  unfold createCoo
  rw [if_neg (by omega), if_neg (by omega), if_neg (by omega)]
  have := forE_inv (lo := 0) (hi := (A.row.length : Int)) (s := ())
    (f := fun i (_ : Unit) => do
        let a ← rd A.row i
        if a < A.base ∨ a ≥ A.m + A.base then some (Except.error Status.invalidIndexValue)
        else do
          let b ← rd A.col i
          if b < A.base ∨ b ≥ A.n + A.base then some (.error Status.invalidIndexValue)
          else some (.ok ()))
    (P := fun i _ => ∀ k (h : k < A.row.length), (k : Int) < i →
      (A.base ≤ A.row[k] ∧ A.row[k] < A.base + A.m) ∧
      (A.base ≤ A.col[k] ∧ A.col[k] < A.base + A.n))
    (Q := fun e => e ≠ .success ∧ ¬ ((∀ c ∈ A.row, A.base ≤ c ∧ c < A.base + A.m) ∧
        (∀ c ∈ A.col, A.base ≤ c ∧ c < A.base + A.n)))
    (by omega) (by intro k h hk; omega)
    (by
      intro i _ h0 h1 hP
      have a1 : i.toNat < A.row.length := by omega
      have a2 : i.toNat < A.col.length := by omega
      rw [rd_getElem h0 a1, rd_getElem h0 a2]
      simp only [Option.bind_eq_bind, Option.bind_some]
      by_cases hr : A.row[i.toNat] < A.base ∨ A.row[i.toNat] ≥ A.m + A.base
      · right
        refine ⟨_, if_pos hr, by simp, ?_⟩
        rintro ⟨h, -⟩
        have := h _ (List.getElem_mem a1)
        omega
      · rw [if_neg hr]
        by_cases hcc : A.col[i.toNat] < A.base ∨ A.col[i.toNat] ≥ A.n + A.base
        · right
          refine ⟨_, if_pos hcc, by simp, ?_⟩
          rintro ⟨-, h⟩
          have := h _ (List.getElem_mem a2)
          omega
        · left
          refine ⟨(), if_neg hcc, ?_⟩
          intro k hk hki
          by_cases hkk : k = i.toNat
          · subst hkk; omega
          · exact hP k hk (by omega))
  rcases this with ⟨s, h1, h2⟩ | ⟨e, h1, h2⟩
  · simp only []
    rw [h1]
    refine ⟨.success, rfl, ?_⟩
    simp only [true_iff]
    constructor
    · intro c hc'
      obtain ⟨q, hq, rfl⟩ := List.getElem_of_mem hc'
      exact (h2 q hq (by omega)).1
    · intro c hc'
      obtain ⟨q, hq, rfl⟩ := List.getElem_of_mem hc'
      exact (h2 q (by omega) (by omega)).2
  · simp only []
    rw [h1]
    refine ⟨e, rfl, ?_⟩
    constructor
    · intro h; exact absurd h h2.1
    · intro h; exact absurd h h2.2

end Verif
