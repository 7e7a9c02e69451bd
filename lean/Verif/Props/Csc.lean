/-
C05 csr2csc is a lossless, stable transposition.
C06 coo2csr is lossless and stable.
C07 transposing twice only sorts.
-/
import Verif.Proofs.Csc
import Verif.Proofs.Triples

namespace Verif
open Model

variable {R : Type}

theorem wf_nnz_zero {A : Csr R} (h : A.WF) (h0 : A.m = 0 ∨ A.n = 0) : A.ind.length = 0 := by
  rcases h0 with h0 | h0
  · have h1 := h.ptr_first
    have h2 := h.ptr_last
    rw [h0] at h2; omega
  · by_contra hc
    obtain ⟨c, hc⟩ := List.exists_mem_of_length_pos (Nat.pos_of_ne_zero hc)
    have := h.ind_range c hc
    omega

theorem row_nil_of_ind_nil {B : Csr R} (h : B.ind = []) (j : Nat) : B.row j = [] := by
  simp [Csr.row, h]

theorem entries_nil_of_ind_nil {A : Csr R} (h : A.ind = []) : A.entries = [] := by
  simp [Csr.entries, row_nil_of_ind_nil h]

/-- **C05.**  For every valid CSR matrix `A` (any shape, any base, any order of the
entries, duplicates allowed) and output arrays of the documented sizes with
arbitrary content, `csr2csc` performs no out-of-bounds access, returns success,
and its outputs form a valid CSC description `B` in the requested base; column
`j` of the output lists the entries of `A` in column `j` in increasing row order
(stored order within a row); the multiset of coordinates and values is the same. -/
theorem C05_csr2csc (A : Csr R) (hA : A.WF) (baseCSC : Int) (hb : baseCSC = 0 ∨ baseCSC = 1)
    (cp ri : List Int) (cv : List R)
    (hcp : cp.length = A.n + 1) (hri : ri.length = A.nnz) (hcv : cv.length = A.nnz) :
    ∃ B : Csr R,
      csr2csc A.m A.n A.nnz A.base baseCSC (some A.ptr) (some A.ind) (some A.val)
          (some cp) (some ri) (some cv)
        = some (.success, some B.ptr, some B.ind, some B.val) ∧
      B.m = A.n ∧ B.n = A.m ∧ B.base = baseCSC ∧ B.WF ∧
      (∀ j, j < A.n → B.row j =
        (A.entries.filter (fun e => e.2.1 = (j : Int))).map (fun e => ((e.1 : Int), e.2.2))) ∧
      (B.triples.map swapRC).Perm A.triples := by
  by_cases h0 : (A.m : Int) = 0 ∨ (A.n : Int) = 0 ∨ (A.nnz : Int) = 0
  · have hn : A.ind.length = 0 := by
      rcases h0 with h | h | h
      · exact wf_nnz_zero hA (Or.inl (by omega))
      · exact wf_nnz_zero hA (Or.inr (by omega))
      · simpa [Csr.nnz] using h
    have hnil : A.ind = [] := List.length_eq_zero_iff.1 hn
    have hri0 : ri = [] := List.length_eq_zero_iff.1 (by rw [hri]; exact hn)
    have hcv0 : cv = [] := List.length_eq_zero_iff.1 (by rw [hcv]; exact hn)
    refine ⟨⟨A.n, A.m, baseCSC, List.replicate (A.n + 1) baseCSC, [], []⟩, ?_, rfl, rfl, rfl,
      empty_csr_wf _ _ _ hb, ?_, ?_⟩
    · unfold csr2csc
      rw [if_neg (by omega), if_pos h0]
      simp only [fill_const hcp, hri0, hcv0]
      rfl
    · intro j hj
      rw [entries_nil_of_ind_nil hnil, row_nil_of_ind_nil rfl]; rfl
    · simp [Csr.triples, entries_nil_of_ind_nil hnil, entries_nil_of_ind_nil]
  · obtain ⟨B, he, h1, h2, h3, hwf, hl, hrow⟩ := csr2csc_core_spec hA hb hcp hri hcv
    refine ⟨B, ?_, h1, h2, h3, hwf, hrow, Csr.triples_of_cols hA h1 hrow⟩
    unfold csr2csc
    rw [if_neg (by omega), if_neg h0, if_neg (by rcases hA.base01 with h | h <;> omega),
      if_neg (by omega)]
    simp only [Csr.nnz, he]
    rfl

/-- C05, matrix form: the CSC output denotes the same matrix. -/
theorem C05_csr2csc_entry [AddCommMonoid R] (A : Csr R) (hA : A.WF) (baseCSC : Int)
    (hb : baseCSC = 0 ∨ baseCSC = 1) (cp ri : List Int) (cv : List R)
    (hcp : cp.length = A.n + 1) (hri : ri.length = A.nnz) (hcv : cv.length = A.nnz) :
    ∃ B : Csr R,
      csr2csc A.m A.n A.nnz A.base baseCSC (some A.ptr) (some A.ind) (some A.val)
          (some cp) (some ri) (some cv)
        = some (.success, some B.ptr, some B.ind, some B.val) ∧
      B.m = A.n ∧ B.n = A.m ∧ B.base = baseCSC ∧ B.WF ∧
      ∀ i j, i < A.m → j < A.n → B.entry j i = A.entry i j := by
  obtain ⟨B, he, h1, h2, h3, hwf, hrow, hp⟩ := C05_csr2csc A hA baseCSC hb cp ri cv hcp hri hcv
  exact ⟨B, he, h1, h2, h3, hwf, fun i j hi hj => Csr.entry_of_cols hA h1 hp hi hj⟩

/-- a 3×4 one-based matrix with unsorted rows, a duplicate and an empty row -/
def exA : Csr Int := ⟨3, 4, 1, [1, 4, 4, 6], [3, 1, 3, 4, 1], [5, 6, 7, 8, 9]⟩

example : exA.WF := by decide
example : csr2csc 3 4 5 1 0 (some exA.ptr) (some exA.ind) (some exA.val)
      (some [9, 9, 9, 9, 9]) (some [0, 0, 0, 0, 0]) (some [0, 0, 0, 0, 0])
    = some (.success, some [0, 2, 2, 4, 5], some [0, 2, 0, 0, 2], some [6, 9, 5, 7, 8]) := by decide

/-- **C06.**  For every COO matrix whose indices are in range, in any order,
duplicates allowed, `coo2csr` succeeds and yields a valid CSR matrix whose row
`i` lists the entries of row `i` in input order. -/
theorem C06_coo2csr (A : Coo R) (hA : A.WF)
    (cp ri : List Int) (cv : List R)
    (hcp : cp.length = A.m + 1) (hri : ri.length = A.row.length) (hcv : cv.length = A.row.length) :
    ∃ B : Csr R,
      coo2csr A.m A.n A.row.length A.base (some A.row) (some A.col) (some A.val)
          (some cp) (some ri) (some cv)
        = some (.success, some B.ptr, some B.ind, some B.val) ∧
      B.m = A.m ∧ B.n = A.n ∧ B.base = A.base ∧ B.WF ∧
      (∀ i, i < A.m → B.row i =
        (A.entries.filter (fun e => e.1 = (i : Int))).map (fun e => (e.2.1, e.2.2))) ∧
      B.triples.Perm A.entries := by
  have hperm : ∀ B : Csr R, B.m = A.m → (∀ i, i < A.m → B.row i =
        (A.entries.filter (fun e => e.1 = (i : Int))).map (fun e => (e.2.1, e.2.2))) →
      B.triples.Perm A.entries := by
    intro B hm hrow
    have h1 : B.triples = (List.range A.m).flatMap fun (i : Nat) =>
        A.entries.filter (fun e => e.1 = (i : Int)) := by
      unfold Csr.triples
      rw [Csr.entries, hm, List.map_flatMap]
      apply List.flatMap_congr
      intro i hi
      rw [hrow i (List.mem_range.1 hi), List.map_map, List.map_map]
      conv_rhs => rw [← List.map_id (A.entries.filter _)]
      apply List.map_congr_left
      intro x hx
      have := List.of_mem_filter hx
      simp at this
      simp [← this]
    rw [h1]
    refine perm_flatMap_filter (fun e => e.1) A.entries A.m ?_
    intro x hx
    obtain ⟨y, hy, rfl⟩ := List.mem_map.1 hx
    have := hA.row_range _ (List.of_mem_zip hy).1
    dsimp only
    omega
  by_cases h0 : (A.m : Int) = 0 ∨ (A.n : Int) = 0 ∨ (A.row.length : Int) = 0
  · have hn : A.row = [] := by
      rcases h0 with h | h | h
      · by_contra hc
        obtain ⟨c, hc⟩ := List.exists_mem_of_ne_nil _ hc
        have := hA.row_range c hc
        omega
      · have : A.col = [] := by
          by_contra hc
          obtain ⟨c, hc⟩ := List.exists_mem_of_ne_nil _ hc
          have := hA.col_range c hc
          omega
        have h2 := hA.col_len
        rw [this] at h2
        exact List.length_eq_zero_iff.1 h2.symm
      · exact List.length_eq_zero_iff.1 (by omega)
    have hen : A.entries = [] := by simp [Coo.entries, hn]
    have hri0 : ri = [] := List.length_eq_zero_iff.1 (by rw [hri, hn]; rfl)
    have hcv0 : cv = [] := List.length_eq_zero_iff.1 (by rw [hcv, hn]; rfl)
    have hrow : ∀ i, i < A.m →
        (⟨A.m, A.n, A.base, List.replicate (A.m + 1) A.base, [], []⟩ : Csr R).row i =
        (A.entries.filter (fun e => e.1 = (i : Int))).map (fun e => (e.2.1, e.2.2)) := by
      intro j hj
      rw [hen, row_nil_of_ind_nil rfl]; rfl
    refine ⟨⟨A.m, A.n, A.base, List.replicate (A.m + 1) A.base, [], []⟩, ?_, rfl, rfl, rfl,
      empty_csr_wf _ _ _ hA.base01, hrow, hperm _ rfl hrow⟩
    unfold coo2csr
    rw [if_neg (by omega)]
    simp only [if_pos h0, fill_const hcp, hri0, hcv0]
    rfl
  · obtain ⟨B, he, h1, h2, h3, hwf, hl, hrow⟩ := coo2csr_core_spec hA hcp hri hcv
    refine ⟨B, ?_, h1, h2, h3, hwf, hrow, hperm B h1 hrow⟩
    unfold coo2csr
    rw [if_neg (by omega)]
    simp only [if_neg h0, he]
    rfl

/-- a 3×3 zero-based COO matrix, unordered, with a duplicate coordinate -/
def exCoo : Coo Int := ⟨3, 3, 0, [2, 0, 2, 0, 2], [1, 2, 0, 2, 1], [10, 20, 30, 40, 50]⟩

example : exCoo.WF := by decide
example : coo2csr 3 3 5 0 (some exCoo.row) (some exCoo.col) (some exCoo.val)
      (some [7, 7, 7, 7]) (some [0, 0, 0, 0, 0]) (some [0, 0, 0, 0, 0])
    = some (.success, some [0, 2, 2, 5], some [2, 2, 1, 0, 1], some [20, 40, 10, 30, 50]) := by
  decide

theorem entries_rows_pairwise (B : Csr R) : B.entries.Pairwise (fun a b => a.1 ≤ b.1) := by
  unfold Csr.entries
  rw [List.pairwise_flatMap]
  refine ⟨?_, ?_⟩
  · intro i _
    rw [List.pairwise_map]
    exact List.pairwise_iff_forall_sublist.2 (fun _ => le_refl _)
  · refine (List.pairwise_lt_range).imp ?_
    intro a b hab x hx y hy
    obtain ⟨_, _, rfl⟩ := List.mem_map.1 hx
    obtain ⟨_, _, rfl⟩ := List.mem_map.1 hy
    exact Nat.le_of_lt hab

/-- **C07.**  Converting a valid matrix with `csr2csc` and converting the result
again gives back the same matrix with sorted rows: every row of the final result
is a permutation of the original row, in non-decreasing column order. -/
theorem C07_double_transpose (A : Csr R) (hA : A.WF) (b1 b2 : Int)
    (hb1 : b1 = 0 ∨ b1 = 1) (hb2 : b2 = 0 ∨ b2 = 1)
    (cp ri cp' ri' : List Int) (cv cv' : List R)
    (hcp : cp.length = A.n + 1) (hri : ri.length = A.nnz) (hcv : cv.length = A.nnz)
    (hcp' : cp'.length = A.m + 1) (hri' : ri'.length = A.nnz) (hcv' : cv'.length = A.nnz) :
    ∃ B C : Csr R,
      csr2csc A.m A.n A.nnz A.base b1 (some A.ptr) (some A.ind) (some A.val)
          (some cp) (some ri) (some cv)
        = some (.success, some B.ptr, some B.ind, some B.val) ∧
      csr2csc A.n A.m A.nnz b1 b2 (some B.ptr) (some B.ind) (some B.val)
          (some cp') (some ri') (some cv')
        = some (.success, some C.ptr, some C.ind, some C.val) ∧
      C.m = A.m ∧ C.n = A.n ∧ C.base = b2 ∧ C.WF ∧ C.Sorted ∧
      ∀ i, i < A.m → (C.row i).Perm (A.row i) := by
  obtain ⟨B, he, hm, hn, hbb, hwf, hrow, hp⟩ := C05_csr2csc A hA b1 hb1 cp ri cv hcp hri hcv
  have hnnz : B.nnz = A.nnz := by
    have h1 := hp.length_eq
    have e : ∀ X : Csr R, X.WF → X.triples.length = X.nnz := by
      intro X hX
      have := congrArg List.length (entries_keys hX)
      simpa [Csr.triples, Csr.nnz] using this
    rw [List.length_map, e A hA, e B hwf] at h1
    exact h1
  obtain ⟨C, he2, hm2, hn2, hbb2, hwf2, hrow2, hp2⟩ :=
    C05_csr2csc B hwf b2 hb2 cp' ri' cv' (by rw [hn]; exact hcp') (by rw [hnnz]; exact hri')
      (by rw [hnnz]; exact hcv')
  rw [hm, hn, hnnz, hbb] at he2
  refine ⟨B, C, he, he2, by omega, by omega, hbb2, hwf2, ?_, ?_⟩
  · intro i hi
    rw [hrow2 i (by omega), List.map_map, List.pairwise_map]
    refine ((entries_rows_pairwise B).filter _).imp ?_
    intro a b hab
    simpa using hab
  · intro i hi
    rw [hrow2 i (by omega)]
    have h3 := (hp.filter (fun e => e.1 = (i : Int))).map (fun e => (e.2.1, e.2.2))
    rw [Csr.triples_filter_row hi] at h3
    refine List.Perm.trans (List.Perm.of_eq ?_) h3
    unfold Csr.triples
    rw [List.map_map, List.filter_map, List.map_map]
    rfl

example : exA.WF ∧ ¬ exA.Sorted := by decide

end Verif
