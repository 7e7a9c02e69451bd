/-
C15  The clean copy: sorted rows, full diagonal, same matrix.
-/
import Verif.Proofs.CsrOpt3
import Verif.Proofs.CsrmvSym
import Verif.Props.MatCheck

namespace Verif
open Model
variable {R : Type}

/-- the matrix handed out by the optimisation of an `m × n` matrix -/
def Model.OptCsr.csr (o : OptCsr R) (m n : Nat) : Csr R := ⟨m, n, o.base, o.ptr, o.ind, o.val⟩

theorem grouped_filled [Zero R] {n i : Nat} {S : List (Int × R)} (h : GroupedRow i S) :
    GroupedRow i (filled n i S) := by
  unfold filled
  split
  · unfold GroupedRow
    simp only [List.map_append, List.map_cons, List.map_nil]
    have h0 : ∀ a ∈ (loPart i S).map (·.1), a < (i : Int) := by
      intro a ha
      obtain ⟨e, he, rfl⟩ := List.mem_map.mp ha
      exact (mem_loPart.mp he).2
    have h2 : ∀ a ∈ (upPart i S).map (·.1), (i : Int) < a := by
      intro a ha
      obtain ⟨e, he, rfl⟩ := List.mem_map.mp ha
      exact (mem_upPart.mp he).2
    have g0 : ∀ a : Int, a < i → Csr.grp i a = 0 := fun a h => by simp [Csr.grp, h]
    have g2 : ∀ a : Int, (i : Int) < a → Csr.grp i a = 2 := fun a h => by
      unfold Csr.grp; rw [if_neg (by omega), if_neg (by omega)]
    have g1 : Csr.grp i (i : Int) = 1 := by simp [Csr.grp]
    rw [List.pairwise_append, List.pairwise_append]
    refine ⟨⟨?_, by simp, ?_⟩, ?_, ?_⟩
    · exact List.pairwise_of_forall_mem_list (fun a ha b hb => by rw [g0 a (h0 a ha)]; omega)
    · intro a ha b hb
      rw [g0 a (h0 a ha)]; omega
    · exact List.pairwise_of_forall_mem_list (fun a ha b hb => by rw [g2 b (h2 b hb), g2 a (h2 a ha)])
    · intro a ha b hb
      rw [g2 b (h2 b hb)]
      unfold Csr.grp
      split_ifs <;> omega
  · exact h

theorem count_filled [Zero R] {n i : Nat} {S : List (Int × R)} (h : GroupedRow i S)
    (h1 : (S.map (·.1)).count (i : Int) ≤ 1) :
    ((filled n i S).map (·.1)).count (i : Int) ≤ 1 ∧
      (i < n → (i : Int) ∈ (filled n i S).map (·.1)) := by
  by_cases hl : lacks n i S
  · have hp := (filled_perm (n := n) h).map (·.1)
    rw [if_pos hl] at hp
    constructor
    · rw [hp.count_eq]
      simp only [List.map_append, List.count_append]
      have := dgPart_length (i := i) (S := S)
      rw [hl.1] at this
      simp only [List.length_nil] at this
      rw [← this]
      simp
    · intro _
      rw [hp.mem_iff]
      simp
  · have he : filled n i S = S := by unfold filled; rw [if_neg hl]
    rw [he]
    refine ⟨h1, ?_⟩
    intro hn
    by_contra hc
    apply hl
    refine ⟨List.eq_nil_iff_forall_not_mem.mpr ?_, hn⟩
    intro e he
    have := mem_dgPart.mp he
    exact hc (List.mem_map.mpr ⟨e, this.1, this.2⟩)

/-- the copy made from (possibly reordered) rows -/
theorem fill_clean [Zero R] {A : Csr R} (hA : A.WF) (hd : A.OneDiag) {rows : Nat → List (Int × R)}
    (hp : ∀ i, i < A.m → (rows i).Perm (A.row i))
    (hg : ∀ i, i < A.m → GroupedRow i (rows i)) (gi : Nat → Int) :
    ∃ idiag iurow,
      csrIndices gi A.m 0 (mkCsr A.m A.n 0 (fun k => filled A.n k (rows k))).ptr
        (mkCsr A.m A.n 0 (fun k => filled A.n k (rows k))).ind = some (idiag, iurow) ∧
      (mkCsr A.m A.n 0 (fun k => filled A.n k (rows k))).WF ∧
      Clean (mkCsr A.m A.n 0 (fun k => filled A.n k (rows k))) idiag iurow ∧
      ∀ i, i < A.m → ((mkCsr A.m A.n 0 (fun k => filled A.n k (rows k))).row i).Perm
        (A.row i ++ if (i : Int) ∉ A.cols i ∧ i < A.n then [((i : Int), 0)] else []) := by
  have hlk : ∀ i, i < A.m → (lacks A.n i (rows i) ↔ (i : Int) ∉ A.cols i ∧ i < A.n) := by
    intro i hi
    rw [← lacks_iff]
    unfold lacks
    have : dgPart i (rows i) = [] ↔ dgPart i (A.row i) = [] := by
      have := ((hp i hi).filter (fun e => decide (e.1 = (i : Int)))).length_eq
      unfold dgPart
      rw [← List.length_eq_zero_iff, ← List.length_eq_zero_iff, this]
    rw [this]
  have hone : ∀ i, i < A.m → ((rows i).map (·.1)).count (i : Int) ≤ 1 := by
    intro i hi
    rw [((hp i hi).map (·.1)).count_eq]
    exact hd i hi
  set B := mkCsr A.m A.n 0 (fun k => filled A.n k (rows k)) with hB
  have hrow : ∀ i, i < A.m → B.row i = filled A.n i (rows i) := fun i hi => mkCsr_row hi
  have hwf : B.WF := by
    apply mkCsr_wf (.inl rfl)
    intro i hi e he
    have := (filled_perm (n := A.n) (hg i hi)).mem_iff.mp he
    rcases List.mem_append.mp this with h | h
    · exact Csr.row_range hA ((hp i hi).mem_iff.mp h)
    · split at h
      · rename_i hl
        simp only [List.mem_singleton] at h
        rw [h]
        have := hl.2
        exact ⟨by simp, by simpa using this⟩
      · simp at h
  have hBg : B.Grouped := by
    intro i hi
    have := grouped_filled (n := A.n) (hg i hi)
    unfold Csr.cols
    rw [hrow i hi]
    exact this
  have hBo : B.OneDiag := by
    intro i hi
    unfold Csr.cols
    rw [hrow i hi]
    exact (count_filled (n := A.n) (hg i hi) (hone i hi)).1
  have hBf : B.FullDiag := by
    intro i hi hn
    unfold Csr.cols
    rw [hrow i hi]
    exact (count_filled (n := A.n) (hg i hi) (hone i hi)).2 hn
  obtain ⟨d, u, h1, _, _, h2⟩ := csrIndices_spec hwf hBg hBo gi
  refine ⟨d, u, h1, hwf, clean_of_indices hBg hBo hBf h2, ?_⟩
  intro i hi
  rw [hrow i hi]
  refine (filled_perm (hg i hi)).trans ?_
  by_cases hl : lacks A.n i (rows i)
  · rw [if_pos hl, if_pos ((hlk i hi).mp hl)]
    exact (hp i hi).append_right _
  · rw [if_neg hl, if_neg (fun h => hl ((hlk i hi).mpr h))]
    exact (hp i hi).append_right _

theorem fullDiag_perm {A B : Csr R} (hm : B.m = A.m) (hn : B.n = A.n)
    (hp : ∀ i, i < A.m → (B.row i).Perm (A.row i)) : B.FullDiag ↔ A.FullDiag := by
  unfold Csr.FullDiag Csr.cols
  constructor
  · intro h i hi hi2
    exact ((hp i hi).map (·.1)).mem_iff.mp (h i (by omega) (by omega))
  · intro h i hi hi2
    exact ((hp i (by omega)).map (·.1)).mem_iff.mpr (h i (by omega) (by omega))

/-- **C15.**  For every accepted matrix (consistent arrays in base 0 or 1, at most one diagonal
entry per row) whose rows are already grouped or store no coordinate twice, whatever the content
of freshly allocated memory and for every `std::sort`, the optimisation succeeds without touching
memory outside its arrays and yields a well-formed matrix whose rows are split into lower part,
diagonal and upper part at the positions `idiag`, `iurow`, with a full diagonal; every row keeps
exactly its entries, plus an explicit zero on the diagonal where one was missing.  The user's
arrays are used in place, unchanged, exactly if they already had this form; the recorded flag says
whether the user's matrix has a full diagonal. -/
theorem C15_clean_copy [Zero R] {srt : (Int → Int → Bool) → List Int → List Int}
    (hsrt : StdSort srt) (gi : Nat → Int) (gv : Nat → R) {A : Csr R} (hA : A.WF)
    (hd : A.OneDiag) (hnd : A.Grouped ∨ A.NoDup) :
    ∃ o, csrOptimize srt gi gv A.m A.n A.nnz A.base A.ptr A.ind A.val = some (.ok o) ∧
      (o.csr A.m A.n).WF ∧ Clean (o.csr A.m A.n) o.idiag o.iurow ∧
      (∀ i, i < A.m → ((o.csr A.m A.n).row i).Perm
        (A.row i ++ if (i : Int) ∉ A.cols i ∧ i < A.n then [((i : Int), 0)] else [])) ∧
      (o.inPlace = true ↔ A.Grouped ∧ A.FullDiag) ∧
      (o.inPlace = true → o.csr A.m A.n = A) ∧
      (o.fulldiag = true ↔ A.FullDiag) := by
  have hv : A.val.length = A.ind.length := hA.val_len
  have hacc : Accept A .general := (accept_general_iff A hv).mpr
    ⟨⟨hA.ptr_first, hA.ptr_mono, hA.ptr_last, hA.ind_range⟩, hd⟩
  have hmc : ∃ st, matCheck A.m A.n A.nnz (some A.ptr) (some A.ind) (some A.val) .general A.base
      false = some (.ok st) := by
    rcases matCheck_spec A .general hA.ptr_len hv with ⟨s, fd, h1, -⟩ | ⟨e, -, h2, -⟩
    · exact ⟨_, h1⟩
    · exact absurd hacc h2
  obtain ⟨st, hmc⟩ := hmc
  unfold csrOptimize
  simp only [hmc, checkSortDiag_spec hA hd, Option.bind_eq_bind, Option.bind_some]
  rw [if_neg (by simp)]
  by_cases hgf : A.Grouped ∧ A.FullDiag
  · rw [if_pos (by simp [hgf])]
    obtain ⟨d, u, h1, _, _, h2⟩ := csrIndices_spec hA hgf.1 hd gi
    rw [h1]
    refine ⟨_, rfl, hA, clean_of_indices hgf.1 hd hgf.2 h2, ?_, by simp [hgf], fun _ => rfl,
      by simp [hgf.2]⟩
    intro i hi
    rw [if_neg (by rintro ⟨a, b⟩; exact a (hgf.2 i hi b))]
    simp only [List.append_nil]
    exact List.Perm.refl _
  · rw [if_neg (by
      intro h
      simp only [decide_eq_true_eq] at h
      exact hgf h.2)]
    rw [copyZeroBased_spec hA]
    simp only [Option.bind_some]
    by_cases hg : A.Grouped
    · -- sorted, only the diagonal is missing
      have hf : ¬ A.FullDiag := fun h => hgf ⟨hg, h⟩
      have hgr : ∀ i, i < A.m → GroupedRow i (A.row i) := hg
      have hB : (mkCsr A.m A.n 0 A.row).WF :=
        mkCsr_wf (.inl rfl) (fun i hi e he => Csr.row_range hA he)
      have hBr : ∀ i, i < A.m → (mkCsr A.m A.n 0 A.row).row i = A.row i := fun i hi => mkCsr_row hi
      have hBg : (mkCsr A.m A.n 0 A.row).Grouped := by
        intro i hi
        unfold Csr.cols
        rw [hBr i hi]
        exact hg i hi
      have hfd := fillDiag_spec hB hBg rfl gi gv
      have hnn : (mkCsr A.m A.n 0 A.row).nnz = A.nnz := by
        unfold Csr.nnz
        conv_rhs => rw [hA.eq_mkCsr]
        simp [mkCsr]
      have hcong : mkCsr A.m A.n 0 (fun k => filled A.n k ((mkCsr A.m A.n 0 A.row).row k))
          = mkCsr A.m A.n 0 (fun k => filled A.n k (A.row k)) :=
        mkCsr_congr (fun k hk => by rw [hBr k hk])
      rw [hnn] at hfd
      change fillDiag gi gv A.m A.n A.nnz 0 _ _ _ = some
        ((mkCsr A.m A.n 0 (fun k => filled A.n k ((mkCsr A.m A.n 0 A.row).row k))).ptr,
         (mkCsr A.m A.n 0 (fun k => filled A.n k ((mkCsr A.m A.n 0 A.row).row k))).ind,
         (mkCsr A.m A.n 0 (fun k => filled A.n k ((mkCsr A.m A.n 0 A.row).row k))).val) at hfd
      rw [hcong] at hfd
      obtain ⟨d, u, h1, h2, h3, h4⟩ := fill_clean hA hd (rows := A.row)
        (fun i _ => List.Perm.refl _) hgr gi
      simp only [optSort, hg, hf, decide_true, decide_false, and_false, Bool.true_eq_false, if_false,
        Option.bind_some, ne_eq, not_true_eq_false, optFill, if_true, hfd, h1]
      exact ⟨_, rfl, h2, h3, h4, by simp, by simp, by simp⟩
    · have hno : A.NoDup := hnd.resolve_left hg
      have hl1 : (mkCsr A.m A.n 0 A.row).ind.length = A.ind.length := by
        conv_rhs => rw [hA.eq_mkCsr]
        simp [mkCsr]
      have hl2 : (mkCsr A.m A.n 0 A.row).val.length = A.ind.length := by
        rw [← hl1]; simp [mkCsr]
      obtain ⟨rows, hs, hr⟩ := sortIdxVal_spec hA hno hsrt (db := 0)
        (by rcases hA.base01 with h | h <;> simp [h]) hl1 hl2
      have hgr : ∀ i, i < A.m → GroupedRow i (rows i) := fun i hi => sorted_grouped (hr i hi).2
      have hptr : (mkCsr A.m A.n 0 A.row).ptr = (mkCsr A.m A.n 0 rows).ptr := by
        simp only [mkCsr]
        apply List.map_congr_left
        intro i hi
        have hi : i ≤ A.m := by have := List.mem_range.mp hi; omega
        congr 2
        clear hs
        induction i with
        | zero => rfl
        | succ i ih =>
          rw [offs_succ, offs_succ, ih (by
            apply List.mem_range.mpr; omega) (by omega), (hr i (by omega)).1.length_eq]
      have hB : (mkCsr A.m A.n 0 rows).WF :=
        mkCsr_wf (.inl rfl) (fun i hi e he => Csr.row_range hA ((hr i hi).1.mem_iff.mp he))
      have hBr : ∀ i, i < A.m → (mkCsr A.m A.n 0 rows).row i = rows i := fun i hi => mkCsr_row hi
      have hBg : (mkCsr A.m A.n 0 rows).Grouped := by
        intro i hi
        unfold Csr.cols
        rw [hBr i hi]
        exact hgr i hi
      have hBo : (mkCsr A.m A.n 0 rows).OneDiag := by
        intro i hi
        unfold Csr.cols
        rw [hBr i hi, ((hr i hi).1.map (·.1)).count_eq]
        exact hd i hi
      have hBf : (mkCsr A.m A.n 0 rows).FullDiag ↔ A.FullDiag :=
        fullDiag_perm rfl rfl (fun i hi => by rw [hBr i hi]; exact (hr i hi).1)
      have hcs := checkSortDiag_spec hB hBo
      change checkSortDiag A.m A.n 0 _ _ = _ at hcs
      have hnn : (mkCsr A.m A.n 0 rows).nnz = A.nnz := by
        unfold Csr.nnz
        have e1 := hB.ptr_last
        have e2 := hA.ptr_last
        have e3 : (mkCsr A.m A.n 0 rows).p A.m = offs rows A.m := by
          rw [mkCsr_p (le_refl _)]; simp
        have e4 := hA.offs_row (i := A.m) (le_refl _)
        have e5 : (mkCsr A.m A.n 0 A.row).p A.m = (mkCsr A.m A.n 0 rows).p A.m := by
          unfold Csr.p; rw [hptr]
        have e6 : (mkCsr A.m A.n 0 A.row).p A.m = offs A.row A.m := by
          rw [mkCsr_p (le_refl _)]; simp
        change (mkCsr A.m A.n 0 rows).p A.m = 0 + _ at e1
        omega
      have hfd := fillDiag_spec hB hBg rfl gi gv
      have hcong : mkCsr A.m A.n 0 (fun k => filled A.n k ((mkCsr A.m A.n 0 rows).row k))
          = mkCsr A.m A.n 0 (fun k => filled A.n k (rows k)) :=
        mkCsr_congr (fun k hk => by rw [hBr k hk])
      rw [hnn] at hfd
      change fillDiag gi gv A.m A.n A.nnz 0 _ _ _ = some
        ((mkCsr A.m A.n 0 (fun k => filled A.n k ((mkCsr A.m A.n 0 rows).row k))).ptr,
         (mkCsr A.m A.n 0 (fun k => filled A.n k ((mkCsr A.m A.n 0 rows).row k))).ind,
         (mkCsr A.m A.n 0 (fun k => filled A.n k ((mkCsr A.m A.n 0 rows).row k))).val) at hfd
      rw [hcong] at hfd
      obtain ⟨d, u, h1, h2, h3, h4⟩ := fill_clean hA hd (rows := rows)
        (fun i hi => (hr i hi).1) hgr gi
      have hos : optSort srt A.m A.n A.nnz A.base A.ptr A.ind A.val false
          (decide (A.Grouped ∧ A.FullDiag)) ((mkCsr A.m A.n 0 A.row).ptr,
            (mkCsr A.m A.n 0 A.row).ind, (mkCsr A.m A.n 0 A.row).val)
          = some (.success, (mkCsr A.m A.n 0 rows).ind, (mkCsr A.m A.n 0 rows).val,
              decide A.FullDiag) := by
        unfold optSort
        rw [if_pos rfl]
        simp only [hs, Option.bind_eq_bind, Option.bind_some]
        rw [hptr, hcs]
        simp only [Option.bind_some, hBg, true_and]
        congr 5
        simp [hBf]
      rw [show decide A.Grouped = false by simp [hg], hos]
      simp only [Option.bind_some]
      rw [if_neg (by simp), hptr]
      unfold optFill
      by_cases hf : A.FullDiag
      · have hsame : mkCsr A.m A.n 0 (fun k => filled A.n k (rows k)) = mkCsr A.m A.n 0 rows := by
          apply mkCsr_congr
          intro k hk
          unfold filled
          rw [if_neg]
          rintro ⟨h1, h2⟩
          have := hf k hk h2
          unfold Csr.cols at this
          rw [← ((hr k hk).1.map (·.1)).mem_iff] at this
          obtain ⟨e, he, h3⟩ := List.mem_map.mp this
          have : e ∈ dgPart k (rows k) := mem_dgPart.mpr ⟨he, h3⟩
          rw [h1] at this
          simp at this
        rw [hsame] at h1 h2 h3 h4
        simp only [hf, decide_true, Bool.true_eq_false, if_false, Option.bind_some, h1]
        exact ⟨_, rfl, h2, h3, h4, by simp [hg], by simp, by simp⟩
      · simp only [hf, decide_false, if_true, hfd, Option.bind_some, h1]
        exact ⟨_, rfl, h2, h3, h4, by simp, by simp, by simp⟩

/-- **C15 (same matrix).**  The clean version represents the user's matrix. -/
theorem C15_same_matrix [Semiring R] {srt : (Int → Int → Bool) → List Int → List Int}
    (hsrt : StdSort srt) (gi : Nat → Int) (gv : Nat → R) {A : Csr R} (hA : A.WF)
    (hd : A.OneDiag) (hnd : A.Grouped ∨ A.NoDup) :
    ∃ o, csrOptimize srt gi gv A.m A.n A.nnz A.base A.ptr A.ind A.val = some (.ok o) ∧
      (o.csr A.m A.n).WF ∧ Clean (o.csr A.m A.n) o.idiag o.iurow ∧
      ∀ i j, i < A.m → (o.csr A.m A.n).mat i j = A.mat i j := by
  obtain ⟨o, h1, h2, h3, h4, -⟩ := C15_clean_copy hsrt gi gv hA hd hnd
  refine ⟨o, h1, h2, h3, ?_⟩
  intro i j hi
  rw [mat_eq_colSum, mat_eq_colSum]
  have hp : colSum ((o.csr A.m A.n).row i) j
      = colSum (A.row i ++ if (i : Int) ∉ A.cols i ∧ i < A.n then [((i : Int), 0)] else []) j := by
    unfold colSum
    exact (((h4 i hi).filter _).map _).sum_eq
  rw [hp, colSum_append]
  have : colSum (if (i : Int) ∉ A.cols i ∧ i < A.n then [((i : Int), (0 : R))] else []) j = 0 := by
    split
    · unfold colSum
      by_cases h : (i : Int) = j <;> simp [h]
    · rfl
  rw [this, add_zero]

/-- **C15 (rejection).**  Inconsistent arrays, or a diagonal stored twice, are reported as an
error and yield nothing. -/
theorem C15_rejects [Zero R] (srt : (Int → Int → Bool) → List Int → List Int) (gi : Nat → Int)
    (gv : Nat → R) (A : Csr R) (hp : A.ptr.length = A.m + 1) (hv : A.val.length = A.ind.length)
    (h : ¬ (A.Valid ∧ A.OneDiag)) :
    ∃ e, csrOptimize srt gi gv A.m A.n A.nnz A.base A.ptr A.ind A.val = some (.error e) := by
  unfold csrOptimize
  rcases matCheck_spec A .general hp hv with ⟨s, fd, -, h2, -, -⟩ | ⟨e, h1, -, -⟩
  · exact absurd ((accept_general_iff A hv).mp h2) h
  · change matCheck A.m A.n A.nnz _ _ _ _ _ _ = _ at h1
    rw [h1]
    exact ⟨e, rfl⟩

/-- one-based, unsorted, rows 1 and 2 without diagonal -/
def exOpt : Csr Int := ⟨3, 4, 1, [1, 4, 6, 6], [3, 1, 2, 4, 1], [5, 6, 7, 8, 9]⟩

example : exOpt.WF ∧ exOpt.OneDiag ∧ ¬ exOpt.Grouped ∧ exOpt.NoDup ∧ ¬ exOpt.FullDiag := by
  refine ⟨?_, ?_⟩
  · constructor <;> decide +kernel
  · decide +kernel

example : csrOptimize insertionSortB (fun _ => 99) (fun _ => 99) 3 4 5 1 exOpt.ptr exOpt.ind exOpt.val
    = some (.ok ⟨false, 0, [0, 3, 6, 7], [0, 1, 2, 0, 1, 3, 2], [6, 7, 5, 9, 0, 8, 0],
        [0, 4, 6], [1, 5, 7], false⟩) := by decide +kernel

/-- grouped but not sorted, full diagonal: used in place -/
example : csrOptimize insertionSortB (fun _ => 99) (fun _ => 99) 3 3 5 0 [0, 1, 2, 5] [0, 1, 1, 0, 2]
      [1, 2, 3, 4, (5 : Int)]
    = some (.ok ⟨true, 0, [0, 1, 2, 5], [0, 1, 1, 0, 2], [1, 2, 3, 4, 5], [0, 1, 4], [1, 2, 5],
        true⟩) := by decide +kernel

/-- F14: the comparator handed to `std::sort` orders every element before itself, and orders two
entries of the same row with the same column both ways — such matrices are accepted — so it is not
a strict weak ordering and C++ gives the call no meaning. -/
theorem C15_comparator_not_strict :
    ∃ A : Csr Int, A.WF ∧ A.OneDiag ∧ ¬ A.Grouped ∧
      sortCmp A.ind 0 0 = true ∧ sortCmp A.ind 0 2 = true ∧ sortCmp A.ind 2 0 = true :=
  ⟨⟨1, 3, 0, [0, 3], [1, 0, 1], [5, 6, 7]⟩, by constructor <;> decide +kernel,
    by decide +kernel, by decide +kernel, by decide +kernel, by decide +kernel, by decide +kernel⟩

/-- adding the missing diagonal entry to a row without repeated columns -/
theorem nodup_copy [Zero R] {A B : Csr R} {i : Nat}
    (hp : (B.row i).Perm (A.row i ++ if (i : Int) ∉ A.cols i ∧ i < A.n then [((i : Int), 0)] else []))
    (h : ((A.row i).map (·.1)).Nodup) : ((B.row i).map (·.1)).Nodup := by
  refine (hp.map (·.1)).nodup_iff.mpr ?_
  split
  · next hc =>
    rw [List.map_append, List.nodup_append]
    refine ⟨h, by simp, ?_⟩
    intro a ha b hb hab
    simp only [List.map_cons, List.map_nil, List.mem_singleton] at hb
    subst hab
    subst hb
    exact hc.1 ha
  · simpa using h

end Verif
