import Verif.Proofs.Oft3
import Verif.Proofs.CsrmvTri
import Verif.Props.CsrOpt

namespace Verif
open Model Finset

variable {R : Type}

/-! ### the clean copy of a sorted matrix -/

theorem filled_strict [Zero R] {n i : Nat} {S : List (Int × R)} (h : (S.map (·.1)).Pairwise (· < ·)) :
    ((filled n i S).map (·.1)).Pairwise (· < ·) := by
  unfold filled
  split
  · have hS : S.Pairwise (fun a b => a.1 < b.1) := List.pairwise_map.mp h
    rw [List.pairwise_map, List.pairwise_append, List.pairwise_append]
    refine ⟨⟨hS.filter _, by simp, ?_⟩, hS.filter _, ?_⟩
    · intro a ha b hb
      simp only [loPart, List.mem_filter, decide_eq_true_eq] at ha
      simp only [List.mem_singleton] at hb
      subst hb
      exact ha.2
    · intro a ha b hb
      simp only [upPart, List.mem_filter, decide_eq_true_eq] at hb
      simp only [loPart, List.mem_append, List.mem_filter, decide_eq_true_eq, List.mem_singleton] at ha
      rcases ha with ha | rfl
      · exact lt_trans ha.2 hb.2
      · exact hb.2
  · exact h

theorem Csr.Strict.grouped {A : Csr R} (h : A.Strict) : A.Grouped := fun i hi =>
  sorted_grouped ((h i hi).imp fun h => le_of_lt h)

theorem Csr.Strict.nodup {A : Csr R} (h : A.Strict) : A.NoDup := fun i hi =>
  (h i hi).imp fun h => ne_of_lt h

theorem Csr.Strict.oneDiag {A : Csr R} (h : A.Strict) : A.OneDiag := fun i hi =>
  List.nodup_iff_count_le_one.mp (h.nodup i hi) _

/-- the clean copy of a strictly sorted matrix is strictly sorted -/
theorem optimize_strict [Zero R] {srt : (Int → Int → Bool) → List Int → List Int}
    (gi : Nat → Int) (gv : Nat → R) {A : Csr R} (hA : A.WF) (hs : A.Strict) :
    ∃ o, csrOptimize srt gi gv A.m A.n A.nnz A.base A.ptr A.ind A.val = some (.ok o) ∧
      (o.csr A.m A.n).WF ∧ Clean (o.csr A.m A.n) o.idiag o.iurow ∧ (o.csr A.m A.n).Strict ∧
      (∀ i, i < A.m → ((o.csr A.m A.n).row i).Perm
        (A.row i ++ if (i : Int) ∉ A.cols i ∧ i < A.n then [((i : Int), 0)] else [])) := by
  have hd := hs.oneDiag
  have hg := hs.grouped
  have hv : A.val.length = A.ind.length := hA.val_len
  have hacc : Accept A .general := (accept_general_iff A hv).mpr
    ⟨⟨hA.ptr_first, hA.ptr_mono, hA.ptr_last, hA.ind_range⟩, hd⟩
  have hmc : ∃ st, matCheck A.m A.n A.nnz (some A.ptr) (some A.ind) (some A.val) .general A.base
      false = some (.ok st) := by
    rcases matCheck_spec A .general hA.ptr_len hv with ⟨s, fd, h1, -⟩ | ⟨e, -, h2, -⟩
    · exact ⟨_, h1⟩
    · exact absurd hacc h2
  obtain ⟨st, hmc⟩ := hmc
  unfold csrOptimize
  simp only [hmc, checkSortDiag_spec hA hd, Option.bind_eq_bind, Option.bind_some]
  rw [if_neg (by simp)]
  by_cases hgf : A.FullDiag
  · rw [if_pos (by simp [hgf, hg])]
    obtain ⟨d, u, h1, _, _, h2⟩ := csrIndices_spec hA hg hd gi
    rw [h1]
    refine ⟨_, rfl, hA, clean_of_indices hg hd hgf h2, hs, ?_⟩
    intro i hi
    rw [if_neg (by rintro ⟨a, b⟩; exact a (hgf i hi b))]
    simp only [List.append_nil]
    exact List.Perm.refl _
  · rw [if_neg (by
      intro h
      simp only [decide_eq_true_eq] at h
      exact hgf h.2.2)]
    rw [copyZeroBased_spec hA]
    simp only [Option.bind_some]
    have hgr : ∀ i, i < A.m → GroupedRow i (A.row i) := hg
    have hB : (mkCsr A.m A.n 0 A.row).WF :=
      mkCsr_wf (.inl rfl) (fun i hi e he => Csr.row_range hA he)
    have hBr : ∀ i, i < A.m → (mkCsr A.m A.n 0 A.row).row i = A.row i := fun i hi => mkCsr_row hi
    have hBg : (mkCsr A.m A.n 0 A.row).Grouped := by
      intro i hi
      unfold Csr.cols
      rw [hBr i hi]
      exact hg i hi
    have hfd := fillDiag_spec hB hBg rfl gi gv
    have hnn : (mkCsr A.m A.n 0 A.row).nnz = A.nnz := by
      unfold Csr.nnz
      conv_rhs => rw [hA.eq_mkCsr]
      simp [mkCsr]
    have hcong : mkCsr A.m A.n 0 (fun k => filled A.n k ((mkCsr A.m A.n 0 A.row).row k))
        = mkCsr A.m A.n 0 (fun k => filled A.n k (A.row k)) :=
      mkCsr_congr (fun k hk => by rw [hBr k hk])
    rw [hnn] at hfd
    change fillDiag gi gv A.m A.n A.nnz 0 _ _ _ = some
      ((mkCsr A.m A.n 0 (fun k => filled A.n k ((mkCsr A.m A.n 0 A.row).row k))).ptr,
       (mkCsr A.m A.n 0 (fun k => filled A.n k ((mkCsr A.m A.n 0 A.row).row k))).ind,
       (mkCsr A.m A.n 0 (fun k => filled A.n k ((mkCsr A.m A.n 0 A.row).row k))).val) at hfd
    rw [hcong] at hfd
    obtain ⟨d, u, h1, h2, h3, h4⟩ := fill_clean hA hd (rows := A.row)
      (fun i _ => List.Perm.refl _) hgr gi
    simp only [optSort, hg, hgf, decide_true, decide_false, and_false, Bool.true_eq_false, if_false,
      Option.bind_some, ne_eq, not_true_eq_false, optFill, if_true, hfd, h1]
    refine ⟨_, rfl, h2, h3, ?_, h4⟩
    intro i hi
    have hi' : i < A.m := hi
    have : (mkCsr A.m A.n 0 (fun k => filled A.n k (A.row k))).row i = filled A.n i (A.row i) :=
      mkCsr_row hi'
    exact this ▸ filled_strict (hs i hi')

/-- the filled diagonal does not change the matrix -/
theorem perm_mat [Semiring R] {A Y : Csr R} {i : Nat}
    (h : (Y.row i).Perm (A.row i ++ if (i : Int) ∉ A.cols i ∧ i < A.n then [((i : Int), 0)] else []))
    (j : Nat) : Y.mat i j = A.mat i j := by
  rw [mat_eq_colSum, mat_eq_colSum]
  have h1 : colSum (Y.row i) j = colSum (A.row i ++ if (i : Int) ∉ A.cols i ∧ i < A.n then
      [((i : Int), 0)] else []) j := by
    unfold colSum
    exact ((h.filter _).map _).sum_eq
  rw [h1, colSum_append]
  have h2 : colSum (if (i : Int) ∉ A.cols i ∧ i < A.n then [((i : Int), (0 : R))] else []) j = 0 := by
    split
    · simp only [colSum, List.filter_cons, List.filter_nil]
      split <;> simp
    · rfl
  rw [h2, add_zero]

theorem perm_cols [Zero R] {A Y : Csr R} {i : Nat}
    (h : (Y.row i).Perm (A.row i ++ if (i : Int) ∉ A.cols i ∧ i < A.n then [((i : Int), 0)] else []))
    (hi : i < A.n) (c : Int) : c ∈ Y.cols i ↔ c ∈ A.cols i ∨ c = i := by
  unfold Csr.cols
  rw [(h.map (·.1)).mem_iff, List.map_append, List.mem_append]
  by_cases hc : (i : Int) ∈ A.cols i
  · rw [if_neg (fun h => h.1 hc)]
    constructor
    · rintro (h | h)
      · exact .inl h
      · simp at h
    · rintro (h | rfl)
      · exact .inl h
      · exact .inl hc
  · rw [if_pos ⟨hc, hi⟩]
    simp

end Verif
