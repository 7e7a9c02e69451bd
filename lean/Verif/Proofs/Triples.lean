/-
Facts about the specification-level views `row`, `entries`, `triples`, `entry`.
-/
import Verif.Proofs.CsrLemmas

namespace Verif

variable {R : Type}

theorem perm_flatMap_filter {α : Type} (key : α → Int) (L : List α) (n : Nat)
    (h : ∀ x ∈ L, 0 ≤ key x ∧ key x < n) :
    ((List.range n).flatMap fun (j : Nat) => L.filter fun e => key e = (j : Int)).Perm L := by
  have aux : ∀ k : Nat, ((List.range k).flatMap fun (j : Nat) => L.filter fun e => key e = (j : Int)).Perm
      (L.filter fun e => key e < (k : Int)) := by
    intro k
    induction k with
    | zero =>
      have : L.filter (fun e => key e < ((0 : Nat) : Int)) = [] := by
        rw [List.filter_eq_nil_iff]
        intro a ha
        have := h a ha
        simp; omega
      rw [this]; simp
    | succ k ih =>
      rw [List.range_succ, List.flatMap_append]
      simp only [List.flatMap_cons, List.flatMap_nil, List.append_nil]
      refine (ih.append_right _).trans ?_
      have h2 := List.filter_append_perm (fun e => decide (key e < (k : Int)))
        (L.filter fun e => key e < ((k + 1 : Nat) : Int))
      rw [List.filter_filter, List.filter_filter] at h2
      refine List.Perm.trans (List.Perm.of_eq ?_) h2
      congr 1
      · apply List.filter_congr; intro x hx
        by_cases hh : key x < (k : Int)
        · simp [hh]; omega
        · simp [hh]
      · apply List.filter_congr; intro x hx
        by_cases hh : key x = (k : Int)
        · simp [hh]
        · simp [hh]; omega
  refine (aux n).trans (List.Perm.of_eq ?_)
  rw [List.filter_eq_self]
  intro a ha
  simpa using (h a ha).2

namespace Csr

theorem row_of_ge {A : Csr R} (h : A.WF) {i : Nat} (hi : A.m ≤ i) : A.row i = [] := by
  have : A.p (i + 1) = 0 := by
    simp only [Csr.p, List.getD_eq_getElem?_getD]
    rw [List.getElem?_eq_none (by rw [h.ptr_len]; omega)]; rfl
  have h2 : 0 ≤ A.p i := by
    by_cases hh : i = A.m
    · subst hh
      rw [h.ptr_last]
      rcases h.base01 with h' | h' <;> omega
    · simp only [Csr.p, List.getD_eq_getElem?_getD]
      rw [List.getElem?_eq_none (by rw [h.ptr_len]; omega)]; simp
  unfold Csr.row
  rw [this]
  have : (0 - A.p i).toNat = 0 := by omega
  rw [this]; simp

/-- entries of row `i`, out of all entries -/
theorem entries_filter_row {A : Csr R} {i : Nat} (hi : i < A.m) :
    A.entries.filter (fun e => e.1 = i) = (A.row i).map fun e => (i, e.1, e.2) := by
  unfold Csr.entries
  have aux : ∀ k : Nat, ((List.range k).flatMap fun i => (A.row i).map fun e => (i, e.1, e.2)).filter
      (fun e => e.1 = i) = if i < k then (A.row i).map fun e => (i, e.1, e.2) else [] := by
    intro k
    induction k with
    | zero => simp
    | succ k ih =>
      rw [List.range_succ, List.flatMap_append, List.filter_append, ih]
      simp only [List.flatMap_cons, List.flatMap_nil, List.append_nil]
      by_cases hk : i = k
      · subst hk
        rw [if_neg (by omega), if_pos (by omega), List.nil_append, List.filter_eq_self]
        intro a ha
        obtain ⟨b, _, rfl⟩ := List.mem_map.1 ha
        simp
      · have : ((A.row k).map fun e => (k, e.1, e.2)).filter (fun e => decide (e.1 = i)) = [] := by
          rw [List.filter_eq_nil_iff]
          intro a ha
          obtain ⟨b, _, rfl⟩ := List.mem_map.1 ha
          simp; omega
        rw [this, List.append_nil]
        by_cases h2 : i < k
        · rw [if_pos h2, if_pos (by omega)]
        · rw [if_neg h2, if_neg (by omega)]
  rw [aux, if_pos hi]

theorem triples_filter_row {A : Csr R} {i : Nat} (hi : i < A.m) :
    (A.triples.filter (fun e => e.1 = (i : Int))).map (fun e => (e.2.1, e.2.2)) = A.row i := by
  unfold triples
  rw [List.filter_map, List.map_map]
  have := entries_filter_row (A := A) hi
  have e : (fun e : Int × Int × R => decide (e.1 = (i : Int))) ∘
      (fun e : Nat × Int × R => ((e.1 : Int), e.2.1, e.2.2)) = fun e => decide (e.1 = i) := by
    funext e; simp
  rw [e, this, List.map_map]
  simp [Function.comp_def]

theorem entry_eq_triples [AddCommMonoid R] {A : Csr R} {i j : Nat} (hi : i < A.m) :
    A.entry i j = ((A.triples.filter fun e => e.1 = (i : Int) ∧ e.2.1 = (j : Int)).map (·.2.2)).sum := by
  unfold entry
  rw [← triples_filter_row hi, List.filter_map, List.map_map, List.filter_filter]
  congr 2
  apply List.filter_congr
  intro e _
  simp [Bool.and_comm]

theorem triples_range {A : Csr R} (h : A.WF) {e : Int × Int × R} (he : e ∈ A.triples) :
    0 ≤ e.1 ∧ e.1 < A.m ∧ 0 ≤ e.2.1 ∧ e.2.1 < A.n := by
  obtain ⟨⟨i, c, v⟩, hm, rfl⟩ := List.mem_map.1 he
  have h1 := Csr.mem_entries.1 hm
  have := Csr.row_range h h1.2
  dsimp only at this ⊢
  have := h1.1
  omega

/-- If every row of `B` lists, in order, the entries of `A` of that column, then
`B` is `A` transposed. -/
theorem triples_of_cols {A B : Csr R} (hA : A.WF) (hm : B.m = A.n)
    (hrow : ∀ j, j < A.n → B.row j =
        (A.entries.filter (fun e => e.2.1 = (j : Int))).map (fun e => ((e.1 : Int), e.2.2))) :
    (B.triples.map swapRC).Perm A.triples := by
  have h1 : B.triples.map swapRC = (List.range A.n).flatMap fun (j : Nat) =>
      A.triples.filter (fun e => e.2.1 = (j : Int)) := by
    unfold triples
    rw [List.map_map, Csr.entries, hm, List.map_flatMap]
    apply List.flatMap_congr
    intro j hj
    rw [hrow j (List.mem_range.1 hj), List.filter_map, List.map_map, List.map_map]
    have e : (fun e : Int × Int × R => decide (e.2.1 = (j : Int))) ∘
      (fun e : Nat × Int × R => ((e.1 : Int), e.2.1, e.2.2)) = fun e => decide (e.2.1 = (j : Int)) := rfl
    rw [e]
    apply List.map_congr_left
    intro x hx
    have := List.of_mem_filter hx
    simp at this
    simp [swapRC, this]
  rw [h1]
  refine perm_flatMap_filter (fun e => e.2.1) A.triples A.n ?_
  intro x hx
  have := triples_range hA hx
  omega

theorem entry_of_cols [AddCommMonoid R] {A B : Csr R} (hA : A.WF) (hm : B.m = A.n)
    (hp : (B.triples.map swapRC).Perm A.triples) {i j : Nat} (hi : i < A.m) (hj : j < A.n) :
    B.entry j i = A.entry i j := by
  rw [entry_eq_triples hi, entry_eq_triples (by omega)]
  have := ((hp.filter fun e => e.1 = (i : Int) ∧ e.2.1 = (j : Int)).map (·.2.2)).sum_eq
  rw [← this, List.filter_map, List.map_map]
  congr 2
  apply List.filter_congr
  intro e _
  rw [Bool.eq_iff_iff]
  simp only [swapRC, Function.comp, decide_eq_true_eq]
  exact ⟨fun h => decide_eq_true ⟨h.2, h.1⟩, fun h => (of_decide_eq_true h).symm⟩

end Csr

end Verif
