import Verif.Proofs.Sp2m2
import Verif.Proofs.Orient
import Verif.Spec.Mm
import Mathlib.Data.Set.Card

namespace Verif
open Model Finset

variable {R : Type}

section
variable [Semiring R]

theorem colSum_flatMap {α : Type} (l : List α) (h : α → List (Int × R)) (j : Nat) :
    colSum (l.flatMap h) j = (l.map fun x => colSum (h x) j).sum := by
  induction l with
  | nil => simp [colSum]
  | cons a l ih => rw [List.flatMap_cons, colSum_append, ih]; simp

/-- the sum over the distinct columns -/
theorem colSum_firsts (P : List (Int × R)) (j : Nat) :
    colSum ((firsts (P.map (·.1))).map fun c => (c, colSum P c.toNat)) j = colSum P j := by
  have key : ∀ (F : List Int), F.Nodup →
      colSum (F.map fun c => (c, colSum P c.toNat)) j = if (j : Int) ∈ F then colSum P j else 0 := by
    intro F
    induction F with
    | nil => intro _; simp [colSum]
    | cons c F ih =>
      intro hn
      rw [List.nodup_cons] at hn
      rw [List.map_cons, colSum_cons, ih hn.2]
      by_cases e : c = (j : Int)
      · subst e
        rw [if_pos rfl, if_neg hn.1, if_pos (by simp), add_zero, Int.toNat_natCast]
      · rw [if_neg e, zero_add]
        have : ((j : Int) ∈ c :: F) ↔ (j : Int) ∈ F := by
          rw [List.mem_cons]
          exact ⟨fun h => h.resolve_left (fun h => e h.symm), .inr⟩
        simp only [this]
  rw [key _ (firsts_nodup _)]
  split
  · rfl
  · rename_i hn
    symm
    apply colSum_zero
    intro e he hee
    exact hn (mem_firsts.mpr (hee ▸ List.mem_map_of_mem he))

/-- the products of column `j` add up to the element of the product -/
theorem prodRow_sum (cA cB : R →+* R) {A B : Csr R} (hA : A.WF) {i : Nat} (j : Nat) :
    colSum (prodRow cA cB A B i) j = ∑ k ∈ range A.n, cA (A.mat i k) * cB (B.mat k j) := by
  rw [prodRow, colSum_flatMap]
  have h2 : ∀ (x : Int × R), colSum ((B.row x.1.toNat).map fun f => (f.1, cA x.2 * cB f.2)) j
      = cA x.2 * cB (B.mat x.1.toNat j) := by
    intro x
    rw [colSum_map, mat_eq_colSum]
  simp only [h2]
  have h3 := filter_sum_mul ((A.row i).map fun e => (e.1, cA e.2)) A.n (fun k => cB (B.mat k j))
    (by
      intro e he
      rw [List.mem_map] at he
      obtain ⟨e', he', rfl⟩ := he
      have hr := Csr.row_range hA he'
      exact hr)
  rw [List.map_map] at h3
  refine Eq.trans h3 (Finset.sum_congr rfl fun k _ => ?_)
  congr 1
  have := colSum_map cA 1 (A.row i) k
  simp only [one_mul] at this
  rw [mat_eq_colSum]
  exact this

theorem mmCsr_mat (cA cB : R →+* R) {A B : Csr R} (hA : A.WF) {i : Nat} (hi : i < A.m) (j : Nat) :
    (mmCsr cA cB A B).mat i j = ∑ k ∈ range A.n, cA (A.mat i k) * cB (B.mat k j) := by
  rw [mat_eq_colSum, mmCsr, mkCsr_row hi]
  have h1 : mmRowL cA cB A B i = (firsts ((prodRow cA cB A B i).map (·.1))).map fun c =>
      (c, colSum (prodRow cA cB A B i) c.toNat) := by
    rw [prodRow_cols]
    simp only [← colAcc_eq_colSum]
    rfl
  rw [h1, colSum_firsts, prodRow_sum cA cB hA]

end

theorem mmCols_mem {A B : Csr R} (hA : A.WF) {i : Nat} {c : Int} :
    c ∈ mmCols A B i ↔ ∃ k : Nat, k < A.n ∧ (k : Int) ∈ A.cols i ∧ c ∈ B.cols k := by
  simp only [mmCols, List.mem_flatMap, Csr.cols]
  constructor
  · rintro ⟨e, he, hc⟩
    have hr := Csr.row_range hA he
    refine ⟨e.1.toNat, by omega, ?_, hc⟩
    rw [Int.toNat_of_nonneg hr.1]
    exact List.mem_map_of_mem he
  · rintro ⟨k, hk, h1, h2⟩
    rw [List.mem_map] at h1
    obtain ⟨e, he, hek⟩ := h1
    refine ⟨e, he, ?_⟩
    rw [hek, Int.toNat_natCast]
    exact h2

section
variable [Zero R] [Add R] [Mul R]

theorem mmCsr_cols (cA cB : R → R) {A B : Csr R} {i : Nat} (hi : i < A.m) :
    (mmCsr cA cB A B).cols i = firsts (mmCols A B i) := by
  rw [Csr.cols, mmCsr, mkCsr_row hi]
  simp [mmRowL, Function.comp_def]

theorem mmCsr_nodup (cA cB : R → R) {A B : Csr R} : (mmCsr cA cB A B).NoDup := by
  intro i hi
  have := mmCsr_cols cA cB (A := A) (B := B) (i := i) hi
  rw [Csr.cols] at this
  rw [this]
  exact firsts_nodup _

end

theorem mkCsr_nnz (m n : Nat) (base : Int) (rows : Nat → List (Int × R)) :
    (mkCsr m n base rows).nnz = offs rows m := by
  rw [offs_eq]
  simp [Csr.nnz, mkCsr]

theorem mmCsr_nnz [Zero R] [Add R] [Mul R] (cA cB : R → R) (A B : Csr R) : (mmCsr cA cB A B).nnz = mmOff A B A.m := by
  rw [← mmOff_offs cA cB, mmCsr, mkCsr_nnz]

/-- without duplicates the number of entries is the number of stored positions -/
theorem Csr.nnz_eq_ncard {C : Csr R} (h : C.WF) (hn : C.NoDup) :
    C.nnz = Set.ncard {p : Nat × Nat | p.1 < C.m ∧ p.2 < C.n ∧ (p.2 : Int) ∈ C.cols p.1} := by
  classical
  have hl := Csr.entries_length h
  let L := C.entries.map fun e => (e.1, e.2.1.toNat)
  have hset : {p : Nat × Nat | p.1 < C.m ∧ p.2 < C.n ∧ (p.2 : Int) ∈ C.cols p.1}
      = (L.toFinset : Set (Nat × Nat)) := by
    ext ⟨i, j⟩
    simp only [Set.mem_setOf_eq, List.coe_toFinset, L, List.mem_map, Prod.mk.injEq, Csr.cols]
    constructor
    · rintro ⟨h1, h2, e, he, hej⟩
      refine ⟨(i, e.1, e.2), Csr.mem_entries.mpr ⟨h1, he⟩, rfl, ?_⟩
      simp only [hej, Int.toNat_natCast]
    · rintro ⟨⟨r, c, v⟩, he, rfl, rfl⟩
      obtain ⟨h1, h2⟩ := Csr.mem_entries.mp he
      have hr := Csr.row_range h h2
      simp only at h1 hr ⊢
      refine ⟨h1, by omega, (c, v), h2, by simp only; omega⟩
  have hnd : L.Nodup := by
    have key : ∀ k, k ≤ C.m → ((((List.range k).flatMap fun i => (C.row i).map fun e =>
        (i, e.1, e.2)).map fun e => (e.1, e.2.1.toNat)) : List (Nat × Nat)).Nodup ∧
        ∀ x ∈ (((List.range k).flatMap fun i => (C.row i).map fun e =>
        (i, e.1, e.2)).map fun e => (e.1, e.2.1.toNat) : List (Nat × Nat)), x.1 < k := by
      intro k
      induction k with
      | zero => intro _; simp
      | succ k ih =>
        intro hk
        obtain ⟨h1, h2⟩ := ih (by omega)
        rw [List.range_succ, List.flatMap_append, List.map_append]
        simp only [List.flatMap_cons, List.flatMap_nil, List.append_nil, List.map_map]
        refine ⟨?_, ?_⟩
        · rw [List.nodup_append]
          refine ⟨h1, ?_, ?_⟩
          · have hk' := hn k (by omega)
            rw [show ((fun (e : Nat × Int × R) => (e.1, e.2.1.toNat)) ∘ fun (e : Int × R) =>
              (k, e.1, e.2)) = (fun c : Int => (k, c.toNat)) ∘ (fun e : Int × R => e.1) from rfl,
              ← List.map_map]
            refine List.Nodup.map_on ?_ hk'
            intro x hx y hy hxy
            rw [List.mem_map] at hx hy
            obtain ⟨a, ha, rfl⟩ := hx
            obtain ⟨b, hb, rfl⟩ := hy
            have r1 := Csr.row_range h ha
            have r2 := Csr.row_range h hb
            simp only [Prod.mk.injEq, true_and] at hxy
            omega
          · intro a ha b hb hab
            have := h2 a ha
            rw [List.mem_map] at hb
            obtain ⟨x, -, hx⟩ := hb
            rw [hab, ← hx] at this
            simp at this
        · intro x hx
          rw [List.mem_append] at hx
          rcases hx with hx | hx
          · have := h2 x hx; omega
          · rw [List.mem_map] at hx
            obtain ⟨y, -, hy⟩ := hx
            rw [← hy]
            simp
    exact (key C.m (le_refl _)).1
  rw [hset, Set.ncard_coe_finset, List.toFinset_card_of_nodup hnd, List.length_map, hl]

end Verif
