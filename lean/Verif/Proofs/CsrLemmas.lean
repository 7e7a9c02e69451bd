/-
Basic facts about the specification vocabulary `Csr`.
-/
import Verif.Core.Rep
import Verif.Core.Lists
import Verif.Spec.Sparse

namespace Verif
namespace Csr

variable {R : Type} {A : Csr R}

theorem WF.rep_ptr (h : A.WF) : Rep A.ptr (A.m + 1) A.p := by
  have := Rep.of_list A.ptr 0
  rw [h.ptr_len] at this
  exact this

theorem WF.rd_ptr (h : A.WF) {i : Nat} (hi : i ≤ A.m) : rd A.ptr (i : Int) = some (A.p i) :=
  h.rep_ptr.rd_nat (by omega)

theorem WF.mono (h : A.WF) : ∀ {i j : Nat}, i ≤ j → j ≤ A.m → A.p i ≤ A.p j := by
  intro i j hij
  induction hij with
  | refl => intro _; exact le_refl _
  | step hle ih =>
    intro hj
    exact le_trans (ih (by omega)) (h.ptr_mono _ (by omega))

theorem WF.lo (h : A.WF) {i : Nat} (hi : i ≤ A.m) : A.base ≤ A.p i := by
  have := h.mono (Nat.zero_le i) hi
  rw [h.ptr_first] at this; exact this

theorem WF.hi (h : A.WF) {i : Nat} (hi : i ≤ A.m) : A.p i ≤ A.base + A.ind.length := by
  have := h.mono hi (le_refl _)
  rw [h.ptr_last] at this; exact this

theorem row_length (h : A.WF) {i : Nat} (hi : i < A.m) :
    ((A.row i).length : Int) = A.p (i + 1) - A.p i := by
  have h1 := h.lo (i := i) (by omega)
  have h2 := h.hi (i := i + 1) (by omega)
  have h3 := h.ptr_mono i hi
  have h4 := h.val_len
  simp only [row, List.length_map, List.length_take, List.length_drop, List.length_zip]
  omega

theorem row_getElem? (h : A.WF) {i : Nat} (hi : i < A.m) {t : Nat}
    (ht : (t : Int) < A.p (i + 1) - A.p i) :
    ∃ c v, rd A.ind (A.p i - A.base + t) = some c ∧ rd A.val (A.p i - A.base + t) = some v ∧
      (A.row i)[t]? = some (c - A.base, v) := by
  have h1 := h.lo (i := i) (by omega)
  have h2 := h.hi (i := i + 1) (by omega)
  have h4 := h.val_len
  have hb : (A.p i - A.base).toNat + t < A.ind.length := by omega
  have hb' : (A.p i - A.base).toNat + t < A.val.length := by omega
  have e : (A.p i - A.base + t).toNat = (A.p i - A.base).toNat + t := by omega
  refine ⟨A.ind[(A.p i - A.base).toNat + t], A.val[(A.p i - A.base).toNat + t], ?_, ?_, ?_⟩
  · rw [rd_eq (by omega), e]; simp [hb]
  · rw [rd_eq (by omega), e]; simp [hb']
  · have h5 : t < (A.p (i + 1) - A.p i).toNat := by omega
    simp [row, List.getElem?_take, h5, List.getElem?_drop,
      List.getElem?_eq_getElem (show (A.p i - A.base).toNat + t < (A.ind.zip A.val).length by
        simp; omega)]

theorem row_range (h : A.WF) {i : Nat} {e : Int × R} (he : e ∈ A.row i) :
    0 ≤ e.1 ∧ e.1 < A.n := by
  simp only [row, List.mem_map] at he
  obtain ⟨⟨c, v⟩, hcv, rfl⟩ := he
  have := List.mem_of_mem_take hcv
  have := List.mem_of_mem_drop this
  have := List.of_mem_zip this
  have := h.ind_range c this.1
  dsimp only
  omega

/-- The inner loop of every row-wise kernel is a fold over the row. -/
theorem forC_row {σ : Type} (h : A.WF) {i : Nat} (hi : i < A.m)
    (g : Int → R → σ → Option σ) (s : σ) :
    forC (A.p i - A.base) (A.p (i + 1) - A.base)
      (fun j s => do let c ← rd A.ind j; let v ← rd A.val j; g (c - A.base) v s) s
    = (A.row i).foldlM (fun s e => g e.1 e.2 s) s := by
  have h1 := h.lo (i := i) (by omega)
  have h2 := h.hi (i := i + 1) (by omega)
  have h3 := h.val_len
  rw [forC_zip (ind := A.ind) (val := A.val) (fun c v s => g (c - A.base) v s) (by omega)
    (by omega) (by omega)]
  rw [row, foldlM_map']
  rw [show A.p (i + 1) - A.base - (A.p i - A.base) = A.p (i + 1) - A.p i by omega]

/-- Row `i` is determined by the array cells between its pointers. -/
theorem row_eq_of_get (hlen : A.val.length = A.ind.length) {i : Nat} {L : List (Int × R)}
    (h0 : A.base ≤ A.p i) (hL : A.p (i + 1) = A.p i + L.length)
    (hget : ∀ t (ht : t < L.length),
      A.ind[(A.p i - A.base).toNat + t]? = some (L[t].1 + A.base) ∧
      A.val[(A.p i - A.base).toNat + t]? = some L[t].2) :
    A.row i = L := by
  apply List.ext_getElem?
  intro t
  have e1 : (A.p (i + 1) - A.p i).toNat = L.length := by omega
  by_cases ht : t < L.length
  · obtain ⟨ha, hb⟩ := hget t ht
    have hz : (A.ind.zip A.val)[(A.p i - A.base).toNat + t]? =
        some (L[t].1 + A.base, L[t].2) := by
      rw [List.getElem?_zip_eq_some]; exact ⟨ha, hb⟩
    simp only [row, e1, List.getElem?_map, List.getElem?_take, ht, if_true, List.getElem?_drop,
      hz, Option.map_some, List.getElem?_eq_getElem ht]
    congr 1
    ext <;> simp
  · rw [List.getElem?_eq_none (l := L) (by omega), List.getElem?_eq_none]
    simp only [row, List.length_map, List.length_take, e1]
    omega

theorem mem_entries {e : Nat × Int × R} :
    e ∈ A.entries ↔ e.1 < A.m ∧ (e.2.1, e.2.2) ∈ A.row e.1 := by
  obtain ⟨i, c, v⟩ := e
  simp only [entries, List.mem_flatMap, List.mem_range, List.mem_map, Prod.mk.injEq]
  constructor
  · rintro ⟨k, hk, ⟨c', v'⟩, hm, rfl, rfl, rfl⟩; exact ⟨hk, hm⟩
  · rintro ⟨hk, hm⟩; exact ⟨i, hk, (c, v), hm, rfl, rfl, rfl⟩

/-- Concatenating the rows gives the arrays back. -/
theorem rows_flatten (h : A.WF) :
    (List.range A.m).flatMap (fun i => A.row i)
      = (A.ind.zip A.val).map fun e => (e.1 - A.base, e.2) := by
  suffices H : ∀ k, k ≤ A.m → (List.range k).flatMap (fun i => A.row i)
      = ((A.ind.zip A.val).take (A.p k - A.base).toNat).map fun e => (e.1 - A.base, e.2) by
    rw [H A.m (le_refl _), h.ptr_last, List.take_of_length_le]
    simp
  intro k
  induction k with
  | zero => intro _; simp [h.ptr_first]
  | succ k ih =>
    intro hk
    have h1 := h.lo (i := k) (by omega)
    have h3 := h.ptr_mono k (by omega)
    rw [List.range_succ, List.flatMap_append, ih (by omega)]
    simp only [List.flatMap_cons, List.flatMap_nil, List.append_nil, row]
    rw [← List.map_append, ← List.take_add]
    congr 2
    omega

end Csr
end Verif
