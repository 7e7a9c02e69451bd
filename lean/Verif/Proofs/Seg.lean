/-
Contiguous pieces of the index and value arrays.
-/
import Verif.Proofs.Adds

namespace Verif
open Model Finset

variable {R : Type}

/-- The array cells `lo ≤ j < hi` (indices in the matrix base) hold the entries `S`. -/
def Seg (ind : List Int) (val : List R) (base lo hi : Int) (S : List (Int × R)) : Prop :=
  hi = lo + S.length ∧ ∀ (t : Nat) (ht : t < S.length),
    rd ind (lo - base + t) = some (S[t].1 + base) ∧ rd val (lo - base + t) = some S[t].2

theorem Csr.seg_row {A : Csr R} (h : A.WF) {i : Nat} (hi : i < A.m) :
    Seg A.ind A.val A.base (A.p i) (A.p (i + 1)) (A.row i) := by
  have hrl := Csr.row_length h hi
  refine ⟨by omega, ?_⟩
  intro t ht
  obtain ⟨c, v, h1, h2, h3⟩ := Csr.row_getElem? h hi (t := t) (by omega)
  rw [List.getElem?_eq_getElem ht, Option.some.injEq] at h3
  rw [h1, h2, h3]
  simp

namespace Seg
variable {ind : List Int} {val : List R} {base lo hi : Int} {S S1 S2 : List (Int × R)}

theorem append_left (h : Seg ind val base lo hi (S1 ++ S2)) :
    Seg ind val base lo (lo + S1.length) S1 := by
  refine ⟨rfl, ?_⟩
  intro t ht
  have := h.2 t (by simp; omega)
  rwa [List.getElem_append_left ht] at this

theorem append_right (h : Seg ind val base lo hi (S1 ++ S2)) :
    Seg ind val base (lo + S1.length) hi S2 := by
  have hl := h.1
  simp only [List.length_append] at hl
  refine ⟨by push_cast at hl; omega, ?_⟩
  intro t ht
  have := h.2 (S1.length + t) (by simp; omega)
  rw [List.getElem_append_right (by omega)] at this
  simp only [Nat.add_sub_cancel_left] at this
  rw [show lo + (S1.length : Int) - base + t = lo - base + ((S1.length + t : Nat) : Int) by
    push_cast; ring]
  exact this

theorem forC {σ : Type} (h : Seg ind val base lo hi S) (g : Int → R → σ → Option σ) (s : σ) :
    Verif.forC lo hi (fun j s => (rd ind (j - base)).bind fun c =>
      (rd val (j - base)).bind fun v => g c v s) s
      = S.foldlM (fun s e => g (e.1 + base) e.2 s) s := by
  induction S generalizing lo s with
  | nil => rw [forC_ge (by have := h.1; simp at this; omega)]; rfl
  | cons e S ih =>
    have hl := h.1
    simp only [List.length_cons] at hl
    obtain ⟨h1, h2⟩ := h.2 0 (by simp)
    simp only [Nat.cast_zero, add_zero, List.getElem_cons_zero] at h1 h2
    rw [forC_lt (by omega), h1, h2, List.foldlM_cons]
    simp only [Option.bind_some]
    have hr : Seg ind val base (lo + 1) hi S := by
      have := append_right (S1 := [e]) (S2 := S) h
      simpa using this
    congr 1
    funext s'
    exact ih hr s'

theorem term [Mul R] [Zero R] (h : Seg ind val base lo hi S) {x : List R}
    (hr : ∀ e ∈ S, 0 ≤ e.1 ∧ e.1 < x.length) {t : Nat} (ht : t < S.length) :
    Model.term ind val x base (lo - base + t) = some (S[t].2 * x.getD S[t].1.toNat 0) := by
  obtain ⟨h1, h2⟩ := h.2 t ht
  have := hr _ (List.getElem_mem ht)
  refine term_some h1 h2 ?_
  rw [rd_eq (by omega), List.getD_eq_getElem?_getD,
    List.getElem?_eq_getElem (show S[t].1.toNat < x.length by omega)]
  simp only [add_sub_cancel_right, Option.getD_some]
  rw [List.getElem?_eq_getElem (show S[t].1.toNat < x.length by omega)]

end Seg

/-- dot product of the entries `S` with `x` -/
def segDot [Zero R] [Add R] [Mul R] (x : List R) (S : List (Int × R)) : R :=
  (S.map fun e => e.2 * x.getD e.1.toNat 0).sum

theorem segDot_append [Semiring R] (x : List R) (S1 S2 : List (Int × R)) :
    segDot x (S1 ++ S2) = segDot x S1 + segDot x S2 := by
  simp [segDot]

theorem rowDot_eq_segDot [Zero R] [Add R] [Mul R] (A : Csr R) (x : List R) (i : Nat) :
    rowDot A x i = segDot x (A.row i) := rfl

section
variable [Semiring R] [DecidableEq R] {ind : List Int} {val : List R} {base lo hi : Int}
  {S : List (Int × R)}

/-- the terms of a segment by position -/
def segTerm (x : List R) (S : List (Int × R)) (t : Nat) : R :=
  if ht : t < S.length then S[t].2 * x.getD S[t].1.toNat 0 else 0

theorem segDot_range (x : List R) (S : List (Int × R)) :
    segDot x S = ∑ t ∈ range S.length, segTerm x S t := by
  unfold segDot
  rw [list_sum_range]
  intro t ht
  rw [segTerm, dif_pos ht]

theorem dotSeq_seg (h : Seg ind val base lo hi S) {x : List R}
    (hr : ∀ e ∈ S, 0 ≤ e.1 ∧ e.1 < x.length) (init : R) :
    dotSeq ind val x base lo hi init = some (init + segDot x S) := by
  rw [dotSeq_spec (f := segTerm x S) h.1 (fun t ht => by rw [h.term hr ht, segTerm, dif_pos ht]),
    segDot_range]

theorem gnDot_seg {k : GnKernel R} (hk : k.Ok) (h : Seg ind val base lo hi S) {x : List R}
    (hr : ∀ e ∈ S, 0 ≤ e.1 ∧ e.1 < x.length) :
    k.dot ind val x base lo hi = some (segDot x S) := by
  rw [gnDot_spec hk (f := segTerm x S) h.1 (fun t ht => by rw [h.term hr ht, segTerm, dif_pos ht]),
    segDot_range]

/-- blocked dot product of a segment: what `fin` sees is the sum of the full groups -/
theorem dotK_seg {V : Vec R} {K : Nat} (hV : V.Ok K) (fin : V.σ → R)
    (h : Seg ind val base lo hi S) {x : List R} (hr : ∀ e ∈ S, 0 ≤ e.1 ∧ e.1 < x.length) :
    ∃ v, V.hsum v = segDot x (S.take (K * (S.length / K))) ∧
      dotK V K fin ind val x base lo hi
        = some (fin v + segDot x (S.drop (K * (S.length / K)))) := by
  obtain ⟨v, h1, h2⟩ := dotK_spec hV fin (f := segTerm x S) h.1
    (fun t ht => by rw [h.term hr ht, segTerm, dif_pos ht])
  have hdiv := Nat.div_add_mod S.length K
  refine ⟨v, ?_, ?_⟩
  · rw [h1, segDot_range]
    have hl : (S.take (K * (S.length / K))).length = K * (S.length / K) := by
      rw [List.length_take]; omega
    rw [hl]
    apply sum_congr rfl
    intro t ht
    simp only [mem_range] at ht
    unfold segTerm
    rw [dif_pos (by omega), dif_pos (by omega)]
    simp
  · rw [h2, segDot_range]
    congr 2
    have hl : (S.drop (K * (S.length / K))).length = S.length % K := by
      rw [List.length_drop]; omega
    rw [hl]
    apply sum_congr rfl
    intro t ht
    simp only [mem_range] at ht
    unfold segTerm
    rw [dif_pos (by omega), dif_pos (by omega)]
    simp

/-- scattering a segment: entry `e` contributes `w e.2` to cell `e.1` -/
theorem adds_seg (h : Seg ind val base lo hi S) {len : Nat}
    (hr : ∀ e ∈ S, 0 ≤ e.1 ∧ e.1 < len) (w : R → R) :
    Adds len (fun y => Verif.forC lo hi (fun j y => (rd ind (j - base)).bind fun c =>
      (rd val (j - base)).bind fun v => addAt y (c - base) (w v)) y)
      (fun k => (S.map fun e => if (k : Int) = e.1 then w e.2 else 0).sum) := by
  refine (adds_foldlM (L := S) (body := fun y e => addAt y e.1 (w e.2))
    (D := fun e k => if (k : Int) = e.1 then w e.2 else 0) (fun e he => ?_)).congr ?_
    (fun _ _ => rfl)
  · exact adds_addAt (hr e he).1 (hr e he).2 _
  · intro y
    rw [h.forC (fun c v y => addAt y (c - base) (w v)) y]
    congr 1
    funext y e
    rw [add_sub_cancel_right]

end

/-- the entries of a list in column `k`, through an additive map `w` -/
theorem sum_ite_filter [AddCommMonoid R] (S : List (Int × R)) (w : R →+ R) (k : Nat) :
    (S.map fun e => if (k : Int) = e.1 then w e.2 else 0).sum
      = w (((S.filter fun e => decide (e.1 = (k : Int))).map (·.2)).sum) := by
  induction S with
  | nil => simp
  | cons a S ih =>
    rw [List.map_cons, List.sum_cons, ih]
    by_cases ha : (k : Int) = a.1
    · rw [if_pos ha, List.filter_cons_of_pos (by simp [ha])]
      simp
    · rw [if_neg ha, List.filter_cons_of_neg (by simp; omega), zero_add]

end Verif
