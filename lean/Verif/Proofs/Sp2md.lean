/-
Proofs about the sparse product with dense result (Model/Sp2md).
-/
import Verif.Model.Sp2md
import Verif.Proofs.Csrmm
import Verif.Proofs.Adds
import Verif.Proofs.CsrAdd
import Verif.Proofs.Loop
import Verif.Proofs.CsrmvSym
import Verif.Proofs.Expand3

namespace Verif
open Model Finset

variable {R : Type}

/-! ### matrices with mapped values -/

/-- the same pattern, every value mapped -/
def Csr.mapVal (f : R → R) (A : Csr R) : Csr R := { A with val := A.val.map f }

theorem Csr.WF.mapVal {A : Csr R} (h : A.WF) (f : R → R) : (A.mapVal f).WF :=
  ⟨h.base01, h.ptr_len, h.ptr_first, h.ptr_mono, h.ptr_last, by
    unfold Csr.mapVal; rw [List.length_map]; exact h.val_len, h.ind_range⟩

theorem Csr.mapVal_row {A : Csr R} (h : A.WF) (f : R → R) {i : Nat} (hi : i < A.m) :
    (A.mapVal f).row i = (A.row i).map fun e => (e.1, f e.2) := by
  apply List.ext_getElem?
  intro s
  have h2 := h.mapVal f
  have l1 := Csr.row_length h hi
  have l2 := Csr.row_length h2 (i := i) hi
  have ep : ∀ k, (A.mapVal f).p k = A.p k := fun _ => rfl
  rw [ep, ep] at l2
  by_cases hs : (s : Int) < A.p (i + 1) - A.p i
  · obtain ⟨c, v, a1, a2, a3⟩ := Csr.row_getElem? h hi hs
    obtain ⟨c', v', b1, b2, b3⟩ := Csr.row_getElem? h2 (i := i) hi (t := s) hs
    rw [ep] at b1 b2
    have hb1 : rd A.ind (A.p i - A.base + s) = some c' := b1
    rw [a1] at hb1
    have hc := Option.some.inj hb1
    have hlo := h.lo (i := i) (by omega)
    have hb2 : rd (A.val.map f) (A.p i - A.base + s) = some v' := b2
    rw [rd_eq (by omega)] at a2
    rw [rd_eq (by omega), List.getElem?_map, a2] at hb2
    have hv := Option.some.inj hb2
    rw [b3, List.getElem?_map, a3, ← hc, ← hv]
    rfl
  · rw [List.getElem?_eq_none (by omega), List.getElem?_eq_none (by rw [List.length_map]; omega)]

theorem Csr.mapVal_mat [CommSemiring R] [StarRing R] {A : Csr R} (h : A.WF) (f : R →+ R) {i : Nat} (hi : i < A.m) (j : Nat) :
    (A.mapVal f).mat i j = f (A.mat i j) := by
  rw [mat_eq_colSum, mat_eq_colSum, Csr.mapVal_row h f hi, colSum_addHom]

/-! ### scaling -/

theorem mdOff_nat (col : Bool) (ldc i j : Nat) :
    mdOff col ldc i j = ((denseOff col ldc i j : Nat) : Int) := by
  unfold mdOff denseOff
  cases col <;> simp <;> ring

/-- the major and minor index of an element -/
def maj (col : Bool) (i j : Nat) : Nat := if col then j else i
def mnr (col : Bool) (i j : Nat) : Nat := if col then i else j

theorem denseOff_mm (col : Bool) (ld i j : Nat) : denseOff col ld i j = maj col i j * ld + mnr col i j := by
  cases col <;> simp [denseOff, maj, mnr] <;> ring

theorem denseOff_ij_inj {col : Bool} {ld i j i' j' : Nat} (h : mnr col i j < ld) (h' : mnr col i' j' < ld) :
    denseOff col ld i j = denseOff col ld i' j' ↔ i = i' ∧ j = j' := by
  constructor
  · intro e
    rw [denseOff_mm, denseOff_mm] at e
    have a := major_minor (a := maj col i j) h
    have b := major_minor (a := maj col i' j') h'
    rw [e] at a
    have e1 := a.1.symm.trans b.1
    have e2 := a.2.symm.trans b.2
    cases col <;> simp [maj, mnr] at e1 e2 <;> omega
  · rintro ⟨rfl, rfl⟩; rfl

theorem mdLoops_ok {col : Bool} {m n ldc len : Nat} (hld : mnr col m n ≤ ldc)
    (hlen : ∀ i j, i < m → j < n → denseOff col ldc i j < len) (g : R → R)
    {cell : Int → List R → Option (List R)}
    (hcell : ∀ (p : Nat) C v, p < len → rd C (p : Int) = some v → cell p C = wr C p (g v))
    {C : List R} {f : Nat → R} (hC : Rep C len f) :
    ∃ C', mdLoops col m n ldc cell C = some C' ∧
      Rep C' len (doneF ldc (fun a b => a < maj col m n ∧ b < mnr col m n) (fun _ _ v => g v) f) := by
  have key : ∀ (M N : Nat), N ≤ ldc → (∀ a b, a < M → b < N → a * ldc + b < len) →
      ∃ C', forC 0 (M : Int) (fun a C => forC 0 (N : Int) (fun b C => cell (a * ldc + b) C) C) C = some C' ∧
        Rep C' len (doneF ldc (fun a b => a < M ∧ b < N) (fun _ _ v => g v) f) := by
    intro M N hN hl
    refine forC_inv_nat (n := M) (P := fun t C => Rep C len (doneF ldc (fun a b => a < t ∧ b < N)
      (fun _ _ v => g v) f)) ?_ ?_
    · exact hC.congr (fun k _ => by unfold doneF; rw [if_neg (fun h => Nat.not_lt_zero _ h.1)])
    · intro t C1 ht hC1
      obtain ⟨C2, e2, r2⟩ := forC_inv_nat (n := N) (s := C1) (f := fun b C => cell ((t : Int) * ldc + b) C)
        (P := fun u C => Rep C len (doneF ldc (fun a b => (a < t ∧ b < N) ∨ (a = t ∧ b < u))
          (fun _ _ v => g v) f))
        (hC1.congr (fun k _ => doneF_congr (by intro a b; omega) k)) (by
          intro u C3 hu h3
          have hp : ((t : Int) * ldc + u) = ((t * ldc + u : Nat) : Int) := by push_cast; rfl
          obtain ⟨hr, hw⟩ := doneF_step (b := u) (by omega) (hl t u ht hu) h3 (by omega) hp
          obtain ⟨C4, e4, r4⟩ := hw _ rfl
          refine ⟨C4, ?_, r4.congr (fun k _ => doneF_congr (by intro a b; omega) k)⟩
          rw [hp] at hr e4 ⊢
          rw [hcell _ _ _ (hl t u ht hu) hr]
          exact e4)
      exact ⟨C2, e2, r2.congr (fun k _ => doneF_congr (by intro a b; omega) k)⟩
  unfold mdLoops
  cases col with
  | true =>
    obtain ⟨C', e, r⟩ := key n m hld (fun a b ha hb => by
      have := hlen b a hb ha
      rwa [denseOff_mm] at this)
    refine ⟨C', ?_, r⟩
    rw [← e, if_pos rfl]
    congr 1
    funext j C
    congr 1
    funext i C
    simp [mdOff, add_comm]
  | false =>
    obtain ⟨C', e, r⟩ := key m n hld (fun a b ha hb => by
      have := hlen a b ha hb
      rwa [denseOff_mm] at this)
    refine ⟨C', ?_, r⟩
    rw [← e, if_neg (by simp)]
    rfl

theorem mdScale_ok [Semiring R] [DecidableEq R] {col : Bool} {m n ldc len : Nat} (beta : R)
    (hld : mnr col m n ≤ ldc) (hlen : ∀ i j, i < m → j < n → denseOff col ldc i j < len)
    {C : List R} {f : Nat → R} (hC : Rep C len f) :
    ∃ C', mdScale col beta m n ldc C = some C' ∧
      Rep C' len (doneF ldc (fun a b => a < maj col m n ∧ b < mnr col m n) (fun _ _ v => beta * v) f) := by
  unfold mdScale
  by_cases h0 : beta = 0
  · rw [if_pos h0]
    obtain ⟨C', e, r⟩ := mdLoops_ok hld hlen (fun v => beta * v) (cell := fun p C => wr C p 0)
      (fun p C v hp hv => by rw [h0, zero_mul]) hC
    exact ⟨C', e, r⟩
  · rw [if_neg h0]
    by_cases h1 : beta = 1
    · rw [if_neg (by simpa using h1)]
      refine ⟨C, rfl, hC.congr (fun k _ => ?_)⟩
      unfold doneF
      split
      · simp only [h1, one_mul]
      · rfl
    · rw [if_pos h1]
      obtain ⟨C', e, r⟩ := mdLoops_ok hld hlen (fun v => beta * v) (cell := fun p C => (do
          let v ← rd C p
          wr C p (beta * v)))
        (fun p C v hp hv => by rw [hv]; rfl) hC
      exact ⟨C', e, r⟩

/-! ### the kernels -/

section kernels
variable [CommSemiring R]

/-- the contribution to element `p` of `v` times row `k` of B in row `r` of C -/
def axTerm (col : Bool) (ldc : Nat) (B : Csr R) (r k : Nat) (v : R) (p : Nat) : R :=
  ((B.row k).map fun e => if (p : Int) = denseOff col ldc r e.1.toNat then v * e.2 else 0).sum

theorem mdAxpy_ok {col : Bool} {ldc len : Nat} {B : Csr R} (hB : B.WF) {r k : Nat} (hk : k < B.m)
    (hlen : ∀ j, j < B.n → denseOff col ldc r j < len) (v : R) :
    Adds len (mdAxpy col ldc B.arrs r k v) (axTerm col ldc B r k v) := by
  have h := adds_foldlM (len := len) (L := B.row k)
    (body := fun C e => addAt C (mdOff col ldc r e.1) (v * e.2))
    (D := fun e p => if (p : Int) = denseOff col ldc r e.1.toNat then v * e.2 else 0) (by
      intro e he
      obtain ⟨h0, h1⟩ := Csr.row_range hB he
      have hoff : mdOff col ldc r e.1 = ((denseOff col ldc r e.1.toNat : Nat) : Int) := by
        rw [← mdOff_nat, Int.toNat_of_nonneg h0]
      rw [hoff]
      exact adds_addAt (by omega) (by have := hlen e.1.toNat (by omega); omega) _)
  refine h.congr (fun C => ?_) (fun p _ => rfl)
  unfold mdAxpy
  have p1 := hB.rd_ptr (i := k) (by omega)
  have p2 := hB.rd_ptr (i := k + 1) (by omega)
  simp only [Csr.arrs]
  rw [p1, show ((k : Int) + 1) = ((k + 1 : Nat) : Int) by push_cast; rfl, p2]
  simp only [Option.bind_eq_bind, Option.bind_some]
  rw [← Csr.forC_row hB hk (fun c b C => addAt C (mdOff col ldc r c) (v * b))]
  have e1 := forC_shift B.base (B.p k - B.base) (B.p (k + 1) - B.base) (fun q C => (rd B.ind (q - B.base)).bind
    fun c => (rd B.val (q - B.base)).bind fun b => addAt C (mdOff col ldc r (c - B.base)) (v * b)) C
  rw [show B.base + (B.p k - B.base) = B.p k by ring,
    show B.base + (B.p (k + 1) - B.base) = B.p (k + 1) by ring] at e1
  rw [← e1]
  congr 1
  funext q C
  rw [show B.base + q - B.base = q by ring]
  rfl

/-- the contribution of all of A -/
def mdTotal (col tr : Bool) (cj : R → R) (A B : Csr R) (alpha : R) (ldc p : Nat) : R :=
  ∑ i ∈ range A.m, ((A.row i).map fun e =>
    axTerm col ldc B (if tr then e.1.toNat else i) (if tr then i else e.1.toNat) (alpha * cj e.2) p).sum

theorem mdKernel_ok {col tr : Bool} {cj : R → R} {A B : Csr R} (hA : A.WF) (hB : B.WF) {alpha : R}
    {ldc len : Nat} (hk : B.m = if tr then A.m else A.n)
    (hlen : ∀ i j, (i < if tr then A.n else A.m) → j < B.n → denseOff col ldc i j < len) :
    Adds len (mdKernel col tr cj A.m A.arrs B.arrs alpha ldc) (mdTotal col tr cj A B alpha ldc) := by
  unfold mdKernel mdTotal
  refine adds_forC (fun i hi => ?_)
  have h := adds_foldlM (len := len) (L := A.row i)
    (body := fun C e => mdAxpy col ldc B.arrs (if tr then e.1 else i) (if tr then (i : Int) else e.1)
      (alpha * cj e.2) C)
    (D := fun e p => axTerm col ldc B (if tr then e.1.toNat else i) (if tr then i else e.1.toNat)
      (alpha * cj e.2) p) (by
      intro e he
      obtain ⟨h0, h1⟩ := Csr.row_range hA he
      obtain ⟨c, hc⟩ : ∃ c : Nat, e.1 = (c : Int) := ⟨e.1.toNat, by omega⟩
      rw [hc] at h1 ⊢
      cases tr with
      | true =>
        simp only [if_true, Int.toNat_natCast] at hk hlen ⊢
        exact mdAxpy_ok hB (by omega) (fun j hj => hlen c j (by omega) hj) _
      | false =>
        simp only [Bool.false_eq_true, if_false, Int.toNat_natCast] at hk hlen ⊢
        exact mdAxpy_ok hB (by omega) (fun j hj => hlen i j (by omega) hj) _)
  refine h.congr (fun C => ?_) (fun p _ => rfl)
  have p1 := hA.rd_ptr (i := i) (by omega)
  have p2 := hA.rd_ptr (i := i + 1) (by omega)
  simp only [Csr.arrs]
  rw [p1, show ((i : Int) + 1) = ((i + 1 : Nat) : Int) by push_cast; rfl, p2]
  simp only [Option.bind_eq_bind, Option.bind_some]
  have hrow := Csr.forC_row hA hi (fun c v C => mdAxpy col ldc B.arrs (if tr then c else i)
    (if tr then (i : Int) else c) (alpha * cj v) C) C
  simp only [Csr.arrs] at hrow
  rw [← hrow]
  have e1 := forC_shift A.base (A.p i - A.base) (A.p (i + 1) - A.base)
    (mdEntry col tr cj A.arrs B.arrs alpha ldc i) C
  rw [show A.base + (A.p i - A.base) = A.p i by ring,
    show A.base + (A.p (i + 1) - A.base) = A.p (i + 1) by ring] at e1
  simp only [Csr.arrs] at e1
  rw [← e1]
  congr 1
  funext q C
  unfold mdEntry
  simp only [Csr.arrs]
  rw [show A.base + q - A.base = q by ring]
  cases tr <;> rfl

theorem axTerm_eq {col : Bool} {ldc : Nat} {B : Csr R} (hB : B.WF) {r k i j : Nat} (v : R)
    (h1 : mnr col i j < ldc) (h2 : ∀ c, c < B.n → mnr col r c < ldc) :
    axTerm col ldc B r k v (denseOff col ldc i j) = if r = i then v * B.mat k j else 0 := by
  have : axTerm col ldc B r k v (denseOff col ldc i j)
      = ((B.row k).map fun e => if (j : Int) = e.1 then (if r = i then v * e.2 else 0) else 0).sum := by
    unfold axTerm
    congr 1
    refine List.map_congr_left (fun e he => ?_)
    obtain ⟨h0, hn⟩ := Csr.row_range hB he
    have hi := denseOff_ij_inj (col := col) (i' := r) (j' := e.1.toNat) h1 (h2 e.1.toNat (by omega))
    by_cases hc : i = r ∧ j = e.1.toNat
    · rw [if_pos (by exact_mod_cast hi.mpr hc), if_pos (by omega), if_pos hc.1.symm]
    · rw [if_neg (by intro h; exact hc (hi.mp (by exact_mod_cast h)))]
      by_cases hr : r = i
      · rw [if_neg (by omega)]
      · simp [hr]
  rw [this]
  by_cases hr : r = i
  · simp only [hr, if_true]
    have := sum_ite_filter (B.row k) (AddMonoidHom.mulLeft v) j
    simp only [AddMonoidHom.coe_mulLeft] at this
    rw [mat_eq_colSum]
    exact this
  · simp [hr]

theorem mdTotal_eq {col tr : Bool} (cj : R →+* R) {A B : Csr R} (hA : A.WF) (hB : B.WF) {alpha : R}
    {ldc : Nat} (hld : ∀ r c, (r < if tr then A.n else A.m) → c < B.n → mnr col r c < ldc)
    {i j : Nat} (hi : i < if tr then A.n else A.m) (hj : j < B.n) :
    mdTotal col tr cj A B alpha ldc (denseOff col ldc i j)
      = alpha * ∑ k ∈ range (if tr then A.m else A.n), cj (if tr then A.mat k i else A.mat i k) * B.mat k j := by
  unfold mdTotal
  rw [mul_sum]
  cases tr with
  | true =>
    simp only [if_true] at hi hld ⊢
    refine sum_congr rfl (fun k hk => ?_)
    rw [List.map_congr_left (g := fun e : Int × R => if (i : Int) = e.1 then alpha * cj e.2 * B.mat k j else 0)]
    · have := sum_ite_filter (A.row k) (((AddMonoidHom.mulRight (B.mat k j)).comp
        (AddMonoidHom.mulLeft alpha)).comp cj.toAddMonoidHom) i
      simp only [AddMonoidHom.coe_comp, Function.comp, AddMonoidHom.coe_mulLeft, AddMonoidHom.coe_mulRight] at this
      rw [mat_eq_colSum]
      refine this.trans ?_
      exact mul_assoc _ _ _
    · intro e he
      obtain ⟨h0, hn⟩ := Csr.row_range hA he
      rw [axTerm_eq hB _ (hld i j hi hj) (fun c hc => hld _ c (by omega) hc)]
      by_cases h : (i : Int) = e.1
      · rw [if_pos (by omega), if_pos h]
      · rw [if_neg (by omega), if_neg h]
  | false =>
    simp only [Bool.false_eq_true, if_false] at hi hld ⊢
    rw [sum_eq_single i]
    · have h := filter_sum_map cj.toAddMonoidHom (A.row i) A.n (fun k => alpha * B.mat k j)
        (fun e he => Csr.row_range hA he)
      rw [List.map_congr_left (g := fun e : Int × R => cj e.2 * (alpha * B.mat e.1.toNat j))]
      · refine h.trans (sum_congr rfl fun k _ => ?_)
        rw [mat_eq_colSum A]
        show cj _ * _ = _
        ring
      · intro e he
        rw [axTerm_eq hB _ (hld i j hi hj) (fun c hc => hld _ c (by omega) hc), if_pos rfl]
        ring
    · intro b hb hne
      have hb' := mem_range.mp hb
      apply List.sum_eq_zero
      intro x hx
      obtain ⟨e, he, rfl⟩ := List.mem_map.mp hx
      rw [axTerm_eq hB _ (hld i j hi hj) (fun c hc => hld _ c (by omega) hc), if_neg hne]
    · intro h
      exact absurd (mem_range.mpr hi) h

theorem mdTotal_rest {col tr : Bool} {cj : R → R} {A B : Csr R} (hA : A.WF) (hB : B.WF) {alpha : R}
    {ldc p : Nat} (hp : ∀ i j, (i < if tr then A.n else A.m) → j < B.n → p ≠ denseOff col ldc i j) :
    mdTotal col tr cj A B alpha ldc p = 0 := by
  unfold mdTotal
  refine sum_eq_zero (fun i hi => ?_)
  have hi' := mem_range.mp hi
  apply List.sum_eq_zero
  intro x hx
  obtain ⟨e, he, rfl⟩ := List.mem_map.mp hx
  obtain ⟨h0, hn⟩ := Csr.row_range hA he
  unfold axTerm
  apply List.sum_eq_zero
  intro x hx
  obtain ⟨e', he', rfl⟩ := List.mem_map.mp hx
  obtain ⟨h0', hn'⟩ := Csr.row_range hB he'
  refine if_neg ?_
  intro h
  refine hp (if tr then e.1.toNat else i) e'.1.toNat ?_ (by omega) (by exact_mod_cast h)
  cases tr
  · simpa using hi'
  · simp only [if_true]; omega

end kernels
end Verif
