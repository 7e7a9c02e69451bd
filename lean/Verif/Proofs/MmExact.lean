import Verif.Proofs.SchedMm2

/-!
The elements of a sparse times dense product, in an arithmetic without laws.
-/

namespace Verif
open Model

variable {R : Type}

section colkt
variable [Zero R] [Add R] [Mul R] {cj : R → R} {alpha beta : R} {A : Csr R} {B : List R} {n ldb ldc : Nat}
  {D : Nat → Nat → R} {g : Nat → Nat → R → R}

theorem mmPut_exact {f : Nat → R} {S : Nat → Nat → Prop} {len blk j q i : Nat}
    {C : List R} (hC : Rep C len (doneF ldc S g f)) (hi : i < ldc) {d : R}
    (hS : q < blk → ¬ S (j + q) i) (hlen : q < blk → (j + q) * ldc + i < len)
    (hd : q < blk → ∀ v, d * alpha + beta * v = g (j + q) i v) :
    ∃ C', mmPut (mmOf cj alpha beta A B n ldb ldc) blk j q i d C = some C' ∧
      Rep C' len (doneF ldc (fun x y => S x y ∨ (q < blk ∧ x = j + q ∧ y = i)) g f) := by
  unfold mmPut
  by_cases hq : q < blk
  · rw [if_pos (by omega)]
    obtain ⟨g1, g2⟩ := doneF_step (a := j + q) (b := i) (p := ((j : Int) + q) * ldc + i) hi (hlen hq) hC
      (hS hq) (by push_cast; ring)
    obtain ⟨C', g3, g4⟩ := g2 _ (hd hq _)
    refine ⟨C', ?_, g4.congr (fun k _ => doneF_congr (fun x y => by simp [hq]) k)⟩
    simp only [mmOf]
    rw [g1]
    exact g3
  · rw [if_neg (by omega)]
    exact ⟨C, rfl, hC.congr (fun k _ => doneF_congr (fun x y => by simp [hq]) k)⟩

theorem mmColBlkRow_exact {V : Vec R} {K : Nat} (hD : ∀ i j, i < A.m → j < n → mmDotK V K (mmOf cj alpha beta A B n ldb ldc) ((j : Int) * ldb - A.base) (A.p i)
      (A.p (i + 1)) = some (D j i)) (hg : ∀ j i v, D j i * alpha + beta * v = g j i v) (hA : A.WF) (hld : A.m ≤ ldc) {len : Nat}
    (hC : ∀ i j, i < A.m → j < n → denseOff true ldc i j < len) {f : Nat → R}
    {S : Nat → Nat → Prop} {i j : Nat} (hi : i < A.m) (hj : j < n) {C : List R}
    (hS : ∀ q, q < blk4 n j → ¬ S (j + q) i)
    (hr : Rep C len (doneF ldc S (g) f)) :
    ∃ C', mmColBlkRow V K (mmOf cj alpha beta A B n ldb ldc) (blk4 n j : Nat) j i C = some C' ∧
      Rep C' len (doneF ldc (fun x y => S x y ∨ (j ≤ x ∧ x < j + blk4 n j ∧ y = i))
        (g) f) := by
  have hp1 := hA.rd_ptr (i := i) (by omega)
  have hp2 := hA.rd_ptr (i := i + 1) (by omega)
  rw [show ((i + 1 : Nat) : Int) = (i : Int) + 1 by omega] at hp2
  have hb : blk4 n j ≤ 4 ∧ blk4 n j ≤ n - j := by unfold blk4; omega
  have hd : ∀ q : Nat, q < 4 → mmDotK V K (mmOf cj alpha beta A B n ldb ldc)
      (mmBlkCol n j q * ldb - A.base) (A.p i) (A.p (i + 1))
      = some (D (if q < blk4 n j then j + q else j) i) := by
    intro q hq
    rw [mmBlkCol_eq hj hq]
    exact hD i _ hi (by split <;> omega)
  have hlen : ∀ q, q < blk4 n j → (j + q) * ldc + i < len := by
    intro q hq
    have := hC i (j + q) hi (by omega)
    simp only [denseOff, if_true] at this
    rw [Nat.mul_comm]; omega
  have hcell : ∀ q, q < blk4 n j → ∀ v, D (if q < blk4 n j then j + q else j) i
      * alpha + beta * v = g (j + q) i v := by
    intro q hq v
    rw [if_pos hq]; exact hg _ _ _
  obtain ⟨C3, e3, r3⟩ := mmPut_exact (cj := cj) (A := A) (B := B) (n := n) (ldb := ldb) (q := 3) hr (by omega)
    (hS 3) (hlen 3) (hcell 3)
  obtain ⟨C2, e2, r2⟩ := mmPut_exact (cj := cj) (A := A) (B := B) (n := n) (ldb := ldb) (q := 2) r3 (by omega)
    (fun h => by rintro (h' | h'); exact hS 2 h h'; omega) (hlen 2) (hcell 2)
  obtain ⟨C1, e1, r1⟩ := mmPut_exact (cj := cj) (A := A) (B := B) (n := n) (ldb := ldb) (q := 1) r2 (by omega)
    (fun h => by rintro ((h' | h') | h'); exact hS 1 h h'; omega; omega) (hlen 1) (hcell 1)
  obtain ⟨C0, e0, r0⟩ := mmPut_exact (cj := cj) (A := A) (B := B) (n := n) (ldb := ldb) (q := 0) r1 (by omega)
    (fun h => by rintro (((h' | h') | h') | h'); exact hS 0 h h'; omega; omega; omega) (hlen 0) (hcell 0)
  refine ⟨C0, ?_, r0.congr (fun k _ => doneF_congr (fun x y => ?_) k)⟩
  · unfold mmColBlkRow
    have h0 := hd 0 (by omega)
    have h1 := hd 1 (by omega)
    have h2 := hd 2 (by omega)
    have h3 := hd 3 (by omega)
    simp only [Nat.cast_zero, Nat.cast_one, Nat.cast_ofNat] at h0 h1 h2 h3 e0 e1 e2 e3
    simp only [show (mmOf cj alpha beta A B n ldb ldc).ptr = A.ptr from rfl,
      show (mmOf cj alpha beta A B n ldb ldc).base = A.base from rfl,
      show (mmOf cj alpha beta A B n ldb ldc).n = (n : Int) from rfl,
      show (mmOf cj alpha beta A B n ldb ldc).ldb = (ldb : Int) from rfl]
    rw [hp1, hp2]
    simp only [Option.bind_eq_bind, Option.bind_some, h0, h1, h2, h3]
    rw [e3]
    simp only [Option.bind_some]
    rw [e2]
    simp only [Option.bind_some]
    rw [e1]
    simp only [Option.bind_some]
    exact e0
  · constructor
    · rintro ((((h | h) | h) | h) | h)
      · exact Or.inl h
      all_goals exact Or.inr ⟨by omega, by omega, h.2.2⟩
    · rintro (h | h)
      · exact Or.inl (Or.inl (Or.inl (Or.inl h)))
      · have : x = j ∨ x = j + 1 ∨ x = j + 2 ∨ x = j + 3 := by omega
        rcases this with rfl | rfl | rfl | rfl
        · exact Or.inr ⟨by omega, by omega, h.2.2⟩
        · exact Or.inl (Or.inr ⟨by omega, by omega, h.2.2⟩)
        · exact Or.inl (Or.inl (Or.inr ⟨by omega, by omega, h.2.2⟩))
        · exact Or.inl (Or.inl (Or.inl (Or.inr ⟨by omega, by omega, h.2.2⟩)))

theorem mmColBlk_exact {V : Vec R} {K : Nat} (hD : ∀ i j, i < A.m → j < n → mmDotK V K (mmOf cj alpha beta A B n ldb ldc) ((j : Int) * ldb - A.base) (A.p i)
      (A.p (i + 1)) = some (D j i)) (hg : ∀ j i v, D j i * alpha + beta * v = g j i v) (hA : A.WF) (hld : A.m ≤ ldc) {len : Nat}
    (hC : ∀ i j, i < A.m → j < n → denseOff true ldc i j < len) {f : Nat → R}
    {S : Nat → Prop} {j : Nat} (hj : j < n) {C : List R}
    (hS : ∀ q, q < blk4 n j → ¬ S (j + q))
    (hr : Rep C len (doneF ldc (fun a b => S a ∧ b < A.m) (g) f)) :
    ∃ C', mmColBlk V K (mmOf cj alpha beta A B n ldb ldc) j (4, C) = some (((blk4 n j : Nat) : Int), C') ∧
      Rep C' len (doneF ldc (fun a b => (S a ∨ (j ≤ a ∧ a < j + blk4 n j)) ∧ b < A.m)
        (g) f) := by
  obtain ⟨C1, e1, r1⟩ := forC_inv_nat (n := A.m) (s := C)
    (f := mmColBlkRow V K (mmOf cj alpha beta A B n ldb ldc) (blk4 n j : Nat) j)
    (P := fun i s => Rep s len (doneF ldc
      (fun a b => (S a ∧ b < A.m) ∨ ((j ≤ a ∧ a < j + blk4 n j) ∧ b < i))
      (g) f))
    (hr.congr (fun k _ => doneF_congr (fun a b => by simp) k)) (by
      intro i s hi hs
      obtain ⟨C', e, r⟩ := mmColBlkRow_exact hD hg hA hld hC hi hj (C := s) (by
        intro q hq
        rintro (h | h)
        · exact hS q hq h.1
        · omega) hs
      refine ⟨C', e, r.congr (fun k _ => doneF_congr (fun a b => ?_) k)⟩
      constructor
      · rintro ((h | h) | h)
        · exact Or.inl h
        · exact Or.inr ⟨h.1, by omega⟩
        · exact Or.inr ⟨⟨h.1, h.2.1⟩, by omega⟩
      · rintro (h | h)
        · exact Or.inl (Or.inl h)
        · by_cases hb : b = i
          · exact Or.inr ⟨h.1.1, h.1.2, hb⟩
          · exact Or.inl (Or.inr ⟨h.1, by omega⟩))
  refine ⟨C1, ?_, r1.congr (fun k _ => doneF_congr (fun a b => ?_) k)⟩
  · unfold mmColBlk
    simp only [show (mmOf cj alpha beta A B n ldb ldc).n = (n : Int) from rfl,
      show (mmOf cj alpha beta A B n ldb ldc).m = (A.m : Int) from rfl]
    rw [mmBlkCols_eq hj, e1]
    rfl
  · tauto

theorem mmColKt_exact {w : Nat} {tm : MmTeam} {V : Vec R} {K : Nat} (hD : ∀ i j, i < A.m → j < n → mmDotK V K (mmOf cj alpha beta A B n ldb ldc) ((j : Int) * ldb - A.base) (A.p i)
      (A.p (i + 1)) = some (D j i)) (hg : ∀ j i v, D j i * alpha + beta * v = g j i v) (hT : 0 < tm.T)
    (hov : (n : Int) * tm.T ≤ intMax w)
    (hord : tm.ord.Perm (List.range tm.T)) (hA : A.WF) (hld : A.m ≤ ldc) {C : List R}
    (hC : ∀ i j, i < A.m → j < n → denseOff true ldc i j < C.length) :
    ∃ C', mmColKt w tm V K (mmOf cj alpha beta A B n ldb ldc) C = some C' ∧
      Rep C' C.length (doneF ldc (fun a b => a < n ∧ b < A.m)
        (g) (fun p => C.getD p 0)) := by
  unfold mmColKt
  refine foldl_chunks (n := n) (bnd4 n tm.T) (bnd4_mono n tm.T) (by simp [bnd4])
    (by unfold bnd4; rw [Nat.mul_div_cancel _ hT]; omega) hord
    (P := fun S s => Rep s C.length (doneF ldc (fun a b => S a ∧ b < A.m)
        (g) (fun p => C.getD p 0)))
    ((Rep.of_list C 0).congr (fun k _ => by unfold doneF; rw [if_neg (by simp)])) ?_
  intro t ht S s hS hs
  have h1 : (n : Int) * (t : Int) ≤ (n : Int) * tm.T := Int.mul_le_mul_of_nonneg_left (by omega) (by omega)
  have h2 : (n : Int) * ((t : Int) + 1) ≤ (n : Int) * tm.T :=
    Int.mul_le_mul_of_nonneg_left (by omega) (by omega)
  have e1 : ((n : Int) * (t : Int)).tdiv tm.T = ((n * t / tm.T : Nat) : Int) := by
    rw [Int.tdiv_eq_ediv_of_nonneg (Int.mul_nonneg (by omega) (by omega))]; simp
  have e2 : ((n : Int) * ((t : Int) + 1)).tdiv tm.T = ((n * (t + 1) / tm.T : Nat) : Int) := by
    rw [Int.tdiv_eq_ediv_of_nonneg (Int.mul_nonneg (by omega) (by omega))]; simp
  simp only [show (mmOf cj alpha beta A B n ldb ldc).n = (n : Int) from rfl]
  rw [chk_of_le (Int.mul_nonneg (by omega) (by omega)) (by omega),
      chk_of_le (Int.mul_nonneg (by omega) (by omega)) (by omega)]
  simp only [Option.bind_eq_bind, Option.bind_some, e1, e2, roundUp4_nat]
  change ∃ s', ((forS ((bnd4 n tm.T t : Nat) : Int) ((bnd4 n tm.T (t + 1) : Nat) : Int) 4 _ _).bind _)
    = some s' ∧ _
  have hm := bnd4_mono n tm.T t
  have hl4 : bnd4 n tm.T t = n ∨ bnd4 n tm.T t % 4 = 0 := by unfold bnd4; omega
  have hh4 : bnd4 n tm.T (t + 1) = n ∨ bnd4 n tm.T (t + 1) % 4 = 0 := by unfold bnd4; omega
  have hhn : bnd4 n tm.T (t + 1) ≤ n := by unfold bnd4; omega
  generalize bnd4 n tm.T t = lo at *
  generalize bnd4 n tm.T (t + 1) = hi at *
  have en : ((hi : Int) - lo + 4 - 1) / 4 = (((hi - lo + 3) / 4 : Nat) : Int) := by omega
  unfold forS
  rw [en]
  obtain ⟨r, e3, r3⟩ := forC_inv_nat (n := (hi - lo + 3) / 4) (s := ((4 : Int), s))
    (f := fun k s => mmColBlk V K (mmOf cj alpha beta A B n ldb ldc) ((lo : Int) + 4 * k) s)
    (P := fun k s => (k < (hi - lo + 3) / 4 → s.1 = 4) ∧
      Rep s.2 C.length (doneF ldc (fun a b => (S a ∨ (lo ≤ a ∧ a < min (lo + 4 * k) hi)) ∧ b < A.m)
        (g) (fun p => C.getD p 0)))
    ⟨fun _ => rfl, hs.congr (fun k _ => doneF_congr (fun a b => by
      constructor
      · rintro ⟨h, h'⟩; exact ⟨Or.inl h, h'⟩
      · rintro ⟨h | h, h'⟩
        · exact ⟨h, h'⟩
        · omega) k)⟩ (by
      rintro k ⟨b, s⟩ hk ⟨hb, hs⟩
      have := hb hk
      simp only at this hs
      subst this
      obtain ⟨C', g1, g2⟩ := mmColBlk_exact hD hg hA hld hC (j := lo + 4 * k) (by omega) (by
        intro q hq
        unfold blk4 at hq
        rintro (h | h)
        · exact hS _ ⟨by omega, by omega⟩ h
        · omega) hs
      refine ⟨_, by rw [← g1]; push_cast; rfl, ?_, g2.congr (fun k' _ => doneF_congr (fun a b => ?_) k')⟩
      · intro h
        simp only [blk4]
        omega
      · have : blk4 n (lo + 4 * k) = min 4 (n - (lo + 4 * k)) := rfl
        rw [this]
        constructor
        · rintro ⟨(h | h) | h, h'⟩
          · exact ⟨Or.inl h, h'⟩
          · exact ⟨Or.inr (by omega), h'⟩
          · exact ⟨Or.inr (by omega), h'⟩
        · rintro ⟨h | h, h'⟩
          · exact ⟨Or.inl (Or.inl h), h'⟩
          · by_cases hx : a < min (lo + 4 * k) hi
            · exact ⟨Or.inl (Or.inr ⟨h.1, hx⟩), h'⟩
            · exact ⟨Or.inr (by omega), h'⟩)
  refine ⟨r.2, by rw [e3]; rfl, r3.2.congr (fun k' _ => doneF_congr (fun a b => ?_) k')⟩
  constructor
  · rintro ⟨h | h, h'⟩
    · exact ⟨Or.inl h, h'⟩
    · exact ⟨Or.inr (by omega), h'⟩
  · rintro ⟨h | h, h'⟩
    · exact ⟨Or.inl h, h'⟩
    · exact ⟨Or.inr (by omega), h'⟩

end colkt

end Verif
