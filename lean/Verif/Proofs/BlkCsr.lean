/-
Masks and the inner loops of the masked block CSR conversion.
-/
import Verif.Model.BlkCsr
import Verif.Spec.BlkCsr
import Verif.Proofs.Seg
import Verif.Proofs.MkCsr
import Mathlib.Data.Nat.Bitwise
import Mathlib.Data.List.Sort

namespace Verif
open Model

variable {R : Type}

/-! ### Masks -/

/-- the mask of the entries `T` in a block starting at column `cb` -/
def mkMask (cb : Int) (T : List (Int × R)) : Nat :=
  T.foldl (fun m e => m ||| 1 <<< (e.1 - cb).toNat) 0

theorem mkMask_nil (cb : Int) : mkMask cb ([] : List (Int × R)) = 0 := rfl

theorem mkMask_snoc (cb : Int) (T : List (Int × R)) (e : Int × R) :
    mkMask cb (T ++ [e]) = mkMask cb T ||| 1 <<< (e.1 - cb).toNat := by
  simp [mkMask]

theorem mkMask_testBit (cb : Int) (T : List (Int × R)) (b : Nat) :
    (mkMask cb T).testBit b = true ↔ ∃ e ∈ T, (e.1 - cb).toNat = b := by
  induction T using List.reverseRecOn with
  | nil => simp [mkMask]
  | append_singleton T e ih =>
    rw [mkMask_snoc, Nat.testBit_or, Bool.or_eq_true, ih, Nat.one_shiftLeft, Nat.testBit_two_pow]
    simp only [List.mem_append, List.mem_singleton, decide_eq_true_eq]
    constructor
    · rintro (⟨e', h1, h2⟩ | h)
      · exact ⟨e', .inl h1, h2⟩
      · exact ⟨e, .inr rfl, h⟩
    · rintro ⟨e', h1 | rfl, h2⟩
      · exact .inl ⟨e', h1, h2⟩
      · exact .inr h2

theorem mkMask_lt (cb : Int) (T : List (Int × R)) (h : ∀ e ∈ T, e.1 < cb + 8) :
    mkMask cb T < 256 := by
  apply Nat.lt_pow_two_of_testBit (n := 8)
  intro b hb
  by_contra hc
  rw [Bool.not_eq_false, mkMask_testBit] at hc
  obtain ⟨e, he, rfl⟩ := hc
  have := h e he
  omega

theorem mkMask_shift (cb : Int) (k : Nat) (T : List (Int × R)) (h : ∀ e ∈ T, cb ≤ e.1) :
    mkMask cb T <<< k = mkMask (cb - k) T := by
  apply Nat.eq_of_testBit_eq
  intro b
  rw [Nat.testBit_shiftLeft, Bool.eq_iff_iff, Bool.and_eq_true, mkMask_testBit, mkMask_testBit]
  simp only [decide_eq_true_eq]
  constructor
  · rintro ⟨h1, e, he, h2⟩
    have := h e he
    exact ⟨e, he, by omega⟩
  · rintro ⟨e, he, h2⟩
    have := h e he
    exact ⟨by omega, e, he, by omega⟩

theorem bitPos_mkMask (cb : Int) (T : List (Int × R)) (h : ∀ e ∈ T, cb ≤ e.1 ∧ e.1 < cb + 8)
    (hs : T.Pairwise fun a b => a.1 < b.1) :
    bitPos (mkMask cb T) = T.map fun e => (e.1 - cb).toNat := by
  have hp1 : (bitPos (mkMask cb T)).Pairwise (· < ·) :=
    List.Pairwise.filter _ (List.pairwise_lt_range)
  have hp2 : (T.map fun e => (e.1 - cb).toNat).Pairwise (· < ·) := by
    rw [List.pairwise_map]
    refine hs.imp_of_mem ?_
    intro a b ha hb hab
    have := h a ha; have := h b hb; omega
  have hmem : ∀ b, b ∈ bitPos (mkMask cb T) ↔ b ∈ T.map fun e => (e.1 - cb).toNat := by
    intro b
    simp only [bitPos, List.mem_filter, List.mem_range, List.mem_map]
    rw [mkMask_testBit]
    constructor
    · exact fun h => h.2
    · rintro ⟨e, he, rfl⟩
      have := h e he
      exact ⟨by omega, e, he, rfl⟩
  have hnd : ∀ {l : List Nat}, l.Pairwise (· < ·) → l.Nodup := fun h => h.imp (fun h => by omega)
  have hperm : (bitPos (mkMask cb T)).Perm (T.map fun e => (e.1 - cb).toNat) :=
    (List.perm_ext_iff_of_nodup (hnd hp1) (hnd hp2)).2 hmem
  exact hperm.eq_of_pairwise (fun a b _ _ h1 h2 => by omega) hp1 hp2

/-! ### Inner loop -/

/-- entries of a sorted row in front of column `c + 8` -/
def inBlk (c : Int) (S : List (Int × R)) : List (Int × R) := S.takeWhile fun e => decide (e.1 < c + 8)
def offBlk (c : Int) (S : List (Int × R)) : List (Int × R) := S.dropWhile fun e => decide (e.1 < c + 8)

theorem inBlk_append (c : Int) (S : List (Int × R)) : inBlk c S ++ offBlk c S = S :=
  List.takeWhile_append_dropWhile

theorem inBlk_mem {c : Int} {S : List (Int × R)} {e} (h : e ∈ inBlk c S) : e.1 < c + 8 ∧ e ∈ S := by
  refine ⟨?_, ?_⟩
  · clear * - h
    induction S with
    | nil => simp [inBlk] at h
    | cons a S ih =>
      by_cases hc : a.1 < c + 8
      · rw [show inBlk c (a :: S) = a :: inBlk c S by simp [inBlk, List.takeWhile_cons, hc]] at h
        rcases List.mem_cons.1 h with rfl | h
        · exact hc
        · exact ih h
      · simp [inBlk, hc] at h
  · exact (List.takeWhile_sublist _).mem h

theorem blkTake_spec {n base iCol e : Int} {ind : List Int} {val : List R} :
    ∀ (S P : List (Int × R)) (fuel : Nat) (i : Int) (vs : List R) (nm : Nat),
      Seg ind val base (i + base) (e + base) S → S.length < fuel →
      (∀ a ∈ S, iCol ≤ a.1 ∧ a.1 < n) → (∀ a ∈ P, iCol ≤ a.1 ∧ a.1 < n ∧ a.1 < iCol + 8) →
      ∃ nm', blkTake n base ind val iCol e fuel i vs (mkMask iCol P) nm
          = some (i + (inBlk iCol S).length, vs ++ (inBlk iCol S).map Prod.snd,
              mkMask iCol (P ++ inBlk iCol S), nm') ∧
        (iCol + 8 > n → nm = mkMask (n - 8) P → nm' = mkMask (n - 8) (P ++ inBlk iCol S)) := by
  intro S
  induction S with
  | nil =>
    intro P fuel i vs nm hS hf _ _
    obtain ⟨f, rfl⟩ : ∃ f, fuel = f + 1 := ⟨fuel - 1, by omega⟩
    have := hS.1
    simp only [List.length_nil, Nat.cast_zero] at this
    refine ⟨nm, ?_, ?_⟩
    · rw [blkTake, if_neg (by omega)]
      simp [inBlk]
    · intro _ h; simpa [inBlk] using h
  | cons a S ih =>
    intro P fuel i vs nm hS hf hr hP
    obtain ⟨f, rfl⟩ : ∃ f, fuel = f + 1 := ⟨fuel - 1, by omega⟩
    have hl := hS.1
    simp only [List.length_cons] at hl hf
    obtain ⟨h1, h2⟩ := hS.2 0 (by simp)
    simp only [Nat.cast_zero, add_zero, List.getElem_cons_zero, add_sub_cancel_right] at h1 h2
    have ha := hr a (by simp)
    rw [blkTake, if_pos (by omega), h1]
    simp only [Option.bind_eq_bind, Option.bind_some, add_sub_cancel_right]
    by_cases hc : a.1 < iCol + 8
    · rw [if_pos hc, h2]
      have hP' : ∀ b ∈ P ++ [a], iCol ≤ b.1 ∧ b.1 < n ∧ b.1 < iCol + 8 := by
        intro b hb
        rcases List.mem_append.1 hb with hb | hb
        · exact hP b hb
        · rw [List.mem_singleton.1 hb]; exact ⟨ha.1, ha.2, hc⟩
      have hs1 : shl 1 (a.1 - iCol) = some (1 <<< (a.1 - iCol).toNat) := by
        unfold shl
        rw [if_pos (by omega), Nat.mod_eq_of_lt]
        rw [Nat.one_shiftLeft]
        exact Nat.pow_lt_pow_right (by omega) (by omega)
      have hmk : (mkMask iCol P ||| 1 <<< (a.1 - iCol).toNat) % 256 = mkMask iCol (P ++ [a]) := by
        rw [← mkMask_snoc, Nat.mod_eq_of_lt]
        exact mkMask_lt _ _ fun b hb => (hP' b hb).2.2
      have hnm : ∃ nm1, blkNewMask n iCol (mkMask iCol (P ++ [a])) nm = some nm1 ∧
          (iCol + 8 > n → nm1 = mkMask (n - 8) (P ++ [a])) := by
        unfold blkNewMask
        by_cases hn : iCol + 8 > n
        · rw [if_pos hn]
          unfold shl
          rw [if_pos (by omega)]
          refine ⟨_, rfl, fun _ => ?_⟩
          beta_reduce
          rw [mkMask_shift _ _ _ (fun b hb => (hP' b hb).1), Nat.mod_mod_of_dvd _ (by decide),
            show iCol - ((8 - (n - iCol)).toNat : Int) = n - 8 by omega, Nat.mod_eq_of_lt]
          exact mkMask_lt _ _ fun b hb => by have := (hP' b hb).2.1; omega
        · rw [if_neg hn]
          exact ⟨nm, rfl, fun h => absurd h hn⟩
      obtain ⟨nm1, e1, h1'⟩ := hnm
      have hr' : Seg ind val base (i + 1 + base) (e + base) S := by
        have := Seg.append_right (S1 := [a]) (S2 := S) hS
        simp only [List.length_singleton, Nat.cast_one] at this
        rwa [show i + base + 1 = i + 1 + base by ring] at this
      obtain ⟨nm', e2, h2'⟩ := ih (P ++ [a]) f (i + 1) (vs ++ [a.2]) nm1 hr' (by omega)
        (fun b hb => hr b (List.mem_cons_of_mem _ hb)) hP'
      have htw : inBlk iCol (a :: S) = a :: inBlk iCol S := by
        simp [inBlk, List.takeWhile_cons, hc]
      refine ⟨nm', ?_, ?_⟩
      · simp only [Option.bind_some, hs1, hmk, e1, e2, htw]
        simp only [List.length_cons, List.map_cons, List.append_assoc, List.singleton_append,
          Nat.cast_add, Nat.cast_one, Option.some.injEq, Prod.mk.injEq, and_self, and_true]
        ring
      · intro hn _
        rw [h2' hn (h1' hn), htw]
        simp
    · rw [if_neg hc]
      have htw : inBlk iCol (a :: S) = [] := by simp [inBlk, hc]
      refine ⟨nm, ?_, ?_⟩
      · rw [htw]; simp
      · intro _ h; rw [htw]; simpa using h

/-! ### Blocks of one group of rows -/

/-- what `blkScan` computes: whether nothing is left, and the leftmost column left -/
def leftmost (k : Nat) (rem : Nat → List (Int × R)) : Bool × Int :=
  (List.range k).foldl (fun st s => match rem s with
    | [] => st
    | e :: _ => (false, min st.2 e.1)) (true, blkNoCol)

theorem leftmost_succ (k : Nat) (rem : Nat → List (Int × R)) :
    leftmost (k + 1) rem = match rem k with
      | [] => leftmost k rem
      | e :: _ => (false, min (leftmost k rem).2 e.1) := by
  simp [leftmost, List.range_succ]

theorem leftmost_true {k : Nat} {rem : Nat → List (Int × R)} :
    (leftmost k rem).1 = true ↔ ∀ s, s < k → rem s = [] := by
  induction k with
  | zero => simp [leftmost]
  | succ k ih =>
    rw [leftmost_succ]
    cases h : rem k with
    | nil =>
      simp only [ih]
      constructor
      · intro h' s hs
        rcases Nat.lt_succ_iff_lt_or_eq.1 hs with hs | rfl
        · exact h' s hs
        · exact h
      · exact fun h' s hs => h' s (by omega)
    | cons e l =>
      simp only [Bool.false_eq_true, false_iff]
      intro h'
      rw [h' k (by omega)] at h
      exact absurd h (by simp)

theorem leftmost_le {k : Nat} {rem : Nat → List (Int × R)} {s : Nat} (hs : s < k) {e l}
    (h : rem s = e :: l) : (leftmost k rem).2 ≤ e.1 := by
  induction k with
  | zero => omega
  | succ k ih =>
    rw [leftmost_succ]
    rcases Nat.lt_succ_iff_lt_or_eq.1 hs with hs | rfl
    · have := ih hs
      split
      · exact this
      · simp only; omega
    · rw [h]; simp only; omega

theorem leftmost_mem {k : Nat} {rem : Nat → List (Int × R)}
    (hb : ∀ s, s < k → ∀ e ∈ rem s, e.1 ≤ blkNoCol) (h : (leftmost k rem).1 = false) :
    ∃ s e l, s < k ∧ rem s = e :: l ∧ (leftmost k rem).2 = e.1 := by
  have key : ∀ k, (∀ s, s < k → ∀ e ∈ rem s, e.1 ≤ blkNoCol) →
      ((leftmost k rem).1 = true ∧ (leftmost k rem).2 = blkNoCol) ∨
      ∃ s e l, s < k ∧ rem s = e :: l ∧ (leftmost k rem).2 = e.1 := by
    intro k
    induction k with
    | zero => intro _; exact .inl (by simp [leftmost])
    | succ k ih =>
      intro hb
      rw [leftmost_succ]
      have ih := ih fun s hs => hb s (by omega)
      cases h : rem k with
      | nil =>
        rcases ih with ih | ⟨s, e, l, h1, h2, h3⟩
        · exact .inl ih
        · exact .inr ⟨s, e, l, by omega, h2, h3⟩
      | cons a t =>
        right
        simp only
        have ha := hb k (by omega) a (by rw [h]; simp)
        rcases ih with ih | ⟨s, e, l, h1, h2, h3⟩
        · exact ⟨k, a, t, by omega, h, by rw [ih.2]; omega⟩
        · rcases le_total e.1 a.1 with hle | hle
          · exact ⟨s, e, l, by omega, h2, by rw [h3]; omega⟩
          · exact ⟨k, a, t, by omega, h, by rw [h3]; omega⟩
  rcases key k hb with h1 | h1
  · rw [h1.1] at h; cases h
  · exact h1

/-- the blocks cut from the rows `rem 0 .. rem (k-1)`: first column, and the entries of each row -/
def cutBlocks (k : Nat) (n : Int) : Nat → (Nat → List (Int × R)) → List (Int × (Nat → List (Int × R)))
  | 0, _ => []
  | f + 1, rem =>
    if (leftmost k rem).1 then []
    else (min (leftmost k rem).2 (n - 8), fun s => inBlk (leftmost k rem).2 (rem s)) ::
      cutBlocks k n f (fun s => offBlk (leftmost k rem).2 (rem s))

/-- entries left -/
def left (k : Nat) (rem : Nat → List (Int × R)) : Nat := offs rem k

/-- The rows of a group: inside the columns, sorted without duplicates, empty from `k` to `nR`. -/
structure Rows (k nR : Nat) (n : Int) (rem : Nat → List (Int × R)) : Prop where
  le : k ≤ nR
  range : ∀ s, ∀ e ∈ rem s, 0 ≤ e.1 ∧ e.1 < n
  sorted : ∀ s, (rem s).Pairwise fun a b => a.1 < b.1
  empty : ∀ s, k ≤ s → s < nR → rem s = []

theorem offBlk_sublist (c : Int) (S : List (Int × R)) : (offBlk c S).Sublist S :=
  List.dropWhile_sublist _

theorem Rows.off {k nR : Nat} {n : Int} {rem : Nat → List (Int × R)} (h : Rows k nR n rem) (c : Int) :
    Rows k nR n (fun s => offBlk c (rem s)) where
  le := h.le
  range := fun s e he => h.range s e ((offBlk_sublist _ _).mem he)
  sorted := fun s => (h.sorted s).sublist (offBlk_sublist _ _)
  empty := fun s h1 h2 => by simp [h.empty s h1 h2, offBlk]

theorem offs_lt {α : Type} {f g : Nat → List α} {k s : Nat} (hs : s < k)
    (hle : ∀ t, (f t).length ≤ (g t).length) (hlt : (f s).length < (g s).length) :
    offs f k < offs g k := by
  have hmono : ∀ k, offs f k ≤ offs g k := by
    intro k
    induction k with
    | zero => simp
    | succ k ih => rw [offs_succ, offs_succ]; have := hle k; omega
  induction k with
  | zero => omega
  | succ k ih =>
    rw [offs_succ, offs_succ]
    rcases Nat.lt_succ_iff_lt_or_eq.1 hs with hs | rfl
    · have := ih hs; have := hle k; omega
    · have := hmono s; omega

theorem Rows.left_lt {k nR : Nat} {n : Int} {rem : Nat → List (Int × R)} (h : Rows k nR n rem)
    (hn : n ≤ blkNoCol) (hl : (leftmost k rem).1 = false) :
    left k (fun s => offBlk (leftmost k rem).2 (rem s)) < left k rem := by
  obtain ⟨s, e, l, h1, h2, h3⟩ := leftmost_mem (fun s _ e he => by
    have := (h.range s e he).2; omega) hl
  refine offs_lt h1 (fun t => (offBlk_sublist _ _).length_le) ?_
  rw [h2, h3]
  have : offBlk e.1 (e :: l) = offBlk e.1 l := by simp [offBlk]
  rw [this]
  have := (offBlk_sublist e.1 l).length_le
  simp only [List.length_cons]
  omega

theorem Rows.ge {k nR : Nat} {n : Int} {rem : Nat → List (Int × R)} (h : Rows k nR n rem)
    {s : Nat} (hs : s < nR) : ∀ e ∈ rem s, (leftmost k rem).2 ≤ e.1 := by
  intro e he
  rcases Nat.lt_or_ge s k with hk | hk
  · cases hr : rem s with
    | nil => rw [hr] at he; cases he
    | cons a l =>
      have h1 := leftmost_le hk hr
      rw [hr] at he
      have := h.sorted s
      rw [hr, List.pairwise_cons] at this
      rcases List.mem_cons.1 he with rfl | he
      · exact h1
      · have := this.1 e he; omega
  · rw [h.empty s hk hs] at he; cases he

theorem cutBlocks_spec {k nR : Nat} {n : Int} (hn8 : 8 ≤ n) (hn : n ≤ blkNoCol) :
    ∀ (f : Nat) (rem : Nat → List (Int × R)), Rows k nR n rem → left k rem < f →
      (∀ b ∈ cutBlocks k n f rem, 0 ≤ b.1 ∧ b.1 + 8 ≤ n) ∧
      (∀ b ∈ cutBlocks k n f rem, ∀ s, s < nR →
        (∀ e ∈ b.2 s, b.1 ≤ e.1 ∧ e.1 < b.1 + 8) ∧ (b.2 s).Pairwise fun x y => x.1 < y.1) ∧
      (∀ s, s < nR → (cutBlocks k n f rem).flatMap (fun b => b.2 s) = rem s) ∧
      (cutBlocks k n f rem).length ≤ left k rem := by
  intro f
  induction f with
  | zero => intro rem _ h; omega
  | succ f ih =>
    intro rem h hf
    rw [cutBlocks]
    by_cases hl : (leftmost k rem).1 = true
    · rw [if_pos hl]
      refine ⟨by simp, by simp, ?_, by simp⟩
      intro s hs
      rcases Nat.lt_or_ge s k with hk | hk
      · rw [leftmost_true.1 hl s hk]; rfl
      · rw [h.empty s hk hs]; rfl
    · rw [if_neg hl]
      have hl : (leftmost k rem).1 = false := by simpa using hl
      have hlt := h.left_lt hn hl
      obtain ⟨i1, i2, i3, i4⟩ := ih _ (h.off (leftmost k rem).2) (by omega)
      obtain ⟨s0, e0, l0, hs0, hr0, hm0⟩ := leftmost_mem (fun s _ e he => by
        have := (h.range s e he).2; omega) hl
      have hc := h.range s0 e0 (by rw [hr0]; simp)
      refine ⟨?_, ?_, ?_, ?_⟩
      · intro b hb
        rcases List.mem_cons.1 hb with rfl | hb
        · simp only; omega
        · exact i1 b hb
      · intro b hb s hs
        rcases List.mem_cons.1 hb with rfl | hb
        · refine ⟨?_, ?_⟩
          · intro e he
            obtain ⟨h1, h2⟩ := inBlk_mem he
            have := h.ge hs e h2
            have := (h.range s e h2).2
            simp only; omega
          · exact (h.sorted s).sublist (List.takeWhile_sublist _)
        · exact i2 b hb s hs
      · intro s hs
        rw [List.flatMap_cons, i3 s hs]
        exact inBlk_append _ _
      · simp only [List.length_cons]; omega

end Verif
