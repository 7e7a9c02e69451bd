/-
What is assumed of the C++ standard library's `std::sort`, and a function meeting it.
-/
import Mathlib.Data.List.Sort
import Mathlib.Data.List.Nodup

namespace Verif

/-- `srt lt l` models `std::sort` on the distinct elements `l` with comparator `lt`: whenever the
comparator is a strict total order *between different elements* of the range, the result is a
permutation of the range and is increasing.  Nothing is assumed in any other case (in C++ a
comparator that orders two different elements both ways is undefined behaviour). -/
def StdSort (srt : (Int → Int → Bool) → List Int → List Int) : Prop :=
  ∀ (lt : Int → Int → Bool) (l : List Int), l.Nodup →
    (∀ a ∈ l, ∀ b ∈ l, a ≠ b → (lt a b = true ↔ lt b a = false)) →
    (∀ a ∈ l, ∀ b ∈ l, ∀ c ∈ l, lt a b = true → lt b c = true → lt a c = true) →
    (srt lt l).Perm l ∧ (srt lt l).Pairwise (fun a b => lt a b = true)

/-- insertion of one element -/
def insB (lt : Int → Int → Bool) (a : Int) : List Int → List Int
  | [] => [a]
  | b :: l => if lt a b then a :: b :: l else b :: insB lt a l

/-- insertion sort -/
def insertionSortB (lt : Int → Int → Bool) : List Int → List Int
  | [] => []
  | a :: l => insB lt a (insertionSortB lt l)

theorem insB_perm (lt : Int → Int → Bool) (a : Int) (l : List Int) : (insB lt a l).Perm (a :: l) := by
  induction l with
  | nil => exact List.Perm.refl _
  | cons b l ih =>
    unfold insB
    split
    · exact List.Perm.refl _
    · exact (List.Perm.cons b ih).trans (List.Perm.swap a b l)

theorem insertionSortB_perm (lt : Int → Int → Bool) (l : List Int) :
    (insertionSortB lt l).Perm l := by
  induction l with
  | nil => exact List.Perm.refl _
  | cons a l ih => exact (insB_perm lt a _).trans (ih.cons a)

/-- the assumption on `std::sort` is satisfiable -/
theorem insertionSortB_stdSort : StdSort insertionSortB := by
  intro lt l hn ht htr
  refine ⟨insertionSortB_perm lt l, ?_⟩
  induction l with
  | nil => exact List.Pairwise.nil
  | cons a l ih =>
    rw [List.nodup_cons] at hn
    have ih := ih hn.2 (fun x hx y hy => ht x (by simp [hx]) y (by simp [hy]))
      (fun x hx y hy z hz => htr x (by simp [hx]) y (by simp [hy]) z (by simp [hz]))
    have hsub : ∀ x ∈ insertionSortB lt l, x ∈ l :=
      fun x hx => (insertionSortB_perm lt l).mem_iff.mp hx
    unfold insertionSortB
    generalize insertionSortB lt l = q at ih hsub
    induction q with
    | nil => simp [insB]
    | cons b q ihq =>
      have hb := hsub b (by simp)
      have hab : a ≠ b := fun h => hn.1 (h ▸ hb)
      rw [List.pairwise_cons] at ih
      unfold insB
      split
      · rename_i hlt
        rw [List.pairwise_cons, List.pairwise_cons]
        refine ⟨?_, ih⟩
        intro c hc
        rcases List.mem_cons.mp hc with rfl | hc
        · exact hlt
        · exact htr a (by simp) b (by simp [hb]) c (by simp [hsub c (by simp [hc])]) hlt
            (ih.1 c hc)
      · rename_i hlt
        rw [List.pairwise_cons]
        refine ⟨?_, ihq ih.2 (fun x hx => hsub x (by simp [hx]))⟩
        intro c hc
        rcases List.mem_cons.mp ((insB_perm lt a q).mem_iff.mp hc) with rfl | hc
        · exact (ht b (by simp [hb]) c (by simp) (Ne.symm hab)).mpr (by simpa using hlt)
        · exact ih.1 c hc

end Verif
