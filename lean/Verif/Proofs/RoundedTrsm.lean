/-
The loop over the columns of trsm around any solver of one column.
-/
import Verif.Proofs.Trsm
import Verif.Model.RoundedTrsm

namespace Verif
open Model Finset

variable {R : Type} [Zero R]

/-- what the solver establishes for the solution of column j, whatever the array of the solution held, holds for every
column after the loop, in every order -/
theorem trsmLoop_cols {solve : List R → List R → Option (List R)} {Q : Nat → (Nat → R) → Prop}
    {col : Bool} {m n : Nat} (hm : 0 < m) {ldb ldx : Nat}
    {B : List R} {len : Nat} (hQ : ∀ j g g', (∀ i, i < m → g' i = g i) → Q j g → Q j g')
    (hs : ∀ j x, j < n → x.length = len - j * colOff col ldx →
      ∃ x', solve (B.drop (j * colOff col ldb)) x = some x' ∧ x'.length = x.length ∧
        (∀ k, (∀ i, i < m → k ≠ i * colInc col ldx) → x'[k]? = x[k]?) ∧
        Q j (fun i => x'.getD (i * colInc col ldx) 0))
    (hB : ∀ i j, i < m → j < n → denseOff col ldb i j < B.length)
    (hld : ∀ i j, i < m → j < n → mnr col i j < ldx) :
    ∀ (sched : List Nat) (_ : sched.Nodup) (_ : ∀ j ∈ sched, j < n) (X : List R),
      X.length = len → (∀ i j, i < m → j < n → denseOff col ldx i j < X.length) →
      ∃ X', sched.foldlM (trsmCol (fun (_ : Unit) b x => (solve b x).map fun x' => (Status.success, x', ()))
          (colOff col ldb : Int) (colOff col ldx : Int) B) (.success, X, ()) = some (.success, X', ()) ∧
        X'.length = X.length ∧
        (∀ j ∈ sched, Q j (fun i => X'.getD (denseOff col ldx i j) 0)) ∧
        (∀ p, (∀ j ∈ sched, ∀ i, i < m → p ≠ denseOff col ldx i j) → X'[p]? = X[p]?) := by
  intro sched
  induction sched with
  | nil => exact fun _ _ X _ _ => ⟨X, rfl, rfl, by simp, by simp⟩
  | cons j L ih =>
    intro hnd hr X hXl hX
    obtain ⟨hjL, hnd⟩ := List.nodup_cons.mp hnd
    have hj := hr j (by simp)
    set off := j * colOff col ldx with hoff
    have hoX : off < X.length := by
      have := hX 0 j hm hj
      rw [denseOff_col] at this
      omega
    have hoB : j * colOff col ldb ≤ B.length := by
      have := hB 0 j hm hj
      rw [denseOff_col] at this
      omega
    obtain ⟨x1, e1, s1, s2, s3⟩ := hs j (X.drop off) hj (by rw [List.length_drop, hXl])
    have hl1 : x1.length = X.length - off := by rw [s1, List.length_drop]
    have hlen : (X.take off ++ x1).length = X.length := by
      rw [List.length_append, List.length_take, hl1]; omega
    have hcell : ∀ q, (X.take off ++ x1)[off + q]? = x1[q]? := by
      intro q
      rw [List.getElem?_append_right (by simp), List.length_take, min_eq_left (by omega)]
      congr 1
      omega
    obtain ⟨X', e, c5, c6, c7⟩ := ih hnd (fun k hk => hr k (by simp [hk])) (X.take off ++ x1)
      (by rw [hlen, hXl]) (by rw [hlen]; exact hX)
    have hstep : trsmCol (fun (_ : Unit) b x => (solve b x).map fun x' => (Status.success, x', ()))
        (colOff col ldb : Int) (colOff col ldx : Int) B (.success, X, ()) j
        = some (.success, X.take off ++ x1, ()) := by
      unfold trsmCol
      dsimp only
      have q1 : ((j : Int) * (colOff col ldb : Int)) = ((j * colOff col ldb : Nat) : Int) := by push_cast; rfl
      have q2 : ((j : Int) * (colOff col ldx : Int)) = ((off : Nat) : Int) := by rw [hoff]; push_cast; rfl
      rw [q1, q2, ptrAt_ok hoB, ptrAt_ok (by omega)]
      simp only [Option.bind_eq_bind, Option.bind_some, e1, Option.map_some, Int.toNat_natCast]
    have hdis : ∀ i, i < m → ∀ k ∈ L, ∀ i', i' < m → denseOff col ldx i j ≠ denseOff col ldx i' k := by
      intro i hi k hk i' hi' e
      have := (denseOff_ij_inj (hld i j hi hj) (hld i' k hi' (hr k (by simp [hk])))).mp e
      exact hjL (this.2 ▸ hk)
    refine ⟨X', ?_, by rw [c5, hlen], ?_, ?_⟩
    · rw [List.foldlM_cons, hstep]
      exact e
    · intro k hk
      rcases List.mem_cons.mp hk with rfl | hk
      · refine hQ _ _ _ (fun q hq => ?_) s3
        rw [List.getD_eq_getElem?_getD, List.getD_eq_getElem?_getD, c7 _ (fun k' hk' i' hi' => hdis q hq k' hk' i' hi'),
          denseOff_col, hcell]
      · exact c6 k hk
    · intro p hp
      rw [c7 p (fun k hk i hi => hp k (by simp [hk]) i hi)]
      by_cases h : p < off
      · rw [List.getElem?_append_left (by rw [List.length_take]; omega), List.getElem?_take_of_lt h]
      · obtain ⟨q, rfl⟩ : ∃ q, p = off + q := ⟨p - off, by omega⟩
        rw [hcell, s2 q, List.getElem?_drop]
        intro i hi e
        apply hp j (by simp) i hi
        rw [denseOff_col, e]

/-- a relation that the solver establishes between right-hand side and solution of one column holds for every
column after the loop, in every order -/
theorem trsmLoop_rel {solve : List R → List R → Option (List R)} {Q : (Nat → R) → (Nat → R) → Prop}
    {col : Bool} {m n : Nat} (hm : 0 < m) {ldb ldx : Nat}
    (hQ : ∀ f g g', (∀ i, i < m → g' i = g i) → Q f g → Q f g')
    (hs : ∀ b x, (∀ i, i < m → i * colInc col ldb < b.length) → (∀ i, i < m → i * colInc col ldx < x.length) →
      ∃ x', solve b x = some x' ∧ x'.length = x.length ∧
        (∀ k, (∀ i, i < m → k ≠ i * colInc col ldx) → x'[k]? = x[k]?) ∧
        Q (fun i => b.getD (i * colInc col ldb) 0) (fun i => x'.getD (i * colInc col ldx) 0))
    {B : List R} (hB : ∀ i j, i < m → j < n → denseOff col ldb i j < B.length)
    (hld : ∀ i j, i < m → j < n → mnr col i j < ldx) :
    ∀ (sched : List Nat) (_ : sched.Nodup) (_ : ∀ j ∈ sched, j < n) (X : List R),
      (∀ i j, i < m → j < n → denseOff col ldx i j < X.length) →
      ∃ X', sched.foldlM (trsmCol (fun (_ : Unit) b x => (solve b x).map fun x' => (Status.success, x', ()))
          (colOff col ldb : Int) (colOff col ldx : Int) B) (.success, X, ()) = some (.success, X', ()) ∧
        X'.length = X.length ∧
        (∀ j ∈ sched, Q (fun i => B.getD (denseOff col ldb i j) 0) (fun i => X'.getD (denseOff col ldx i j) 0)) ∧
        (∀ p, (∀ j ∈ sched, ∀ i, i < m → p ≠ denseOff col ldx i j) → X'[p]? = X[p]?) := by
  intro sched hnd hr X hX
  refine trsmLoop_cols (len := X.length)
    (Q := fun j g => Q (fun i => B.getD (denseOff col ldb i j) 0) g) hm (fun j => hQ _) ?_ hB hld sched hnd hr X rfl hX
  intro j x hj hx
  obtain ⟨x', e, s1, s2, s3⟩ := hs (B.drop (j * colOff col ldb)) x
    (by
      intro i hi
      have := hB i j hi hj
      rw [denseOff_col] at this
      rw [List.length_drop]; omega)
    (by
      intro i hi
      have := hX i j hi hj
      rw [denseOff_col] at this
      omega)
  refine ⟨x', e, s1, s2, ?_⟩
  have hb : (fun i => B.getD (denseOff col ldb i j) 0)
      = fun i => (B.drop (j * colOff col ldb)).getD (i * colInc col ldb) 0 := by
    funext i
    rw [denseOff_col col ldb, List.getD_eq_getElem?_getD, List.getD_eq_getElem?_getD, List.getElem?_drop]
  simp only [hb]
  exact s3

end Verif
