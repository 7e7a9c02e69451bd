/-
The elements of an expanded matrix, the positions of its diagonal, and conjugated copies.
-/
import Verif.Proofs.Expand2

namespace Verif
open Model

variable {R : Type}

section
variable {A : Csr R} {u : Bool} {d : Nat → R}

theorem triRow_mem {i : Nat} {e : Int × R} (he : e ∈ triRow (!u) A i) :
    e ∈ A.row i ∧ inTri (!u) i e.1.toNat = true := by
  unfold triRow at he
  rw [List.mem_filter] at he
  exact he

theorem mirRow_mem {hc : R → R} {n i : Nat} {e : Int × R}
    (he : e ∈ (List.range n).flatMap fun k => mirRow u hc A k i) :
    ∃ k, k < n ∧ e.1 = (k : Int) ∧ inTri (!u) k i = true := by
  rw [List.mem_flatMap] at he
  obtain ⟨k, hk, he⟩ := he
  rw [List.mem_range] at hk
  unfold mirRow at he
  rw [List.mem_flatMap] at he
  obtain ⟨x, _, he⟩ := he
  split at he
  · rename_i h
    simp at he
    subst he
    exact ⟨k, hk, rfl, by rw [← h.2]; exact h.1⟩
  · simp at he

/-- the parts of a row left and right of the diagonal -/
theorem expRows_parts (u : Bool) (hc : R → R) (d : Nat → R) (A : Csr R) {i : Nat} (hi : i < A.m) :
    bucket (evs u hc d A A.m) (3 * i)
        = (if u then (List.range A.m).flatMap fun k => mirRow u hc A k i else triRow (!u) A i) ∧
      bucket (evs u hc d A A.m) (3 * i + 2)
        = (if u then triRow (!u) A i else (List.range A.m).flatMap fun k => mirRow u hc A k i) := by
  have h1 := bucket_own u hc d A A.m i
  have h2 := bucket_mir u hc d A A.m i
  rw [if_pos hi] at h1
  cases u
  · exact ⟨h1, h2⟩
  · exact ⟨h2, h1⟩

/-- entries off the diagonal position -/
theorem expRows_off {hc : R → R} (hA : A.WF) (hsq : A.n = A.m) {i : Nat} (hi : i < A.m) {e : Int × R}
    (he : e ∈ bucket (evs u hc d A A.m) (3 * i) ∨ e ∈ bucket (evs u hc d A A.m) (3 * i + 2)) :
    0 ≤ e.1 ∧ e.1 < A.m ∧ e.1 ≠ i := by
  obtain ⟨p1, p2⟩ := expRows_parts u hc d A hi
  have h : e ∈ triRow (!u) A i ∨ e ∈ (List.range A.m).flatMap fun k => mirRow u hc A k i := by
    rw [p1, p2] at he
    cases u
    · exact he
    · exact he.symm
  rcases h with h | h
  · obtain ⟨h1, h2⟩ := triRow_mem h
    have := Csr.row_range hA h1
    refine ⟨by omega, by omega, ?_⟩
    intro h3
    rw [h3] at h2
    cases u <;> simp [inTri] at h2
  · obtain ⟨k, hk, h1, h2⟩ := mirRow_mem h
    refine ⟨by omega, by omega, ?_⟩
    intro h3
    have : k = i := by omega
    subst this
    cases u <;> simp [inTri] at h2

theorem expRows_range {hc : R → R} (hA : A.WF) (hsq : A.n = A.m) (i : Nat) (hi : i < A.m) :
    ∀ e ∈ expRows u hc d A i, 0 ≤ e.1 ∧ e.1 < (A.m : Int) := by
  intro e he
  unfold expRows at he
  rw [List.mem_append, List.mem_cons] at he
  rcases he with h | h | h
  · have := expRows_off hA hsq hi (Or.inl h); exact ⟨this.1, this.2.1⟩
  · subst h; simp only; omega
  · have := expRows_off hA hsq hi (Or.inr h); exact ⟨this.1, this.2.1⟩

/-- a row with one diagonal entry at a known place -/
theorem diagPos_of_row {X : Csr R} (hX : X.WF) {i : Nat} (hi : i < X.m) {L1 L2 : List (Int × R)}
    {v : R} (hrow : X.row i = L1 ++ ((i : Int), v) :: L2) (h1 : ∀ e ∈ L1, e.1 ≠ (i : Int))
    (h2 : ∀ e ∈ L2, e.1 ≠ (i : Int)) {p : Nat} (hp : (p : Int) = X.p i - X.base + L1.length) :
    DiagPos X i p := by
  have hl := Csr.row_length hX hi
  have hlen : (X.row i).length = L1.length + (L2.length + 1) := by rw [hrow]; simp
  have hlo := hX.lo (i := i) (by omega)
  have hm := hX.mono (i := i) (j := i + 1) (by omega) (by omega)
  refine ⟨by omega, by omega, ?_, ?_⟩
  · obtain ⟨c, w, a1, _, a3⟩ := Csr.row_getElem? hX hi (t := L1.length) (by omega)
    rw [hrow, List.getElem?_append_right (le_refl _)] at a3
    simp at a3
    rw [hp, a1]
    congr 1
    omega
  · intro q q1 q2 q3
    obtain ⟨t, ht⟩ : ∃ t : Nat, (q : Int) = X.p i - X.base + t := ⟨((q : Int) - (X.p i - X.base)).toNat, by omega⟩
    obtain ⟨c, w, a1, _, a3⟩ := Csr.row_getElem? hX hi (t := t) (by omega)
    rw [← ht, q3] at a1
    have hc : c - X.base = (i : Int) := by
      have := Option.some.inj a1
      omega
    rw [hc, hrow] at a3
    by_cases c1 : t < L1.length
    · rw [List.getElem?_append_left c1] at a3
      have := h1 _ (List.mem_of_getElem? a3)
      exact absurd rfl this
    · by_cases c2 : t = L1.length
      · omega
      · rw [List.getElem?_append_right (by omega)] at a3
        rw [show t - L1.length = (t - L1.length - 1) + 1 by omega, List.getElem?_cons_succ] at a3
        have := h2 _ (List.mem_of_getElem? a3)
        exact absurd rfl this

end

/-! ### elements -/

section
variable [CommSemiring R] {A : Csr R} {u : Bool} {d : Nat → R}

theorem colSum_addHom (hc : R →+ R) (L : List (Int × R)) (j : Nat) :
    colSum (L.map fun e => (e.1, hc e.2)) j = hc (colSum L j) := by
  induction L with
  | nil => simp [colSum]
  | cons a L ih =>
    rw [List.map_cons, colSum_cons, colSum_cons, map_add, ih]
    congr 1
    dsimp only
    split <;> simp

theorem colSum_mirList (hc : R →+ R) (k i j : Nat) (L : List (Int × R)) (hL : ∀ e ∈ L, 0 ≤ e.1) :
    colSum (L.flatMap fun e => if inTri (!u) k e.1.toNat ∧ e.1.toNat = i then [((k : Int), hc e.2)] else []) j
      = if k = j then hc (colSum (L.filter fun e => inTri (!u) k e.1.toNat) i) else 0 := by
  induction L with
  | nil => simp [colSum]
  | cons a L ih =>
    have ha := hL a (by simp)
    have ih' := ih (fun e he => hL e (by simp [he]))
    rw [List.flatMap_cons, colSum_append, ih']
    have hfp : inTri (!u) k a.1.toNat = true → (a :: L).filter (fun e => inTri (!u) k e.1.toNat)
        = a :: L.filter (fun e => inTri (!u) k e.1.toNat) := fun h => List.filter_cons_of_pos h
    have hfn : ¬ inTri (!u) k a.1.toNat = true → (a :: L).filter (fun e => inTri (!u) k e.1.toNat)
        = L.filter (fun e => inTri (!u) k e.1.toNat) := fun h => List.filter_cons_of_neg h
    have hnil : colSum ([] : List (Int × R)) j = 0 := by simp [colSum]
    by_cases ht : inTri (!u) k a.1.toNat = true
    · rw [hfp ht, colSum_cons]
      by_cases hi : a.1.toNat = i
      · rw [if_pos ⟨ht, hi⟩, if_pos (show a.1 = (i : Int) by omega), colSum_cons, hnil]
        by_cases hk : k = j
        · rw [if_pos hk, if_pos hk, if_pos (by simpa using hk), map_add, add_zero]
        · rw [if_neg hk, if_neg hk, if_neg (by simpa using hk), add_zero, add_zero]
      · rw [if_neg (fun h => hi h.2), if_neg (show ¬ a.1 = (i : Int) by omega), hnil, zero_add, zero_add]
    · rw [hfn ht, if_neg (fun h => ht h.1), hnil, zero_add]

theorem sum_range_single (x : R) (j m : Nat) :
    ((List.range m).map fun k => if k = j then x else 0).sum = if j < m then x else 0 := by
  induction m with
  | zero => simp
  | succ m ih =>
    rw [List.range_succ, List.map_append, List.sum_append, ih]
    by_cases h : m = j
    · subst h; simp
    · by_cases h2 : j < m
      · rw [if_pos h2, if_pos (by omega)]; simp [h]
      · rw [if_neg h2, if_neg (by omega)]; simp [h]

theorem colSum_mir (hA : A.WF) (hc : R →+ R) {i j : Nat} (hj : j < A.m) :
    colSum ((List.range A.m).flatMap fun k => mirRow u hc A k i) j
      = hc (if inTri (!u) j i then A.mat j i else 0) := by
  classical
  rw [colSum_flatMap]
  have h1 : ∀ k, colSum (mirRow u hc A k i) j
      = if k = j then hc (if inTri (!u) j i then A.mat j i else 0) else 0 := by
    intro k
    unfold mirRow
    rw [colSum_mirList hc k i j (A.row k) (fun e he => (Csr.row_range hA he).1)]
    by_cases hk : k = j
    · subst hk
      rw [if_pos rfl, if_pos rfl]
      exact congrArg hc (colSum_triRow hA (!u) k i)
    · rw [if_neg hk, if_neg hk]
  simp only [h1]
  rw [sum_range_single, if_pos hj]

/-- elements of the expanded matrix -/
theorem expRows_mat (hA : A.WF) (hc : R →+ R) {i j : Nat} (hi : i < A.m) (hj : j < A.m) :
    colSum (expRows u hc d A i) j = (if i = j then d i else 0)
      + (if inTri (!u) i j then A.mat i j else 0) + hc (if inTri (!u) j i then A.mat j i else 0) := by
  classical
  obtain ⟨p1, p2⟩ := expRows_parts u hc d A hi
  unfold expRows
  rw [colSum_append, colSum_cons, p1, p2]
  have e1 := colSum_triRow hA (!u) i j
  have e2 := colSum_mir (u := u) hA hc (i := i) hj
  have e3 : (if ((i : Int), d i).1 = (j : Int) then ((i : Int), d i).2 else 0) = if i = j then d i else 0 := by
    simp
  cases u
  · simp only [Bool.false_eq_true, if_false]
    rw [e1, e2, e3]
    ring
  · simp only [if_true]
    rw [e1, e2, e3]
    ring

/-- with at most one stored diagonal entry -/
theorem lastDiag_eq (re : R → R) (i : Nat) (L : List (Int × R))
    (h1 : (L.map (·.1)).count (i : Int) ≤ 1) (hre : re (colSum L i) = colSum L i) :
    lastDiag re i L = colSum L i := by
  have hgen : ∀ (L : List (Int × R)) (x : R), (L.map (·.1)).count (i : Int) = 0 →
      L.foldl (fun d e => if e.1 = (i : Int) then re e.2 else d) x = x ∧ colSum L i = 0 := by
    intro L
    induction L with
    | nil => intro x _; simp [colSum]
    | cons a L ih =>
      intro x hx
      rw [List.map_cons, List.count_cons] at hx
      have ha : ¬ a.1 = (i : Int) := by
        intro h
        simp [h] at hx
      have := ih x (by omega)
      rw [List.foldl_cons, if_neg ha, colSum_cons, if_neg ha, zero_add]
      exact this
  unfold lastDiag
  induction L with
  | nil => simp [colSum]
  | cons a L ih =>
    rw [List.map_cons, List.count_cons] at h1
    rw [colSum_cons] at hre ⊢
    rw [List.foldl_cons]
    by_cases ha : a.1 = (i : Int)
    · rw [if_pos ha] at hre ⊢
      rw [if_pos ha]
      have hz : (L.map (·.1)).count (i : Int) = 0 := by
        simp [ha] at h1
        simpa [List.count_eq_zero] using h1
      obtain ⟨g1, g2⟩ := hgen L (re a.2) hz
      rw [g2, add_zero] at hre ⊢
      rw [g1, hre]
    · rw [if_neg ha] at hre ⊢
      rw [if_neg ha, zero_add] at *
      exact ih (by omega) hre

end

/-- conjugating an array -/
theorem conjLoop_ok (b : Bool) (cj : R → R) (v : List R) {n : Int} (hn : n = v.length) :
    conjLoop b cj n v = some (v.map (if b then cj else id)) := by
  unfold conjLoop
  cases b
  · simp
  · rw [if_pos rfl, hn]
    obtain ⟨v', e, h1, h2, h3⟩ := forC_inv_nat (n := v.length) (s := v)
      (f := fun i v => do
        let x ← rd v i
        wr v i (cj x))
      (P := fun k v' => v'.length = v.length ∧ (∀ t, t < k → v'[t]? = (v[t]?).map cj) ∧
        ∀ t, k ≤ t → v'[t]? = v[t]?) ⟨rfl, fun t ht => absurd ht (by omega), fun _ _ => rfl⟩
      (by
        rintro k v' hk ⟨h1, h2, h3⟩
        have hk' := h3 k (le_refl _)
        have hvk : v[k]? = some v[k] := List.getElem?_eq_getElem hk
        refine ⟨v'.set k (cj v[k]), ?_, by simpa using h1, ?_, ?_⟩
        · rw [rd_ofNat, hk', hvk]
          simp [wr_ofNat (show k < v'.length by omega)]
        · intro t ht
          by_cases htk : t = k
          · subst htk
            rw [List.getElem?_set_self (by omega), hvk]
            rfl
          · rw [List.getElem?_set_ne (fun h => htk h.symm)]
            exact h2 t (by omega)
        · intro t ht
          rw [List.getElem?_set_ne (by omega)]
          exact h3 t (by omega))
    rw [e, if_pos rfl]
    congr 1
    apply List.ext_getElem?
    intro t
    rw [List.getElem?_map]
    by_cases ht : t < v.length
    · exact h2 t ht
    · rw [h3 t (by omega), List.getElem?_eq_none (by omega)]
      rfl

end Verif
