import Verif.Proofs.AddExact2
import Verif.Proofs.RoundedSp2m3
import Verif.Spec.RoundedAdd

/-!
The stored values of a sparse sum.
-/

namespace Verif
open Model

variable {R : Type}

/-- the first value of column `j` -/
def lookE (L : List (Int × R)) (j : Int) : Option R := (L.find? fun e => e.1 = j).map (·.2)

theorem lookE_nil (j : Int) : lookE ([] : List (Int × R)) j = none := rfl

theorem lookE_cons (e : Int × R) (L : List (Int × R)) (j : Int) :
    lookE (e :: L) j = if e.1 = j then some e.2 else lookE L j := by
  unfold lookE
  by_cases h : e.1 = j
  · rw [if_pos h, List.find?_cons_of_pos (by simpa using h)]; rfl
  · rw [if_neg h, List.find?_cons_of_neg (by simpa using h)]

theorem lookE_none {L : List (Int × R)} {j : Int} : lookE L j = none ↔ j ∉ L.map (·.1) := by
  induction L with
  | nil => simp [lookE_nil]
  | cons e L ih =>
    rw [lookE_cons]
    by_cases h : e.1 = j
    · simp [h]
    · rw [if_neg h, ih]
      simp only [List.map_cons, List.mem_cons, not_or]
      exact ⟨fun h' => ⟨fun e' => h e'.symm, h'⟩, fun h' => h'.2⟩

theorem lookE_append (L M : List (Int × R)) (j : Int) :
    lookE (L ++ M) j = (lookE L j).or (lookE M j) := by
  induction L with
  | nil => rfl
  | cons e L ih =>
    rw [List.cons_append, lookE_cons, lookE_cons, ih]
    by_cases h : e.1 = j
    · rw [if_pos h, if_pos h]; rfl
    · rw [if_neg h, if_neg h]

theorem lookE_map (f : R → R) (L : List (Int × R)) (j : Int) :
    lookE (L.map fun e => (e.1, f e.2)) j = (lookE L j).map f := by
  induction L with
  | nil => rfl
  | cons e L ih =>
    rw [List.map_cons, lookE_cons, lookE_cons, ih]
    by_cases h : e.1 = j
    · rw [if_pos h, if_pos h]; rfl
    · rw [if_neg h, if_neg h]

theorem lookE_modify (f : R → R) {L : List (Int × R)} (hn : (L.map (·.1)).Nodup) {t : Nat} {c : Int}
    (ht : (L.map (·.1))[t]? = some c) (j : Int) :
    lookE (L.modify t fun x => (x.1, f x.2)) j = if j = c then (lookE L j).map f else lookE L j := by
  induction L generalizing t with
  | nil => simp at ht
  | cons e L ih =>
    rw [List.map_cons, List.nodup_cons] at hn
    cases t with
    | zero =>
      simp only [List.map_cons, List.getElem?_cons_zero, Option.some.injEq] at ht
      rw [List.modify_zero_cons, lookE_cons, lookE_cons]
      by_cases h : e.1 = j
      · rw [if_pos h, if_pos (by omega), if_pos h]; rfl
      · rw [if_neg h, if_neg h, if_neg (by omega)]
    | succ t =>
      simp only [List.map_cons, List.getElem?_cons_succ] at ht
      rw [List.modify_succ_cons, lookE_cons, lookE_cons, ih hn.2 ht]
      by_cases h : e.1 = j
      · have hj : ¬ j = c := by
          rintro rfl
          exact hn.1 (h ▸ List.mem_of_getElem? ht)
        rw [if_pos h, if_pos h, if_neg hj]
      · rw [if_neg h, if_neg h]

variable [Zero R] [Add R] [Mul R]

omit [Zero R] in
/-- the elements of a row -/
theorem lookE_addFold (cj : R → R) (alpha : R) (A : Csr R) {i : Nat} (hA : ((A.row i).map (·.1)).Nodup)
    (pre : List (Int × R)) (hp : (pre.map (·.1)).Nodup) (j : Int) :
    lookE (pre.foldl (addPut (A.cols i)) ((A.row i).map fun e => (e.1, alpha * cj e.2))) j
      = sumStored alpha ((lookE (A.row i) j).map cj) (lookE pre j) := by
  induction pre using List.reverseRecOn with
  | nil =>
    rw [List.foldl_nil, lookE_map (fun x => alpha * cj x), lookE_nil]
    cases lookE (A.row i) j <;> rfl
  | append_singleton pre e ih =>
    rw [List.map_append, List.map_cons, List.map_nil, List.nodup_append] at hp
    obtain ⟨hp1, -, hp2⟩ := hp
    have hpe : e.1 ∉ pre.map (·.1) := fun h => hp2 _ h _ (by simp) rfl
    have ih := ih hp1
    have hc := addFold_cols cj alpha A i pre
    rw [List.foldl_append, List.foldl_cons, List.foldl_nil, lookE_append, lookE_cons, lookE_nil]
    generalize pre.foldl (addPut (A.cols i)) ((A.row i).map fun e => (e.1, alpha * cj e.2)) = L at ih hc ⊢
    have hnL : (L.map (·.1)).Nodup := by
      rw [hc, List.nodup_append]
      refine ⟨hA, hp1.sublist (List.Sublist.map _ List.filter_sublist), ?_⟩
      intro a ha b hb hab
      rw [List.mem_map] at hb
      obtain ⟨e', he', rfl⟩ := hb
      rw [List.mem_filter] at he'
      have := he'.2
      rw [decide_eq_true_eq] at this
      exact this (hab ▸ ha)
    unfold addPut
    by_cases hin : e.1 ∈ A.cols i
    · rw [if_pos hin, lookE_modify (fun x => x + e.2) hnL (c := e.1) (by
        rw [hc, List.getElem?_append_left (lastIdx_lt hin)]; exact lastIdx_get hin), ih]
      by_cases hj : j = e.1
      · subst hj
        rw [if_pos rfl, if_pos rfl, lookE_none.2 hpe]
        have : lookE (A.row i) e.1 ≠ none := fun h => lookE_none.1 h hin
        cases hl : lookE (A.row i) e.1 with
        | none => exact absurd hl this
        | some a => rfl
      · have hj' : ¬ e.1 = j := fun h => hj h.symm
        rw [if_neg hj, if_neg hj', Option.or_none]
    · rw [if_neg hin, lookE_append, lookE_cons, lookE_nil, ih]
      by_cases hj : e.1 = j
      · subst hj
        rw [if_pos rfl, lookE_none.2 hpe, lookE_none.2 (show e.1 ∉ (A.row i).map (·.1) from hin)]
        rfl
      · rw [if_neg hj, Option.or_none, Option.or_none]

omit [Zero R] in
theorem addSum_stored (cj : R → R) (alpha : R) {A B : Csr R} (hm : B.m = A.m) (hA : A.NoDup)
    (hB : B.NoDup) {i : Nat} (hi : i < A.m) (j : Nat) :
    (addSum cj alpha A B).stored i j = sumStored alpha ((A.stored i j).map cj) (B.stored i j) := by
  have : (addSum cj alpha A B).row i = addRowX cj alpha A B i := mkCsr_row hi
  unfold Csr.stored
  rw [this]
  exact lookE_addFold cj alpha A (hA i hi) _ (hB i (by omega)) _

omit [Zero R] in
theorem addSum_wf (cj : R → R) (alpha : R) {A B : Csr R} (hA : A.WF) (hB : B.WF) (hn : B.n = A.n) :
    (addSum cj alpha A B).WF := by
  apply mkCsr_wf hA.base01
  intro i hi e he
  have : e.1 ∈ (addRowX cj alpha A B i).map (·.1) := List.mem_map_of_mem he
  rw [addRowX_cols, List.mem_append] at this
  rcases this with h | h
  · rw [Csr.cols, List.mem_map] at h
    obtain ⟨e', he', h⟩ := h
    have := Csr.row_range hA he'
    omega
  · rw [List.mem_map] at h
    obtain ⟨e', he', h⟩ := h
    have := Csr.row_range hB (List.mem_of_mem_filter he')
    omega

omit [Zero R] in
theorem addSum_nodup (cj : R → R) (alpha : R) {A B : Csr R} (hm : B.m = A.m) (hA : A.NoDup) (hB : B.NoDup) :
    (addSum cj alpha A B).NoDup := by
  intro i hi
  have hi' : i < A.m := hi
  have : (addSum cj alpha A B).row i = addRowX cj alpha A B i := mkCsr_row hi
  show (((addSum cj alpha A B).row i).map (·.1)).Nodup
  rw [this, addRowX_cols, List.nodup_append]
  refine ⟨hA i hi', (hB i (by omega)).sublist (List.Sublist.map _ List.filter_sublist), ?_⟩
  intro a ha b hb hab
  rw [List.mem_map] at hb
  obtain ⟨e', he', rfl⟩ := hb
  unfold newB at he'
  rw [List.mem_filter] at he'
  have := he'.2
  rw [decide_eq_true_eq] at this
  exact this (hab ▸ ha)

theorem orient_flip {A : Csr R} (h : A.WF) (tr ta : Bool) :
    orient tr (A.raw ta) = some (.ok (flipC tr A).arrs) := by
  cases tr
  · rfl
  · obtain ⟨e, -, -, -⟩ := csr2csc_flip h (cp := List.replicate (A.n + 1) 0)
      (ri := List.replicate A.nnz 0) (cv := List.replicate A.nnz 0) (by simp) (by simp) (by simp)
    unfold orient
    rw [if_pos rfl]
    have t1 : ((A.raw ta).n + 1).toNat = A.n + 1 := by show ((A.n : Int) + 1).toNat = _; omega
    have t2 : (A.raw ta).nnz.toNat = A.nnz := by show ((A.nnz : Int)).toNat = _; omega
    rw [t1, t2]
    show (csr2csc (A.m : Int) A.n A.nnz A.base A.base (some A.ptr) (some A.ind) (some A.val) _ _ _).bind _ = _
    rw [e]
    rfl

end Verif
