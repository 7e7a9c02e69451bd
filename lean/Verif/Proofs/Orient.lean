import Verif.Proofs.CsrAdd
import Verif.Proofs.Triples
import Verif.Props.Csc

namespace Verif
open Model

variable {R : Type}

/-- the handle holding the arrays `A` -/
def Csr.raw (A : Csr R) (isT : Bool) : RawMat R :=
  ⟨0, isT, A.m, A.n, A.nnz, A.base, A.ptr, A.ind, A.val⟩

theorem Csr.entries_length {A : Csr R} (h : A.WF) : A.entries.length = A.nnz := by
  have h1 := congrArg List.length (Csr.rows_flatten h)
  rw [List.length_map, List.length_zip, h.val_len, Nat.min_self] at h1
  rw [Csr.nnz, ← h1, Csr.entries, List.length_flatMap, List.length_flatMap]
  simp

/-- What it means that `A'` is `A` or its transpose. -/
structure Oriented [AddCommMonoid R] (tr : Bool) (A A' : Csr R) : Prop where
  m : A'.m = if tr then A.n else A.m
  n : A'.n = if tr then A.m else A.n
  base : A'.base = A.base
  wf : A'.WF
  nnz : A'.nnz = A.nnz
  entry : ∀ i j, i < A'.m → j < A'.n → A'.entry i j = if tr then A.entry j i else A.entry i j
  nodup : A.NoDup → A'.NoDup
  stored : ∀ i j, i < A'.m → j < A'.n →
    ((j : Int) ∈ A'.cols i ↔ if tr then (i : Int) ∈ A.cols j else (j : Int) ∈ A.cols i)

theorem oriented_refl [AddCommMonoid R] {A : Csr R} (h : A.WF) : Oriented false A A :=
  ⟨rfl, rfl, rfl, h, rfl, fun _ _ _ _ => rfl, id, fun _ _ _ _ => Iff.rfl⟩

/-- columns of the rows collected for column `j` -/
theorem colRow_nodup {A : Csr R} (hnd : A.NoDup) (j : Nat) :
    ((A.entries.filter (fun e => e.2.1 = (j : Int))).map (fun e => ((e.1 : Int), e.2.2))).map (·.1)
      |>.Nodup := by
  rw [List.map_map]
  unfold Csr.entries
  have key : ∀ k, k ≤ A.m → ((((List.range k).flatMap fun i => (A.row i).map fun e => (i, e.1, e.2)).filter
      (fun e => decide (e.2.1 = (j : Int)))).map (fun e => (e.1 : Int))).Nodup ∧
      ∀ x ∈ ((((List.range k).flatMap fun i => (A.row i).map fun e => (i, e.1, e.2)).filter
      (fun e => decide (e.2.1 = (j : Int)))).map (fun e => (e.1 : Int))), x < (k : Int) := by
    intro k
    induction k with
    | zero => intro _; simp
    | succ k ih =>
      intro hk
      obtain ⟨h1, h2⟩ := ih (by omega)
      rw [List.range_succ, List.flatMap_append, List.filter_append, List.map_append]
      simp only [List.flatMap_cons, List.flatMap_nil, List.append_nil]
      have hrow : (((A.row k).map fun e => (k, e.1, e.2)).filter
          (fun e => decide (e.2.1 = (j : Int)))).map (fun e => (e.1 : Int))
          = ((A.row k).filter fun e => decide (e.1 = (j : Int))).map fun _ => (k : Int) := by
        rw [List.filter_map, List.map_map]; rfl
      rw [hrow]
      have hle : ((A.row k).filter fun e => decide (e.1 = (j : Int))).length ≤ 1 := by
        have hn := hnd k (by omega)
        have : ((A.row k).filter fun e => decide (e.1 = (j : Int))).length
            = ((A.row k).map (·.1)).count (j : Int) := by
          rw [List.count_eq_countP, List.countP_map, List.countP_eq_length_filter]
          congr 1
        rw [this]
        exact List.nodup_iff_count_le_one.mp hn _
      refine ⟨?_, ?_⟩
      · rw [List.nodup_append]
        refine ⟨h1, ?_, ?_⟩
        · rw [List.map_const', List.nodup_replicate]
          exact hle
        · intro a ha b hb hab
          have := h2 a ha
          simp only [List.mem_map] at hb
          obtain ⟨_, _, hb⟩ := hb
          omega
      · intro x hx
        rw [List.mem_append] at hx
        rcases hx with h | h
        · have := h2 x h; push_cast; omega
        · simp only [List.mem_map] at h
          obtain ⟨_, _, hb⟩ := h
          push_cast; omega
  have := (key A.m (le_refl _)).1
  simpa [Function.comp_def] using this

theorem oriented_trans [AddCommMonoid R] {A B : Csr R} (h : A.WF) (hm : B.m = A.n) (hn : B.n = A.m)
    (hb : B.base = A.base) (hwf : B.WF)
    (hrow : ∀ j, j < A.n → B.row j =
        (A.entries.filter (fun e => e.2.1 = (j : Int))).map (fun e => ((e.1 : Int), e.2.2)))
    (hp : (B.triples.map swapRC).Perm A.triples) : Oriented true A B := by
  refine ⟨hm, hn, hb, hwf, ?_, ?_, ?_, ?_⟩
  · have h1 := hp.length_eq
    rw [List.length_map, Csr.triples, Csr.triples, List.length_map, List.length_map,
      Csr.entries_length h, Csr.entries_length hwf] at h1
    exact h1
  · intro i j hi hj
    exact Csr.entry_of_cols h hm hp (by omega) (by omega)
  · intro hnd i hi
    rw [hrow i (by omega)]
    exact colRow_nodup hnd i
  · intro i j hi hj
    rw [if_pos rfl, Csr.cols, hrow i (by omega), List.map_map, Csr.cols]
    simp only [List.mem_map, List.mem_filter, Csr.mem_entries, Function.comp]
    constructor
    · rintro ⟨⟨r, c, v⟩, ⟨⟨h1, h2⟩, h3⟩, h4⟩
      have hr : r = j := by simp only at h4; omega
      subst hr
      simp only [decide_eq_true_eq] at h3
      exact ⟨(c, v), h2, h3⟩
    · rintro ⟨⟨c, v⟩, h2, h3⟩
      refine ⟨(j, c, v), ⟨⟨by omega, h2⟩, by simpa using h3⟩, rfl⟩

theorem orient_ok [AddCommMonoid R] {A : Csr R} (h : A.WF) (tr isT : Bool) :
    ∃ A', orient tr (A.raw isT) = some (.ok A'.arrs) ∧ Oriented tr A A' := by
  cases tr
  · exact ⟨A, rfl, oriented_refl h⟩
  · obtain ⟨B, he, h1, h2, h3, hwf, hrow, hp⟩ := C05_csr2csc A h A.base h.base01
      (List.replicate (A.n + 1) 0) (List.replicate A.nnz 0) (List.replicate A.nnz (0 : R))
      (by simp) (by simp) (by simp)
    refine ⟨B, ?_, oriented_trans h h1 h2 h3 hwf hrow hp⟩
    unfold orient
    simp only [Csr.raw, if_true]
    rw [show ((A.n : Int) + 1).toNat = A.n + 1 by omega, Int.toNat_natCast, he]
    simp [Csr.arrs, h3]

end Verif
