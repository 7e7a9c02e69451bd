/-
The sparse product of sorted matrices in an arithmetic without algebraic laws.
-/
import Verif.Proofs.RoundedSp2m2

namespace Verif
open Model

variable {R : Type}

theorem stored_iff {M : Csr R} (h : M.NoDup) {i : Nat} (hi : i < M.m) {j : Nat} {v : R} :
    M.stored i j = some v ↔ ((j : Int), v) ∈ M.row i := by
  constructor
  · intro hs
    unfold Csr.stored at hs
    rw [Option.map_eq_some_iff] at hs
    obtain ⟨e, he, rfl⟩ := hs
    have h1 := List.mem_of_find?_eq_some he
    have h2 := List.find?_some he
    simp only [decide_eq_true_eq] at h2
    rw [← h2]
    exact h1
  · exact stored_mem h hi

theorem stored_toList {M : Csr R} (h : M.WF) (hn : M.NoDup) (i j : Nat) :
    ((M.row i).filter fun e => decide (e.1 = (j : Int))).map (·.2) = (M.stored i j).toList := by
  by_cases hi : i < M.m
  · cases hs : M.stored i j with
    | some v =>
      rw [nodup_filter hn hi ((stored_iff hn hi).mp hs)]
      rfl
    | none =>
      have : (M.row i).filter (fun e => decide (e.1 = (j : Int))) = [] := by
        rw [List.filter_eq_nil_iff]
        intro e he
        simp only [decide_eq_true_eq]
        intro hj
        have := (stored_iff hn hi (j := j) (v := e.2)).mpr (hj ▸ he)
        rw [hs] at this
        cases this
      rw [this]
      rfl
  · have h0 := Csr.row_of_ge h (by omega : M.m ≤ i)
    simp [Csr.stored, h0]

/-- a row in increasing order of the columns is given by the stored values -/
theorem strict_row {M : Csr R} (h : M.WF) (hs : M.Strict) {i : Nat} (hi : i < M.m) :
    M.row i = (List.range M.n).filterMap fun k => (M.stored i k).map fun v => ((k : Int), v) := by
  have hlt := hs i hi
  have hn : M.NoDup := fun i hi => (hs i hi).imp fun h => ne_of_lt h
  have s1 : (M.row i).Pairwise fun a b => a.1 < b.1 := List.pairwise_map.mp hlt
  have s2 : ((List.range M.n).filterMap fun k => (M.stored i k).map fun v => ((k : Int), v)).Pairwise
      fun a b => a.1 < b.1 := by
    rw [List.pairwise_filterMap]
    refine List.pairwise_lt_range.imp ?_
    intro a b hab x hx y hy
    rw [Option.map_eq_some_iff] at hx hy
    obtain ⟨_, -, rfl⟩ := hx
    obtain ⟨_, -, rfl⟩ := hy
    simp only
    omega
  refine List.Perm.eq_of_pairwise (le := fun a b => a.1 < b.1) ?_ s1 s2 ?_
  · intro a b _ _ h1 h2
    omega
  · rw [List.perm_ext_iff_of_nodup (s1.imp fun h e => by rw [e] at h; exact lt_irrefl _ h)
      (s2.imp fun h e => by rw [e] at h; exact lt_irrefl _ h)]
    intro e
    rw [List.mem_filterMap]
    constructor
    · intro he
      have hr := Csr.row_range h he
      refine ⟨e.1.toNat, by rw [List.mem_range]; omega, ?_⟩
      have e1 : ((e.1.toNat : Nat) : Int) = e.1 := by omega
      rw [(stored_iff hn hi (v := e.2)).mpr (by rw [e1]; exact he), Option.map_some, e1]
    · rintro ⟨k, -, hk⟩
      rw [Option.map_eq_some_iff] at hk
      obtain ⟨v, hv, rfl⟩ := hk
      exact (stored_iff hn hi).mp hv

theorem pairsAt_stored {X Y : Csr R} (hX : X.WF) (hY : Y.WF) (hs : X.Strict) (hn : Y.NoDup) {i : Nat}
    (hi : i < X.m) (j : Nat) : pairsAt X Y i j = (List.range X.n).filterMap fun k =>
      (X.stored i k).bind fun a => (Y.stored k j).map fun b => (a, b) := by
  have h1 : pairsAt X Y i j = (X.row i).flatMap fun e =>
      ((Y.stored e.1.toNat j).toList.map fun b => (e.2, b)) := by
    unfold pairsAt pairRow
    rw [List.filter_flatMap, List.map_flatMap]
    congr 1
    funext e
    rw [← stored_toList hY hn, List.filter_map, List.map_map, List.map_map]
    rfl
  have h2 : (X.row i).flatMap (fun e => ((Y.stored e.1.toNat j).toList.map fun b => (e.2, b)))
      = (X.row i).filterMap fun e => (Y.stored e.1.toNat j).map fun b => (e.2, b) := by
    generalize X.row i = l
    induction l with
    | nil => rfl
    | cons e l ih =>
      rw [List.flatMap_cons, List.filterMap_cons, ih]
      cases Y.stored e.1.toNat j <;> rfl
  rw [h1, h2, strict_row hX hs hi, List.filterMap_filterMap]
  congr 1
  funext k
  cases X.stored i k with
  | none => rfl
  | some a => simp

/-! ### the transpose of a sorted matrix -/

/-- the transposed copy of a matrix without duplicates has its rows in strict order -/
theorem flipT_strict {A : Csr R} (hnd : A.NoDup) : (flipC true A).Strict := by
  intro i hi
  rw [flipC_row hi, List.map_map]
  have key : ∀ m, m ≤ A.m → ((((List.range m).flatMap fun r => (A.row r).map fun e => (r, e.1, e.2)).filter
      (fun e => decide (e.2.1 = (i : Int)))).map (fun e => (e.1 : Int))).Pairwise (· < ·) ∧
      ∀ x ∈ (((List.range m).flatMap fun r => (A.row r).map fun e => (r, e.1, e.2)).filter
      (fun e => decide (e.2.1 = (i : Int)))).map (fun e => (e.1 : Int)), x < (m : Int) := by
    intro m
    induction m with
    | zero => intro _; simp
    | succ m ih =>
      intro hm
      obtain ⟨a, b⟩ := ih (by omega)
      rw [List.range_succ, List.flatMap_append, List.filter_append, List.map_append]
      simp only [List.flatMap_cons, List.flatMap_nil, List.append_nil]
      have hlast : ((((A.row m).map fun e => (m, e.1, e.2)).filter
          (fun e => decide (e.2.1 = (i : Int)))).map (fun e => (e.1 : Int))).Pairwise (· < ·) ∧
          ∀ x ∈ (((A.row m).map fun e => (m, e.1, e.2)).filter
          (fun e => decide (e.2.1 = (i : Int)))).map (fun e => (e.1 : Int)), x = (m : Int) := by
        rw [List.filter_map, List.map_map]
        constructor
        · by_cases hv : ∃ v, ((i : Int), v) ∈ A.row m
          · obtain ⟨v, hv⟩ := hv
            have := nodup_filter hnd (by omega) hv
            rw [show ((fun e : Nat × Int × R => decide (e.2.1 = (i : Int))) ∘
              fun e : Int × R => (m, e.1, e.2)) = fun e => decide (e.1 = (i : Int)) from rfl, this]
            simp
          · have : (A.row m).filter (fun e => decide (e.1 = (i : Int))) = [] := by
              rw [List.filter_eq_nil_iff]
              intro e he
              simp only [decide_eq_true_eq]
              intro hj
              exact hv ⟨e.2, hj ▸ he⟩
            rw [show ((fun e : Nat × Int × R => decide (e.2.1 = (i : Int))) ∘
              fun e : Int × R => (m, e.1, e.2)) = fun e => decide (e.1 = (i : Int)) from rfl, this]
            simp
        · intro x hx
          rw [List.mem_map] at hx
          obtain ⟨e, -, rfl⟩ := hx
          rfl
      constructor
      · rw [List.pairwise_append]
        refine ⟨a, hlast.1, ?_⟩
        intro x hx y hy
        rw [hlast.2 y hy]
        exact b x hx
      · intro x hx
        rw [List.mem_append] at hx
        rcases hx with hx | hx
        · have := b x hx; push_cast; omega
        · rw [hlast.2 x hx]; push_cast; omega
  exact (key A.m (le_refl _)).1

theorem flipC_strict {A : Csr R} (hs : A.Strict) (tr : Bool) : (flipC tr A).Strict := by
  cases tr
  · exact hs
  · exact flipT_strict fun i hi => (hs i hi).imp fun h => ne_of_lt h

theorem flipC_storedVal {A : Csr R} (hA : A.WF) (hn : A.NoDup) (tr : Bool) {i j : Nat}
    (hi : i < (flipC tr A).m) (hj : j < (flipC tr A).n) :
    (flipC tr A).stored i j = if tr then A.stored j i else A.stored i j := by
  cases tr
  · rfl
  · rw [if_pos rfl]
    ext v
    rw [stored_iff (flipC_nodup hn true) hi, stored_iff hn hj, flipC_mem hi]
    exact ⟨fun h => h.2, fun h => ⟨hj, h⟩⟩

/-- sorted factors without duplicates: the products are those of the stored entries for increasing `k` -/
theorem resPairs_stored {opA : Op} {ta : Bool} {A : Csr R} {opB : Op} {tb : Bool} {B : Csr R}
    (hA : A.WF) (hB : B.WF) (sA : A.Strict) (sB : B.Strict)
    (hdim : opCols opA ta A = opRows opB tb B) {i j : Nat} (hi : i < opRows opA ta A)
    (hj : j < opCols opB tb B) :
    resPairs opA ta A opB tb B i j = (List.range (opCols opA ta A)).filterMap fun k =>
      (if trOf ta opA then A.stored k i else A.stored i k).bind fun a =>
        (if trOf tb opB then B.stored j k else B.stored k j).map fun b =>
          if bothT ta opA tb opB then (b, a) else (a, b) := by
  have nA : A.NoDup := fun i hi => (sA i hi).imp fun h => ne_of_lt h
  have nB : B.NoDup := fun i hi => (sB i hi).imp fun h => ne_of_lt h
  obtain ⟨hX, hY, hXY⟩ := fac_wf (opA := opA) (ta := ta) (opB := opB) (tb := tb) hA hB hdim
  have rA := effRows ta opA A
  have rB := effRows tb opB B
  unfold resPairs
  by_cases hb : bothT ta opA tb opB = true
  · have hb' : trOf ta opA = true ∧ trOf tb opB = true := by simpa [bothT] using hb
    have hfX : facX opA ta A opB tb B = B := by unfold facX; rw [if_pos hb]
    have hfY : facY opA ta A opB tb B = A := by unfold facY; rw [if_pos hb]
    rw [hfX, hfY] at hXY
    rw [if_pos hb, hfX, hfY]
    rw [if_pos hb'.1, if_pos hb'.1] at rA
    rw [if_pos hb'.2, if_pos hb'.2] at rB
    rw [pairsAt_stored hB hA sB nA (by rw [← rB.2]; exact hj), rA.2, hXY]
    congr 1
    funext k
    simp only [hb, hb'.1, hb'.2, if_true]
    cases A.stored k i <;> cases B.stored j k <;> rfl
  · have hfX : facX opA ta A opB tb B = flipC (trOf ta opA) A := by unfold facX; rw [if_neg hb]
    have hfY : facY opA ta A opB tb B = flipC (trOf tb opB) B := by unfold facY; rw [if_neg hb]
    obtain ⟨w1, -, m1, n1, -⟩ := flipC_wf hA (trOf ta opA)
    obtain ⟨w2, -, m2, n2, -⟩ := flipC_wf hB (trOf tb opB)
    rw [hfX, hfY] at hXY
    rw [if_neg hb, hfX, hfY, pairsAt_stored w1 w2 (flipC_strict sA _) (flipC_nodup nB _)
      (by rw [m1, ← rA.1]; exact hi)]
    rw [n1, ← rA.2]
    refine List.filterMap_congr fun k hk => ?_
    rw [List.mem_range] at hk
    rw [flipC_storedVal hA nA _ (by rw [m1, ← rA.1]; exact hi) (by rw [n1, ← rA.2]; exact hk),
      flipC_storedVal hB nB _ (by rw [m2, ← rB.1, ← hdim]; exact hk) (by rw [n2, ← rB.2]; exact hj)]
    simp only [hb, if_false, Bool.false_eq_true]

end Verif
