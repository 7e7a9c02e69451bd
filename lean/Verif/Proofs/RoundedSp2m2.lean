/-
The values of the sparse product in an arithmetic without algebraic laws.
-/
import Verif.Proofs.RoundedSp2m
import Verif.Proofs.Rounding
import Verif.Proofs.Oft3

namespace Verif
open Model Rounding

variable {R : Type}

/-! ### the products an element is a sum of -/

/-- the factors of the products in row `i`, in order, with their column -/
def pairRow (X Y : Csr R) (i : Nat) : List (Int × R × R) :=
  (X.row i).flatMap fun e => (Y.row e.1.toNat).map fun f => (f.1, e.2, f.2)

/-- the factors of the products in position `(i, j)`, in order -/
def pairsAt (X Y : Csr R) (i j : Nat) : List (R × R) :=
  ((pairRow X Y i).filter fun e => decide (e.1 = (j : Int))).map (·.2)

theorem prodRow_pairs [Mul R] (cA cB : R → R) (X Y : Csr R) (i : Nat) :
    prodRow cA cB X Y i = (pairRow X Y i).map fun p => (p.1, cA p.2.1 * cB p.2.2) := by
  simp [prodRow, pairRow, List.map_flatMap, Function.comp_def]

theorem filter_pairs [Mul R] (cA cB : R → R) (X Y : Csr R) (i j : Nat) :
    ((prodRow cA cB X Y i).filter fun e => decide (e.1 = (j : Int))).map (·.2)
      = (pairsAt X Y i j).map fun p => cA p.1 * cB p.2 := by
  rw [prodRow_pairs, List.filter_map, List.map_map, pairsAt, List.map_map]
  rfl

theorem colAcc_pairs [Zero R] [Add R] [Mul R] (cA cB : R → R) (X Y : Csr R) (i j : Nat) :
    colAcc (prodRow cA cB X Y i) j = addUp ((pairsAt X Y i j).map fun p => cA p.1 * cB p.2) := by
  rw [colAcc, filter_pairs]

theorem colSum_pairs [Semiring R] (cA cB : R → R) (X Y : Csr R) (i j : Nat) :
    colSum (prodRow cA cB X Y i) j = ((pairsAt X Y i j).map fun p => cA p.1 * cB p.2).sum := by
  rw [colSum, filter_pairs]

theorem pairsAt_mapTo {T : Type} (f : R → T) (X Y : Csr R) (i j : Nat) :
    pairsAt (X.mapTo f) (Y.mapTo f) i j = (pairsAt X Y i j).map fun p => (f p.1, f p.2) := by
  unfold pairsAt pairRow
  simp only [mapTo_row, List.flatMap_map, List.map_map, List.filter_flatMap, List.map_flatMap,
    List.filter_map]
  rfl

theorem pairsAt_nil {X Y : Csr R} {i j : Nat} :
    pairsAt X Y i j = [] ↔ (j : Int) ∉ mmCols X Y i := by
  have h : (pairRow X Y i).map (·.1) = mmCols X Y i := by
    simp only [pairRow, mmCols, List.map_flatMap, List.map_map]
    rfl
  rw [← h, pairsAt, List.map_eq_nil_iff, List.filter_eq_nil_iff]
  simp only [decide_eq_true_eq, List.mem_map, not_exists, not_and]

theorem mmCsr_mem [Zero R] [Add R] [Mul R] (cA cB : R → R) {X Y : Csr R} {i j : Nat} (hi : i < X.m)
    (v : R) : ((j : Int), v) ∈ (mmCsr cA cB X Y).row i ↔ pairsAt X Y i j ≠ [] ∧
      v = addUp ((pairsAt X Y i j).map fun p => cA p.1 * cB p.2) := by
  rw [mmCsr, mkCsr_row hi, mmRowL, List.mem_map]
  constructor
  · rintro ⟨c, hc, h⟩
    simp only [Prod.mk.injEq] at h
    obtain ⟨rfl, rfl⟩ := h
    refine ⟨fun h0 => pairsAt_nil.mp h0 (mem_firsts.mp hc), ?_⟩
    rw [colAcc_pairs, Int.toNat_natCast]
  · rintro ⟨h, rfl⟩
    refine ⟨(j : Int), mem_firsts.mpr ?_, ?_⟩
    · by_contra hn
      exact h (pairsAt_nil.mpr hn)
    · rw [colAcc_pairs, Int.toNat_natCast]

/-- the products element `(i, j)` of the result is a sum of, in the order in which they are added; the
factors are in the order of the computed product -/
def resPairs (opA : Op) (ta : Bool) (A : Csr R) (opB : Op) (tb : Bool) (B : Csr R) (i j : Nat) :
    List (R × R) :=
  if bothT ta opA tb opB then pairsAt (facX opA ta A opB tb B) (facY opA ta A opB tb B) j i
  else pairsAt (facX opA ta A opB tb B) (facY opA ta A opB tb B) i j

theorem resC_mem [Zero R] [Add R] [Mul R] (cj : R → R) (isReal : Bool) {opA : Op} {ta : Bool}
    {A : Csr R} {opB : Op} {tb : Bool} {B : Csr R} (hA : A.WF) (hB : B.WF)
    (hdim : opCols opA ta A = opRows opB tb B) {i j : Nat} (hi : i < opRows opA ta A)
    (hj : j < opCols opB tb B) (v : R) :
    ((j : Int), v) ∈ (resC cj isReal opA ta A opB tb B).row i ↔
      resPairs opA ta A opB tb B i j ≠ [] ∧
      v = addUp ((resPairs opA ta A opB tb B i j).map fun p =>
        cjF cj isReal (if bothT ta opA tb opB then opB else opA) p.1 *
        cjF cj isReal (if bothT ta opA tb opB then opA else opB) p.2) := by
  obtain ⟨-, -, -, h1, h2, -⟩ := resC_ok cj isReal hA hB hdim
  unfold resC at h1 h2 ⊢
  unfold resPairs
  by_cases hb : bothT ta opA tb opB = true
  · rw [hb] at h1 h2 ⊢
    have hi' : i < (facY opA ta A opB tb B).n := by
      have : (facY opA ta A opB tb B).n = opRows opA ta A := h1
      omega
    have hj' : j < (facX opA ta A opB tb B).m := by
      have : (facX opA ta A opB tb B).m = opCols opB tb B := h2
      omega
    simp only [if_true]
    refine Iff.trans (flipC_mem (A := mmCsr (cjF cj isReal opB) (cjF cj isReal opA)
      (facX opA ta A opB tb B) (facY opA ta A opB tb B)) hi' v) ?_
    rw [mmCsr_mem _ _ hj']
    exact ⟨fun h => h.2, fun h => ⟨hj', h⟩⟩
  · have hb' : bothT ta opA tb opB = false := by simpa using hb
    rw [hb'] at h1 h2 ⊢
    have hi' : i < (facX opA ta A opB tb B).m := by
      have : (facX opA ta A opB tb B).m = opRows opA ta A := h1
      omega
    simp only [Bool.false_eq_true, if_false]
    exact mmCsr_mem _ _ hi' v

theorem resPairs_mapTo {T : Type} (f : R → T) (opA : Op) (ta : Bool) (A : Csr R) (opB : Op) (tb : Bool)
    (B : Csr R) (i j : Nat) : resPairs opA ta (A.mapTo f) opB tb (B.mapTo f) i j
      = (resPairs opA ta A opB tb B i j).map fun p => (f p.1, f p.2) := by
  unfold resPairs
  rw [(fac_mapTo f opA ta A opB tb B).1, (fac_mapTo f opA ta A opB tb B).2]
  split <;> exact pairsAt_mapTo f _ _ _ _

/-- the element of op(A), up to conjugation -/
def opEnt {T : Type} [Semiring T] (op : Op) (ta : Bool) (A : Csr T) (i k : Nat) : T :=
  if trOf ta op then A.mat k i else A.mat i k

/-- in a commutative semiring the products add up to the element of the product -/
theorem resPairs_sum {T : Type} [CommSemiring T] {opA : Op} {ta : Bool} {A : Csr T} {opB : Op}
    {tb : Bool} {B : Csr T} (hA : A.WF) (hB : B.WF) (hdim : opCols opA ta A = opRows opB tb B)
    {i j : Nat} (hi : i < opRows opA ta A) (hj : j < opCols opB tb B) :
    ((resPairs opA ta A opB tb B i j).map fun p => p.1 * p.2).sum
      = ∑ k ∈ Finset.range (opCols opA ta A), opEnt opA ta A i k * opEnt opB tb B k j := by
  obtain ⟨hX, hY, hXY⟩ := fac_wf (opA := opA) (ta := ta) (opB := opB) (tb := tb) hA hB hdim
  have rA := effRows ta opA A
  have rB := effRows tb opB B
  unfold resPairs opEnt
  by_cases hb : bothT ta opA tb opB = true
  · have hb' : trOf ta opA = true ∧ trOf tb opB = true := by simpa [bothT] using hb
    have hfX : facX opA ta A opB tb B = B := by unfold facX; rw [if_pos hb]
    have hfY : facY opA ta A opB tb B = A := by unfold facY; rw [if_pos hb]
    have h := prodRow_sum (RingHom.id T) (RingHom.id T) (A := B) (B := A) hB (i := j) i
    rw [colSum_pairs] at h
    rw [if_pos hb, hfX, hfY]
    refine Eq.trans h ?_
    rw [hfX, hfY] at hXY
    rw [rA.2, if_pos hb'.1, hXY]
    refine Finset.sum_congr rfl fun k _ => ?_
    rw [if_pos hb'.1, if_pos hb'.2]
    exact mul_comm _ _
  · have hfX : facX opA ta A opB tb B = flipC (trOf ta opA) A := by unfold facX; rw [if_neg hb]
    have hfY : facY opA ta A opB tb B = flipC (trOf tb opB) B := by unfold facY; rw [if_neg hb]
    have oa := flipC_oriented hA (trOf ta opA)
    have ob := flipC_oriented hB (trOf tb opB)
    rw [hfX] at hX
    rw [hfX, hfY] at hXY
    have h := prodRow_sum (RingHom.id T) (RingHom.id T) (A := flipC (trOf ta opA) A)
      (B := flipC (trOf tb opB) B) hX (i := i) j
    rw [colSum_pairs] at h
    rw [if_neg hb, hfX, hfY]
    refine Eq.trans h ?_
    have h1 : (flipC (trOf ta opA) A).m = opRows opA ta A := by rw [oa.m, rA.1]
    have h2 : (flipC (trOf tb opB) B).n = opCols opB tb B := by rw [ob.n, rB.2]
    have h3 : (flipC (trOf ta opA) A).n = opCols opA ta A := by rw [oa.n, rA.2]
    rw [← h3]
    refine Finset.sum_congr rfl fun k hk => ?_
    have hk := Finset.mem_range.mp hk
    have e1 := oa.entry i k (by omega) hk
    have e2 := ob.entry k j (by omega) (by omega)
    simp only [RingHom.id_apply]
    rw [show (flipC (trOf ta opA) A).mat i k = _ from e1,
      show (flipC (trOf tb opB) B).mat k j = _ from e2]
    rfl

/-- the number of products -/
theorem resPairs_length {opA : Op} {ta : Bool} {A : Csr R} {opB : Op} {tb : Bool} {B : Csr R}
    (hA : A.WF) (hB : B.WF) (hdim : opCols opA ta A = opRows opB tb B)
    {i j : Nat} (hi : i < opRows opA ta A) (hj : j < opCols opB tb B) :
    (resPairs opA ta A opB tb B i j).length = prodTerms opA ta A opB tb B i j := by
  have h := resPairs_sum (T := ℕ) (mapTo_wf (fun _ => 1) hA) (mapTo_wf (fun _ => 1) hB)
    (opA := opA) (ta := ta) (opB := opB) (tb := tb) hdim hi hj
  rw [resPairs_mapTo, List.map_map] at h
  have hc : ∀ (M : Csr R) (a b : Nat), (M.mapTo fun _ => (1 : ℕ)).mat a b
      = ((M.row a).map (·.1)).count (b : Int) := by
    intro M a b
    rw [mat_eq_colSum, mapTo_row, colSum, List.filter_map, List.map_map]
    have : ((fun e : Int × ℕ => e.2) ∘ fun e : Int × R => (e.1, 1)) = fun _ => 1 := rfl
    rw [this, List.map_const', List.sum_replicate, List.count_eq_countP, List.countP_map,
      List.countP_eq_length_filter]
    simp only [smul_eq_mul, mul_one]
    congr 1
  have he : ∀ (op : Op) (t : Bool) (M : Csr R) (a b : Nat),
      opEnt op t (M.mapTo fun _ => (1 : ℕ)) a b = opCount op t M a b := by
    intro op t M a b
    unfold opEnt opCount
    rw [hc, hc]
    rfl
  simp only [he] at h
  unfold prodTerms
  refine Eq.trans ?_ h
  have : ((fun p : ℕ × ℕ => p.1 * p.2) ∘ fun p : R × R => (1, 1)) = fun _ => 1 := rfl
  rw [this, List.map_const', List.sum_replicate]
  simp

/-! ### rounding -/

section
variable {ρ : Rounding} {F : Fpu (Fp ρ)}

/-- the real number in a `Lazy` value -/
def Lazy.real (x : Lazy F) : ℝ := x.val.v

theorem lazy_near_from (hF : F.Rounds) (l : List (Lazy F × Lazy F)) :
    ∀ (c : Lazy F) (k : Nat) (v w : ℝ), 1 ≤ k → ρ.Near k v w c.real →
      ρ.Near (k + l.length) (v + (l.map fun p => p.1.real * p.2.real).sum)
        (w + (l.map fun p => |p.1.real| * |p.2.real|).sum)
        (Lazy.real ((l.map fun p : Lazy F × Lazy F => p.1 * p.2).foldl (· + ·) c)) := by
  induction l with
  | nil => intro c k v w _ h; simpa using h
  | cons p l ih =>
    intro c k v w hk h
    have h1 := Near.mac hF.smac p.1.val p.2.val c.val h
    rw [Nat.max_eq_right hk] at h1
    have := ih (c + p.1 * p.2) (k + 1) _ _ (by omega) h1
    simp only [List.map_cons, List.sum_cons, List.foldl_cons, List.length_cons]
    rw [show k + (l.length + 1) = k + 1 + l.length by omega]
    convert this using 1
    · unfold Lazy.real; ring
    · unfold Lazy.real; ring

theorem lazy_near (hF : F.Rounds) {l : List (Lazy F × Lazy F)} (h : l ≠ []) :
    ρ.Near l.length (l.map fun p => p.1.real * p.2.real).sum
      (l.map fun p => |p.1.real| * |p.2.real|).sum
      (Lazy.real (addUp (l.map fun p : Lazy F × Lazy F => p.1 * p.2))) := by
  cases l with
  | nil => exact absurd rfl h
  | cons p l =>
    have h1 : ρ.Near 1 (p.1.real * p.2.real) (|p.1.real| * |p.2.real|) (p.1 * p.2).real :=
      (Near.prod p.1.real p.2.real).round
    have := lazy_near_from hF l (p.1 * p.2) 1 _ _ (le_refl 1) h1
    rw [List.length_cons, Nat.add_comm]
    simpa [addUp] using this

end

/-! ### an element of a matrix without duplicates -/

theorem nodup_filter {M : Csr R} (h : M.NoDup) {i : Nat} (hi : i < M.m) {j : Nat} {v : R}
    (hv : ((j : Int), v) ∈ M.row i) :
    (M.row i).filter (fun e => decide (e.1 = (j : Int))) = [((j : Int), v)] := by
  have hn := h i hi
  generalize M.row i = l at hn hv
  induction l with
  | nil => simp at hv
  | cons e l ih =>
    rw [List.map_cons, List.nodup_cons] at hn
    rcases List.mem_cons.mp hv with he | he
    · subst he
      have : l.filter (fun e => decide (e.1 = (j : Int))) = [] := by
        rw [List.filter_eq_nil_iff]
        intro a ha
        simp only [decide_eq_true_eq]
        intro hj
        exact hn.1 (List.mem_map.mpr ⟨a, ha, hj⟩)
      rw [List.filter_cons_of_pos (by simp), this]
    · have : ¬ e.1 = (j : Int) := fun hj => hn.1 (List.mem_map.mpr ⟨_, he, hj.symm⟩)
      rw [List.filter_cons_of_neg (by simpa using this)]
      exact ih hn.2 he

theorem mapTo_mat_mem {T : Type} [Semiring T] (f : R → T) {M : Csr R} (h : M.NoDup) {i : Nat}
    (hi : i < M.m) {j : Nat} {v : R} (hv : ((j : Int), v) ∈ M.row i) : (M.mapTo f).mat i j = f v := by
  rw [mat_eq_colSum, mapTo_row, colSum, List.filter_map, List.map_map]
  have := nodup_filter h hi hv
  rw [show ((fun e : Int × T => decide (e.1 = (j : Int))) ∘ fun e : Int × R => (e.1, f e.2))
    = fun e => decide (e.1 = (j : Int)) from rfl, this]
  simp

theorem mapTo_mat_not {T : Type} [Semiring T] (f : R → T) {M : Csr R} {i j : Nat}
    (hv : ∀ v, ((j : Int), v) ∉ M.row i) : (M.mapTo f).mat i j = 0 := by
  rw [mat_eq_colSum, mapTo_row, colSum, List.filter_map, List.map_map]
  have : (M.row i).filter (fun e => decide (e.1 = (j : Int))) = [] := by
    rw [List.filter_eq_nil_iff]
    intro e he
    simp only [decide_eq_true_eq]
    intro hj
    exact hv e.2 (hj ▸ he)
  rw [show ((fun e : Int × T => decide (e.1 = (j : Int))) ∘ fun e : Int × R => (e.1, f e.2))
    = fun e => decide (e.1 = (j : Int)) from rfl, this]
  rfl

theorem stored_mem {M : Csr R} (h : M.NoDup) {i : Nat} (hi : i < M.m) {j : Nat} {v : R}
    (hv : ((j : Int), v) ∈ M.row i) : M.stored i j = some v := by
  unfold Csr.stored
  rw [← List.head?_filter, nodup_filter h hi hv]
  rfl

theorem stored_not {M : Csr R} {i j : Nat} (hv : ∀ v, ((j : Int), v) ∉ M.row i) :
    M.stored i j = none := by
  unfold Csr.stored
  rw [Option.map_eq_none_iff, List.find?_eq_none]
  intro e he
  simp only [decide_eq_true_eq]
  intro hj
  exact hv e.2 (hj ▸ he)

end Verif
