/-
C79  The elements of the dense product op(A)·op(A)ᵀ, bit for bit, and their rounding errors (syrkd).
-/
import Verif.Spec.SyrkdExact
import Verif.Proofs.SyrkdExact
import Verif.Props.SyprdExact
import Verif.Props.MdExact

namespace Verif
open Model Finset

section
variable {R : Type} [Zero R] [One R] [Add R] [Mul R] [DecidableEq R]

omit [One R] [DecidableEq R] in
/-- the kernel on a matrix whose columns are the rows of op(A) -/
theorem sdAtb_up_vals {M : Csr R} (hM : M.WF) (hs : M.Strict) (col cjl : Bool) (alpha : R) {ldc : Nat} {C C1 : List R}
    {g : R → R} (hld : M.n ≤ ldc) (hlen : ∀ i j, i ≤ j → j < M.n → denseOff col ldc i j < C.length)
    (r1 : Rep C1 C.length (doneF ldc (upS col M.n) (fun _ _ v => g v) fun k => C.getD k 0)) :
    ∃ (C' : List R) (L : Nat → Nat → List R), sdAtb col cjl id M.m M.n alpha M.arrs ldc C1 = some C' ∧
      IsUpCells col M.n ldc (fun i j c => (L i j).foldl (· + ·) (g c)) C C' ∧
      ∀ i j, i ≤ j → j < M.n → (L i j).Perm ((List.range M.m).flatMap fun k =>
        (valsAt M k i).flatMap fun a => (valsAt M k j).map fun b => alpha * a * b) := by
  obtain ⟨W, hW, ha⟩ := sdAtb_vals (col := col) (cjl := cjl) hM hs alpha hlen
  obtain ⟨C2, e2, r2⟩ := ha C1 _ r1
  refine ⟨C2, fun i j => sdCells col ldc M W alpha M.n (denseOff col ldc i j), e2,
    upper_final_val hld hlen r2 (fun p hp => sdCells_none hM W alpha hp), ?_⟩
  intro i j hij hj
  have hn : M.NoDup := fun i hi => (hs i hi).imp fun h => ne_of_lt h
  beta_reduce
  rw [sdCells_at hM W alpha hld hij hj]
  refine ((colElems_perm hM hn hW (by omega)).flatMap_right _).trans (List.Perm.of_eq ?_)
  rw [List.flatMap_assoc]
  refine flatMap_congr' fun k _ => ?_
  rw [List.flatMap_map]

omit [Zero R] [One R] [Add R] [Mul R] [DecidableEq R] in
/-- the elements of column i of the matrix the kernel works on are those of row i of op(A) -/
theorem gram_valsAt {A : Csr R} (hA : A.WF) (op : Op) (isT : Bool) {i k : Nat} (hi : i < opRows op isT A)
    (hk : k < opCols op isT A) :
    valsAt (flipC (!(decide (isT = true ↔ op = .none))) A) k i = opVals op isT A i k := by
  cases isT <;> cases op <;> first
    | rfl
    | exact flip_opVals hA .trans false hk hi
    | exact flip_opVals hA .none true hk hi

omit [Zero R] [One R] [Add R] [Mul R] [DecidableEq R] in
theorem quick_row {A : Csr R} (hA : A.WF) {isT : Bool}
    (h : (A.raw isT).um = 0 ∨ (A.raw isT).un = 0 ∨ (A.raw isT).nnz = 0) (i : Nat) : A.row i = [] := by
  have h0 : A.nnz = 0 := quick_empty (A := A.mapTo fun _ => (0 : ℤ)) (mapTo_wf _ hA) (isT := isT) h
  have hl : A.ind.length = 0 := h0
  rw [List.length_eq_zero_iff] at hl
  simp [Csr.row, hl]

omit [One R] in
/-- **C79, the operations.**  For the real types in an arithmetic without laws, such as floating point, for a
matrix without duplicates, sorted when the operation works along its stored columns: syrkd replaces every
element c of the upper triangle of C by `(((beta·c + p_1) + p_2) + …)`, or `((0 + p_1) + …)` when beta is 0, where
p_1, p_2, … are in some order the products `(alpha·a)·b` of the values stored in rows i and j of op(A) in the same
column, each taken once.  Nothing else in the array of C changes. -/
theorem C79_value {A : Csr R} (hA : A.WF) (hnd : A.NoDup) (isT : Bool) (op : Op) {vt : Nat} (hvt : vt < 2)
    {sorted : Bool} (hs : sorted = true → A.Sorted) (hsrt : sorted = true ∨ ¬ (isT = true ↔ op = .none))
    {w : Nat} (hw : 2 ≤ w) (re : R → R) (alpha beta : R) {C : List R} (col : Bool) {ldc : Nat}
    (hld : opRows op isT A ≤ ldc) (hfit : (opRows op isT A : Int) * ldc ≤ intMax w)
    (hC : ∀ i j, i ≤ j → j < opRows op isT A → denseOff col ldc i j < C.length) :
    ∃ (C' : List R) (L : Nat → Nat → List R),
      syrkdApi w vt id re op.code (some ⟨A.raw isT, vt, sorted⟩) alpha beta (some C)
        (if col then 1 else 0) ldc = some (.success, some C') ∧
      IsUpCells col (opRows op isT A) ldc
        (fun i j c => (L i j).foldl (· + ·) (if beta = 0 then 0 else beta * c)) C C' ∧
      ∀ i j, i ≤ j → j < opRows op isT A → (L i j).Perm (gramProds alpha op isT A i j) := by
  have hcol : decide ((if col then (1 : Int) else 0) = 1) = col := by cases col <;> rfl
  have hc2 : ¬ (vt = 2 ∨ vt = 3) := by omega
  unfold syrkdApi
  dsimp only
  rw [if_neg (not_not.mpr (Op.isOp op)), if_neg (by cases col <;> simp), if_neg (by simp [Csr.raw]),
    if_neg (by simp), if_neg (fun h => hc2 h.1), hcol, if_neg hc2, if_neg hc2]
  unfold syrkdRun
  dsimp only
  have heff : syEff (A.raw isT).isT op.code = 111 ↔ ¬ (isT = true ↔ op = .none) := by
    cases isT <;> cases op <;> simp [Csr.raw, syEff, Op.code]
  have hdims : (if syEff (A.raw isT).isT op.code = 111 then (A.raw isT).m else (A.raw isT).n)
      = (opRows op isT A : Int) := by
    cases isT <;> cases op <;> simp [Csr.raw, syEff, Op.code, opRows, userRows, userCols]
  rw [if_neg (by
    rintro ⟨h1, h2⟩
    rw [Ne, heff, not_not] at h2
    rcases hsrt with h | h
    · rw [h] at h1; exact absurd h1 (by simp)
    · exact h h2), hdims, if_neg (by omega), if_neg (by rw [fits_or_zero hw hfit]; simp)]
  obtain ⟨C1, e1, r1⟩ := upScale_val beta hld hC (Rep.of_list C (0 : R))
  rw [e1, Option.bind_some]
  by_cases hq : (A.raw isT).um = 0 ∨ (A.raw isT).un = 0 ∨ (A.raw isT).nnz = 0
  · rw [if_pos hq]
    refine ⟨C1, fun _ _ => [], rfl, upper_final_val hld hC (D := fun _ => []) r1 (fun _ _ => rfl), ?_⟩
    intro i j _ _
    have : gramProds alpha op isT A i j = [] := by
      unfold gramProds opVals
      simp [quick_row hA hq]
    rw [this]
  · rw [if_neg hq]
    unfold sdKernel
    have hmn : (flipC (!(decide (isT = true ↔ op = .none))) A).m = opCols op isT A ∧
        (flipC (!(decide (isT = true ↔ op = .none))) A).n = opRows op isT A := by
      cases isT <;> cases op <;> exact ⟨rfl, rfl⟩
    have hst : (flipC (!(decide (isT = true ↔ op = .none))) A).Strict := by
      by_cases h : isT = true ↔ op = .none
      · rw [show (!decide (isT = true ↔ op = .none)) = false by simp [h]]
        exact Csr.strict_of (hs (hsrt.resolve_right (not_not.mpr h))) hnd
      · rw [show (!decide (isT = true ↔ op = .none)) = true by simp [h]]
        exact flipT_strict hnd
    have main : ∀ cjl, ∃ (C' : List R) (L : Nat → Nat → List R),
        sdAtb col cjl id (flipC (!(decide (isT = true ↔ op = .none))) A).m
          (flipC (!(decide (isT = true ↔ op = .none))) A).n alpha
          (flipC (!(decide (isT = true ↔ op = .none))) A).arrs ldc C1 = some C' ∧
        IsUpCells col (opRows op isT A) ldc
          (fun i j c => (L i j).foldl (· + ·) (if beta = 0 then 0 else beta * c)) C C' ∧
        ∀ i j, i ≤ j → j < opRows op isT A → (L i j).Perm (gramProds alpha op isT A i j) := by
      intro cjl
      obtain ⟨C', L, e, u, l⟩ := sdAtb_up_vals (flipC_wf hA _).1 hst col cjl alpha (ldc := ldc) (C := C) (C1 := C1)
        (g := pdScaled beta) (by rw [hmn.2]; exact hld) (by rw [hmn.2]; exact hC) (by rw [hmn.2]; exact r1)
      rw [hmn.2] at u l
      refine ⟨C', L, e, u, fun i j hij hj => (l i j hij hj).trans (List.Perm.of_eq ?_)⟩
      rw [hmn.1]
      unfold gramProds
      refine flatMap_congr' fun k hk => ?_
      rw [List.mem_range] at hk
      rw [gram_valsAt hA op isT (i := i) (by omega) hk, gram_valsAt hA op isT hj hk]
    by_cases h : isT = true ↔ op = .none
    · rw [if_neg (fun h' => (heff.1 h') h)]
      rw [show (!decide (isT = true ↔ op = .none)) = false by simp [h]] at main
      obtain ⟨C', L, e, u, l⟩ := main (!(A.raw isT).isT)
      have e' : sdAtb col (!(A.raw isT).isT) id (A.raw isT).m (A.raw isT).n alpha (A.raw isT).arrs ldc C1 = some C' := e
      rw [e']
      exact ⟨C', L, rfl, u, l⟩
    · rw [if_pos (heff.2 h), orientT_flip hA, Option.bind_some]
      rw [show (!decide (isT = true ↔ op = .none)) = true by simp [h]] at main
      obtain ⟨C', L, e, u, l⟩ := main (A.raw isT).isT
      have e' : sdAtb col (A.raw isT).isT id (A.raw isT).n (A.raw isT).m alpha (flipC true A).arrs ldc C1 = some C' := e
      dsimp only
      rw [e']
      exact ⟨C', L, rfl, u, l⟩

end

section
variable {R : Type} [Zero R] [One R] [Add R] [Mul R] [DecidableEq R]
variable {ρ : Rounding} {v : R → ℝ} {fac : R → Option (ℝ × ℝ)}

/-- the pairs of values multiplied -/
def gramPairs (op : Op) (isT : Bool) (A : Csr R) (i j : Nat) : List (R × R) :=
  (List.range (opCols op isT A)).flatMap fun k =>
    (opVals op isT A i k).flatMap fun a => (opVals op isT A j k).map fun b => (a, b)

omit [Zero R] [One R] [Add R] [DecidableEq R] in
theorem gramProds_pairs (alpha : R) (op : Op) (isT : Bool) (A : Csr R) (i j : Nat) :
    gramProds alpha op isT A i j = (gramPairs op isT A i j).map fun p => alpha * p.1 * p.2 := by
  unfold gramProds gramPairs
  simp only [List.map_flatMap, List.map_map]
  rfl

omit [Zero R] [One R] [Add R] [Mul R] [DecidableEq R] in
theorem gramPairs_sum (f : R → ℝ) (op : Op) (isT : Bool) (A : Csr R) (i j : Nat) :
    ((gramPairs op isT A i j).map fun p => f p.1 * f p.2).sum
      = gram op (userMat isT (A.mapTo f)) (opCols op isT A) i j := by
  unfold gramPairs gram
  rw [List.map_flatMap, list_sum_flatMap, ← list_range_sum]
  congr 1
  refine List.map_congr_left fun k _ => ?_
  rw [star_trivial, ← opVals_sum f, ← opVals_sum f, List.map_flatMap, list_sum_flatMap, ← List.sum_map_mul_right]
  congr 1
  refine List.map_congr_left fun a _ => ?_
  rw [List.map_map, ← List.sum_map_mul_left]
  rfl

/-- **C79, rounding.**  For the real types in floating point, whichever products the compiler fuses with an
addition: every element of the upper triangle of C after syrkd differs from
alpha·(op(A)·op(A)ᵀ)(i, j) + beta·c by at most `(1+u)^(t+2) - 1` times `|alpha|·(|op(A)|·|op(A)|ᵀ)(i, j) + |beta|·|c|`,
where t is the number of products of stored values the element is a sum of. -/
theorem C79_error (hR : Contracts ρ v fac) {A : Csr R} (hA : A.WF) (hnd : A.NoDup) (isT : Bool) (op : Op)
    {vt : Nat} (hvt : vt < 2)
    {sorted : Bool} (hs : sorted = true → A.Sorted) (hsrt : sorted = true ∨ ¬ (isT = true ↔ op = .none))
    {w : Nat} (hw : 2 ≤ w) (re : R → R) (alpha beta : R) {C : List R} (col : Bool) {ldc : Nat}
    (hld : opRows op isT A ≤ ldc) (hfit : (opRows op isT A : Int) * ldc ≤ intMax w)
    (hC : ∀ i j, i ≤ j → j < opRows op isT A → denseOff col ldc i j < C.length)
    (pA : ∀ a ∈ A.val, fac a = none) (pC : ∀ c ∈ C, fac c = none) :
    ∃ C', syrkdApi w vt id re op.code (some ⟨A.raw isT, vt, sorted⟩) alpha beta (some C)
        (if col then 1 else 0) ldc = some (.success, some C') ∧
      ∀ i j, i ≤ j → j < opRows op isT A →
        |v (C'.getD (denseOff col ldc i j) 0)
            - (v alpha * gram op (userMat isT (A.mapTo v)) (opCols op isT A) i j
              + v beta * v (C.getD (denseOff col ldc i j) 0))|
          ≤ ((1 + ρ.u) ^ ((gramProds alpha op isT A i j).length + 2) - 1)
            * (|v alpha| * gram op (userMat isT (A.mapTo fun a => |v a|)) (opCols op isT A) i j
              + |v beta| * |v (C.getD (denseOff col ldc i j) 0)|) := by
  obtain ⟨C', L, e, r, l⟩ := C79_value hA hnd isT op hvt hs hsrt hw re alpha beta col hld hfit hC
  refine ⟨C', e, fun i j hij hj => ?_⟩
  have pc : fac (C.getD (denseOff col ldc i j) 0) = none := by
    rw [List.getD_eq_getElem?_getD, List.getElem?_eq_getElem (hC i j hij hj)]
    exact pC _ (List.getElem_mem _)
  rw [List.getD_eq_getElem?_getD (l := C'), r.cells i j hij hj, Option.getD_some]
  generalize C.getD (denseOff col ldc i j) 0 = q at pc
  have hsc : NearC ρ v fac 1 (v beta * v q) (|v beta| * |v q|) (if beta = 0 then 0 else beta * q) := by
    by_cases h0 : beta = 0
    · rw [if_pos h0, h0, hR.zero, abs_zero, zero_mul, zero_mul]
      exact (NearC.zero hR).mono (by omega)
    · rw [if_neg h0]
      exact NearC.prod hR pc
  have hvA : ∀ k, ∀ a ∈ opVals op isT A i k, fac a = none := by
    have key : ∀ r (a : Int × R), a ∈ A.row r → a.2 ∈ A.val := by
      intro r a ha
      unfold Csr.row at ha
      obtain ⟨x, hx, rfl⟩ := List.mem_map.1 ha
      exact (List.of_mem_zip (List.mem_of_mem_drop (List.mem_of_mem_take hx))).2
    intro k a ha
    unfold opVals at ha
    split at ha <;>
    · obtain ⟨x, hx, rfl⟩ := List.mem_map.1 ha
      exact pA _ (key _ _ (List.mem_filter.1 hx).1)
  have hpr : ∀ p ∈ gramPairs op isT A i j, NearC ρ v fac 2 (v alpha * (v p.1 * v p.2))
      (|v alpha| * (|v p.1| * |v p.2|)) (alpha * p.1 * p.2) := by
    intro p hp
    have hpa : fac p.1 = none := by
      unfold gramPairs at hp
      obtain ⟨k, _, hp⟩ := List.mem_flatMap.1 hp
      obtain ⟨a, ha, hp⟩ := List.mem_flatMap.1 hp
      obtain ⟨b, _, rfl⟩ := List.mem_map.1 hp
      exact hvA k a ha
    have := (NearC.prod hR (a := alpha) hpa).mul_right hR p.2
    rw [show v alpha * (v p.1 * v p.2) = v p.2 * (v alpha * v p.1) by ring,
      show |v alpha| * (|v p.1| * |v p.2|) = |v p.2| * (|v alpha| * |v p.1|) by ring]
    exact this
  have hp := l i j hij hj
  rw [gramProds_pairs] at hp ⊢
  have hf : List.Forall₂ (fun x e => NearC ρ v fac 2 e.1 e.2 x)
      ((gramPairs op isT A i j).map fun p => alpha * p.1 * p.2)
      ((gramPairs op isT A i j).map fun p => (v alpha * (v p.1 * v p.2), |v alpha| * (|v p.1| * |v p.2|))) := by
    rw [List.forall₂_map_left_iff, List.forall₂_map_right_iff, List.forall₂_same]
    exact hpr
  obtain ⟨E, hE, hpE⟩ := List.perm_comp_forall₂ hp hf
  have := foldl_near hR hE (le_refl 2) (hsc.mono (by omega : 1 ≤ 2))
  rw [(hpE.map (·.1)).sum_eq, (hpE.map (·.2)).sum_eq, hp.length_eq, List.map_map, List.map_map] at this
  rw [← gramPairs_sum v, ← gramPairs_sum (fun a => |v a|), ← List.sum_map_mul_left, ← List.sum_map_mul_left,
    add_comm _ (v beta * v q), add_comm _ (|v beta| * |v q|), add_comm _ 2]
  exact this.1.2

end

/-! ### cases that meet the hypotheses -/

/-- rows `1 0 3` and `0 4 5`, one-based and sorted -/
def sdxA : Csr ℤ := ⟨2, 3, 1, [1, 3, 5], [1, 3, 2, 3], [1, 3, 4, 5]⟩

theorem sdxA_wf : sdxA.WF :=
  ⟨by decide, by decide, by decide, by decide, by decide, by decide, by decide⟩

theorem sdxA_nodup : sdxA.NoDup := by unfold Csr.NoDup; decide +kernel
theorem sdxA_sorted : sdxA.Sorted := by unfold Csr.Sorted; decide +kernel

/-- the transposed copy is made: A·Aᵀ -/
example := C79_value sdxA_wf sdxA_nodup false .none (vt := 1) (by omega) (sorted := false) (fun h => by simp at h)
  (.inr (by simp)) (w := 32) (by omega) id 2 7 (C := [10, 20, 30, 40]) false (ldc := 2) (by decide) (by decide +kernel)
  (by
    intro i j h1 h2
    replace h2 : j < 2 := h2
    have : i * 2 + j < 4 := by omega
    simpa [denseOff] using this)

/-- the stored matrix is used: AᵀA in columns of four -/
example := C79_value sdxA_wf sdxA_nodup false .trans (vt := 1) (by omega) (sorted := true) (fun _ => sdxA_sorted)
  (.inl rfl) (w := 32) (by omega) id 2 7 (C := List.replicate 12 1) true (ldc := 4) (by decide) (by decide +kernel)
  (by
    intro i j h1 h2
    replace h2 : j < 3 := h2
    have : i + 4 * j < 12 := by omega
    simpa [denseOff] using this)

/-- the numbers, and the products -/
example : syrkdApi 32 1 id id Op.none.code (some ⟨sdxA.raw false, 1, false⟩) 2 7 (some [10, 20, 30, 40]) 0 2
      = some (.success, some [90, 170, 30, 362]) ∧
    gramProds 2 .none false sdxA 0 1 = [2 * 3 * 5] ∧ gramProds 2 .trans false sdxA 2 2 = [2 * 3 * 3, 2 * 5 * 5] ∧
    syrkdApi 32 1 id id Op.trans.code (some ⟨sdxA.raw false, 1, true⟩) 2 7 (some (List.replicate 9 1)) 0 3
      = some (.success, some [9, 7, 13, 1, 39, 47, 1, 1, 75]) := by decide +kernel

example := C79_error int_contracts sdxA_wf sdxA_nodup false .none (vt := 1) (by omega) (sorted := false)
  (fun h => by simp at h)
  (.inr (by simp)) (w := 32) (by omega) id 2 7 (C := [10, 20, 30, 40]) false (ldc := 2) (by decide) (by decide +kernel)
  (by
    intro i j h1 h2
    replace h2 : j < 2 := h2
    have : i * 2 + j < 4 := by omega
    simpa [denseOff] using this) (fun _ _ => rfl) (fun _ _ => rfl)

/-- double precision, beta = 0 -/
example := C79_error (fp_contracts (binary 53)) (mapTo_wf (fun z : ℤ => (⟨z⟩ : Fp (binary 53))) sdxA_wf)
  (by unfold Csr.NoDup; decide +kernel) true .none (vt := 1) (by omega) (sorted := true)
  (fun _ => by unfold Csr.Sorted; decide +kernel) (.inl rfl) (w := 32) (by omega) id ⟨2⟩ 0
  (C := List.replicate 9 0) true (ldc := 3) (by decide) (by decide +kernel)
  (by
    intro i j h1 h2
    replace h2 : j < 3 := h2
    have : i + 3 * j < 9 := by omega
    simpa [denseOff] using this)
  (fun _ _ => rfl) (fun _ _ => rfl)

end Verif
