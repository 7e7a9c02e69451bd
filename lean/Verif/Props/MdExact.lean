/-
C73  The elements of a product of two sparse matrices with dense result, bit for bit, and their rounding
errors (sp2md, spmmd).
-/
import Verif.Proofs.MdExact
import Verif.Proofs.MmRound
import Verif.Proofs.ShadowTri
import Verif.Props.Sp2md
import Verif.Props.MmExact
import Mathlib.Data.Real.Star

namespace Verif
open Model Finset

variable {R : Type} [Zero R] [One R] [Add R] [Mul R] [DecidableEq R]

/-- B as used, for real types -/
theorem mdB_flip {B : Csr R} (hB : B.WF) (g : Garb R) (cj : R → R) (tr tb : Bool) :
    mdB g cj tr false (B.raw tb) = some (.ok (flipC tr B).arrs) := by
  unfold mdB
  cases tr with
  | false => rfl
  | true =>
    rw [if_neg (by simp), if_pos rfl, orientG_flip hB true tb g]
    obtain ⟨w, hz, -⟩ := flipC_wf hB true
    have hc := conjLoop_ok false cj (flipC true B).val (n := B.nnz) (by rw [w.val_len]; exact_mod_cast hz.symm)
    simp only [Option.bind_some]
    simp only [Csr.raw, Csr.arrs]
    rw [hc, Option.bind_some]
    simp

/-- **C73, values.**  For the real types, in any arithmetic: each element of C after sp2md is the scaled
old element to which the products `(alpha * a_ik) * b_kj` of the stored values of op(A) and op(B) are added
one after another, each once; in the order k = 0, 1, … if the rows of A are sorted or A is traversed by
columns of op(A).  Whether B is used as it is stored or through a transposed copy makes no difference to any bit. -/
theorem C73_value {w : Nat} (g : Garb R) (cj : R → R)
    (opA opB : Op) (ta tb : Bool) {A B : Csr R} (hA : A.WF) (hB : B.WF) {dA dB : Descr}
    (hta : dA.type = 0) (htb : dB.type = 0) (hba : dA.base = A.base) (hbb : dB.base = B.base)
    (hdim : opCols opA ta A = opRows opB tb B) (alpha beta : R) {C : List R} (col : Bool) {ldc : Nat}
    (hld : (if col then opRows opA ta A else opCols opB tb B) ≤ ldc)
    (hov : prodOvf w (if col then (opCols opB tb B : Int) else opRows opA ta A) ldc = false)
    (hC : ∀ i j, i < opRows opA ta A → j < opCols opB tb B → denseOff col ldc i j < C.length) :
    ∃ (C' : List R) (L : Nat → Nat → List R), sp2md w true g cj opA.code (some dA) (some (A.raw ta)) opB.code (some dB) (some (B.raw tb))
        alpha beta (some C) (if col then 1 else 0) ldc = some (.success, some C') ∧
      IsCells col (opRows opA ta A) (opCols opB tb B) ldc (fun i j c =>
        if alpha = 0 then scaledCell beta c else (L i j).foldl (· + ·) (scaledCell beta c)) C C' ∧
      ∀ i j, i < opRows opA ta A → j < opCols opB tb B →
        (L i j).Perm (mdProds alpha opA ta A opB tb B i j) ∧
        ((ta != decide (opA ≠ .none)) = true ∨ A.Sorted → L i j = mdProds alpha opA ta A opB tb B i j) := by
  set mc := opRows opA ta A with hmc
  set nc := opCols opB tb B with hnc
  have b1 := eff_bits true ta dA.fill opA
  have b2 := eff_bits true tb dB.fill opB
  have eX := mdB_flip hB g cj (trOf tb opB) tb
  obtain ⟨wX, -, mX, nX, -⟩ := flipC_wf hB (trOf tb opB)
  have rA := effRows ta opA A
  have rB := effRows tb opB B
  rw [← hmc] at rA
  rw [← hnc] at rB
  set X := flipC (trOf tb opB) B with hXd
  have hXm : X.m = if trOf ta opA then A.m else A.n := by rw [mX, ← rB.1, ← hdim, rA.2]
  have hXn : X.n = nc := by rw [nX, ← rB.2]
  have hmn : mnr col mc nc ≤ ldc := by cases col <;> simpa [mnr] using hld
  have ht : (ta != decide (opA ≠ .none)) = trOf ta opA := by cases ta <;> cases opA <;> rfl
  -- the run
  have hrep := Rep.of_list C (0 : R)
  obtain ⟨C1, e1, r1⟩ := mdScale_vals beta hmn hC hrep
  have hadds := mdKernel_vals (col := col) (tr := trOf ta opA) hA wX (alpha := alpha)
    (ldc := ldc) (len := C.length) hXm (by
      intro i j hi hj
      rw [← rA.1] at hi
      exact hC i j hi (by omega))
  have hfin : ∃ C', (if alpha = 0 then some (Status.success, C1)
        else (mdKernel col (trOf ta opA) id A.m A.arrs X.arrs alpha ldc C1).map
          fun C => (Status.success, C)) = some (.success, C') ∧
      Rep C' C.length (fun p => if alpha = 0 then doneF ldc (fun a b => a < maj col mc nc ∧ b < mnr col mc nc)
        (fun _ _ v => scaledCell beta v) (fun k => C.getD k 0) p
          else (mdVals col (trOf ta opA) A X alpha ldc p).foldl (· + ·)
            (doneF ldc (fun a b => a < maj col mc nc ∧ b < mnr col mc nc)
              (fun _ _ v => scaledCell beta v) (fun k => C.getD k 0) p)) := by
    by_cases h0 : alpha = 0
    · refine ⟨C1, by rw [if_pos h0], r1.congr (fun p _ => ?_)⟩
      rw [if_pos h0]
    · obtain ⟨C', e2, r2⟩ := hadds C1 _ r1
      refine ⟨C', by rw [if_neg h0, e2]; rfl, r2.congr (fun p _ => ?_)⟩
      rw [if_neg h0]
  obtain ⟨C', eC, rC⟩ := hfin
  refine ⟨C', fun i j => mdVals col (trOf ta opA) A X alpha ldc (denseOff col ldc i j), ?_, ⟨rC.1, ?_, ?_⟩, ?_⟩
  · unfold sp2md
    simp only
    rw [if_neg (by simp [hta, htb]), if_neg (by cases col <;> simp), if_neg (by simp [Csr.raw])]
    have u1 : (if opA.code = 111 then (A.raw ta).um else (A.raw ta).un) = (mc : Int) := by
      rw [hmc]; cases opA <;> cases ta <;> rfl
    have u2 : (if opA.code = 111 then (A.raw ta).un else (A.raw ta).um) = (opCols opA ta A : Int) := by
      cases opA <;> cases ta <;> rfl
    have u3 : (if opB.code = 111 then (B.raw tb).um else (B.raw tb).un) = (opRows opB tb B : Int) := by
      cases opB <;> cases tb <;> rfl
    have u4 : (if opB.code = 111 then (B.raw tb).un else (B.raw tb).um) = (nc : Int) := by
      rw [hnc]; cases opB <;> cases tb <;> rfl
    rw [u1, u2, u3, u4, if_neg (by rw [hdim]; simp)]
    have l1 : ((if (if col = true then (1 : Int) else 0) = 0 then (nc : Int) else mc))
        = ((if col then mc else nc : Nat) : Int) := by cases col <;> simp
    have l2 : ((if (if col = true then (1 : Int) else 0) = 0 then (mc : Int) else nc))
        = (if col then (nc : Int) else mc) := by cases col <;> simp
    have l3 : decide ((if col = true then (1 : Int) else 0) = 1) = col := by cases col <;> simp
    rw [l1, l2, if_neg (by omega), hov, if_neg (by simp), if_neg (by simp [Csr.raw, hba, hbb]), l3]
    unfold mdRun
    have d1 : (A.raw ta).doid = if ta then gt else gn := rfl
    have d2 : (B.raw tb).doid = if tb then gt else gn := rfl
    simp only [d1, d2, hta, htb, b1.1, b1.2, b2.1, b2.2, Bool.decide_eq_true, Bool.true_eq_false, and_false,
      decide_false, if_false]
    rw [eX, Option.bind_some]
    simp only
    rw [e1, Option.bind_some]
    have : (A.raw ta).m = (A.m : Int) := rfl
    rw [this]
    show Option.map _ (if alpha = 0 then some (Status.success, C1)
        else (mdKernel col (trOf ta opA) id A.m A.arrs X.arrs alpha ldc C1).map
          fun C => (Status.success, C)) = _
    rw [eC]
    rfl
  · intro i j hi hj
    have hd : doneF ldc (fun a b => a < maj col mc nc ∧ b < mnr col mc nc) (fun _ _ v => scaledCell beta v)
        (fun k => C.getD k 0) (denseOff col ldc i j) = scaledCell beta (C.getD (denseOff col ldc i j) 0) := by
      rw [denseOff_mm, doneF_in (by cases col <;> simp [mnr] at hmn ⊢ <;> omega)
        (by cases col <;> simp [maj, mnr] <;> omega)]
    rw [rC.getElem? (hC i j hi hj), hd]
  · intro p hp
    by_cases hpl : p < C.length
    · rw [rC.getElem? hpl, mdVals_rest hA wX (by
        intro i j hi hj
        rw [← rA.1] at hi
        exact hp i j hi (by omega)), List.foldl_nil, ite_self]
      have hnd : doneF ldc (fun a b => a < maj col mc nc ∧ b < mnr col mc nc) (fun _ _ v => scaledCell beta v)
          (fun k => C.getD k 0) p = C.getD p 0 := by
        unfold doneF
        refine if_neg (fun h => ?_)
        have hdm := Nat.div_add_mod p ldc
        cases col with
        | true =>
          refine hp (p % ldc) (p / ldc) (by simpa [mnr] using h.2) (by simpa [maj] using h.1) ?_
          simp only [denseOff, if_true]; omega
        | false =>
          refine hp (p / ldc) (p % ldc) (by simpa [maj] using h.1) (by simpa [mnr] using h.2) ?_
          simp only [denseOff, Bool.false_eq_true, if_false]
          rw [Nat.mul_comm]; omega
      rw [hnd, List.getD_eq_getElem?_getD, List.getElem?_eq_getElem hpl, Option.getD_some]
    · rw [List.getElem?_eq_none (by rw [rC.1]; omega), List.getElem?_eq_none (by omega)]
  · intro i j hi hj
    rw [ht]
    exact mdVals_prods opA ta opB tb hA hB hdim hmn hi hj

/-- **C73, reproducibility.**  Two calls that see the same stored values at each position of op(A) and op(B)
give the same bits, whatever the layouts, leading dimensions, base indices, operations and storage orders
(CSR or CSC): the rows of A sorted or A traversed by columns. -/
theorem C73_same {w w' : Nat} (g g' : Garb R) (cj cj' : R → R)
    (opA opB opA' opB' : Op) (ta tb ta' tb' : Bool) {A B A' B' : Csr R} (hA : A.WF) (hB : B.WF) (hA' : A'.WF)
    (hB' : B'.WF) {dA dB dA' dB' : Descr}
    (hta : dA.type = 0) (htb : dB.type = 0) (hba : dA.base = A.base) (hbb : dB.base = B.base)
    (hta' : dA'.type = 0) (htb' : dB'.type = 0) (hba' : dA'.base = A'.base) (hbb' : dB'.base = B'.base)
    (hdim : opCols opA ta A = opRows opB tb B) (alpha beta : R) {C D : List R} (col col' : Bool) {ldc ldc' : Nat}
    (hld : (if col then opRows opA ta A else opCols opB tb B) ≤ ldc)
    (hov : prodOvf w (if col then (opCols opB tb B : Int) else opRows opA ta A) ldc = false)
    (hC : ∀ i j, i < opRows opA ta A → j < opCols opB tb B → denseOff col ldc i j < C.length)
    (hm : opRows opA' ta' A' = opRows opA ta A) (hk : opCols opA' ta' A' = opCols opA ta A)
    (hk' : opRows opB' tb' B' = opRows opB tb B) (hn : opCols opB' tb' B' = opCols opB tb B)
    (hld' : (if col' then opRows opA ta A else opCols opB tb B) ≤ ldc')
    (hov' : prodOvf w' (if col' then (opCols opB tb B : Int) else opRows opA ta A) ldc' = false)
    (hD : ∀ i j, i < opRows opA ta A → j < opCols opB tb B → denseOff col' ldc' i j < D.length)
    (hs : (ta != decide (opA ≠ .none)) = true ∨ A.Sorted) (hs' : (ta' != decide (opA' ≠ .none)) = true ∨ A'.Sorted)
    (sA : ∀ i k, i < opRows opA ta A → k < opCols opA ta A → opVals opA' ta' A' i k = opVals opA ta A i k)
    (sB : ∀ k j, k < opRows opB tb B → j < opCols opB tb B → opVals opB' tb' B' k j = opVals opB tb B k j)
    (sC : ∀ i j, i < opRows opA ta A → j < opCols opB tb B → D[denseOff col' ldc' i j]? = C[denseOff col ldc i j]?) :
    ∃ C' D', sp2md w true g cj opA.code (some dA) (some (A.raw ta)) opB.code (some dB) (some (B.raw tb))
        alpha beta (some C) (if col then 1 else 0) ldc = some (.success, some C') ∧
      sp2md w' true g' cj' opA'.code (some dA') (some (A'.raw ta')) opB'.code (some dB') (some (B'.raw tb'))
        alpha beta (some D) (if col' then 1 else 0) ldc' = some (.success, some D') ∧
      ∀ i j, i < opRows opA ta A → j < opCols opB tb B →
        D'[denseOff col' ldc' i j]? = C'[denseOff col ldc i j]? := by
  obtain ⟨C', L, e, c, l⟩ := C73_value (w := w) g cj opA opB ta tb hA hB hta htb hba hbb hdim alpha beta col hld hov hC
  obtain ⟨D', L', e', c', l'⟩ := C73_value (w := w') g' cj' opA' opB' ta' tb' hA' hB' hta' htb' hba' hbb'
    (by rw [hk, hk', hdim]) alpha beta col' (ldc := ldc') (C := D) (by rw [hm, hn]; exact hld') (by rw [hm, hn]; exact hov')
    (by rw [hm, hn]; exact hD)
  refine ⟨C', D', e, e', fun i j hi hj => ?_⟩
  rw [c.cells i j hi hj, c'.cells i j (by omega) (by omega), (l i j hi hj).2 hs, (l' i j (by omega) (by omega)).2 hs']
  have e1 : mdProds alpha opA' ta' A' opB' tb' B' i j = mdProds alpha opA ta A opB tb B i j := by
    unfold mdProds
    rw [hk]
    refine flatMap_congr' fun k hkk => ?_
    have := List.mem_range.1 hkk
    rw [sA i k hi this, sB k j (by omega) hj]
  rw [e1]
  have e2 : D.getD (denseOff col' ldc' i j) 0 = C.getD (denseOff col ldc i j) 0 := by
    rw [List.getD_eq_getElem?_getD, List.getD_eq_getElem?_getD, sC i j hi hj]
  rw [e2]

/-! ### rounding -/

variable {ρ : Rounding} {v : R → ℝ} {fac : R → Option (ℝ × ℝ)}

theorem foldl_near (hR : Contracts ρ v fac) : ∀ {L : List R} {E : List (ℝ × ℝ)},
    List.Forall₂ (fun x e => NearC ρ v fac 2 e.1 e.2 x) L E → ∀ {k : Nat} {e s : ℝ} {r : R}, 2 ≤ k →
      NearC ρ v fac k e s r →
      NearC ρ v fac (k + L.length) (e + (E.map (·.1)).sum) (s + (E.map (·.2)).sum) (L.foldl (· + ·) r)
  | _, _, .nil, k, e, s, r, _, h => by simpa using h
  | x :: L, p :: E, .cons hx hL, k, e, s, r, hk, h => by
    have := foldl_near hR hL (show 2 ≤ k + 1 by omega) (h.add hR (hx.mono hk))
    simp only [List.map_cons, List.sum_cons, List.foldl_cons, List.length_cons]
    rw [show k + (L.length + 1) = k + 1 + L.length by omega, ← add_assoc, ← add_assoc]
    exact this

theorem scaledCell_near (hR : Contracts ρ v fac) (h1 : v 1 = 1) (beta : R) {q : R} (hq : fac q = none) :
    NearC ρ v fac 1 (v beta * v q) (|v beta| * |v q|) (scaledCell beta q) := by
  have : scaledCell beta q = sc beta q := by
    unfold scaledCell sc
    by_cases h : beta = 1 <;> simp [h]
  rw [this]
  exact sc_rel hR h1 beta hq

theorem list_range_sum {M : Type} [AddCommMonoid M] (n : Nat) (f : Nat → M) :
    ((List.range n).map f).sum = ∑ k ∈ range n, f k := by
  induction n with
  | zero => rfl
  | succ n ih => rw [List.range_succ, sum_range_succ, ← ih]; simp

theorem list_sum_flatMap {α M : Type} [AddMonoid M] (L : List α) (f : α → List M) :
    (L.flatMap f).sum = (L.map fun a => (f a).sum).sum := by
  induction L with
  | nil => rfl
  | cons a L ih => simp [ih]

/-- the factors of the products -/
def mdPairs {R : Type} (opA : Op) (ta : Bool) (A : Csr R) (opB : Op) (tb : Bool) (B : Csr R) (i j : Nat) : List (R × R) :=
  (List.range (opCols opA ta A)).flatMap fun k =>
    (opVals opA ta A i k).flatMap fun a => (opVals opB tb B k j).map fun b => (a, b)

omit [Zero R] [One R] [Add R] [DecidableEq R] in
theorem mdProds_pairs (alpha : R) (opA : Op) (ta : Bool) (A : Csr R) (opB : Op) (tb : Bool) (B : Csr R) (i j : Nat) :
    mdProds alpha opA ta A opB tb B i j = (mdPairs opA ta A opB tb B i j).map fun p => alpha * p.1 * p.2 := by
  unfold mdProds mdPairs
  simp [List.map_flatMap, Function.comp_def]

omit [Zero R] [One R] [Add R] [Mul R] [DecidableEq R] in
theorem opVals_length (op : Op) (ta : Bool) (A : Csr R) (i j : Nat) :
    (opVals op ta A i j).length = opCount op ta A i j := by
  have key : ∀ (L : List (Int × R)) (c : Int), ((L.filter fun e => e.1 = c).map (·.2)).length = (L.map (·.1)).count c := by
    intro L c
    rw [List.length_map, ← List.countP_eq_length_filter, List.count, List.countP_map]
    refine List.countP_congr fun e _ => ?_
    simp
  unfold opVals opCount
  split <;> exact key _ _

omit [Zero R] [One R] [Add R] [Mul R] [DecidableEq R] in
theorem mdPairs_length (opA : Op) (ta : Bool) (A : Csr R) (opB : Op) (tb : Bool) (B : Csr R) (i j : Nat) :
    (mdPairs opA ta A opB tb B i j).length = prodTerms opA ta A opB tb B i j := by
  unfold mdPairs prodTerms
  rw [List.length_flatMap, ← list_range_sum]
  congr 1
  refine List.map_congr_left fun k _ => ?_
  rw [List.length_flatMap]
  simp [opVals_length]

omit [Zero R] [One R] [Add R] [Mul R] [DecidableEq R] in
theorem opVals_sum (f : R → ℝ) (op : Op) (ta : Bool) (A : Csr R) (i j : Nat) :
    ((opVals op ta A i j).map f).sum = applyOp op (userMat ta (A.mapTo f)) i j := by
  have key : ∀ (i j : Nat), ((((A.row i).filter fun e => e.1 = (j : Int)).map (·.2)).map f).sum = (A.mapTo f).mat i j := by
    intro i j
    rw [mat_eq_colSum, colSum, mapTo_row, List.filter_map, List.map_map, List.map_map]
    rfl
  unfold opVals
  cases ta <;> cases op <;> simp only [applyOp, userMat, transM, star_trivial] <;> exact key _ _

omit [Zero R] [One R] [Add R] [Mul R] [DecidableEq R] in
theorem mdPairs_sum (f h : R → ℝ) (opA : Op) (ta : Bool) (A : Csr R) (opB : Op) (tb : Bool) (B : Csr R) (i j : Nat) :
    ((mdPairs opA ta A opB tb B i j).map fun p => f p.1 * h p.2).sum
      = matMul (opCols opA ta A) (applyOp opA (userMat ta (A.mapTo f))) (applyOp opB (userMat tb (B.mapTo h))) i j := by
  unfold mdPairs matMul
  rw [List.map_flatMap, list_sum_flatMap, ← list_range_sum]
  congr 1
  refine List.map_congr_left fun k _ => ?_
  rw [← opVals_sum f, ← opVals_sum h, List.map_flatMap, list_sum_flatMap, ← List.sum_map_mul_right]
  congr 1
  refine List.map_congr_left fun a _ => ?_
  rw [List.map_map, ← List.sum_map_mul_left]
  rfl

/-- **C73, rounding errors.**  In an arithmetic with unit roundoff u, products fused with the following addition or
not: an element of C after sp2md differs from the exact `alpha·op(A)·op(B) + beta·C` by at most
`(1+u)^(t+2) - 1` times `|alpha|·|op(A)|·|op(B)| + |beta|·|C|`, where t is the number of products of stored
values the element is a sum of.  Nothing outside the window of C changes. -/
theorem C73_error (hR : Contracts ρ v fac) (h1 : v 1 = 1) {w : Nat} (g : Garb R) (cj : R → R)
    (opA opB : Op) (ta tb : Bool) {A B : Csr R} (hA : A.WF) (hB : B.WF) {dA dB : Descr}
    (hta : dA.type = 0) (htb : dB.type = 0) (hba : dA.base = A.base) (hbb : dB.base = B.base)
    (hdim : opCols opA ta A = opRows opB tb B) (alpha beta : R) {C : List R} (col : Bool) {ldc : Nat}
    (hld : (if col then opRows opA ta A else opCols opB tb B) ≤ ldc)
    (hov : prodOvf w (if col then (opCols opB tb B : Int) else opRows opA ta A) ldc = false)
    (hC : ∀ i j, i < opRows opA ta A → j < opCols opB tb B → denseOff col ldc i j < C.length)
    (pA : ∀ a ∈ A.val, fac a = none) (pC : ∀ c ∈ C, fac c = none) :
    ∃ C', sp2md w true g cj opA.code (some dA) (some (A.raw ta)) opB.code (some dB) (some (B.raw tb))
        alpha beta (some C) (if col then 1 else 0) ldc = some (.success, some C') ∧
      C'.length = C.length ∧
      (∀ i j, i < opRows opA ta A → j < opCols opB tb B →
        ∃ c c', C[denseOff col ldc i j]? = some c ∧ C'[denseOff col ldc i j]? = some c' ∧
          |v c' - (v alpha * matMul (opCols opA ta A) (applyOp opA (userMat ta (A.mapTo v)))
              (applyOp opB (userMat tb (B.mapTo v))) i j + v beta * v c)|
            ≤ ((1 + ρ.u) ^ (prodTerms opA ta A opB tb B i j + 2) - 1) *
              (|v alpha| * matMul (opCols opA ta A) (applyOp opA (userMat ta (A.mapTo fun a => |v a|)))
                (applyOp opB (userMat tb (B.mapTo fun b => |v b|))) i j + |v beta| * |v c|)) ∧
      ∀ p, (∀ i j, i < opRows opA ta A → j < opCols opB tb B → p ≠ denseOff col ldc i j) → C'[p]? = C[p]? := by
  obtain ⟨C', L, e, c, l⟩ := C73_value (w := w) g cj opA opB ta tb hA hB hta htb hba hbb hdim alpha beta col hld hov hC
  refine ⟨C', e, c.length, fun i j hi hj => ?_, c.rest⟩
  have hlt := hC i j hi hj
  have hq : fac C[denseOff col ldc i j] = none := pC _ (List.getElem_mem hlt)
  refine ⟨C[denseOff col ldc i j], _, List.getElem?_eq_getElem hlt, c.cells i j hi hj, ?_⟩
  rw [List.getD_eq_getElem?_getD, List.getElem?_eq_getElem hlt, Option.getD_some]
  generalize C[denseOff col ldc i j] = q at hq
  have hs := scaledCell_near hR h1 beta hq
  have hvA : ∀ k, ∀ a ∈ opVals opA ta A i k, fac a = none := by
    have key : ∀ r (a : Int × R), a ∈ A.row r → a.2 ∈ A.val := by
      intro r a ha
      unfold Csr.row at ha
      obtain ⟨x, hx, rfl⟩ := List.mem_map.1 ha
      exact (List.of_mem_zip (List.mem_of_mem_drop (List.mem_of_mem_take hx))).2
    intro k a ha
    unfold opVals at ha
    split at ha <;>
    · obtain ⟨x, hx, rfl⟩ := List.mem_map.1 ha
      exact pA _ (key _ _ (List.mem_filter.1 hx).1)
  have hpr : ∀ p ∈ mdPairs opA ta A opB tb B i j, NearC ρ v fac 2 (v alpha * (v p.1 * v p.2))
      (|v alpha| * (|v p.1| * |v p.2|)) (alpha * p.1 * p.2) := by
    intro p hp
    have hpa : fac p.1 = none := by
      unfold mdPairs at hp
      obtain ⟨k, _, hp⟩ := List.mem_flatMap.1 hp
      obtain ⟨a, ha, hp⟩ := List.mem_flatMap.1 hp
      obtain ⟨b, _, rfl⟩ := List.mem_map.1 hp
      exact hvA k a ha
    have := (NearC.prod hR (a := alpha) hpa).mul_right hR p.2
    rw [show v alpha * (v p.1 * v p.2) = v p.2 * (v alpha * v p.1) by ring,
      show |v alpha| * (|v p.1| * |v p.2|) = |v p.2| * (|v alpha| * |v p.1|) by ring]
    exact this
  have hfin : NearC ρ v fac (prodTerms opA ta A opB tb B i j + 2)
      (v alpha * matMul (opCols opA ta A) (applyOp opA (userMat ta (A.mapTo v)))
        (applyOp opB (userMat tb (B.mapTo v))) i j + v beta * v q)
      (|v alpha| * matMul (opCols opA ta A) (applyOp opA (userMat ta (A.mapTo fun a => |v a|)))
        (applyOp opB (userMat tb (B.mapTo fun b => |v b|))) i j + |v beta| * |v q|)
      (if alpha = 0 then scaledCell beta q else (L i j).foldl (· + ·) (scaledCell beta q)) := by
    by_cases h0 : alpha = 0
    · rw [if_pos h0, h0, hR.zero, abs_zero, zero_mul, zero_mul, zero_add, zero_add]
      exact hs.mono (by omega)
    · rw [if_neg h0]
      have hp := (l i j hi hj).1
      rw [mdProds_pairs] at hp
      have hf : List.Forall₂ (fun x e => NearC ρ v fac 2 e.1 e.2 x)
          ((mdPairs opA ta A opB tb B i j).map fun p => alpha * p.1 * p.2)
          ((mdPairs opA ta A opB tb B i j).map fun p => (v alpha * (v p.1 * v p.2), |v alpha| * (|v p.1| * |v p.2|))) := by
        rw [List.forall₂_map_left_iff, List.forall₂_map_right_iff, List.forall₂_same]
        exact hpr
      obtain ⟨E, hE, hpE⟩ := List.perm_comp_forall₂ hp hf
      have := foldl_near hR hE (le_refl 2) (hs.mono (by omega : 1 ≤ 2))
      rw [(hpE.map (·.1)).sum_eq, (hpE.map (·.2)).sum_eq, hp.length_eq, List.length_map, mdPairs_length, List.map_map,
        List.map_map] at this
      rw [← mdPairs_sum v v, ← mdPairs_sum (fun a => |v a|) (fun a => |v a|), ← List.sum_map_mul_left, ← List.sum_map_mul_left,
        add_comm _ (v beta * v q), add_comm _ (|v beta| * |v q|), add_comm _ 2]
      exact this
  exact hfin.1.2

/-- **C73, spmmd.**  The same for the product without scalars: what C holds before the call plays no role. -/
theorem C73_spmmd (hR : Contracts ρ v fac) (h1 : v 1 = 1) {w : Nat} (g : Garb R) (cj : R → R)
    (opA : Op) (ta tb : Bool) {A B : Csr R} (hA : A.WF) (hB : B.WF)
    (hdim : opCols opA ta A = userRows tb B) {C : List R} (col : Bool) {ldc : Nat}
    (hld : (if col then opRows opA ta A else userCols tb B) ≤ ldc)
    (hov : prodOvf w (if col then (userCols tb B : Int) else opRows opA ta A) ldc = false)
    (hC : ∀ i j, i < opRows opA ta A → j < userCols tb B → denseOff col ldc i j < C.length)
    (pA : ∀ a ∈ A.val, fac a = none) (pC : ∀ c ∈ C, fac c = none) :
    ∃ C', spmmd w true g cj opA.code (some (A.raw ta)) (some (B.raw tb)) (if col then 1 else 0) (some C)
        ldc = some (.success, some C') ∧ C'.length = C.length ∧
      (∀ i j, i < opRows opA ta A → j < userCols tb B →
        ∃ c', C'[denseOff col ldc i j]? = some c' ∧
          |v c' - matMul (opCols opA ta A) (applyOp opA (userMat ta (A.mapTo v))) (userMat tb (B.mapTo v)) i j|
            ≤ ((1 + ρ.u) ^ (prodTerms opA ta A .none tb B i j + 2) - 1) *
              matMul (opCols opA ta A) (applyOp opA (userMat ta (A.mapTo fun a => |v a|)))
                (userMat tb (B.mapTo fun b => |v b|)) i j) ∧
      ∀ p, (∀ i j, i < opRows opA ta A → j < userCols tb B → p ≠ denseOff col ldc i j) → C'[p]? = C[p]? := by
  obtain ⟨C', e, hl, hc, hr⟩ := C73_error (w := w) hR h1 g cj opA .none ta tb hA hB (dA := ⟨0, 0, 0, A.base⟩)
    (dB := ⟨0, 0, 0, B.base⟩) rfl rfl rfl rfl (by simpa [opRows] using hdim) 1 0 (C := C) col
    (by simpa [opCols] using hld) (by simpa [opCols] using hov) (by simpa [opCols] using hC) pA pC
  refine ⟨C', ?_, hl, fun i j hi hj => ?_, fun p hp => hr p (by simpa [opCols] using hp)⟩
  · unfold spmmd
    simp only
    rw [if_neg (by simp [Csr.raw])]
    exact e
  · obtain ⟨c, c', -, h2, h3⟩ := hc i j hi (by simpa [opCols] using hj)
    refine ⟨c', h2, ?_⟩
    rw [h1, hR.zero, abs_one, abs_zero, zero_mul, zero_mul, add_zero, add_zero, one_mul, one_mul] at h3
    exact h3

/-! ### examples -/

/-- `[[2, 3], [0, 4]]`, base 1 -/
def mdxA : Csr (Fp (binary 53)) := ⟨2, 2, 1, [1, 3, 4], [1, 2, 2], [⟨2⟩, ⟨3⟩, ⟨4⟩]⟩
theorem mdxA_wf : mdxA.WF := ⟨by simp [mdxA], by simp [mdxA], rfl, by decide, rfl, by simp [mdxA], by decide⟩

/-- `C := 7·Aᵀ·A + 10·C` column by column with leading dimension 3: element (1, 1) is a sum of two products -/
example : prodTerms .trans false mdxA .none false mdxA 1 1 = 2 := by decide
example := C73_error (w := 32) (fp_contracts (binary 53)) rfl ⟨fun _ => 0, fun _ => 0, fun _ => ⟨0⟩⟩ id .trans .none false false
  mdxA_wf mdxA_wf (dA := ⟨0, 0, 0, 1⟩) (dB := ⟨0, 0, 0, 1⟩) rfl rfl rfl rfl rfl ⟨7⟩ ⟨10⟩ (C := List.replicate 6 ⟨1⟩) true (ldc := 3)
  (by decide) (by decide) (by
    intro i j hi hj
    have h1 : i < 2 := hi
    have h2 : j < 2 := hj
    interval_cases i <;> interval_cases j <;> decide) (by simp) (by simp)
/-- A·A row by row, as CSC: element (0, 0) of AᵀAᵀ -/
example := C73_spmmd (w := 32) (fp_contracts (binary 53)) rfl ⟨fun _ => 0, fun _ => 0, fun _ => ⟨0⟩⟩ id .none true true
  mdxA_wf mdxA_wf rfl (C := List.replicate 4 ⟨1⟩) false (ldc := 2)
  (by decide) (by decide) (by
    intro i j hi hj
    have h1 : i < 2 := hi
    have h2 : j < 2 := hj
    interval_cases i <;> interval_cases j <;> decide) (by simp) (by simp)
/-- the products of one element, in order -/
example : mdProds (2 : ℤ) .none false ⟨1, 2, 0, [0, 2], [0, 1], [3, 5]⟩ .trans false ⟨1, 2, 0, [0, 2], [1, 0], [7, 11]⟩ 0 0
    = [2 * 3 * 11, 2 * 5 * 7] := by decide
/-- `[[2, 3], [0, 4]]` by rows with base 1 and by columns with base 0 -/
def mdxR : Csr ℤ := ⟨2, 2, 1, [1, 3, 4], [1, 2, 2], [2, 3, 4]⟩
def mdxC : Csr ℤ := ⟨2, 2, 0, [0, 1, 3], [0, 0, 1], [2, 3, 4]⟩
example := C73_same (w := 32) (w' := 64) (C := [1, 2, 3, 4]) (D := [1, 3, 0, 2, 4]) ⟨fun _ => 0, fun _ => 0, fun _ => (0 : ℤ)⟩
  ⟨fun _ => 1, fun _ => 1, fun _ => 1⟩ id id .none .trans .none .none
  false false true false (A := mdxR) (B := mdxR) (A' := mdxC) (B' := mdxC) (by decide) (by decide) (by decide) (by decide)
  (dA := ⟨0, 0, 0, 1⟩) (dB := ⟨0, 0, 0, 1⟩) (dA' := ⟨0, 0, 0, 0⟩) (dB' := ⟨0, 0, 0, 0⟩) rfl rfl rfl rfl rfl rfl rfl rfl rfl
  7 10 false true (ldc := 2) (ldc' := 3) (by decide) (by decide)
  (by intro i j hi hj; have h1 : i < 2 := hi; have h2 : j < 2 := hj; interval_cases i <;> interval_cases j <;> decide)
  rfl rfl rfl rfl (by decide) (by decide)
  (by intro i j hi hj; have h1 : i < 2 := hi; have h2 : j < 2 := hj; interval_cases i <;> interval_cases j <;> decide)
  (by decide) (by decide)
  (by intro i j hi hj; have h1 : i < 2 := hi; have h2 : j < 2 := hj; interval_cases i <;> interval_cases j <;> decide)
  (by intro i j hi hj; have h1 : i < 2 := hi; have h2 : j < 2 := hj; interval_cases i <;> interval_cases j <;> decide)
  (by intro i j hi hj; have h1 : i < 2 := hi; have h2 : j < 2 := hj; interval_cases i <;> interval_cases j <;> decide)

end Verif
