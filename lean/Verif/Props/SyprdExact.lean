/-
C78  The elements of the dense product op(A)·B·op(A)ᵀ, bit for bit, and their rounding errors (syprd).
-/
import Verif.Proofs.SyprdExact
import Verif.Props.Syrkd
import Verif.Props.BsrExact
import Verif.Props.Level1Exact
import Verif.Props.Rounded

namespace Verif
open Model Finset

section
variable {R : Type} [Zero R] [One R] [Add R] [Mul R] [DecidableEq R]

omit [One R] [Add R] [Mul R] [DecidableEq R] in
theorem orientT_flip {A : Csr R} (h : A.WF) (isT : Bool) :
    orient true (A.raw isT) = some (.ok (flipC true A).arrs) := by
  obtain ⟨he, -⟩ := csr2csc_flip h (cp := List.replicate (A.n + 1) 0) (ri := List.replicate A.nnz 0)
    (cv := List.replicate A.nnz 0) (by simp) (by simp) (by simp)
  unfold orient
  simp only [Csr.raw, if_true]
  rw [show ((A.n : Int) + 1).toNat = A.n + 1 by omega, Int.toNat_natCast, he]
  rfl

omit [Zero R] [One R] [Add R] [Mul R] [DecidableEq R] in
theorem rowL_flip {A : Csr R} {i : Nat} (hi : i < A.n) :
    rowL (flipC true A) i = (List.range A.m).flatMap fun k =>
      ((A.row k).filter fun e => e.1 = (i : Int)).map fun e => (k, e.2) := by
  unfold rowL
  rw [flipC_row hi, List.map_map]
  unfold Csr.entries
  rw [List.filter_flatMap, List.map_flatMap]
  refine flatMap_congr' fun k _ => ?_
  rw [List.filter_map, List.map_map]
  rfl

/-- **C78, values.**  For the real types and arguments in range, in any arithmetic: syprd succeeds and every
element of the upper triangle of C is computed by the operations of `pdElt`, in their order: a row of op(A),
times alpha, times B, each element from a sum that starts at zero, then the products with the other row of op(A)
added one after another to the old element times beta.  Whether A is used as it is stored or through a transposed
copy makes no difference to any bit.  Nothing else in the array changes. -/
theorem C78_value {A : Csr R} (hA : A.WF) (isT : Bool) (op : Op) {vt : Nat} (hvt : vt < 2) (sorted : Bool)
    {w : Nat} (hw : 2 ≤ w) (alpha beta : R)
    {B C : List R} (col : Bool) {ldb ldc : Nat} (hrows : 0 < userRows isT A)
    (hldb : opCols op isT A ≤ ldb) (hldc : opRows op isT A ≤ ldc) (hb0 : 0 < ldb) (hc0 : 0 < ldc)
    (hfitb : (opCols op isT A : Int) * ldb ≤ intMax w) (hfitc : (opRows op isT A : Int) * ldc ≤ intMax w)
    (hB : ∀ k l, k ≤ l → l < opCols op isT A → denseOff col ldb k l < B.length)
    (hC : ∀ i j, i ≤ j → j < opRows op isT A → denseOff col ldc i j < C.length) :
    ∃ C', syprdApi w vt id op.code (some ⟨A.raw isT, vt, sorted⟩) (some B) (if col then 1 else 0) ldb
        alpha beta (some C) (if col then 1 else 0) ldc = some (.success, some C') ∧
      IsUpCells col (opRows op isT A) ldc (fun i j c =>
        pdElt col ldb B alpha beta (opRowL op isT A i) (opRowL op isT A j) c) C C' := by
  have hcol : decide ((if col then (1 : Int) else 0) = 1) = col := by cases col <;> rfl
  unfold syprdApi
  dsimp only
  rw [if_neg (by simp), if_neg (not_not.mpr (Op.isOp op)), if_neg (by cases col <;> simp),
    if_neg (by cases col <;> simp), if_neg (by simp), if_neg (by simp [Csr.raw]), if_neg (by omega), hcol]
  have hkb : (if op.code = 111 then (A.raw isT).un else (A.raw isT).um) = (opCols op isT A : Int) := by
    cases isT <;> cases op <;> simp [Csr.raw, RawMat.un, RawMat.um, Op.code, opCols, userRows, userCols]
  have hkc : (if op.code = 111 then (A.raw isT).um else (A.raw isT).un) = (opRows op isT A : Int) := by
    cases isT <;> cases op <;> simp [Csr.raw, RawMat.un, RawMat.um, Op.code, opRows, userRows, userCols]
  have hum : (A.raw isT).um = (userRows isT A : Int) := by
    cases isT <;> simp [Csr.raw, RawMat.um, userRows]
  have hun : (A.raw isT).un = (userCols isT A : Int) := by
    cases isT <;> simp [Csr.raw, RawMat.un, userCols]
  unfold syprdSized
  dsimp only
  rw [hkb, hkc, hum, hun, if_neg (by omega), if_neg (by omega)]
  by_cases hq : alpha = 0 ∧ beta = 1
  · rw [if_pos hq]
    refine ⟨C, rfl, rfl, fun i j h1 h2 => ?_, fun _ _ => rfl⟩
    rw [pdElt, if_pos hq, List.getD_eq_getElem?_getD, List.getElem?_eq_getElem (hC i j h1 h2)]
    rfl
  rw [if_neg hq, if_neg (by unfold atLeast1; split <;> omega), if_neg (by unfold atLeast1; split <;> omega),
    if_neg (by rw [fits_or_zero hw hfitb, fits_or_zero hw hfitc]; simp)]
  have hcj : decide ((vt = 2 ∨ vt = 3) ∧ op.code = 113) = false := by
    rw [decide_eq_false_iff_not]; omega
  unfold syprdRun
  rw [hcj]
  by_cases hc : isT = true ↔ op = .none
  · have hK : opRows op isT A = A.n := by
      cases isT <;> cases op <;> simp_all [opRows, userRows, userCols]
    have hL : opCols op isT A = A.m := by
      cases isT <;> cases op <;> simp_all [opCols, userRows, userCols]
    have heff : pdEff (A.raw isT).isT op.code ≠ 111 := by
      cases isT <;> cases op <;> simp_all [pdEff, Op.code, Csr.raw]
    have hrow : ∀ i, i < A.n → opRowL op isT A i = rowL (flipC true A) i := by
      intro i hi
      rw [rowL_flip hi]
      unfold opRowL
      rw [if_pos]
      cases isT <;> cases op <;> simp_all
    rw [if_neg heff, orientT_flip hA isT, Option.bind_some]
    dsimp only
    obtain ⟨wX, -, mX, nX, -⟩ := flipC_wf hA true
    rw [if_pos rfl] at mX nX
    obtain ⟨C', e, r⟩ := pdKernel_val (col := col) wX
      (ldb := ldb) (B := B) (by rw [nX, ← hL]; exact hB) alpha beta (ldc := ldc) (C := C) (by omega)
      (by rw [mX, ← hK]; exact hC)
    rw [mX, nX] at e
    rw [mX] at r
    have e' : pdKernel col false id (A.raw isT).n (A.raw isT).m
      (flipC true A).arrs B ldb alpha beta C ldc = some C' := e
    rw [e', hK]
    refine ⟨C', rfl, r.length, fun i j hi hj => ?_, r.rest⟩
    rw [r.cells i j hi hj, pdElt, if_neg hq, hrow i (by omega), hrow j hj]
    rfl
  · have hK : opRows op isT A = A.m := by
      cases isT <;> cases op <;> simp_all [opRows, userRows, userCols]
    have hL : opCols op isT A = A.n := by
      cases isT <;> cases op <;> simp_all [opCols, userRows, userCols]
    have heff : pdEff (A.raw isT).isT op.code = 111 := by
      cases isT <;> cases op <;> simp_all [pdEff, Op.code, Csr.raw]
    have hrow : ∀ i, opRowL op isT A i = rowL A i := by
      intro i
      unfold opRowL rowL
      rw [if_neg]
      cases isT <;> cases op <;> simp_all
    rw [if_pos heff]
    obtain ⟨C', e, r⟩ := pdKernel_val (col := col) hA
      (ldb := ldb) (B := B) (by rw [← hL]; exact hB) alpha beta (ldc := ldc) (C := C) (by omega)
      (by rw [← hK]; exact hC)
    have e' : pdKernel col false id (A.raw isT).m (A.raw isT).n
      (A.raw isT).arrs B ldb alpha beta C ldc = some C' := e
    rw [e', hK]
    refine ⟨C', rfl, r.length, fun i j hi hj => ?_, r.rest⟩
    rw [r.cells i j hi hj, pdElt, if_neg hq, hrow i, hrow j]
    rfl

end

/-! ### the exact value -/

/-- the double sum of products over two rows -/
def pdSum (H : Nat → Nat → ℝ) (Li Lj : List (Nat × ℝ)) : ℝ :=
  (Lj.map fun y => (Li.map fun x => x.2 * H x.1 y.1).sum * y.2).sum

theorem dotRight_real {α : Type} (L : List α) (p : α → ℝ × ℝ) : ∀ r : ℝ,
    dotRight r (L.map p) = r + (L.map fun a => (p a).1 * (p a).2).sum := by
  induction L with
  | nil => intro r; simp [dotRight]
  | cons a L ih =>
    intro r
    have := ih (r + (p a).1 * (p a).2)
    unfold dotRight at this ⊢
    rw [List.map_cons, List.foldl_cons, this, List.map_cons, List.sum_cons]
    ring

theorem pdElt_real (col : Bool) (ld : Nat) (B : List ℝ) (Li Lj : List (Nat × ℝ)) :
    pdElt col ld B 1 0 Li Lj 0 = pdSum (symUp col ld B) Li Lj := by
  have hT : ∀ c, pdT col ld B 1 Li c = (Li.map fun x => x.2 * symUp col ld B x.1 c).sum := by
    intro c
    unfold pdT
    cases col
    · rw [if_neg (by simp), dotRight_real, zero_add]
      congr 1
      exact List.map_congr_left fun x _ => by ring
    · rw [if_pos rfl, dotRight_real, zero_add, mul_one]
  unfold pdElt
  rw [if_neg (by simp)]
  simp only [if_true]
  rw [if_neg one_ne_zero, dotRight_real, zero_add]
  simp only [hT]
  rfl

/-- the double sum is the element of op(A)·B·op(A)ᵀ -/
theorem pdSum_triple {A : Csr ℝ} (hA : A.WF) (isT : Bool) (op : Op) {w : Nat} (hw : 2 ≤ w)
    {B : List ℝ} {N : Nat} (col : Bool) {ldb ldc : Nat} (hrows : 0 < userRows isT A)
    (hldb : opCols op isT A ≤ ldb) (hldc : opRows op isT A ≤ ldc) (hb0 : 0 < ldb) (hc0 : 0 < ldc)
    (hfitb : (opCols op isT A : Int) * ldb ≤ intMax w) (hfitc : (opRows op isT A : Int) * ldc ≤ intMax w)
    (hB : ∀ k l, k ≤ l → l < opCols op isT A → denseOff col ldb k l < B.length)
    (hC : ∀ i j, i ≤ j → j < opRows op isT A → denseOff col ldc i j < N) {i j : Nat} (hij : i ≤ j)
    (hj : j < opRows op isT A) :
    pdSum (symUp col ldb B) (opRowL op isT A i) (opRowL op isT A j)
      = triple op (userMat isT A) (symUp col ldb B) (opCols op isT A) i j := by
  have hN : ∀ i j, i ≤ j → j < opRows op isT A → denseOff col ldc i j < (List.replicate N (0 : ℝ)).length := by
    simpa using hC
  obtain ⟨C1, e1, r1⟩ := C78_value hA isT op (vt := 0) (by omega) true hw 1 0 (C := List.replicate N 0) col hrows
    hldb hldc hb0 hc0 hfitb hfitc hB hN
  obtain ⟨C2, e2, r2⟩ := C50_syprd hA isT op (vt := 0) (.inl rfl) (by omega) (fun _ x => star_trivial x) true hw 1 0
    (C := List.replicate N 0) col hrows hldb hldc hb0 hc0 hfitb hfitc hB hN
  have hs : (star : ℝ → ℝ) = id := by funext x; exact star_trivial x
  rw [hs, e1] at e2
  obtain rfl : C1 = C2 := by simpa using e2
  have h := (r1.cells i j hij hj).symm.trans (r2.cells i j hij hj)
  have h0 : (List.replicate N (0 : ℝ)).getD (denseOff col ldc i j) 0 = 0 := by simp
  have hH : hermUp col ldb B = symUp col ldb B := by
    funext k l
    unfold hermUp symUp
    rw [hs]
    rfl
  rw [h0, pdElt_real, hH] at h
  simpa using h

/-! ### rounding -/

section
variable {R : Type} [Zero R] [One R] [Add R] [Mul R] [DecidableEq R]
variable {ρ : Rounding} {v : R → ℝ} {fac : R → Option (ℝ × ℝ)}

omit [One R] [DecidableEq R] in
theorem dotRight_near_gen (hR : Contracts ρ v fac) {α : Type} (L : List α) (p : α → R × R) (e s : α → ℝ) :
    ∀ {k : Nat} {r : R} {E S : ℝ}, (∀ a ∈ L, NearC ρ v fac k (e a) (s a) ((p a).1 * (p a).2)) →
      NearC ρ v fac k E S r →
      NearC ρ v fac (k + L.length) (E + (L.map e).sum) (S + (L.map s).sum) (dotRight r (L.map p)) := by
  induction L with
  | nil => intro k r E S _ h; simpa [dotRight] using h
  | cons a L ih =>
    intro k r E S hL h
    have h1 := h.add hR (hL a (.head _))
    have := ih (fun x hx => (hL x (.tail _ hx)).mono (Nat.le_succ k)) h1
    rw [List.map_cons, List.sum_cons, List.map_cons, List.sum_cons, ← add_assoc, ← add_assoc,
      show k + (a :: L).length = k + 1 + L.length by simp; omega]
    exact this

omit [One R] [Add R] [Mul R] [DecidableEq R] in
theorem symUp_map {f : R → ℝ} (h0 : f 0 = 0) (col : Bool) (ld : Nat) (B : List R) (k l : Nat) :
    symUp col ld (B.map f) k l = f (symUp col ld B k l) := by
  unfold symUp
  split <;> rw [getD_map0 h0]

omit [One R] [DecidableEq R] in
theorem pdT_near (hR : Contracts ρ v fac) (col : Bool) (ld : Nat) {B : List R} (pB : ∀ a ∈ B, fac a = none)
    (alpha : R) {L : List (Nat × R)} (pL : ∀ e ∈ L, fac e.2 = none) (c : Nat) :
    NearC ρ v fac (L.length + 2)
      (v alpha * (L.map fun x => v x.2 * v (symUp col ld B x.1 c)).sum)
      (|v alpha| * (L.map fun x => |v x.2| * |v (symUp col ld B x.1 c)|).sum) (pdT col ld B alpha L c) := by
  have pS : ∀ k l, fac (symUp col ld B k l) = none := by
    intro k l
    have g : ∀ k, fac (B.getD k 0) = none := by
      intro k
      rw [List.getD_eq_getElem?_getD]
      rcases hk : B[k]? with _ | a
      · exact hR.zero_fac
      · exact pB a (List.mem_of_getElem? hk)
    unfold symUp
    split <;> exact g _
  unfold pdT
  cases col
  · rw [if_neg (by simp)]
    have := dotRight_near_gen hR L (fun e => (symUp false ld B e.1 c, alpha * e.2))
      (fun e => v (symUp false ld B e.1 c) * (v alpha * v e.2))
      (fun e => |v (symUp false ld B e.1 c)| * (|v alpha| * |v e.2|)) (k := 2)
      (fun e he => NearC.mul_left hR _ (NearC.mul_left hR _ (NearC.plain (pL e he))))
      ((NearC.zero hR).mono (Nat.zero_le 2))
    rw [zero_add, zero_add, Nat.add_comm] at this
    have e1 : (L.map fun e => v (symUp false ld B e.1 c) * (v alpha * v e.2)).sum
        = v alpha * (L.map fun x => v x.2 * v (symUp false ld B x.1 c)).sum := by
      rw [← List.sum_map_mul_left]
      exact congrArg List.sum (List.map_congr_left fun x _ => by ring)
    have e2 : (L.map fun e => |v (symUp false ld B e.1 c)| * (|v alpha| * |v e.2|)).sum
        = |v alpha| * (L.map fun x => |v x.2| * |v (symUp false ld B x.1 c)|).sum := by
      rw [← List.sum_map_mul_left]
      exact congrArg List.sum (List.map_congr_left fun x _ => by ring)
    rw [e1, e2] at this
    exact this
  · rw [if_pos rfl]
    have := dotRight_near_gen hR L (fun e => (e.2, symUp true ld B e.1 c))
      (fun e => v e.2 * v (symUp true ld B e.1 c)) (fun e => |v e.2| * |v (symUp true ld B e.1 c)|) (k := 1)
      (fun e he => NearC.prod hR (pS _ _)) ((NearC.zero hR).mono (Nat.zero_le 1))
    rw [zero_add, zero_add, Nat.add_comm] at this
    exact NearC.mul_right hR alpha this

theorem pdElt_near (hR : Contracts ρ v fac) (h1 : v 1 = 1) (col : Bool) (ld : Nat) {B : List R}
    (pB : ∀ a ∈ B, fac a = none) (alpha beta : R) {Li Lj : List (Nat × R)} (pI : ∀ e ∈ Li, fac e.2 = none)
    {c : R} (pc : fac c = none) :
    NearC ρ v fac (Li.length + Lj.length + 3)
      (v alpha * (Lj.map fun y => (Li.map fun x => v x.2 * v (symUp col ld B x.1 y.1)).sum * v y.2).sum
        + v beta * v c)
      (|v alpha| * (Lj.map fun y => (Li.map fun x => |v x.2| * |v (symUp col ld B x.1 y.1)|).sum * |v y.2|).sum
        + |v beta| * |v c|)
      (pdElt col ld B alpha beta Li Lj c) := by
  unfold pdElt
  by_cases hq : alpha = 0 ∧ beta = 1
  · rw [if_pos hq, hq.1, hq.2, hR.zero, h1, abs_zero, abs_one, zero_mul, zero_mul, one_mul, one_mul, zero_add,
      zero_add]
    exact (NearC.plain pc).mono (Nat.zero_le _)
  rw [if_neg hq]
  have hs : NearC ρ v fac 1 (v beta * v c) (|v beta| * |v c|) (if beta = 0 then 0 else beta * c) := by
    by_cases hb : beta = 0
    · rw [if_pos hb, hb, hR.zero, abs_zero, zero_mul, zero_mul]
      exact (NearC.zero hR).mono (Nat.zero_le 1)
    · rw [if_neg hb]
      exact NearC.prod hR pc
  dsimp only
  by_cases ha : alpha = 0
  · rw [if_pos ha, ha, hR.zero, abs_zero, zero_mul, zero_mul, zero_add, zero_add]
    exact hs.mono (by omega)
  rw [if_neg ha]
  have := dotRight_near_gen hR Lj (fun e => (pdT col ld B alpha Li e.1, e.2))
    (fun y => v y.2 * (v alpha * (Li.map fun x => v x.2 * v (symUp col ld B x.1 y.1)).sum))
    (fun y => |v y.2| * (|v alpha| * (Li.map fun x => |v x.2| * |v (symUp col ld B x.1 y.1)|).sum))
    (k := Li.length + 3)
    (fun e _ => NearC.mul_right hR _ (pdT_near hR col ld pB alpha pI e.1)) (hs.mono (by omega))
  have e1 : (Lj.map fun y => v y.2 * (v alpha * (Li.map fun x => v x.2 * v (symUp col ld B x.1 y.1)).sum)).sum
      = v alpha * (Lj.map fun y => (Li.map fun x => v x.2 * v (symUp col ld B x.1 y.1)).sum * v y.2).sum := by
    rw [← List.sum_map_mul_left]
    exact congrArg List.sum (List.map_congr_left fun x _ => by ring)
  have e2 : (Lj.map fun y => |v y.2| * (|v alpha| * (Li.map fun x => |v x.2| * |v (symUp col ld B x.1 y.1)|).sum)).sum
      = |v alpha| * (Lj.map fun y => (Li.map fun x => |v x.2| * |v (symUp col ld B x.1 y.1)|).sum * |v y.2|).sum := by
    rw [← List.sum_map_mul_left]
    exact congrArg List.sum (List.map_congr_left fun x _ => by ring)
  rw [e1, e2] at this
  rw [add_comm _ (v beta * v c), add_comm _ (|v beta| * |v c|),
    show Li.length + Lj.length + 3 = Li.length + 3 + Lj.length by omega]
  exact this

omit [Zero R] [One R] [Add R] [Mul R] [DecidableEq R] in
theorem opRowL_mapTo (f : R → ℝ) (op : Op) (isT : Bool) (A : Csr R) (i : Nat) :
    opRowL op isT (A.mapTo f) i = (opRowL op isT A i).map fun e => (e.1, f e.2) := by
  unfold opRowL
  have hm : (A.mapTo f).m = A.m := rfl
  simp only [mapTo_row, hm]
  split
  · rw [List.map_flatMap]
    refine flatMap_congr' fun k _ => ?_
    rw [List.filter_map, List.map_map, List.map_map]
    rfl
  · rw [List.map_map, List.map_map]
    rfl

omit [Zero R] [One R] [Add R] [Mul R] [DecidableEq R] in
theorem opRowL_val {op : Op} {isT : Bool} {A : Csr R} {i : Nat} {e : Nat × R} (h : e ∈ opRowL op isT A i) :
    e.2 ∈ A.val := by
  have g : ∀ k, ∀ x ∈ A.row k, x.2 ∈ A.val := by
    intro k x hx
    unfold Csr.row at hx
    obtain ⟨y, hy, rfl⟩ := List.mem_map.1 hx
    exact (List.of_mem_zip (List.mem_of_mem_drop (List.mem_of_mem_take hy))).2
  unfold opRowL at h
  split at h
  · obtain ⟨k, -, hk⟩ := List.mem_flatMap.1 h
    obtain ⟨x, hx, rfl⟩ := List.mem_map.1 hk
    exact g k x (List.mem_of_mem_filter hx)
  · obtain ⟨x, hx, rfl⟩ := List.mem_map.1 h
    exact g _ x hx

/-- **C78, rounding.**  For the real types in floating point, whichever products the compiler fuses with an
addition: every element of the upper triangle of C after syprd differs from
alpha·(op(A)·B·op(A)ᵀ)(i, j) + beta·c by at most `(1+u)^(n_i + n_j + 3) - 1` times the sum of the sizes of the
terms, where `n_i` and `n_j` are the numbers of elements stored in rows i and j of op(A). -/
theorem C78_error (hR : Contracts ρ v fac) (h1 : v 1 = 1) {A : Csr R} (hA : A.WF) (isT : Bool) (op : Op) {vt : Nat}
    (hvt : vt < 2) (sorted : Bool) {w : Nat} (hw : 2 ≤ w) (alpha beta : R)
    {B C : List R} (col : Bool) {ldb ldc : Nat} (hrows : 0 < userRows isT A)
    (hldb : opCols op isT A ≤ ldb) (hldc : opRows op isT A ≤ ldc) (hb0 : 0 < ldb) (hc0 : 0 < ldc)
    (hfitb : (opCols op isT A : Int) * ldb ≤ intMax w) (hfitc : (opRows op isT A : Int) * ldc ≤ intMax w)
    (hB : ∀ k l, k ≤ l → l < opCols op isT A → denseOff col ldb k l < B.length)
    (hC : ∀ i j, i ≤ j → j < opRows op isT A → denseOff col ldc i j < C.length)
    (pA : ∀ a ∈ A.val, fac a = none) (pB : ∀ a ∈ B, fac a = none) (pC : ∀ a ∈ C, fac a = none) :
    ∃ C', syprdApi w vt id op.code (some ⟨A.raw isT, vt, sorted⟩) (some B) (if col then 1 else 0) ldb
        alpha beta (some C) (if col then 1 else 0) ldc = some (.success, some C') ∧
      ∀ i j, i ≤ j → j < opRows op isT A →
        |v (C'.getD (denseOff col ldc i j) 0)
            - (v alpha * triple op (userMat isT (A.mapTo v)) (symUp col ldb (B.map v)) (opCols op isT A) i j
              + v beta * v (C.getD (denseOff col ldc i j) 0))|
          ≤ ((1 + ρ.u) ^ ((opRowL op isT A i).length + (opRowL op isT A j).length + 3) - 1)
            * (|v alpha| * triple op (userMat isT (A.mapTo fun a => |v a|)) (symUp col ldb (B.map fun a => |v a|))
                (opCols op isT A) i j
              + |v beta| * |v (C.getD (denseOff col ldc i j) 0)|) := by
  obtain ⟨C', e, r⟩ := C78_value hA isT op hvt sorted hw alpha beta col hrows hldb hldc hb0 hc0 hfitb hfitc hB hC
  refine ⟨C', e, fun i j hij hj => ?_⟩
  have hx : ∀ f : R → ℝ, f 0 = 0 →
      ((opRowL op isT A j).map fun y => ((opRowL op isT A i).map fun x => f x.2 * f (symUp col ldb B x.1 y.1)).sum
        * f y.2).sum = triple op (userMat isT (A.mapTo f)) (symUp col ldb (B.map f)) (opCols op isT A) i j := by
    intro f hf
    have hr : opRows op isT (A.mapTo f) = opRows op isT A := by cases op <;> cases isT <;> rfl
    have hc : opCols op isT (A.mapTo f) = opCols op isT A := by cases op <;> cases isT <;> rfl
    have hu : userRows isT (A.mapTo f) = userRows isT A := by cases isT <;> rfl
    have := pdSum_triple (B := B.map f) (N := C.length) (mapTo_wf f hA) isT op hw col (ldb := ldb) (ldc := ldc)
      (by rw [hu]; exact hrows) (by rw [hc]; exact hldb) (by rw [hr]; exact hldc) hb0 hc0
      (by rw [hc]; exact hfitb) (by rw [hr]; exact hfitc) (by rw [hc, List.length_map]; exact hB)
      (by rw [hr]; exact hC) hij (by rw [hr]; exact hj)
    rw [hc] at this
    rw [← this, opRowL_mapTo, opRowL_mapTo]
    unfold pdSum
    simp only [List.map_map, Function.comp_def, symUp_map hf]
  have pc : fac (C.getD (denseOff col ldc i j) 0) = none := by
    rw [List.getD_eq_getElem?_getD, List.getElem?_eq_getElem (hC i j hij hj)]
    exact pC _ (List.getElem_mem _)
  have hn := pdElt_near hR h1 col ldb pB alpha beta (Li := opRowL op isT A i) (Lj := opRowL op isT A j)
    (fun e he => pA _ (opRowL_val he)) pc
  rw [hx v hR.zero, hx (fun a => |v a|) (by simp [hR.zero])] at hn
  rw [List.getD_eq_getElem?_getD (l := C'), r.cells i j hij hj]
  exact hn.1.2

end

/-! ### the layout changes bits -/

/-- rows `3 -2` and `1 0`, the second with one element -/
def pdx3 : Csr Digits3 := ⟨2, 2, 0, [0, 2, 3], [0, 1, 0], [⟨3⟩, ⟨-2⟩, 1]⟩

/-- **The layout of the dense arrays changes the result (F106).**  With three binary digits, all intermediate
results in range: element (0, 1) of 3·A·B·Aᵀ with the matrix B of ones is 4 with row-major arrays and 3, the exact
value, with column-major arrays, because alpha multiplies the elements of A in one case and the sums in the other. -/
theorem C78_layout_counterexample :
    pdx3.WF ∧
    syprdApi 32 1 id Op.none.code (some ⟨pdx3.raw false, 1, true⟩) (some [1, 1, 1, 1]) 0 2 ⟨3⟩ 0
        (some [0, 0, 0, 0]) 0 2 = some (.success, some [⟨4⟩, ⟨4⟩, 0, ⟨3⟩]) ∧
    syprdApi 32 1 id Op.none.code (some ⟨pdx3.raw false, 1, true⟩) (some [1, 1, 1, 1]) 1 2 ⟨3⟩ 0
        (some [0, 0, 0, 0]) 1 2 = some (.success, some [⟨4⟩, 0, ⟨3⟩, ⟨3⟩]) :=
  ⟨⟨by decide, by decide, by decide, by decide, by decide, by decide, by decide⟩, by decide +kernel, by decide +kernel⟩

/-! ### cases that meet the hypotheses -/

/-- rows `1 0 3` (stored in the order 3, 1) and `0 4 5`, one-based -/
def pdxA : Csr ℤ := ⟨2, 3, 1, [1, 3, 5], [3, 1, 2, 3], [3, 1, 4, 5]⟩

theorem pdxA_wf : pdxA.WF :=
  ⟨by decide, by decide, by decide, by decide, by decide, by decide, by decide⟩

/-- the symmetric matrix with upper triangle `1 2 3 / 4 5 / 6` in rows of four; 99 is not read -/
def pdxS : List ℤ := [1, 2, 3, 99, 99, 4, 5, 99, 99, 99, 6]

theorem pdxS_in : ∀ k l, k ≤ l → l < 3 → denseOff false 4 k l < pdxS.length := by
  intro k l h1 h2
  have : k * 4 + l < 11 := by omega
  simpa [denseOff, pdxS] using this

theorem pdxC_in : ∀ i j, i ≤ j → j < 2 → denseOff false 2 i j < [10, 20, 30, (40 : ℤ)].length := by
  intro i j h1 h2
  have : i * 2 + j < 4 := by omega
  simpa [denseOff] using this

example := C78_value pdxA_wf false .none (vt := 1) (by omega) true (w := 32) (by omega) 2 7 (B := pdxS)
  (C := [10, 20, 30, 40]) false (ldb := 4) (ldc := 2) (by decide) (by decide) (by decide) (by omega) (by omega)
  (by decide +kernel) (by decide +kernel) pdxS_in pdxC_in

/-- the numbers; and the rows of op(A) -/
example : syprdApi 32 1 id Op.none.code (some ⟨pdxA.raw false, 1, true⟩) (some pdxS) 0 4 2 7
      (some [10, 20, 30, 40]) 0 2 = some (.success, some [216, 486, 30, 1108]) ∧
    opRowL .none false pdxA 0 = [(2, 3), (0, 1)] ∧ opRowL .none false pdxA 1 = [(1, 4), (2, 5)] ∧
    opRowL .trans false pdxA 2 = [(0, 3), (1, 5)] := by decide +kernel

/-- which operations, in which order -/
example : pdElt false 4 pdxS (2 : ℤ) 7 [(2, 3), (0, 1)] [(1, 4), (2, 5)] 20
    = 7 * 20 + (0 + 5 * (2 * 3) + 2 * (2 * 1)) * 4 + (0 + 6 * (2 * 3) + 3 * (2 * 1)) * 5 := by decide +kernel

/-- two elements in each row: seven roundings -/
example := C78_error int_contracts (by simp) pdxA_wf false .none (vt := 1) (by omega) true (w := 32) (by omega) 2 7
  (B := pdxS) (C := [10, 20, 30, 40]) false (ldb := 4) (ldc := 2) (by decide) (by decide) (by decide) (by omega)
  (by omega) (by decide +kernel) (by decide +kernel) pdxS_in pdxC_in (fun _ _ => rfl) (fun _ _ => rfl) (fun _ _ => rfl)

/-- double precision, the transpose -/
example := C78_error (fp_contracts (binary 53)) rfl (mapTo_wf (fun z : ℤ => (⟨z⟩ : Fp (binary 53))) pdxA_wf)
  true .none (vt := 1) (by omega) true (w := 32) (by omega) ⟨2⟩ 0
  (B := [⟨1⟩, ⟨2⟩, ⟨3⟩, ⟨4⟩]) (C := List.replicate 9 0) true (ldb := 2) (ldc := 3)
  (by decide) (by decide) (by decide) (by omega) (by omega) (by decide +kernel) (by decide +kernel)
  (by
    intro k l h1 h2
    replace h2 : l < 2 := h2
    have : k + 2 * l < 4 := by omega
    simpa [denseOff] using this)
  (by
    intro i j h1 h2
    replace h2 : j < 3 := h2
    have : i + 3 * j < 9 := by omega
    simpa [denseOff] using this)
  (fun _ _ => rfl) (fun _ _ => rfl) (fun _ _ => rfl)

end Verif
