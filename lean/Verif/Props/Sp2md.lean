/-
C30  Product of two sparse matrices with dense result.
-/
import Verif.Proofs.Sp2md
import Verif.Props.Sp2m
import Verif.Props.Expand

namespace Verif
open Model Finset

variable {R : Type}

/-! ### the matrix B as used -/

theorem copyN_ok {α : Type} (L : List α) {n : Int} (hn : n = L.length) (g : Nat → α) :
    copyN n L g = some L := by
  subst hn
  unfold copyN
  cases L with
  | nil => rfl
  | cons a L =>
    rw [fill_pre (g := fun k => (a :: L).getD k a) (by simp)]
    · congr 1
      apply List.ext_getElem?
      intro k
      by_cases hk : k < (a :: L).length
      · rw [List.getElem?_map, List.getElem?_range hk, List.getElem?_eq_getElem hk]
        simp only [Option.map_some, List.getD_eq_getElem?_getD, List.getElem?_eq_getElem hk, Option.getD_some]
      · rw [List.getElem?_eq_none (by simpa using hk), List.getElem?_eq_none (by simpa using hk)]
    · intro i s hi
      rw [rd_ofNat, List.getD_eq_getElem?_getD, List.getElem?_eq_getElem hi]
      rfl

section semiring
variable [CommRing R] [StarRing R] [DecidableEq R]

theorem mdB_ok {B : Csr R} (hB : B.WF) (g : Garb R) (tr conj tb : Bool) :
    ∃ X : Csr R, mdB g star tr conj (B.raw tb) = some (.ok X.arrs) ∧ X.WF ∧
      X.m = (if tr then B.n else B.m) ∧ X.n = (if tr then B.m else B.n) ∧
      ∀ i j, i < X.m → j < X.n → X.mat i j = cjIf conj (if tr then B.mat j i else B.mat i j) := by
  unfold mdB
  cases tr with
  | false =>
    cases conj with
    | false =>
      refine ⟨B, rfl, hB, rfl, rfl, fun i j _ _ => ?_⟩
      simp [cjIf]
    | true =>
      refine ⟨B.mapVal star, ?_, hB.mapVal _, rfl, rfl, fun i j hi _ => ?_⟩
      · rw [if_neg (by simp), if_neg (by simp)]
        have e3 : forC 0 (B.raw tb).nnz (fun i d => (rd (B.raw tb).val i).bind fun x => wr d i (star x))
            (alloc (B.raw tb).nnz.toNat g.v) = some (B.val.map star) := by
          have hv := hB.val_len
          simp only [Csr.raw]
          rw [Int.toNat_natCast, fill_pre (N := B.nnz) (g := fun k => star (B.val.getD k 0)) (by simp)]
          · congr 1
            apply List.ext_getElem?
            intro k
            by_cases hk : k < B.nnz
            · have hk' : k < B.val.length := by rw [hv]; exact hk
              rw [List.getElem?_map, List.getElem?_map, List.getElem?_range hk, List.getElem?_eq_getElem hk']
              simp only [Option.map_some, List.getD_eq_getElem?_getD, List.getElem?_eq_getElem hk', Option.getD_some]
            · have hk' : ¬ k < B.val.length := by rw [hv]; exact hk
              rw [List.getElem?_eq_none (by simpa using hk), List.getElem?_eq_none (by simpa using hk')]
          · intro i s hi
            have hi' : i < B.val.length := by rw [hv]; exact hi
            rw [rd_ofNat, List.getD_eq_getElem?_getD, List.getElem?_eq_getElem hi']
            rfl
        have e1 : copyN ((B.raw tb).m + 1) (B.raw tb).ptr g.p = some B.ptr :=
          copyN_ok B.ptr (by have := hB.ptr_len; simp only [Csr.raw]; omega) _
        have e2 : copyN (B.raw tb).nnz (B.raw tb).ind g.i = some B.ind :=
          copyN_ok B.ind (by simp only [Csr.raw, Csr.nnz]) _
        simp only [Option.bind_eq_bind]
        rw [e1, Option.bind_some, e2, Option.bind_some, e3]
        rfl
      · exact Csr.mapVal_mat hB (starRingEnd R).toAddMonoidHom hi j
  | true =>
    obtain ⟨Y, e, o⟩ := orientG_ok hB true tb g
    refine ⟨Y.mapVal (cjIf conj), ?_, o.wf.mapVal _, o.m, o.n, fun i j hi hj => ?_⟩
    · rw [if_neg (by simp), if_pos rfl, e]
      simp only [Option.bind_some]
      have hc := conjLoop_ok conj star Y.val (n := B.nnz) (by rw [o.wf.val_len]; exact_mod_cast o.nnz.symm)
      simp only [Csr.raw, Csr.arrs]
      rw [hc, Option.bind_some]
      simp only [Csr.mapVal, cjIf_fun]
    · rw [Csr.mapVal_mat o.wf (cjIf conj) hi]
      have := o.entry i j hi hj
      rw [show Y.mat i j = _ from this]
      rfl

/-- the values agree: conjugation by bit or by operation -/
theorem cjIf_op (isReal : Bool) (op : Op) (x : R) :
    cjIf (decide (op = .conjTrans ∧ isReal = false)) x = cjOf R isReal op x := by
  by_cases h : op = .conjTrans ∧ isReal = false
  · simp [cjIf, cjOf, h]
    rfl
  · simp [cjIf, cjOf, h]

/-- **C30.**  For well-formed CSR or CSC matrices, every combination of operations, bases, scalars
and layouts, dimensions that fit and a large enough C, sp2md computes
`C := alpha·op(A)·op(B) + beta·C` and changes nothing outside the `m × n` window of C. -/
theorem C30_sp2md {w : Nat} (isReal : Bool) (hreal : isReal = true → ∀ x : R, star x = x) (g : Garb R)
    (opA opB : Op) (ta tb : Bool) {A B : Csr R} (hA : A.WF) (hB : B.WF) {dA dB : Descr}
    (hta : dA.type = 0) (htb : dB.type = 0) (hba : dA.base = A.base) (hbb : dB.base = B.base)
    (hdim : opCols opA ta A = opRows opB tb B) (alpha beta : R) {C : List R} (col : Bool) {ldc : Nat}
    (hld : (if col then opRows opA ta A else opCols opB tb B) ≤ ldc)
    (hov : prodOvf w (if col then (opCols opB tb B : Int) else opRows opA ta A) ldc = false)
    (hC : ∀ i j, i < opRows opA ta A → j < opCols opB tb B → denseOff col ldc i j < C.length) :
    ∃ C', sp2md w isReal g star opA.code (some dA) (some (A.raw ta)) opB.code (some dB) (some (B.raw tb))
        alpha beta (some C) (if col then 1 else 0) ldc = some (.success, some C') ∧
      IsCells col (opRows opA ta A) (opCols opB tb B) ldc (fun i j c =>
        alpha * matMul (opCols opA ta A) (applyOp opA (userMat ta A)) (applyOp opB (userMat tb B)) i j
          + beta * c) C C' := by
  set mc := opRows opA ta A with hmc
  set nc := opCols opB tb B with hnc
  have b1 := eff_bits isReal ta dA.fill opA
  have b2 := eff_bits isReal tb dB.fill opB
  obtain ⟨X, eX, wX, mX, nX, entX⟩ := mdB_ok hB g (trOf tb opB) (decide (opB = .conjTrans ∧ isReal = false)) tb
  have rA := effRows ta opA A
  have rB := effRows tb opB B
  rw [← hmc] at rA
  rw [← hnc] at rB
  have hXm : X.m = if trOf ta opA then A.m else A.n := by rw [mX, ← rB.1, ← hdim, rA.2]
  have hXn : X.n = nc := by rw [nX, ← rB.2]
  have hmn : mnr col mc nc ≤ ldc := by cases col <;> simpa [mnr] using hld
  -- the run
  have hrep := Rep.of_list C (0 : R)
  obtain ⟨C1, e1, r1⟩ := mdScale_ok beta hmn hC hrep
  have hadds := mdKernel_ok (col := col) (tr := trOf ta opA) (cj := cjOf R isReal opA) hA wX (alpha := alpha)
    (ldc := ldc) (len := C.length) hXm (by
      intro i j hi hj
      rw [← rA.1] at hi
      exact hC i j hi (by omega))
  have hfin : ∃ C', (if alpha = 0 then some (Status.success, C1)
        else (mdKernel col (trOf ta opA) (cjOf R isReal opA) A.m A.arrs X.arrs alpha ldc C1).map
          fun C => (Status.success, C)) = some (.success, C') ∧
      Rep C' C.length (fun p => doneF ldc (fun a b => a < maj col mc nc ∧ b < mnr col mc nc)
        (fun _ _ v => beta * v) (fun k => C.getD k 0) p
          + mdTotal col (trOf ta opA) (cjOf R isReal opA) A X alpha ldc p) := by
    by_cases h0 : alpha = 0
    · refine ⟨C1, by rw [if_pos h0], r1.congr (fun p _ => ?_)⟩
      have : mdTotal col (trOf ta opA) (cjOf R isReal opA) A X alpha ldc p = 0 := by
        unfold mdTotal axTerm
        refine sum_eq_zero (fun i _ => List.sum_eq_zero ?_)
        intro x hx
        obtain ⟨e, _, rfl⟩ := List.mem_map.mp hx
        apply List.sum_eq_zero
        intro x hx
        obtain ⟨e, _, rfl⟩ := List.mem_map.mp hx
        simp [h0]
      rw [this, add_zero]
    · obtain ⟨C', e2, r2⟩ := hadds C1 _ r1
      refine ⟨C', by rw [if_neg h0, e2]; rfl, r2⟩
  obtain ⟨C', eC, rC⟩ := hfin
  refine ⟨C', ?_, ⟨rC.1, ?_, ?_⟩⟩
  · unfold sp2md
    simp only
    rw [if_neg (by simp [hta, htb]), if_neg (by cases col <;> simp), if_neg (by simp [Csr.raw])]
    have u1 : (if opA.code = 111 then (A.raw ta).um else (A.raw ta).un) = (mc : Int) := by
      rw [hmc]; cases opA <;> cases ta <;> rfl
    have u2 : (if opA.code = 111 then (A.raw ta).un else (A.raw ta).um) = (opCols opA ta A : Int) := by
      cases opA <;> cases ta <;> rfl
    have u3 : (if opB.code = 111 then (B.raw tb).um else (B.raw tb).un) = (opRows opB tb B : Int) := by
      cases opB <;> cases tb <;> rfl
    have u4 : (if opB.code = 111 then (B.raw tb).un else (B.raw tb).um) = (nc : Int) := by
      rw [hnc]; cases opB <;> cases tb <;> rfl
    rw [u1, u2, u3, u4, if_neg (by rw [hdim]; simp)]
    have l1 : ((if (if col = true then (1 : Int) else 0) = 0 then (nc : Int) else mc))
        = ((if col then mc else nc : Nat) : Int) := by cases col <;> simp
    have l2 : ((if (if col = true then (1 : Int) else 0) = 0 then (mc : Int) else nc))
        = (if col then (nc : Int) else mc) := by cases col <;> simp
    have l3 : decide ((if col = true then (1 : Int) else 0) = 1) = col := by cases col <;> simp
    rw [l1, l2, if_neg (by omega), hov, if_neg (by simp), if_neg (by simp [Csr.raw, hba, hbb]), l3]
    unfold mdRun
    have d1 : (A.raw ta).doid = if ta then gt else gn := rfl
    have d2 : (B.raw tb).doid = if tb then gt else gn := rfl
    have hcj : (if opA = .conjTrans ∧ isReal = false then (star : R → R) else id) = cjOf R isReal opA := by
      unfold cjOf
      split <;> rfl
    simp only [d1, d2, hta, htb, b1.1, b1.2, b2.1, b2.2, hcj, Bool.decide_eq_true]
    rw [eX, Option.bind_some]
    simp only
    rw [e1, Option.bind_some]
    have : (A.raw ta).m = (A.m : Int) := rfl
    rw [this]
    show Option.map _ (if alpha = 0 then some (Status.success, C1)
        else (mdKernel col (trOf ta opA) (cjOf R isReal opA) A.m A.arrs X.arrs alpha ldc C1).map
          fun C => (Status.success, C)) = _
    rw [eC]
    rfl
  · intro i j hi hj
    rw [rC.getElem? (hC i j hi hj), denseOff_mm, doneF_in (by cases col <;> simp [mnr] at hmn ⊢ <;> omega)
      (by cases col <;> simp [maj, mnr] <;> omega), ← denseOff_mm,
      mdTotal_eq (cjOf R isReal opA) hA wX (fun r c hr hc => by
        rw [← rA.1] at hr
        cases col <;> simp [mnr] at hmn ⊢ <;> omega) (by rw [← rA.1]; exact hi) (by omega), add_comm]
    congr 3
    unfold matMul
    rw [rA.2]
    refine sum_congr rfl (fun k hk => ?_)
    have hk' := mem_range.mp hk
    rw [effMat isReal ta opA A hreal i k, effMat isReal tb opB B hreal k j, entX k j (by omega) (by omega),
      cjIf_op]
  · intro p hp
    by_cases hpl : p < C.length
    · rw [rC.getElem? hpl, mdTotal_rest hA wX (by
        intro i j hi hj
        rw [← rA.1] at hi
        exact hp i j hi (by omega)), add_zero]
      have hnd : doneF ldc (fun a b => a < maj col mc nc ∧ b < mnr col mc nc) (fun _ _ v => beta * v)
          (fun k => C.getD k 0) p = C.getD p 0 := by
        unfold doneF
        refine if_neg (fun h => ?_)
        have hdm := Nat.div_add_mod p ldc
        cases col with
        | true =>
          refine hp (p % ldc) (p / ldc) (by simpa [mnr] using h.2) (by simpa [maj] using h.1) ?_
          simp only [denseOff, if_true]; omega
        | false =>
          refine hp (p / ldc) (p % ldc) (by simpa [maj] using h.1) (by simpa [mnr] using h.2) ?_
          simp only [denseOff, Bool.false_eq_true, if_false]
          rw [Nat.mul_comm]; omega
      rw [hnd, List.getD_eq_getElem?_getD, List.getElem?_eq_getElem hpl, Option.getD_some]
    · rw [List.getElem?_eq_none (by rw [rC.1]; omega), List.getElem?_eq_none (by omega)]

/-- **C30, spmmd**: the same with alpha = 1, beta = 0, op(B) = B and the bases of the matrices. -/
theorem C30_spmmd {w : Nat} (isReal : Bool) (hreal : isReal = true → ∀ x : R, star x = x) (g : Garb R)
    (opA : Op) (ta tb : Bool) {A B : Csr R} (hA : A.WF) (hB : B.WF)
    (hdim : opCols opA ta A = userRows tb B) {C : List R} (col : Bool) {ldc : Nat}
    (hld : (if col then opRows opA ta A else userCols tb B) ≤ ldc)
    (hov : prodOvf w (if col then (userCols tb B : Int) else opRows opA ta A) ldc = false)
    (hC : ∀ i j, i < opRows opA ta A → j < userCols tb B → denseOff col ldc i j < C.length) :
    ∃ C', spmmd w isReal g star opA.code (some (A.raw ta)) (some (B.raw tb)) (if col then 1 else 0) (some C)
        ldc = some (.success, some C') ∧
      IsCells col (opRows opA ta A) (userCols tb B) ldc (fun i j _ =>
        matMul (opCols opA ta A) (applyOp opA (userMat ta A)) (userMat tb B) i j) C C' := by
  obtain ⟨C', e, h⟩ := C30_sp2md (w := w) isReal hreal g opA .none ta tb hA hB (dA := ⟨0, 0, 0, A.base⟩)
    (dB := ⟨0, 0, 0, B.base⟩) rfl rfl rfl rfl (by simpa [opRows] using hdim) 1 0 (C := C) col
    (by simpa [opCols] using hld) (by simpa [opCols] using hov) (by simpa [opCols] using hC)
  refine ⟨C', ?_, h.1, ?_, ?_⟩
  · unfold spmmd
    simp only
    rw [if_neg (by simp [Csr.raw])]
    exact e
  · intro i j hi hj
    rw [h.2 i j hi (by simpa [opCols] using hj)]
    simp only [one_mul, zero_mul, add_zero]
    rfl
  · intro p hp
    exact h.3 p (by simpa [opCols] using hp)

end semiring

/-! ### beta = 0, rejected calls -/

theorem rep_unique {C D : List R} {len : Nat} {f g : Nat → R} (h1 : Rep C len f) (h2 : Rep D len g)
    (h : ∀ p, p < len → f p = g p) : C = D := by
  apply List.ext_getElem?
  intro p
  by_cases hp : p < len
  · rw [h1.getElem? hp, h2.getElem? hp, h p hp]
  · rw [List.getElem?_eq_none (by rw [h1.1]; omega), List.getElem?_eq_none (by rw [h2.1]; omega)]

theorem csr2csc_success {m n nnz b b' : Int} {p i : List Int} {v : List R} {cp ri : List Int} {cv : List R} {q}
    (h : csr2csc m n nnz b b' (some p) (some i) (some v) (some cp) (some ri) (some cv) = some (.success, q)) :
    ∃ x y z, q = (some x, some y, some z) := by
  unfold csr2csc at h
  split at h
  · simp at h
  split at h
  · simp only [Option.bind_eq_bind, Option.bind_eq_some_iff, Option.some.injEq, Prod.mk.injEq] at h
    obtain ⟨a, _, _, rfl⟩ := h
    exact ⟨_, _, _, rfl⟩
  split at h
  · simp at h
  split at h
  · simp at h
  simp only [Option.bind_eq_bind, Option.bind_eq_some_iff, Option.some.injEq, Prod.mk.injEq] at h
  obtain ⟨⟨a, a2, a3⟩, _, _, rfl⟩ := h
  exact ⟨_, _, _, rfl⟩

theorem mdB_error [Zero R] [One R] [Add R] [Mul R] [DecidableEq R] {g : Garb R} {cj : R → R} {tr conj : Bool}
    {B : RawMat R} {e : Status} (hb : mdB g cj tr conj B = some (.error e)) : e ≠ .success := by
  rintro rfl
  unfold mdB at hb
  split at hb
  · simp at hb
  · split at hb
    · simp only [Option.bind_eq_some_iff] at hb
      obtain ⟨r, hq, hr⟩ := hb
      cases r with
      | ok b =>
        simp only [Option.bind_eq_some_iff] at hr
        obtain ⟨v, _, hv⟩ := hr
        simp at hv
      | error e' =>
        simp only [Option.some.injEq, Except.error.injEq] at hr
        subst hr
        unfold orientG at hq
        rw [if_pos rfl] at hq
        simp only [Option.bind_eq_bind, Option.bind_eq_some_iff] at hq
        obtain ⟨⟨st, q⟩, h1, h2⟩ := hq
        by_cases hst : st = .success
        · subst hst
          obtain ⟨x, y, z, rfl⟩ := csr2csc_success h1
          simp at h2
        · obtain ⟨x, y, z⟩ := q
          split at h2
          · simp at h2
          · rename_i heq
            simp only [Option.some.injEq, Except.error.injEq] at h2
            cases heq
            exact hst h2
    · simp only [Option.bind_eq_bind, Option.bind_eq_some_iff] at hb
      obtain ⟨_, _, _, _, _, _, hv⟩ := hb
      simp at hv

/-- **C30, beta = 0.**  With `beta = 0` the old content of the window is ignored, whatever the
arithmetic (no laws are assumed, so this covers NaN): two buffers that agree outside the window give
the same result. -/
theorem C30_beta_zero [Zero R] [One R] [Add R] [Mul R] [DecidableEq R] {w : Nat} (isReal : Bool) (g : Garb R)
    (cj : R → R) (opA opB : Int) (dA dB : Option Descr) (A B : RawMat R) (alpha : R) (layout ldc : Int)
    {m n : Nat} (hm : (if opA = 111 then A.um else A.un) = (m : Int))
    (hn : (if opB = 111 then B.un else B.um) = (n : Int)) {C D : List R} (hlen : C.length = D.length)
    (hC : ∀ i j, i < m → j < n → denseOff (layout = 1) ldc.toNat i j < C.length)
    (hrest : ∀ p, (∀ i j, i < m → j < n → p ≠ denseOff (layout = 1) ldc.toNat i j) → C[p]? = D[p]?) :
    sp2md w isReal g cj opA dA (some A) opB dB (some B) alpha 0 (some C) layout ldc
      = sp2md w isReal g cj opA dA (some A) opB dB (some B) alpha 0 (some D) layout ldc ∨
    ∃ st, st ≠ .success ∧
      sp2md w isReal g cj opA dA (some A) opB dB (some B) alpha 0 (some C) layout ldc = some (st, some C) ∧
      sp2md w isReal g cj opA dA (some A) opB dB (some B) alpha 0 (some D) layout ldc = some (st, some D) := by
  have fin : ∀ st, st ≠ .success → ∀ {P : Prop} , P ∨ ∃ st', st' ≠ Status.success ∧
      some (st, some C) = some (st', some C) ∧ some (st, some D) = some (st', some D) :=
    fun st h _ => .inr ⟨st, h, rfl, rfl⟩
  unfold sp2md
  cases dA with
  | none => exact .inl rfl
  | some dA =>
  cases dB with
  | none => exact .inl rfl
  | some dB =>
  simp only
  by_cases h1 : dA.type ≠ 0 ∨ dB.type ≠ 0
  · simp only [if_pos h1]; exact fin _ (by decide)
  simp only [if_neg h1]
  by_cases h2 : layout ≠ 0 ∧ layout ≠ 1
  · simp only [if_pos h2]; exact fin _ (by decide)
  simp only [if_neg h2]
  by_cases h3 : A.fmt ≠ 0 ∨ B.fmt ≠ 0
  · simp only [if_pos h3]; exact fin _ (by decide)
  simp only [if_neg h3]
  rw [hm, hn]
  by_cases h4 : (if opA = 111 then A.un else A.um) ≠ (if opB = 111 then B.um else B.un)
  · simp only [if_pos h4]; exact fin _ (by decide)
  simp only [if_neg h4]
  by_cases h5 : ldc < (if layout = 0 then (n : Int) else m)
  · simp only [if_pos h5]; exact fin _ (by decide)
  simp only [if_neg h5]
  by_cases h6 : prodOvf w (if layout = 0 then (m : Int) else n) ldc = true
  · simp only [if_pos h6]; exact fin _ (by decide)
  simp only [if_neg h6]
  by_cases h7 : A.base ≠ dA.base ∨ B.base ≠ dB.base
  · simp only [if_pos h7]; exact fin _ (by decide)
  simp only [if_neg h7]
  have hl0 : 0 ≤ ldc := by split at h5 <;> omega
  obtain ⟨ld, rfl⟩ : ∃ k : Nat, ldc = (k : Int) := ⟨ldc.toNat, by omega⟩
  rw [Int.toNat_natCast] at hC hrest
  have hmn : mnr (decide (layout = 1)) m n ≤ ld := by
    by_cases hl : layout = 1
    · rw [if_neg (by omega)] at h5
      simp [mnr, hl]; omega
    · rw [if_pos (by omega)] at h5
      simp [mnr, hl]; omega
  -- the scaled arrays agree
  have hsc : mdScale (decide (layout = 1)) (0 : R) m n ld C = mdScale (decide (layout = 1)) (0 : R) m n ld D := by
    unfold mdScale
    rw [if_pos rfl, if_pos rfl]
    obtain ⟨C1, e1, r1⟩ := mdLoops_ok hmn hC (fun _ => (0 : R)) (cell := fun p C => wr C p 0)
      (fun p C v hp hv => rfl) (Rep.of_list C 0)
    obtain ⟨D1, e2, r2⟩ := mdLoops_ok hmn (len := D.length) (by rw [← hlen]; exact hC) (fun _ => (0 : R))
      (cell := fun p C => wr C p 0) (fun p C v hp hv => rfl) (Rep.of_list D 0)
    rw [e1, e2]
    congr 1
    rw [← hlen] at r2
    refine rep_unique r1 r2 (fun p hp => ?_)
    unfold doneF
    split
    · rfl
    · rename_i hnot
      have := hrest p (by
        rintro i j hi hj rfl
        apply hnot
        rw [denseOff_mm]
        have hmnr : mnr (decide (layout = 1)) i j < ld := by
          cases hc : decide (layout = 1) <;> simp [hc, mnr] at hmn ⊢ <;> omega
        rw [(major_minor hmnr).1, (major_minor hmnr).2]
        cases hc : decide (layout = 1) <;> simp [maj, mnr] <;> omega)
      simp only [List.getD_eq_getElem?_getD, this]
  unfold mdRun
  simp only
  cases hb : mdB g cj (decide (effDoid B.doid (getDoid isReal dB.type dB.fill opB) &&& 2 ≠ 0))
      (decide (effDoid B.doid (getDoid isReal dB.type dB.fill opB) &&& 1 ≠ 0)) B with
  | none => exact .inl rfl
  | some b =>
    cases b with
    | ok b =>
      left
      simp only [Option.bind_some]
      rw [hsc]
    | error e => exact .inr ⟨e, mdB_error hb, rfl, rfl⟩

/-- **C30, rejected calls**: if sp2md returns anything but success, C is untouched. -/
theorem C30_rejected [Zero R] [One R] [Add R] [Mul R] [DecidableEq R] {w : Nat} {isReal : Bool} {g : Garb R}
    {cj : R → R} {opA opB : Int} {dA dB : Option Descr} {A B : Option (RawMat R)} {alpha beta : R}
    {layout ldc : Int} {C C' : Option (List R)} {st : Status}
    (h : sp2md w isReal g cj opA dA A opB dB B alpha beta C layout ldc = some (st, C'))
    (hst : st ≠ .success) : C' = C := by
  have fin : ∀ s, some (s, C) = some (st, C') → C' = C := by
    intro s hs
    simp only [Option.some.injEq, Prod.mk.injEq] at hs
    exact hs.2.symm
  unfold sp2md at h
  split at h
  · split at h
    · exact fin _ h
    split at h
    · exact fin _ h
    split at h
    · simp only at h
      rcases ite_or h with ⟨_, h⟩ | ⟨_, h⟩
      · exact fin _ h
      rcases ite_or h with ⟨_, h⟩ | ⟨_, h⟩
      · exact fin _ h
      rcases ite_or h with ⟨_, h⟩ | ⟨_, h⟩
      · exact fin _ h
      rcases ite_or h with ⟨_, h⟩ | ⟨_, h⟩
      · exact fin _ h
      rcases ite_or h with ⟨_, h⟩ | ⟨_, h⟩
      · exact fin _ h
      simp only [Option.map_eq_some_iff, Prod.mk.injEq] at h
      obtain ⟨⟨s1, C1⟩, hr, rfl, rfl⟩ := h
      unfold mdRun at hr
      simp only [Option.bind_eq_some_iff] at hr
      obtain ⟨b, hb, hr⟩ := hr
      cases b with
      | error e =>
        simp only [Option.some.injEq, Prod.mk.injEq] at hr
        rw [hr.2]
      | ok b =>
        simp only [Option.bind_eq_some_iff] at hr
        obtain ⟨C2, _, hr⟩ := hr
        split at hr
        · simp only [Option.some.injEq, Prod.mk.injEq] at hr
          exact absurd hr.1.symm hst
        · simp only [Option.map_eq_some_iff, Prod.mk.injEq] at hr
          obtain ⟨_, _, h1, _⟩ := hr
          exact absurd h1.symm hst
    · exact fin _ h
  · simp at h

/-- what is rejected, in the order of the checks (valid descriptors, operations none/transpose/conjugate
transpose) -/
theorem C30_status [Zero R] [One R] [Add R] [Mul R] [DecidableEq R] (w : Nat) (isReal : Bool) (g : Garb R)
    (cj : R → R) (opA opB : Int) (dA dB : Descr) (A B : RawMat R) (alpha beta : R) (C : List R)
    (layout ldc : Int) :
    let r := sp2md w isReal g cj opA (some dA) (some A) opB (some dB) (some B) alpha beta (some C) layout ldc
    let mc := if opA = 111 then A.um else A.un
    let nc := if opB = 111 then B.un else B.um
    ((dA.type ≠ 0 ∨ dB.type ≠ 0) → r = some (.notImplemented, some C)) ∧
    (dA.type = 0 → dB.type = 0 → layout ≠ 0 → layout ≠ 1 → r = some (.invalidValue, some C)) ∧
    (dA.type = 0 → dB.type = 0 → (layout = 0 ∨ layout = 1) → A.fmt = 0 → B.fmt = 0 →
      ((if opA = 111 then A.un else A.um) ≠ (if opB = 111 then B.um else B.un) →
        r = some (.invalidSize, some C)) ∧
      (layout = 0 → ldc < nc → r = some (.invalidSize, some C)) ∧
      (layout = 1 → ldc < mc → r = some (.invalidSize, some C)) ∧
      ((if opA = 111 then A.un else A.um) = (if opB = 111 then B.um else B.un) →
        (if layout = 0 then nc else mc) ≤ ldc → prodOvf w (if layout = 0 then mc else nc) ldc = false →
        (A.base ≠ dA.base ∨ B.base ≠ dB.base) → r = some (.invalidValue, some C))) := by
  intro r mc nc
  simp only [r]
  unfold sp2md
  simp only
  refine ⟨fun h => by rw [if_pos h], fun h1 h2 h3 h4 => ?_, fun h1 h2 h3 h4 h5 => ⟨fun h => ?_, ?_, ?_, ?_⟩⟩
  · rw [if_neg (by omega), if_pos ⟨h3, h4⟩]
  · rw [if_neg (by omega), if_neg (by omega), if_neg (by omega), if_pos h]
  · intro hl hlt
    rw [if_neg (by omega), if_neg (by omega), if_neg (by omega)]
    by_cases hd : (if opA = 111 then A.un else A.um) ≠ (if opB = 111 then B.um else B.un)
    · rw [if_pos hd]
    · rw [if_neg hd, if_pos (by rw [if_pos hl]; exact hlt)]
  · intro hl hlt
    rw [if_neg (by omega), if_neg (by omega), if_neg (by omega)]
    by_cases hd : (if opA = 111 then A.un else A.um) ≠ (if opB = 111 then B.um else B.un)
    · rw [if_pos hd]
    · rw [if_neg hd, if_pos (by rw [if_neg (by omega : ¬ layout = 0)]; exact hlt)]
  · intro hd hl hov hb
    rw [if_neg (by omega), if_neg (by omega), if_neg (by omega), if_neg (by simpa using hd),
      if_neg (by simpa using hl)]
    rw [show prodOvf w (if layout = 0 then (if opA = 111 then A.um else A.un)
      else (if opB = 111 then B.un else B.um)) ldc = false from hov]
    rw [if_neg (by simp), if_pos hb]

/-! ### findings -/

/-- F31: a null descriptor is dereferenced -/
theorem C30_null_descr_counterexample (C : Option (List Rat)) :
    sp2md 32 true ⟨fun _ => 0, fun _ => 0, fun _ => 0⟩ id 111 none none 111 none none 1 0 C 0 1 = none := rfl

def ex30A : Csr Rat := ⟨2, 3, 1, [1, 3, 4], [1, 3, 2], [1, 2, 3]⟩
def ex30B : Csr Rat := ⟨3, 2, 0, [0, 1, 2, 4], [1, 0, 0, 1], [5, 6, 7, 8]⟩
def ex30g : Garb Rat := ⟨fun k => 40 + k, fun k => 50 + k, fun k => 60 + (k : Rat)⟩

/-- F32: the operation codes are not checked.  With an undefined code for A the dimension checks
treat the matrix as transposed and the kernel does not: with A 2×3 and B 2×2 (fitting Aᵀ·B) the
kernel reads past the row pointers of B. -/
theorem C30_bad_operation_counterexample :
    sp2md 32 true ex30g id 7 (some ⟨0, 0, 0, 1⟩) (some (ex30A.raw false)) 111 (some ⟨0, 0, 0, 0⟩)
      (some ((⟨2, 2, 0, [0, 1, 2], [0, 1], [1, 1]⟩ : Csr Rat).raw false)) 1 0
      (some [0, 0, 0, 0, 0, 0]) 0 2 = none := by
  decide +kernel

/-! ### concrete cases -/

example : ex30A.WF := by decide +kernel
example : ex30B.WF := by decide +kernel

/-- A·B with 2×2 result in a row-major buffer with leading dimension 3 -/
example : sp2md 32 true ex30g star Op.none.code (some ⟨0, 0, 0, 1⟩) (some (ex30A.raw false)) Op.none.code
    (some ⟨0, 0, 0, 0⟩) (some (ex30B.raw false)) 2 3 (some [1, 1, 9, 1, 1, 9]) 0 3
    = some (.success, some [31, 45, 9, 39, 3, 9]) := by decide +kernel
/-- the same product with B read as a CSC matrix and transposed -/
example : sp2md 32 true ex30g star Op.none.code (some ⟨0, 0, 0, 1⟩) (some (ex30A.raw false)) Op.trans.code
    (some ⟨0, 0, 0, 0⟩) (some (ex30B.raw true)) 2 3 (some [1, 1, 9, 1, 1, 9]) 0 3
    = some (.success, some [31, 45, 9, 39, 3, 9]) := by decide +kernel
/-- Aᵀ·B for a CSC matrix B, column-major -/
example : spmmd 32 true ex30g star Op.trans.code (some (ex30A.raw false)) (some (ex30B.raw true)) 1
    (some (List.replicate 9 0)) 3 = some (.success, some [0, 15, 0, 6, 0, 12, 7, 24, 14]) := by decide +kernel

end Verif
