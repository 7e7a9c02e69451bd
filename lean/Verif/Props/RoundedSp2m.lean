/-
C64: rounding errors and reproducibility of the sparse matrix product.
-/
import Verif.Proofs.RoundedSp2m3
import Verif.Props.Rounded
import Verif.Props.Sp2m
import Mathlib.Data.Real.Star

namespace Verif
open Model Rounding

variable {R : Type}

/-! ### the same bits for every team, schedule, memory content and division into stages -/

/-- Handles that a history of calls on matrices with the patterns of `A` and `B` produces: a count
stage or a full call, then any number of finalize stages, all with arbitrary values. -/
inductive MmCalls [Zero R] [Add R] [Mul R] (w : Nat) (isReal : Bool) (cj : R → R) (opA : Op) (ta : Bool)
    (A : Csr R) (opB : Op) (tb : Bool) (B : Csr R) : Sp2mH R → Prop
  | start (tm : Teams) (g : Nat → Garb R) (dA dB : Descr) (A' B' : Csr R) (req : Int)
      (C : Option (Sp2mH R)) (H : Sp2mH R) (hA : A'.WF) (hB : B'.WF) (pA : SamePat A A')
      (pB : SamePat B B') (hda : dA.type = 0 ∧ dA.base = A'.base)
      (hdb : dB.type = 0 ∧ dB.base = B'.base)
      (ht : tm.Ok w (opRows opA ta A) (opCols opB tb B)) (hreq : req = 0 ∨ req = 2)
      (he : sp2m w isReal tm g cj opA.code (some dA) (some (A'.raw ta)) opB.code (some dB)
        (some (B'.raw tb)) req C = some (.success, some H)) :
      MmCalls w isReal cj opA ta A opB tb B H
  | next (tm : Teams) (g : Nat → Garb R) (dA dB : Descr) (A' B' : Csr R) (H H' : Sp2mH R)
      (hr : MmCalls w isReal cj opA ta A opB tb B H) (hA : A'.WF) (hB : B'.WF) (pA : SamePat A A')
      (pB : SamePat B B') (hda : dA.type = 0 ∧ dA.base = A'.base)
      (hdb : dB.type = 0 ∧ dB.base = B'.base)
      (ht : tm.Ok w (opRows opA ta A) (opCols opB tb B))
      (he : sp2m w isReal tm g cj opA.code (some dA) (some (A'.raw ta)) opB.code (some dB)
        (some (B'.raw tb)) 1 (some H) = some (.success, some H')) :
      MmCalls w isReal cj opA ta A opB tb B H'

theorem MmCalls.ready [Zero R] [Add R] [Mul R] {w : Nat} {isReal : Bool} {cj : R → R} {opA : Op}
    {ta : Bool} {A : Csr R} {opB : Op} {tb : Bool} {B : Csr R} {H : Sp2mH R} (hw : 0 ≤ intMax w)
    (hA : A.WF) (hB : B.WF) (hdim : opCols opA ta A = opRows opB tb B)
    (h : MmCalls w isReal cj opA ta A opB tb B H) : ReadyL opA ta A opB tb B H := by
  induction h with
  | start tm g dA dB A' B' req C H hA' hB' pA pB hda hdb ht hreq he =>
    have dA' := pA.dims opA ta
    have dB' := pB.dims opB tb
    have hdim' : opCols opA ta A' = opRows opB tb B' := by rw [dA'.2, dB'.1, hdim]
    have hs := start_law isReal tm g cj (opA := opA) (dA := dA) (ta := ta) (opB := opB) (dB := dB)
      (tb := tb) hA' hB' hda hdb hdim' (w := w) (by rw [dA'.1, dB'.2]; exact ht) req hreq C
    by_cases hf : ProdFits w opA ta A' opB tb B'
    · obtain ⟨H1, e1, hr, -⟩ := hs.1 hf
      rw [he] at e1
      simp only [Option.some.injEq, Prod.mk.injEq, true_and] at e1
      subst e1
      exact hr.congr hA' hB' hA hB pA.symm pB.symm
    · rw [hs.2 hf hw] at he
      simp at he
  | next tm g dA dB A' B' H H' hr hA' hB' pA pB hda hdb ht he ih =>
    have dA' := pA.dims opA ta
    have dB' := pB.dims opB tb
    have hdim' : opCols opA ta A' = opRows opB tb B' := by rw [dA'.2, dB'.1, hdim]
    obtain ⟨e1, hr1⟩ := next_law isReal tm g cj hA' hB' hda hdb hdim' (w := w)
      (by rw [dA'.1, dB'.2]; exact ht) (ih.congr hA hB hA' hB' pA pB)
    rw [he] at e1
    simp only [Option.some.injEq, Prod.mk.injEq, true_and] at e1
    subst e1
    exact hr1.congr hA' hB' hA hB pA.symm pB.symm

/-- C64 (a): in any arithmetic, without any law of addition and multiplication, op(A)·op(B) is one
result, bit by bit: full calls return it for every number of threads, order of their execution, content
of fresh memory and previous content of the output pointer, and so do the finalize stages of two-stage
computations, whatever the values in earlier calls were. -/
theorem C64_reproducible [Zero R] [Add R] [Mul R] {w : Nat} (hw : 0 ≤ intMax w) (isReal : Bool)
    (cj : R → R) (opA : Op) (ta : Bool) (A : Csr R) (opB : Op) (tb : Bool) (B : Csr R)
    (hA : A.WF) (hB : B.WF) (hdim : opCols opA ta A = opRows opB tb B)
    (hfit : ProdFits w opA ta A opB tb B) :
    ∃ H, (∀ (tm : Teams) (g : Nat → Garb R) (dA dB : Descr) (C : Option (Sp2mH R)),
        dA.type = 0 ∧ dA.base = A.base → dB.type = 0 ∧ dB.base = B.base →
        tm.Ok w (opRows opA ta A) (opCols opB tb B) →
        sp2m w isReal tm g cj opA.code (some dA) (some (A.raw ta)) opB.code (some dB)
          (some (B.raw tb)) 2 C = some (.success, some H)) ∧
      (∀ (tm : Teams) (g : Nat → Garb R) (dA dB : Descr) (H' : Sp2mH R),
        MmCalls w isReal cj opA ta A opB tb B H' →
        dA.type = 0 ∧ dA.base = A.base → dB.type = 0 ∧ dB.base = B.base →
        tm.Ok w (opRows opA ta A) (opCols opB tb B) →
        sp2m w isReal tm g cj opA.code (some dA) (some (A.raw ta)) opB.code (some dB)
          (some (B.raw tb)) 1 (some H') = some (.success, some H)) := by
  refine ⟨resH cj isReal opA ta A opB tb B, ?_, ?_⟩
  · intro tm g dA dB C hda hdb ht
    obtain ⟨H, e, -, h2⟩ := (start_law isReal tm g cj hA hB hda hdb hdim ht 2 (.inr rfl) C).1 hfit
    rw [e, h2 rfl]
  · intro tm g dA dB H' hc hda hdb ht
    exact (next_law isReal tm g cj hA hB hda hdb hdim ht (hc.ready hw hA hB hdim)).1

/-- the handle holds the matrix `C`, zero-based, with the dimensions of op(A)·op(B), every position at
most once and exactly the positions with at least one stored product -/
structure HoldsProd (opA : Op) (ta : Bool) (A : Csr R) (opB : Op) (tb : Bool) (B : Csr R)
    (H : Sp2mH R) (C : Csr R) : Prop where
  m : H.m = C.m
  n : H.n = C.n
  nnz : H.nnz = C.nnz
  csr : H.csr = C.arrs
  base : C.base = 0
  wf : C.WF
  nodup : C.NoDup
  rows : C.m = opRows opA ta A
  cols : C.n = opCols opB tb B
  stored : ∀ i j, i < C.m → j < C.n → (userStored false C i j ↔ prodStored opA ta A opB tb B i j)

theorem resH_holds [Zero R] [Add R] [Mul R] (cj : R → R) (isReal : Bool) {opA : Op} {ta : Bool}
    {A : Csr R} {opB : Op} {tb : Bool} {B : Csr R} (hA : A.WF) (hB : B.WF)
    (hdim : opCols opA ta A = opRows opB tb B) :
    HoldsProd opA ta A opB tb B (resH cj isReal opA ta A opB tb B) (resC cj isReal opA ta A opB tb B) := by
  obtain ⟨w, nd, h0, h1, h2, h4⟩ := resC_ok cj isReal (opA := opA) (ta := ta) (opB := opB) (tb := tb)
    hA hB hdim
  obtain ⟨r1, r2, r3, r4⟩ := resH_ok cj isReal (opA := opA) (ta := ta) (opB := opB) (tb := tb) hA hB hdim
  exact ⟨by rw [r1, h1], by rw [r2, h2], r3, r4, h0, w, nd, h1, h2, fun i j hi hj =>
    h4 i j (by rw [← h1]; exact hi) (by rw [← h2]; exact hj)⟩

/-- C64 (b): for factors with sorted rows (of the stored arrays) and without duplicates, every value of
the product is the sum, from left to right, of the products of stored entries for increasing inner
index. It depends neither on the format of the handles nor on whether an operand is given by its
transpose, and not on the arithmetic, as long as products commute. -/
theorem C64_value [Zero R] [Add R] [Mul R] (hcomm : ∀ a b : R, a * b = b * a) {w : Nat} (isReal : Bool)
    (cj : R → R) (tm : Teams) (g : Nat → Garb R) (opA : Op) (dA : Descr) (ta : Bool) (A : Csr R)
    (opB : Op) (dB : Descr) (tb : Bool) (B : Csr R) (hA : A.WF) (hB : B.WF)
    (sA : A.Sorted) (nA : A.NoDup) (sB : B.Sorted) (nB : B.NoDup)
    (hda : dA.type = 0 ∧ dA.base = A.base) (hdb : dB.type = 0 ∧ dB.base = B.base)
    (hdim : opCols opA ta A = opRows opB tb B)
    (ht : tm.Ok w (opRows opA ta A) (opCols opB tb B)) (hfit : ProdFits w opA ta A opB tb B)
    (C : Option (Sp2mH R)) :
    ∃ H P, sp2m w isReal tm g cj opA.code (some dA) (some (A.raw ta)) opB.code (some dB)
        (some (B.raw tb)) 2 C = some (.success, some H) ∧
      HoldsProd opA ta A opB tb B H P ∧
      ∀ i j, i < P.m → j < P.n → P.stored i j =
        let l := prodVals (if isReal then id else cj) opA ta A opB tb B i j
        if l = [] then none else some (sumLeft l) := by
  have tA := Csr.strict_of sA nA
  have tB := Csr.strict_of sB nB
  obtain ⟨H, e, -, h2⟩ := (start_law isReal tm g cj hA hB hda hdb hdim ht 2 (.inr rfl) C).1 hfit
  rw [h2 rfl] at e
  have hh := resH_holds cj isReal hA hB hdim
  refine ⟨_, _, e, hh, ?_⟩
  intro i j hi hj
  have hi' : i < opRows opA ta A := by rw [← hh.rows]; exact hi
  have hj' : j < opCols opB tb B := by rw [← hh.cols]; exact hj
  have hmem := resC_mem cj isReal hA hB hdim hi' hj'
  have hl : (resPairs opA ta A opB tb B i j).map (fun p =>
        cjF cj isReal (if bothT ta opA tb opB then opB else opA) p.1 *
        cjF cj isReal (if bothT ta opA tb opB then opA else opB) p.2)
      = prodVals (if isReal then id else cj) opA ta A opB tb B i j := by
    rw [resPairs_stored hA hB tA tB hdim hi' hj', List.map_filterMap]
    unfold prodVals
    congr 1
    funext k
    have hcj : ∀ op : Op, cjF cj isReal op = if op = .conjTrans then (if isReal then id else cj) else id := by
      intro op
      unfold cjF
      cases isReal <;> by_cases h : op = .conjTrans <;> simp [h]
    unfold opStoredVal
    rw [show (ta != decide (opA ≠ .none)) = trOf ta opA from rfl,
      show (tb != decide (opB ≠ .none)) = trOf tb opB from rfl, ← hcj opA, ← hcj opB]
    cases (if trOf ta opA = true then A.stored k i else A.stored i k) with
    | none => rfl
    | some a =>
      cases (if trOf tb opB = true then B.stored j k else B.stored k j) with
      | none => rfl
      | some b =>
        cases hb : bothT ta opA tb opB
        · simp [hb]
        · simp [hb, hcomm]
  have hsum : ∀ l : List R, sumLeft l = addUp l := by
    intro l; cases l <;> rfl
  simp only
  rw [← hl]
  by_cases hn : resPairs opA ta A opB tb B i j = []
  · rw [if_pos (by simp [hn])]
    refine stored_not fun v hv => ?_
    exact ((hmem v).mp hv).1 hn
  · rw [if_neg (by simpa using hn)]
    refine stored_mem hh.nodup hi ((hmem _).mpr ⟨hn, ?_⟩)
    rw [hsum]

/-- C64 (c): two calls on operands that represent the same op(A) and op(B), with sorted rows and
without duplicates, store the same values at the same positions, whatever the formats of the handles,
the operations, the index bases, the threads and the memory are, in any arithmetic with commuting
products. -/
theorem C64_formats_agree [Zero R] [Add R] [Mul R] (hcomm : ∀ a b : R, a * b = b * a) {w : Nat}
    (isReal : Bool) (cj : R → R)
    (tm : Teams) (g : Nat → Garb R) (opA : Op) (dA : Descr) (ta : Bool) (A : Csr R)
    (opB : Op) (dB : Descr) (tb : Bool) (B : Csr R) (hA : A.WF) (hB : B.WF)
    (sA : A.Sorted) (nA : A.NoDup) (sB : B.Sorted) (nB : B.NoDup)
    (hda : dA.type = 0 ∧ dA.base = A.base) (hdb : dB.type = 0 ∧ dB.base = B.base)
    (hdim : opCols opA ta A = opRows opB tb B)
    (ht : tm.Ok w (opRows opA ta A) (opCols opB tb B)) (hfit : ProdFits w opA ta A opB tb B)
    (C : Option (Sp2mH R))
    (tm' : Teams) (g' : Nat → Garb R) (opA' : Op) (dA' : Descr) (ta' : Bool) (A' : Csr R)
    (opB' : Op) (dB' : Descr) (tb' : Bool) (B' : Csr R) (hA' : A'.WF) (hB' : B'.WF)
    (sA' : A'.Sorted) (nA' : A'.NoDup) (sB' : B'.Sorted) (nB' : B'.NoDup)
    (hda' : dA'.type = 0 ∧ dA'.base = A'.base) (hdb' : dB'.type = 0 ∧ dB'.base = B'.base)
    (hdim' : opCols opA' ta' A' = opRows opB' tb' B')
    (ht' : tm'.Ok w (opRows opA' ta' A') (opCols opB' tb' B')) (hfit' : ProdFits w opA' ta' A' opB' tb' B')
    (C' : Option (Sp2mH R))
    (hrow : opRows opA' ta' A' = opRows opA ta A) (hinn : opCols opA' ta' A' = opCols opA ta A)
    (hcol : opCols opB' tb' B' = opCols opB tb B)
    (eA : ∀ i k, opStoredVal (if isReal then id else cj) opA' ta' A' i k
      = opStoredVal (if isReal then id else cj) opA ta A i k)
    (eB : ∀ k j, opStoredVal (if isReal then id else cj) opB' tb' B' k j
      = opStoredVal (if isReal then id else cj) opB tb B k j) :
    ∃ H P H' P', sp2m w isReal tm g cj opA.code (some dA) (some (A.raw ta)) opB.code (some dB)
        (some (B.raw tb)) 2 C = some (.success, some H) ∧
      sp2m w isReal tm' g' cj opA'.code (some dA') (some (A'.raw ta')) opB'.code (some dB')
        (some (B'.raw tb')) 2 C' = some (.success, some H') ∧
      HoldsProd opA ta A opB tb B H P ∧ HoldsProd opA' ta' A' opB' tb' B' H' P' ∧
      P'.m = P.m ∧ P'.n = P.n ∧ ∀ i j, i < P.m → j < P.n → P'.stored i j = P.stored i j := by
  obtain ⟨H, P, e, hh, hv⟩ := C64_value hcomm isReal cj tm g opA dA ta A opB dB tb B hA hB sA nA sB nB
    hda hdb hdim ht hfit C
  obtain ⟨H', P', e', hh', hv'⟩ := C64_value hcomm isReal cj tm' g' opA' dA' ta' A' opB' dB' tb' B'
    hA' hB' sA' nA' sB' nB' hda' hdb' hdim' ht' hfit' C'
  have hm : P'.m = P.m := by rw [hh.rows, hh'.rows, hrow]
  have hn : P'.n = P.n := by rw [hh.cols, hh'.cols, hcol]
  refine ⟨H, P, H', P', e, e', hh, hh', hm, hn, ?_⟩
  intro i j hi hj
  rw [hv i j hi hj, hv' i j (by rw [hm]; exact hi) (by rw [hn]; exact hj)]
  have : prodVals (if isReal then id else cj) opA' ta' A' opB' tb' B' i j
      = prodVals (if isReal then id else cj) opA ta A opB tb B i j := by
    unfold prodVals
    simp only [hinn, eA, eB]
  rw [this]

/-! ### rounding errors -/

section
variable {ρ : Rounding}

theorem mapTo_mapTo {S T : Type} (f : R → S) (h : S → T) (A : Csr R) :
    (A.mapTo f).mapTo h = A.mapTo fun a => h (f a) := by
  simp [Csr.mapTo, Function.comp_def]

theorem opEnt_real (op : Op) (t : Bool) (M : Csr ℝ) (a b : Nat) :
    applyOp op (userMat t M) a b = opEnt op t M a b := by
  rw [effMat true t op M (fun _ x => star_trivial x)]
  unfold cjOf opEnt
  simp

/-- the computed element: `0` if no product is stored, else the sum in order -/
theorem resC_real {F : Fpu (Fp ρ)} {opA : Op} {ta : Bool} {A : Csr (Fp ρ)} {opB : Op} {tb : Bool}
    {B : Csr (Fp ρ)} (hA : A.WF) (hB : B.WF) (hdim : opCols opA ta A = opRows opB tb B) {i j : Nat}
    (hi : i < opRows opA ta A) (hj : j < opCols opB tb B) :
    ((resC id true opA ta (A.mapTo (Lazy.of F)) opB tb (B.mapTo (Lazy.of F))).mapTo Lazy.real).mat i j
      = if resPairs opA ta A opB tb B i j = [] then 0 else
        Lazy.real (addUp ((resPairs opA ta A opB tb B i j).map fun p => Lazy.of F p.1 * Lazy.of F p.2)) := by
  have hA' := mapTo_wf (Lazy.of F) hA
  have hB' := mapTo_wf (Lazy.of F) hB
  have hdim' : opCols opA ta (A.mapTo (Lazy.of F)) = opRows opB tb (B.mapTo (Lazy.of F)) := hdim
  obtain ⟨-, nd, -, h1, -, -⟩ := resC_ok (id : Lazy F → Lazy F) true hA' hB' hdim'
  have hmem := resC_mem (id : Lazy F → Lazy F) true hA' hB' hdim' hi hj
  have hcj : ∀ op : Op, cjF (id : Lazy F → Lazy F) true op = id := by
    intro op; unfold cjF; simp
  simp only [hcj, id_eq, resPairs_mapTo, List.map_map, ne_eq, List.map_eq_nil_iff] at hmem
  by_cases hn : resPairs opA ta A opB tb B i j = []
  · rw [if_pos hn]
    exact mapTo_mat_not _ fun v hv => ((hmem v).mp hv).1 hn
  · rw [if_neg hn]
    refine mapTo_mat_mem _ nd ?_ ((hmem _).mpr ⟨hn, rfl⟩)
    rw [h1]
    exact hi

/-- a call on `Lazy` numbers -/
theorem mm_call (F : Fpu (Fp ρ)) {w : Nat} (tm : Teams) (g : Nat → Garb (Lazy F)) (opA : Op)
    {dA : Descr} (ta : Bool) {A : Csr (Fp ρ)} (opB : Op) {dB : Descr} (tb : Bool) {B : Csr (Fp ρ)}
    (hA : A.WF) (hB : B.WF)
    (hda : dA.type = 0 ∧ dA.base = A.base) (hdb : dB.type = 0 ∧ dB.base = B.base)
    (hdim : opCols opA ta A = opRows opB tb B)
    (ht : tm.Ok w (opRows opA ta A) (opCols opB tb B)) (hfit : ProdFits w opA ta A opB tb B)
    (C : Option (Sp2mH (Lazy F))) :
    sp2m w true tm g id opA.code (some dA) (some ((A.mapTo (Lazy.of F)).raw ta)) opB.code
        (some dB) (some ((B.mapTo (Lazy.of F)).raw tb)) 2 C
      = some (.success, some (resH id true opA ta (A.mapTo (Lazy.of F)) opB tb (B.mapTo (Lazy.of F)))) ∧
    HoldsProd opA ta (A.mapTo (Lazy.of F)) opB tb (B.mapTo (Lazy.of F))
      (resH id true opA ta (A.mapTo (Lazy.of F)) opB tb (B.mapTo (Lazy.of F)))
      (resC id true opA ta (A.mapTo (Lazy.of F)) opB tb (B.mapTo (Lazy.of F))) := by
  have hA' := mapTo_wf (Lazy.of F) hA
  have hB' := mapTo_wf (Lazy.of F) hB
  have hdim' : opCols opA ta (A.mapTo (Lazy.of F)) = opRows opB tb (B.mapTo (Lazy.of F)) := hdim
  have hfit' : ProdFits w opA ta (A.mapTo (Lazy.of F)) opB tb (B.mapTo (Lazy.of F)) := by
    have : prodCount opA ta (A.mapTo (Lazy.of F)) opB tb (B.mapTo (Lazy.of F))
        = prodCount opA ta A opB tb B := by
      unfold prodCount prodStored
      simp only [effStored, mapTo_cols]
      rfl
    unfold ProdFits
    rw [this]
    exact hfit
  obtain ⟨H, e, -, h2⟩ := (start_law true tm g id hA' hB' hda hdb hdim' ht 2 (.inr rfl) C).1 hfit'
  rw [h2 rfl] at e
  exact ⟨e, resH_holds (id : Lazy F → Lazy F) true hA' hB' hdim'⟩

/-- the exact element and the sum of the sizes, by the products -/
theorem exact_pairs {opA : Op} {ta : Bool} {A : Csr (Fp ρ)} {opB : Op} {tb : Bool} {B : Csr (Fp ρ)}
    (hA : A.WF) (hB : B.WF) (hdim : opCols opA ta A = opRows opB tb B) {i j : Nat}
    (hi : i < opRows opA ta A) (hj : j < opCols opB tb B) :
    matMul (opCols opA ta A) (applyOp opA (userMat ta A.real)) (applyOp opB (userMat tb B.real)) i j
      = ((resPairs opA ta A opB tb B i j).map fun p => p.1.v * p.2.v).sum ∧
    matMul (opCols opA ta A) (applyOp opA (userMat ta A.sizes)) (applyOp opB (userMat tb B.sizes)) i j
      = ((resPairs opA ta A opB tb B i j).map fun p => |p.1.v| * |p.2.v|).sum := by
  have hsum := resPairs_sum (T := ℝ) (mapTo_wf Fp.v hA) (mapTo_wf Fp.v hB) (opA := opA) (ta := ta)
    (opB := opB) (tb := tb) hdim hi hj
  have hsize := resPairs_sum (T := ℝ) (mapTo_wf (fun a : Fp ρ => |a.v|) hA)
    (mapTo_wf (fun a : Fp ρ => |a.v|) hB) (opA := opA) (ta := ta) (opB := opB) (tb := tb) hdim hi hj
  rw [resPairs_mapTo, List.map_map] at hsum hsize
  unfold matMul
  simp only [opEnt_real]
  exact ⟨hsum.symm, hsize.symm⟩

/-- C64 (d): rounding errors. In every format `ρ`, whether or not the compiler fuses the multiplications
into the additions, each element of the product is off by at most `((1+u)^n - 1) · (|A||B|)_ij`, where
`n` is the number of products of stored entries it is a sum of. -/
theorem C64_error (F : Fpu (Fp ρ)) (hF : F.Rounds) {w : Nat} (tm : Teams)
    (g : Nat → Garb (Lazy F)) (opA : Op) (dA : Descr) (ta : Bool) (A : Csr (Fp ρ)) (opB : Op)
    (dB : Descr) (tb : Bool) (B : Csr (Fp ρ)) (hA : A.WF) (hB : B.WF)
    (hda : dA.type = 0 ∧ dA.base = A.base) (hdb : dB.type = 0 ∧ dB.base = B.base)
    (hdim : opCols opA ta A = opRows opB tb B)
    (ht : tm.Ok w (opRows opA ta A) (opCols opB tb B)) (hfit : ProdFits w opA ta A opB tb B)
    (C : Option (Sp2mH (Lazy F))) :
    ∃ H P, sp2m w true tm g id opA.code (some dA) (some ((A.mapTo (Lazy.of F)).raw ta)) opB.code
        (some dB) (some ((B.mapTo (Lazy.of F)).raw tb)) 2 C = some (.success, some H) ∧
      HoldsProd opA ta (A.mapTo (Lazy.of F)) opB tb (B.mapTo (Lazy.of F)) H P ∧
      ∀ i j, i < P.m → j < P.n →
        |(P.mapTo fun x => x.val.v).mat i j - matMul (opCols opA ta A)
            (applyOp opA (userMat ta A.real)) (applyOp opB (userMat tb B.real)) i j|
          ≤ ((1 + ρ.u) ^ prodTerms opA ta A opB tb B i j - 1) * matMul (opCols opA ta A)
            (applyOp opA (userMat ta A.sizes)) (applyOp opB (userMat tb B.sizes)) i j := by
  obtain ⟨e, hh⟩ := mm_call F tm g opA ta opB tb hA hB hda hdb hdim ht hfit C
  refine ⟨_, _, e, hh, ?_⟩
  intro i j hi hj
  have hi' : i < opRows opA ta A := by have := hh.rows; rw [this] at hi; exact hi
  have hj' : j < opCols opB tb B := by have := hh.cols; rw [this] at hj; exact hj
  have hval := resC_real (F := F) hA hB hdim hi' hj'
  obtain ⟨e1, e2⟩ := exact_pairs hA hB hdim hi' hj'
  rw [e1, e2, ← resPairs_length hA hB hdim hi' hj']
  show |((resC id true opA ta (A.mapTo (Lazy.of F)) opB tb (B.mapTo (Lazy.of F))).mapTo
    Lazy.real).mat i j - _| ≤ _
  rw [hval]
  by_cases hn : resPairs opA ta A opB tb B i j = []
  · simp [hn]
  · rw [if_neg hn]
    have := (lazy_near hF (l := (resPairs opA ta A opB tb B i j).map fun p =>
      (Lazy.of F p.1, Lazy.of F p.2)) (by simpa using hn)).2
    rw [List.length_map, List.map_map, List.map_map, List.map_map] at this
    exact this

theorem row_val {M : Csr R} {i : Nat} {e : Int × R} (h : e ∈ M.row i) : e.2 ∈ M.val := by
  simp only [Csr.row, List.mem_map] at h
  obtain ⟨⟨c, v⟩, hcv, rfl⟩ := h
  exact (List.of_mem_zip (List.mem_of_mem_drop (List.mem_of_mem_take hcv))).2

theorem flipC_val {A : Csr R} (hA : A.WF) (tr : Bool) {i : Nat} {e : Int × R}
    (h : e ∈ (flipC tr A).row i) : e.2 ∈ A.val := by
  cases tr
  · exact row_val h
  · obtain ⟨w1, -, m1, n1, -⟩ := flipC_wf hA true
    obtain ⟨a, b, c⟩ := cols_range w1 (c := e.1) (i := i) (List.mem_map.mpr ⟨e, h, rfl⟩)
    obtain ⟨j, hj⟩ := Int.eq_ofNat_of_zero_le b
    have hm : ((j : Int), e.2) ∈ (flipC true A).row i := by
      have : e = ((j : Int), e.2) := by rw [← hj]
      rw [← this]; exact h
    have h2 := ((flipC_mem (by rw [m1] at a; exact a) e.2).mp hm).2
    exact row_val (e := ((i : Int), e.2)) h2

theorem resPairs_val {opA : Op} {ta : Bool} {A : Csr R} {opB : Op} {tb : Bool} {B : Csr R}
    (hA : A.WF) (hB : B.WF) {P : R → Prop} (pA : ∀ a ∈ A.val, P a) (pB : ∀ b ∈ B.val, P b) {i j : Nat}
    {p : R × R} (h : p ∈ resPairs opA ta A opB tb B i j) : P p.1 ∧ P p.2 := by
  have key : ∀ (X Y : Csr R) (i j : Nat), (∀ k, ∀ e ∈ X.row k, P e.2) → (∀ k, ∀ e ∈ Y.row k, P e.2) →
      ∀ p ∈ pairsAt X Y i j, P p.1 ∧ P p.2 := by
    intro X Y i j hX hY p hp
    simp only [pairsAt, pairRow, List.mem_map, List.mem_filter, List.mem_flatMap] at hp
    obtain ⟨q, ⟨⟨e, he, f, hf, rfl⟩, -⟩, rfl⟩ := hp
    exact ⟨hX _ e he, hY _ f hf⟩
  unfold resPairs facX facY at h
  split at h
  · exact key _ _ _ _ (fun k e he => pB _ (row_val he)) (fun k e he => pA _ (row_val he)) p h
  · exact key _ _ _ _ (fun k e he => pA _ (flipC_val hA _ he)) (fun k e he => pB _ (flipC_val hB _ he)) p h

theorem lazy_exact {F : Fpu (Fp ρ)} (hF : F.Rounds) {N : Nat} (h : ExactTo ρ N)
    (l : List (Fp ρ × Fp ρ)) : ∀ (c : Lazy F), (∀ p ∈ l, IsInt p.1.v ∧ IsInt p.2.v) → IsInt c.real →
      |c.real| + (l.map fun p => |p.1.v| * |p.2.v|).sum ≤ N →
      Lazy.real ((l.map fun p => Lazy.of F p.1 * Lazy.of F p.2).foldl (· + ·) c)
        = c.real + (l.map fun p => p.1.v * p.2.v).sum := by
  induction l with
  | nil => intro c _ _ _; simp
  | cons p l ih =>
    intro c hi hc hN
    rw [List.map_cons, List.sum_cons] at hN
    have hp := hi p (by simp)
    have hl : 0 ≤ (l.map fun p => |p.1.v| * |p.2.v|).sum := by
      refine List.sum_nonneg ?_
      intro x hx
      obtain ⟨q, -, rfl⟩ := List.mem_map.mp hx
      positivity
    have e : (c + Lazy.of F p.1 * Lazy.of F p.2).real = p.1.v * p.2.v + c.real :=
      mac_exact hF.smac h hp.1 hp.2 hc (by
        show |p.1.v| * |p.2.v| + |c.real| ≤ N
        linarith)
    have := ih (c + Lazy.of F p.1 * Lazy.of F p.2) (fun q hq => hi q (by simp [hq]))
      (by rw [e]; exact (hp.1.mul hp.2).add hc) (by
        rw [e]
        have := abs_add_le (p.1.v * p.2.v) c.real
        rw [abs_mul] at this
        linarith)
    rw [List.map_cons, List.foldl_cons, this, e, List.map_cons, List.sum_cons]
    ring

/-- C64 (e): the product of integer matrices is exact wherever `(|A||B|)_ij` is at most `N`, if the
format represents the integers up to `N` (`N = 2^53` in double precision). -/
theorem C64_integers (F : Fpu (Fp ρ)) (hF : F.Rounds) (N : Nat) (hρ : ExactTo ρ N) {w : Nat} (tm : Teams)
    (g : Nat → Garb (Lazy F)) (opA : Op) (dA : Descr) (ta : Bool) (A : Csr (Fp ρ)) (opB : Op)
    (dB : Descr) (tb : Bool) (B : Csr (Fp ρ)) (hA : A.WF) (hB : B.WF)
    (iA : ∀ a ∈ A.val, IsInt a.v) (iB : ∀ b ∈ B.val, IsInt b.v)
    (hda : dA.type = 0 ∧ dA.base = A.base) (hdb : dB.type = 0 ∧ dB.base = B.base)
    (hdim : opCols opA ta A = opRows opB tb B)
    (ht : tm.Ok w (opRows opA ta A) (opCols opB tb B)) (hfit : ProdFits w opA ta A opB tb B)
    (C : Option (Sp2mH (Lazy F))) :
    ∃ H P, sp2m w true tm g id opA.code (some dA) (some ((A.mapTo (Lazy.of F)).raw ta)) opB.code
        (some dB) (some ((B.mapTo (Lazy.of F)).raw tb)) 2 C = some (.success, some H) ∧
      HoldsProd opA ta (A.mapTo (Lazy.of F)) opB tb (B.mapTo (Lazy.of F)) H P ∧
      ∀ i j, i < P.m → j < P.n → matMul (opCols opA ta A)
            (applyOp opA (userMat ta A.sizes)) (applyOp opB (userMat tb B.sizes)) i j ≤ N →
        (P.mapTo fun x => x.val.v).mat i j = matMul (opCols opA ta A)
            (applyOp opA (userMat ta A.real)) (applyOp opB (userMat tb B.real)) i j := by
  obtain ⟨e, hh⟩ := mm_call F tm g opA ta opB tb hA hB hda hdb hdim ht hfit C
  refine ⟨_, _, e, hh, ?_⟩
  intro i j hi hj hN
  have hi' : i < opRows opA ta A := by have := hh.rows; rw [this] at hi; exact hi
  have hj' : j < opCols opB tb B := by have := hh.cols; rw [this] at hj; exact hj
  have hval := resC_real (F := F) hA hB hdim hi' hj'
  obtain ⟨e1, e2⟩ := exact_pairs hA hB hdim hi' hj'
  rw [e2] at hN
  rw [e1]
  refine Eq.trans hval ?_
  have hint : ∀ p ∈ resPairs opA ta A opB tb B i j, IsInt p.1.v ∧ IsInt p.2.v := fun p hp =>
    resPairs_val hA hB (P := fun a => IsInt a.v) iA iB hp
  generalize resPairs opA ta A opB tb B i j = l at hN hint ⊢
  cases l with
  | nil => simp
  | cons p l =>
    have hp := hint p (by simp)
    rw [List.map_cons, List.sum_cons] at hN
    have hl : 0 ≤ (l.map fun p => |p.1.v| * |p.2.v|).sum := by
      refine List.sum_nonneg ?_
      intro x hx
      obtain ⟨q, -, rfl⟩ := List.mem_map.mp hx
      positivity
    have ep : (Lazy.of F p.1 * Lazy.of F p.2).real = p.1.v * p.2.v :=
      hρ.apply (hp.1.mul hp.2) (by
        have : |p.1.v * p.2.v| = |p.1.v| * |p.2.v| := abs_mul _ _
        show |p.1.v * p.2.v| ≤ N
        linarith)
    rw [if_neg (by simp)]
    have := lazy_exact hF hρ l (Lazy.of F p.1 * Lazy.of F p.2) (fun q hq => hint q (by simp [hq]))
      (by rw [ep]; exact hp.1.mul hp.2) (by rw [ep, abs_mul]; exact hN)
    rw [List.map_cons (f := fun p : Fp ρ × Fp ρ => p.1.v * p.2.v), List.sum_cons, ← ep]
    exact this

end

section witness

/-- the hypotheses of `C64_error` and `C64_integers` hold for fused double precision, two threads in
the order 1, 0 and Aᵀ times a CSC matrix, both with duplicates or unsorted rows; every element of the
product of these integer matrices is exact -/
example (g : Nat → Garb (Lazy (Fpu.fused (binary 53)))) :
    let A : Csr (Fp (binary 53)) := Csr.mapTo (fpInt _) ⟨2, 3, 1, [1, 4, 5], [3, 1, 3, 2], [2, 1, 5, 3]⟩
    let B : Csr (Fp (binary 53)) := Csr.mapTo (fpInt _)
      ⟨3, 2, 0, [0, 1, 2, 4], [0, 1, 0, 1], [4, 5, 6, 7]⟩
    ∃ H P, sp2m 32 true mmTm g id (Op.code .trans) (some ⟨0, 0, 0, 1⟩)
        (some ((A.mapTo (Lazy.of (Fpu.fused (binary 53)))).raw false)) (Op.code .none)
        (some ⟨0, 0, 0, 0⟩) (some ((B.mapTo (Lazy.of (Fpu.fused (binary 53)))).raw true)) 2 none
          = some (.success, some H) ∧
      HoldsProd .trans false (A.mapTo (Lazy.of (Fpu.fused (binary 53)))) .none true
        (B.mapTo (Lazy.of (Fpu.fused (binary 53)))) H P := by
  intro A B
  have wA : A.WF := mapTo_wf _ (by decide +kernel)
  have wB : B.WF := mapTo_wf _ (by decide +kernel)
  have hi : ∀ l : List Int, ∀ a ∈ l.map (fpInt (binary 53)), IsInt a.v := by
    intro l a ha
    obtain ⟨z, -, rfl⟩ := List.mem_map.mp ha
    exact ⟨z, rfl⟩
  obtain ⟨H, P, e, hh, -⟩ := C64_integers (Fpu.fused (binary 53)) (fused_rounds _) (2 ^ 53)
    (binary_exact 53 (by norm_num)) (w := 32) mmTm g .trans ⟨0, 0, 0, 1⟩ false A .none ⟨0, 0, 0, 0⟩
    true B wA wB (hi _) (hi _) ⟨rfl, rfl⟩ ⟨rfl, rfl⟩ rfl
    ⟨(mmTm_ok _ (by decide)).1, (mmTm_ok _ (by decide)).2, (mmTm_ok _ (by decide)).1,
      (mmTm_ok _ (by decide)).2⟩
    (.inr (le_trans (by exact_mod_cast prodCount_le ..) (show ((9 : Nat) : Int) ≤ intMax 32 by
      decide +kernel))) none
  exact ⟨H, P, e, hh⟩

/-- the hypotheses of `C64_formats_agree`: a 1×3 matrix given in CSR and as the transpose of a 3×1
one-based matrix, in three-digit arithmetic -/
example :
    let A : Csr Digits3 := ⟨1, 3, 0, [0, 3], [0, 1, 2], [⟨8⟩, ⟨1⟩, ⟨1⟩]⟩
    let A' : Csr Digits3 := ⟨3, 1, 1, [1, 2, 3, 4], [1, 1, 1], [⟨8⟩, ⟨1⟩, ⟨1⟩]⟩
    A.WF ∧ A'.WF ∧ A.Sorted ∧ A'.Sorted ∧ A.NoDup ∧ A'.NoDup ∧
      opRows .none false A = opRows .trans false A' ∧ opCols .none false A = opCols .trans false A' ∧
      ∀ i < 3, ∀ k < 3, opStoredVal id .none false A i k = opStoredVal id .trans false A' i k := by
  refine ⟨by decide +kernel, by decide +kernel, by decide +kernel, by decide +kernel,
    by decide +kernel, by decide +kernel, rfl, rfl, by decide +kernel⟩

theorem digits3_comm (a b : Digits3) : a * b = b * a := by
  show (⟨digits3 (a.z * b.z)⟩ : Digits3) = ⟨digits3 (b.z * a.z)⟩
  rw [Int.mul_comm]

/-- the values of a result -/
def mmShow3 (r : Option (Status × Option (Sp2mH Digits3))) : Option (Option (List Int × List Int)) :=
  r.map fun r => if r.1 = .success then r.2.map fun h => (h.csr.ind, h.csr.val.map (·.z)) else none

/-- C64: sorted rows are needed.  With three binary digits the same 1×3 matrix, stored in two orders of
its entries, gives two values of the product with a column of ones. -/
theorem C64_needs_sorted (g : Nat → Garb Digits3) :
    let A : Csr Digits3 := ⟨1, 3, 0, [0, 3], [0, 1, 2], [⟨8⟩, ⟨1⟩, ⟨1⟩]⟩
    let A' : Csr Digits3 := ⟨1, 3, 0, [0, 3], [1, 2, 0], [⟨1⟩, ⟨1⟩, ⟨8⟩]⟩
    let B : Csr Digits3 := ⟨3, 1, 0, [0, 1, 2, 3], [0, 0, 0], [⟨1⟩, ⟨1⟩, ⟨1⟩]⟩
    (∀ j < 3, A.stored 0 j = A'.stored 0 j) ∧
    mmShow3 (sp2m 32 true ⟨1, [0], 1, [0]⟩ g id 111 (some ⟨0, 0, 0, 0⟩) (some (A.raw false)) 111
      (some ⟨0, 0, 0, 0⟩) (some (B.raw false)) 2 none) = some (some ([0], [12])) ∧
    mmShow3 (sp2m 32 true ⟨1, [0], 1, [0]⟩ g id 111 (some ⟨0, 0, 0, 0⟩) (some (A'.raw false)) 111
      (some ⟨0, 0, 0, 0⟩) (some (B.raw false)) 2 none) = some (some ([0], [10])) := by
  intro A A' B
  have wA : A.WF := by decide +kernel
  have wA' : A'.WF := by decide +kernel
  have wB : B.WF := by decide +kernel
  have ht : (⟨1, [0], 1, [0]⟩ : Teams).Ok 32 1 1 := by
    have e : intMax 32 = 2147483647 := by decide +kernel
    have h : TeamOk 32 1 1 [0] := ⟨by decide, by decide, by rw [e]; decide⟩
    exact ⟨h, h, h, h⟩
  refine ⟨by decide +kernel, ?_, ?_⟩
  · obtain ⟨H, h, -⟩ := C64_reproducible (w := 32) (by decide +kernel) true id .none false A .none false B
      wA wB rfl (.inr (le_trans (by exact_mod_cast prodCount_le ..) (show ((1 : Nat) : Int) ≤ intMax 32 by
        decide +kernel)))
    rw [show (111 : Int) = Op.code .none from rfl, h ⟨1, [0], 1, [0]⟩ g ⟨0, 0, 0, 0⟩ ⟨0, 0, 0, 0⟩ none ⟨rfl, rfl⟩ ⟨rfl, rfl⟩ ht,
      ← h ⟨1, [0], 1, [0]⟩ (fun _ => ⟨fun _ => 0, fun _ => 0, fun _ => 0⟩) ⟨0, 0, 0, 0⟩ ⟨0, 0, 0, 0⟩
        none ⟨rfl, rfl⟩ ⟨rfl, rfl⟩ ht]
    decide +kernel
  · obtain ⟨H, h, -⟩ := C64_reproducible (w := 32) (by decide +kernel) true id .none false A' .none false B
      wA' wB rfl (.inr (le_trans (by exact_mod_cast prodCount_le ..) (show ((1 : Nat) : Int) ≤ intMax 32 by
        decide +kernel)))
    rw [show (111 : Int) = Op.code .none from rfl, h ⟨1, [0], 1, [0]⟩ g ⟨0, 0, 0, 0⟩ ⟨0, 0, 0, 0⟩ none ⟨rfl, rfl⟩ ⟨rfl, rfl⟩ ht,
      ← h ⟨1, [0], 1, [0]⟩ (fun _ => ⟨fun _ => 0, fun _ => 0, fun _ => 0⟩) ⟨0, 0, 0, 0⟩ ⟨0, 0, 0, 0⟩
        none ⟨rfl, rfl⟩ ⟨rfl, rfl⟩ ht]
    decide +kernel

end witness

end Verif
