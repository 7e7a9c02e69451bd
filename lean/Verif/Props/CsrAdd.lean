/-
C29  Sparse addition.
-/
import Verif.Proofs.CsrAdd2
import Verif.Proofs.Orient
import Mathlib.Data.Rat.Star

namespace Verif
open Model

variable {R : Type} [CommSemiring R] [StarRing R]

/-- The sum of the two stored counts fits an `aoclsparse_int` of `w` bits. -/
def CountFits (w : Nat) (A B : Csr R) : Prop :=
  64 ≤ w ∨ A.base + ((A.nnz + B.nnz : Nat) : Int) ≤ intMax w

theorem addOff_fits {w : Nat} {A B A' B' : Csr R} (h : CountFits w A B) (hA : A'.WF) (hB : B'.WF)
    (hm : B'.m = A'.m) (h1 : A'.nnz = A.nnz) (h2 : B'.nnz = B.nnz) (hb : A'.base = A.base) :
    sumOverflow 64 w (A'.base + (addOff A' B' A'.m : Int)) = false := by
  have := addOff_le A' B' hA hB hm
  unfold sumOverflow
  rcases h with h | h
  · rw [if_neg (by omega)]
  · split
    · rw [decide_eq_false_iff_not, hb]
      push_cast at h
      omega
    · rfl

/-- **C29** `aoclsparse_?add` returns alpha·op(A) + B.  For every operation, for inputs in CSR or
in CSC form, of any bases, and for every number of threads, every order in which they run and
every content of fresh memory: the result is a well-formed zero- or one-based (as A) CSR matrix of
the right dimensions whose elements are those of alpha·op(A) + B, which stores exactly the union of
the two patterns, and no position twice if A does not. -/
theorem C29_add {w : Nat} {th : Threads} (gp gi : Nat → Int) (gv : Nat → R) (op : Op) (alpha : R)
    (ta tb : Bool) (A B : Csr R) (hA : A.WF) (hB : B.WF) (hnd : B.NoDup)
    (hth : th.Ok w (userRows tb B))
    (hdim : if op = .none then userRows ta A = userRows tb B ∧ userCols ta A = userCols tb B
      else userCols ta A = userRows tb B ∧ userRows ta A = userCols tb B)
    (hfit : CountFits w A B) :
    ∃ C : Csr R, add w th gp gi gv star op.code (some (A.raw ta)) alpha (some (B.raw tb))
        = some (.ok ⟨C.m, C.n, C.arrs⟩) ∧
      C.m = userRows tb B ∧ C.n = userCols tb B ∧ C.base = A.base ∧ C.WF ∧
      (∀ i j, i < C.m → j < C.n → C.mat i j
        = alpha * applyOp op (userMat ta A) i j + userMat tb B i j) ∧
      (∀ i j, i < C.m → j < C.n → (userStored false C i j ↔
        opStored op ta A i j ∨ userStored tb B i j)) ∧
      (A.NoDup → C.NoDup) := by
  obtain ⟨A', ea, oa⟩ := orient_ok hA (ta == decide (op = .none)) ta
  obtain ⟨B', eb, ob⟩ := orient_ok hB tb tb
  have hBm : B'.m = userRows tb B := by rw [ob.m]; rfl
  have hBn : B'.n = userCols tb B := by rw [ob.n]; rfl
  have hAm : A'.m = userRows tb B := by
    rw [oa.m]
    cases ta <;> cases op <;> simp_all [userRows, userCols]
  have hAn : A'.n = userCols tb B := by
    rw [oa.n]
    cases ta <;> cases op <;> simp_all [userRows, userCols]
  let cj : R →+* R := if op = .conjTrans then starRingEnd R else RingHom.id R
  have hcj : (if op.code = 113 then (star : R → R) else id) = cj := by
    cases op <;> simp [cj, Op.code] <;> rfl
  obtain ⟨C, e, c1, c2, c3, c4, c5⟩ := addCsr_ok gp gi gv cj alpha (A := A') (B := B')
    (by rw [hAm]; exact hth) oa.wf ob.wf (by rw [hBm, hAm]) (by rw [hBn, hAn]) (ob.nodup hnd)
    (addOff_fits hfit oa.wf ob.wf (by rw [hBm, hAm]) oa.nnz ob.nnz oa.base)
  have hc111 : (op.code = 111) ↔ op = .none := by cases op <;> simp [Op.code]
  have hentry : ∀ i j, i < A'.m → j < A'.n →
      cj (A'.mat i j) = applyOp op (userMat ta A) i j := by
    intro i j hi hj
    show cj (A'.entry i j) = _
    rw [oa.entry i j hi hj]
    cases ta <;> cases op <;> simp [cj, applyOp, userMat, transM, Csr.mat, starRingEnd_apply]
  have hBent : ∀ i j, i < B'.m → j < B'.n → B'.mat i j = userMat tb B i j := by
    intro i j hi hj
    show B'.entry i j = _
    rw [ob.entry i j hi hj]
    cases tb <;> simp [userMat, transM, Csr.mat]
  refine ⟨C, ?_, by omega, by omega, by rw [c3, oa.base], c4, ?_, ?_, ?_⟩
  · unfold add
    have hf : ¬ ((A.raw ta).fmt ≠ 0 ∨ (B.raw tb).fmt ≠ 0) := by simp [Csr.raw]
    have hs : ¬ ((op.code = 111 ∧ ((A.raw ta).um ≠ (B.raw tb).um ∨
        (A.raw ta).un ≠ (B.raw tb).un)) ∨ (op.code ≠ 111 ∧
        ((A.raw ta).um ≠ (B.raw tb).un ∨ (A.raw ta).un ≠ (B.raw tb).um))) := by
      have u1 : (A.raw ta).um = (userRows ta A : Int) := by cases ta <;> rfl
      have u2 : (A.raw ta).un = (userCols ta A : Int) := by cases ta <;> rfl
      have u3 : (B.raw tb).um = (userRows tb B : Int) := by cases tb <;> rfl
      have u4 : (B.raw tb).un = (userCols tb B : Int) := by cases tb <;> rfl
      rw [u1, u2, u3, u4]
      by_cases ho : op = .none
      · rw [if_pos ho] at hdim
        have := hc111.mpr ho
        omega
      · rw [if_neg ho] at hdim
        have : ¬ op.code = 111 := fun h => ho (hc111.mp h)
        omega
    simp only [hf, hs, if_false]
    unfold addRun
    have hT : ((A.raw ta).isT == decide (op.code = 111))
        = (ta == decide (op = .none)) := by
      simp only [hc111]; rfl
    simp only [hT]
    have hM : (if (ta == decide (op = .none)) = true then (A.raw ta).n else (A.raw ta).m)
        = (A'.m : Int) := by rw [oa.m]; split <;> rfl
    have hN : (if (ta == decide (op = .none)) = true then (A.raw ta).m else (A.raw ta).n)
        = (A'.n : Int) := by rw [oa.n]; split <;> rfl
    rw [hM, hN, ea, Option.bind_some]
    simp only
    rw [show (B.raw tb).isT = tb from rfl, eb, Option.bind_some]
    simp only
    have hcj' : (if op.code = 113 then (star : R → R) else id) = cj := by
      exact hcj
    rw [hcj', show (A.raw ta).nnz = (A'.nnz : Int) by rw [oa.nnz]; rfl,
      show (B.raw tb).nnz = (B'.nnz : Int) by rw [ob.nnz]; rfl, e, Option.bind_some, c1, c2]
  · intro i j hi hj
    rw [c1] at hi
    rw [c2] at hj
    rw [mat_eq_colSum, (c5 i hi).sum j, hentry i j hi hj, hBent i j (by omega) (by omega)]
  · intro i j hi hj
    rw [c1] at hi
    rw [c2] at hj
    show (j : Int) ∈ (C.row i).map (·.1) ↔ _
    have hs1 := oa.stored i j hi hj
    have hs2 := ob.stored i j (by omega) (by omega)
    have hA2 : opStored op ta A i j ↔ (j : Int) ∈ A'.cols i := by
      rw [hs1]
      cases ta <;> cases op <;> simp [opStored, userStored, Csr.cols]
    have hB2 : userStored tb B i j ↔ (j : Int) ∈ B'.cols i := by
      rw [hs2]
      cases tb <;> simp [userStored, Csr.cols]
    rw [hA2, hB2, (c5 i hi).cols, List.mem_append]
    constructor
    · rintro (h | h)
      · exact .inl h
      · right
        simp only [newB, List.mem_map, List.mem_filter] at h
        obtain ⟨x, ⟨hx, -⟩, hx2⟩ := h
        exact List.mem_map.mpr ⟨x, hx, hx2⟩
    · rintro (h | h)
      · exact .inl h
      · by_cases ha : (j : Int) ∈ A'.cols i
        · exact .inl ha
        · right
          obtain ⟨x, hx, hx2⟩ := List.mem_map.mp h
          refine List.mem_map.mpr ⟨x, List.mem_filter.mpr ⟨hx, ?_⟩, hx2⟩
          rw [decide_eq_true_eq, hx2]; exact ha
  · intro hn i hi
    rw [c1] at hi
    have hn' := oa.nodup hn i hi
    have hnB := ob.nodup hnd i (by omega)
    rw [(c5 i hi).cols, List.nodup_append]
    refine ⟨hn', (List.filter_sublist.map _).nodup hnB, ?_⟩
    intro a ha b hb hab
    simp only [newB, List.mem_map, List.mem_filter, decide_eq_true_eq] at hb
    obtain ⟨x, ⟨-, hx⟩, hx2⟩ := hb
    subst hab
    rw [hx2] at hx
    exact hx ha

/-- **C29** Nonconforming sizes are refused, whatever the arrays hold. -/
theorem C29_size {w : Nat} {th : Threads} (gp gi : Nat → Int) (gv : Nat → R) (op : Op) (alpha : R)
    (ta tb : Bool) (A B : Csr R)
    (hdim : ¬ if op = .none then userRows ta A = userRows tb B ∧ userCols ta A = userCols tb B
      else userCols ta A = userRows tb B ∧ userRows ta A = userCols tb B) :
    add w th gp gi gv star op.code (some (A.raw ta)) alpha (some (B.raw tb))
      = some (.error .invalidSize) := by
  have u1 : (A.raw ta).um = (userRows ta A : Int) := by cases ta <;> rfl
  have u2 : (A.raw ta).un = (userCols ta A : Int) := by cases ta <;> rfl
  have u3 : (B.raw tb).um = (userRows tb B : Int) := by cases tb <;> rfl
  have u4 : (B.raw tb).un = (userCols tb B : Int) := by cases tb <;> rfl
  have hc111 : (op.code = 111) ↔ op = .none := by cases op <;> simp [Op.code]
  unfold add
  have hf : ¬ ((A.raw ta).fmt ≠ 0 ∨ (B.raw tb).fmt ≠ 0) := by simp [Csr.raw]
  dsimp only
  rw [if_neg hf, if_pos]
  rw [u1, u2, u3, u4]
  by_cases ho : op = .none
  · rw [if_pos ho] at hdim
    have := hc111.mpr ho
    omega
  · rw [if_neg ho] at hdim
    have : ¬ op.code = 111 := fun h => ho (hc111.mp h)
    omega

/-- **C29** When the row counts of the result are computed first (several threads, or a sum of the
stored counts above the integer range) and the result has more entries than an `aoclsparse_int` can
index, the call reports an error and no result (the message is "internal error"). -/
theorem C29_too_large {w : Nat} {th : Threads} (gp gi : Nat → Int) (gv : Nat → R) (cj : R → R)
    (alpha : R) (A B : Csr R) (hA : A.WF) (hB : B.WF) (hnd : B.NoDup) (hth : th.Ok w A.m)
    (hm : B.m = A.m) (hn : B.n = A.n) (hw : 2 ≤ w ∧ w < 64) (hdim : 0 < A.m ∧ 0 < A.n)
    (hcount : th.req ≠ 1 ∨ (A.nnz : Int) + B.nnz > intMax w)
    (hbig : intMax w < A.base + (((List.range A.m).map fun i =>
      (A.row i).length + ((B.row i).filter fun e => decide (e.1 ∉ A.cols i)).length).sum : Nat)) :
    add w th gp gi gv cj 111 (some (A.raw false)) alpha (some (B.raw false))
      = some (.error .internalError) := by
  have hle := addOff_le A B hA hB hm
  have hsum : intMax w < A.base + (addOff A B A.m : Int) := hbig
  have hpow : (1 : Int) ≤ intMax w := by
    have : 2 ^ 1 ≤ (2 : Int) ^ (w - 1) := pow_le_pow_right₀ (by decide) (by omega)
    unfold intMax
    omega
  have hbase := hA.base01
  unfold add
  have hf : ¬ ((A.raw false).fmt ≠ 0 ∨ (B.raw false).fmt ≠ 0) := by simp [Csr.raw]
  dsimp only
  rw [if_neg hf, if_neg (by simp [RawMat.um, RawMat.un, Csr.raw, hm, hn])]
  unfold addRun
  rw [show ((A.raw false).isT == decide ((111 : Int) = 111)) = false from rfl]
  simp only [Bool.false_eq_true, if_false]
  rw [show orient false (A.raw false) = some (.ok A.arrs) from rfl,
    show orient (B.raw false).isT (B.raw false) = some (.ok B.arrs) from rfl]
  simp only [Option.bind_some]
  unfold addCsr
  have h0 : ¬ ((A.raw false).m = 0 ∨ (A.raw false).n = 0 ∨
      ((A.raw false).nnz = 0 ∧ (B.raw false).nnz = 0)) := by
    simp only [Csr.raw]; omega
  rw [if_neg h0, if_pos (show th.req ≠ 1 ∨ (A.raw false).nnz + (B.raw false).nnz > intMax w
    from hcount)]
  obtain ⟨ptr, hp, hcnt⟩ := addCount_ok hth hA hB hm hn hnd gp
  have t1 : (((A.m : Int) + 1).toNat) = A.m + 1 := by omega
  rw [show ((A.raw false).m + 1).toNat = A.m + 1 from t1,
    show addCount w th (A.raw false).m (A.raw false).n A.arrs B.arrs (alloc (A.m + 1) gp) = _
      from hcnt]
  have : sumOverflow 64 w (A.base + (addOff A B A.m : Int)) = true := by
    unfold sumOverflow
    rw [if_pos (by omega)]
    simpa using hsum
  rw [this]
  rfl

/-! ### Non-vacuity and what the preconditions exclude -/

section witness

/-- 2×3, one-based CSR: `[[1,0,2],[0,3,0]]` -/
def addA : Csr Rat := ⟨2, 3, 1, [1, 3, 4], [1, 3, 2], [1, 2, 3]⟩
/-- 3×2, zero-based CSC (stored as the 2×3 arrays): columns `[5,6,·]`, `[·,7,8]` -/
def addB : Csr Rat := ⟨2, 3, 0, [0, 2, 4], [0, 1, 1, 2], [5, 6, 7, 8]⟩
/-- two threads, running in either order -/
def addTh : Threads := ⟨2, 2, [1, 0], [0, 1]⟩

theorem addTh_ok : addTh.Ok 32 3 := ⟨by decide, by decide, by decide, by decide, by decide +kernel,
  by decide +kernel⟩

/-- the hypotheses of `C29_add` hold for a transposed one-based CSR and a zero-based CSC input -/
example : addA.WF ∧ addB.WF ∧ addB.NoDup ∧ addA.NoDup ∧ addTh.Ok 32 (userRows true addB) ∧
    (userCols false addA = userRows true addB ∧ userRows false addA = userCols true addB) ∧
    CountFits 32 addA addB :=
  ⟨by decide +kernel, by decide +kernel, by decide +kernel, by decide +kernel, addTh_ok,
    by decide, .inr (by decide +kernel)⟩

/-- the arrays of a result -/
def addShow (r : Option (Except Status (OutMat Rat))) :
    Option (List Int × List Int × List Int × List Rat) :=
  r.bind fun r => r.toOption.map fun c =>
    ([c.m, c.n, c.arrs.base], c.arrs.ptr, c.arrs.ind, c.arrs.val)

/-- the computed result of that call -/
example : addShow (add 32 addTh (fun _ => 77) (fun _ => 78) (fun _ => 79) star 112
    (some (addA.raw false)) 10 (some (addB.raw true)))
    = some ([3, 2, 1], [1, 2, 4, 6], [1, 2, 1, 1, 2], [15, 37, 6, 20, 8]) := by decide +kernel

/-- `C29_too_large` at width 3 (the largest integer is 3): two disjoint 2-entry rows -/
example : (⟨1, 4, 0, [0, 2], [0, 1], [1, 1]⟩ : Csr Rat).WF ∧
    (⟨1, 4, 0, [0, 2], [2, 3], [1, 1]⟩ : Csr Rat).NoDup ∧
    (⟨2, 2, [0, 1], [1, 0]⟩ : Threads).Ok 3 1 ∧
    intMax 3 < (0 : Int) + (2 + 2 : Nat) :=
  ⟨by decide +kernel, by decide +kernel,
    ⟨by decide, by decide, by decide, by decide, by decide +kernel, by decide +kernel⟩,
    by decide +kernel⟩

/-- F22: without the precondition that B stores no position twice the call writes outside its
arrays: the position of an entry of B that A lacks is not recorded, so its second occurrence adds
into `C_val[-1]`. -/
theorem C29_needs_nodup :
    (⟨1, 2, 0, [0, 1], [1], [1]⟩ : Csr Rat).WF ∧ (⟨1, 2, 0, [0, 2], [0, 0], [1, 1]⟩ : Csr Rat).WF ∧
    addShow (add 32 ⟨1, 1, [0], [0]⟩ (fun _ => 77) (fun _ => 78) (fun _ => 79) star 111
      (some ((⟨1, 2, 0, [0, 1], [1], [1]⟩ : Csr Rat).raw false)) 10
      (some ((⟨1, 2, 0, [0, 2], [0, 0], [1, 1]⟩ : Csr Rat).raw false))) = none := by
  decide +kernel

/-- F22: … or into an entry of another row (here element (0,0) = 10·1 becomes 11). -/
theorem C29_needs_nodup_value :
    addShow (add 32 ⟨1, 1, [0], [0]⟩ (fun _ => 77) (fun _ => 78) (fun _ => 79) star 111
      (some ((⟨2, 2, 0, [0, 1, 1], [0], [1]⟩ : Csr Rat).raw false)) 10
      (some ((⟨2, 2, 0, [0, 0, 2], [0, 0], [1, 1]⟩ : Csr Rat).raw false)))
    = some ([2, 2, 0], [0, 1, 2], [0, 0], [11, 1]) := by
  decide +kernel

/-- F23: the main region splits the rows by the number of threads requested, not by the number
delivered.  If the runtime delivers one thread of two, the last row of the result is whatever the
fresh memory held (78, 79). -/
theorem C29_needs_full_team :
    addShow (add 32 ⟨2, 1, [0], [0]⟩ (fun _ => 77) (fun _ => 78) (fun _ => 79) star 111
      (some (addA.raw false)) 10 (some (addA.raw false)))
    = some ([2, 3, 1], [1, 3, 4], [1, 3, 78], [11, 22, 79]) := by
  decide +kernel

end witness

/-- F24: the bounds of a thread's rows are computed as `M * (t + 1) / T` in the integer type of the
library; with `M · T` above its range the call is undefined although its result would fit. -/
theorem C29_thread_overflow {w : Nat} {th : Threads} (gp gi : Nat → Int) (gv : Nat → R)
    (cj : R → R) (alpha : R) (A B : Csr R) (hA : A.WF) (hdim : 0 < A.m ∧ 0 < A.n)
    (hm : B.m = A.m) (hn : B.n = A.n) (hnz : 0 < A.nnz)
    (hreq : 1 < th.req) (hteam : 0 < th.team) (hord : th.ord1.Perm (List.range th.team))
    (hov : intMax w < (A.m : Int) * th.team) :
    add w th gp gi gv cj 111 (some (A.raw false)) alpha (some (B.raw false)) = none := by
  unfold add
  have hf : ¬ ((A.raw false).fmt ≠ 0 ∨ (B.raw false).fmt ≠ 0) := by simp [Csr.raw]
  dsimp only
  rw [if_neg hf, if_neg (by simp [RawMat.um, RawMat.un, Csr.raw, hm, hn])]
  unfold addRun
  rw [show ((A.raw false).isT == decide ((111 : Int) = 111)) = false from rfl]
  simp only [Bool.false_eq_true, if_false]
  rw [show orient false (A.raw false) = some (.ok A.arrs) from rfl,
    show orient (B.raw false).isT (B.raw false) = some (.ok B.arrs) from rfl]
  simp only [Option.bind_some]
  unfold addCsr
  have h0 : ¬ ((A.raw false).m = 0 ∨ (A.raw false).n = 0 ∨
      ((A.raw false).nnz = 0 ∧ (B.raw false).nnz = 0)) := by
    simp only [Csr.raw]; omega
  rw [if_neg h0, if_pos (.inl (by omega))]
  have hrep : Rep (alloc (A.m + 1) gp) (A.m + 1) gp := Rep.of_map
  obtain ⟨p0, e0, r0⟩ := hrep.wr_nat A.base (i := 0) (by omega)
  have t1 : (((A.m : Int) + 1).toNat) = A.m + 1 := by omega
  have hc : addCount w th (A.m : Int) (A.n : Int) A.arrs B.arrs (alloc (A.m + 1) gp) = none := by
    unfold addCount
    rw [show wr (alloc (A.m + 1) gp) 0 A.arrs.base = some p0 from e0, Option.bind_eq_bind,
      Option.bind_some, team_overflow hteam hov
        (hord.mem_iff.mpr (List.mem_range.mpr (by omega)))]
    rfl
  rw [show ((A.raw false).m + 1).toNat = A.m + 1 from t1,
    show addCount w th (A.raw false).m (A.raw false).n A.arrs B.arrs (alloc (A.m + 1) gp) = none
      from hc]
  rfl

example : intMax 32 < (134217728 : Int) * 16 := by decide +kernel

end Verif
