/-
C67: exact values, reproducibility and rounding errors of the sparse sum.
-/
import Verif.Proofs.AddStored
import Verif.Props.CsrAdd
import Verif.Props.Rounded
import Mathlib.Data.Real.Star

namespace Verif
open Model

variable {R : Type}

theorem addOff_fitsX {w : Nat} {A B A' B' : Csr R} (h : CountFits w A B) (hA : A'.WF) (hB : B'.WF)
    (hm : B'.m = A'.m) (h1 : A'.nnz = A.nnz) (h2 : B'.nnz = B.nnz) (hb : A'.base = A.base) :
    sumOverflow 64 w (A'.base + (addOff A' B' A'.m : Int)) = false := by
  have := addOff_le A' B' hA hB hm
  unfold sumOverflow
  rcases h with h | h
  · rw [if_neg (by omega)]
  · split
    · rw [decide_eq_false_iff_not, hb]
      push_cast at h
      omega
    · rfl

/-- **C67** In any arithmetic, rounding or not, `add` returns one matrix for all numbers of threads, all
orders in which they run and all contents of fresh memory: the calls agree in every bit, also in the order
in which the entries are stored.  If neither operand stores a position twice, the stored elements are
alpha·a, b, or (alpha·a) + b, each operation carried out once. -/
theorem C67_values [Zero R] [Add R] [Mul R] {w : Nat} (cj : R → R) (op : Op) (alpha : R) (ta tb : Bool)
    (A B : Csr R) (hA : A.WF) (hB : B.WF) (hnd : B.NoDup)
    (hdim : if op = .none then userRows ta A = userRows tb B ∧ userCols ta A = userCols tb B
      else userCols ta A = userRows tb B ∧ userRows ta A = userCols tb B)
    (hfit : CountFits w A B) :
    ∃ C : Csr R,
      (∀ (th : Threads) (gp gi : Nat → Int) (gv : Nat → R), th.Ok w (userRows tb B) →
        add w th gp gi gv cj op.code (some (A.raw ta)) alpha (some (B.raw tb))
          = some (.ok ⟨C.m, C.n, C.arrs⟩)) ∧
      C.m = userRows tb B ∧ C.n = userCols tb B ∧ C.base = A.base ∧ C.WF ∧
      (A.NoDup → C.NoDup ∧ ∀ i j, i < C.m → j < C.n →
        C.stored i j = sumStored alpha (opStoredVal cj op ta A i j) (opStoredVal id .none tb B i j)) := by
  obtain ⟨wA, nA, mA, cA, bA⟩ := flipC_wf hA (ta == decide (op = .none))
  obtain ⟨wB, nB, mB, cB, -⟩ := flipC_wf hB tb
  have eA := orient_flip hA (ta == decide (op = .none)) ta
  have eB := orient_flip hB tb tb
  have sA : A.NoDup → ∀ {i j}, _ → _ → _ := fun h {i j} => flipC_storedVal hA h (ta == decide (op = .none)) (i := i) (j := j)
  have sB := fun {i j} => flipC_storedVal hB hnd tb (i := i) (j := j)
  have dA : A.NoDup → _ := fun h => flipC_nodup h (ta == decide (op = .none))
  have dB := flipC_nodup hnd tb
  generalize flipC (ta == decide (op = .none)) A = A' at *
  generalize flipC tb B = B' at *
  have hBm : B'.m = userRows tb B := by rw [mB]; rfl
  have hBn : B'.n = userCols tb B := by rw [cB]; rfl
  have hAm : A'.m = userRows tb B := by
    rw [mA]
    cases ta <;> cases op <;> simp_all [userRows, userCols]
  have hAn : A'.n = userCols tb B := by
    rw [cA]
    cases ta <;> cases op <;> simp_all [userRows, userCols]
  have hc111 : (op.code = 111) ↔ op = .none := by cases op <;> simp [Op.code]
  have hc113 : (op.code = 113) ↔ op = .conjTrans := by cases op <;> simp [Op.code]
  let cj' : R → R := if op = .conjTrans then cj else id
  have hcj : (if op.code = 113 then cj else id) = cj' := by
    by_cases h : op = .conjTrans
    · rw [if_pos (hc113.2 h)]; exact (if_pos h).symm
    · rw [if_neg (fun h' => h (hc113.1 h'))]; exact (if_neg h).symm
  refine ⟨addSum cj' alpha A' B', ?_, hAm, hAn, bA, addSum_wf cj' alpha wA wB (by omega), ?_⟩
  · intro th gp gi gv hth
    have e := addCsr_exact gp gi gv cj' alpha (A := A') (B := B')
      (by rw [hAm]; exact hth) wA wB (by rw [hBm, hAm]) (by rw [hBn, hAn]) dB
      (addOff_fitsX hfit wA wB (by rw [hBm, hAm]) nA nB bA)
    unfold add
    have hf : ¬ ((A.raw ta).fmt ≠ 0 ∨ (B.raw tb).fmt ≠ 0) := by simp [Csr.raw]
    have hs : ¬ ((op.code = 111 ∧ ((A.raw ta).um ≠ (B.raw tb).um ∨
        (A.raw ta).un ≠ (B.raw tb).un)) ∨ (op.code ≠ 111 ∧
        ((A.raw ta).um ≠ (B.raw tb).un ∨ (A.raw ta).un ≠ (B.raw tb).um))) := by
      have u1 : (A.raw ta).um = (userRows ta A : Int) := by cases ta <;> rfl
      have u2 : (A.raw ta).un = (userCols ta A : Int) := by cases ta <;> rfl
      have u3 : (B.raw tb).um = (userRows tb B : Int) := by cases tb <;> rfl
      have u4 : (B.raw tb).un = (userCols tb B : Int) := by cases tb <;> rfl
      rw [u1, u2, u3, u4]
      by_cases ho : op = .none
      · rw [if_pos ho] at hdim
        have := hc111.mpr ho
        omega
      · rw [if_neg ho] at hdim
        have : ¬ op.code = 111 := fun h => ho (hc111.mp h)
        omega
    simp only [hf, hs, if_false]
    unfold addRun
    have hT : ((A.raw ta).isT == decide (op.code = 111))
        = (ta == decide (op = .none)) := by
      simp only [hc111]; rfl
    simp only [hT]
    have hM : (if (ta == decide (op = .none)) = true then (A.raw ta).n else (A.raw ta).m)
        = (A'.m : Int) := by rw [mA]; split <;> rfl
    have hN : (if (ta == decide (op = .none)) = true then (A.raw ta).m else (A.raw ta).n)
        = (A'.n : Int) := by rw [cA]; split <;> rfl
    rw [hM, hN, eA, Option.bind_some]
    simp only
    rw [show (B.raw tb).isT = tb from rfl, eB, Option.bind_some]
    simp only
    rw [hcj, show (A.raw ta).nnz = (A'.nnz : Int) by rw [nA]; rfl,
      show (B.raw tb).nnz = (B'.nnz : Int) by rw [nB]; rfl, e, Option.bind_some]
    rfl
  · intro hAn'
    refine ⟨addSum_nodup cj' alpha (by omega) (dA hAn') dB, ?_⟩
    intro i j hi hj
    have hi' : i < A'.m := hi
    have hj' : j < A'.n := hj
    rw [addSum_stored cj' alpha (by omega) (dA hAn') dB hi', sA hAn' hi' hj', sB (by omega) (by omega)]
    unfold opStoredVal
    have x1 : (ta != decide (op ≠ .none)) = (ta == decide (op = .none)) := by
      cases ta <;> cases op <;> rfl
    have x2 : (tb != decide (Op.none ≠ .none)) = tb := by cases tb <;> rfl
    rw [x1, x2, if_neg (show ¬ (Op.none = .conjTrans) by decide), Option.map_id]
    rfl

/-- **C67** Rounding errors: an element of the computed sum that both operands store differs from the
exact one by at most ((1+u)²−1)·|alpha·a| + u·|b|, one that only A stores by at most u·|alpha·a|, and
one that only B stores is exact. -/
theorem C67_error {ρ : Rounding} {w : Nat} {th : Threads} (gp gi : Nat → Int) (gv : Nat → Fp ρ) (op : Op)
    (alpha : Fp ρ) (ta tb : Bool) (A B : Csr (Fp ρ)) (hA : A.WF) (hB : B.WF) (hAd : A.NoDup) (hnd : B.NoDup)
    (hth : th.Ok w (userRows tb B))
    (hdim : if op = .none then userRows ta A = userRows tb B ∧ userCols ta A = userCols tb B
      else userCols ta A = userRows tb B ∧ userRows ta A = userCols tb B)
    (hfit : CountFits w A B) :
    ∃ C : Csr (Fp ρ), add w th gp gi gv id op.code (some (A.raw ta)) alpha (some (B.raw tb))
        = some (.ok ⟨C.m, C.n, C.arrs⟩) ∧
      ∀ i j, i < C.m → j < C.n →
        match C.stored i j, opStoredVal id op ta A i j, opStoredVal id .none tb B i j with
        | some c, some a, some b => |c.v - (alpha.v * a.v + b.v)|
            ≤ ((1 + ρ.u) ^ 2 - 1) * |alpha.v * a.v| + ρ.u * |b.v|
        | some c, some a, none => |c.v - alpha.v * a.v| ≤ ρ.u * |alpha.v * a.v|
        | some c, none, some b => c = b
        | none, none, none => True
        | _, _, _ => False := by
  obtain ⟨C, h1, -, -, -, -, h2⟩ := C67_values (w := w) id op alpha ta tb A B hA hB hnd hdim hfit
  refine ⟨C, h1 th gp gi gv hth, fun i j hi hj => ?_⟩
  rw [(h2 hAd).2 i j hi hj]
  cases opStoredVal id op ta A i j with
  | none =>
    cases opStoredVal id .none tb B i j with
    | none => trivial
    | some b => exact rfl
  | some a =>
    cases opStoredVal id .none tb B i j with
    | none => exact ρ.err (alpha.v * a.v)
    | some b =>
      show |ρ.fl (ρ.fl (alpha.v * a.v) + b.v) - (alpha.v * a.v + b.v)| ≤ _
      have e1 := ρ.err (alpha.v * a.v)
      have e2 := ρ.err (ρ.fl (alpha.v * a.v) + b.v)
      generalize alpha.v * a.v = p at *
      have hu : 0 ≤ ρ.u := by
        have := ρ.err 1
        rw [abs_one, mul_one] at this
        exact le_trans (abs_nonneg _) this
      have e3 : |ρ.fl p| ≤ (1 + ρ.u) * |p| := by
        have := abs_add_le (ρ.fl p - p) p
        rw [sub_add_cancel] at this
        linarith
      have e4 : |ρ.fl p + b.v| ≤ (1 + ρ.u) * |p| + |b.v| := (abs_add_le _ _).trans (by linarith)
      have e5 := mul_le_mul_of_nonneg_left e4 hu
      have e6 : ρ.fl (ρ.fl p + b.v) - (p + b.v) = (ρ.fl (ρ.fl p + b.v) - (ρ.fl p + b.v)) + (ρ.fl p - p) := by ring
      rw [e6]
      refine (abs_add_le _ _).trans ?_
      nlinarith

/-- **C67** The elements of the sum do not depend on the format, the base or the order in which the
operands are stored: if op(A) and op'(A') store the same elements, and B and B' do, then so do the sums. -/
theorem C67_formats_agree [Zero R] [Add R] [Mul R] {w : Nat} {th th' : Threads} (gp gi gp' gi' : Nat → Int)
    (gv gv' : Nat → R) (cj : R → R) (op op' : Op) (alpha : R) (ta ta' tb tb' : Bool) (A A' B B' : Csr R)
    (hA : A.WF) (hB : B.WF) (hAd : A.NoDup) (hnd : B.NoDup) (hth : th.Ok w (userRows tb B))
    (hdim : if op = .none then userRows ta A = userRows tb B ∧ userCols ta A = userCols tb B
      else userCols ta A = userRows tb B ∧ userRows ta A = userCols tb B)
    (hfit : CountFits w A B)
    (hA' : A'.WF) (hB' : B'.WF) (hAd' : A'.NoDup) (hnd' : B'.NoDup) (hth' : th'.Ok w (userRows tb' B'))
    (hdim' : if op' = .none then userRows ta' A' = userRows tb' B' ∧ userCols ta' A' = userCols tb' B'
      else userCols ta' A' = userRows tb' B' ∧ userRows ta' A' = userCols tb' B')
    (hfit' : CountFits w A' B')
    (hr : userRows tb B = userRows tb' B') (hc : userCols tb B = userCols tb' B')
    (sA : ∀ i j, i < userRows tb B → j < userCols tb B →
      opStoredVal cj op ta A i j = opStoredVal cj op' ta' A' i j)
    (sB : ∀ i j, i < userRows tb B → j < userCols tb B →
      opStoredVal id .none tb B i j = opStoredVal id .none tb' B' i j) :
    ∃ C C' : Csr R, add w th gp gi gv cj op.code (some (A.raw ta)) alpha (some (B.raw tb))
        = some (.ok ⟨C.m, C.n, C.arrs⟩) ∧
      add w th' gp' gi' gv' cj op'.code (some (A'.raw ta')) alpha (some (B'.raw tb'))
        = some (.ok ⟨C'.m, C'.n, C'.arrs⟩) ∧ C.m = C'.m ∧ C.n = C'.n ∧
      ∀ i j, i < C.m → j < C.n → C.stored i j = C'.stored i j := by
  obtain ⟨C, h1, m1, n1, -, -, h2⟩ := C67_values (w := w) cj op alpha ta tb A B hA hB hnd hdim hfit
  obtain ⟨C', h1', m1', n1', -, -, h2'⟩ :=
    C67_values (w := w) cj op' alpha ta' tb' A' B' hA' hB' hnd' hdim' hfit'
  refine ⟨C, C', h1 th gp gi gv hth, h1' th' gp' gi' gv' hth', by omega, by omega, fun i j hi hj => ?_⟩
  rw [(h2 hAd).2 i j hi hj, (h2' hAd').2 i j (by omega) (by omega), sA i j (by omega) (by omega),
    sB i j (by omega) (by omega)]

/-- **C67** A + B and B + A store the same elements, bit by bit, in every arithmetic whose addition
commutes and in which multiplying by one is exact. -/
theorem C67_commutes [Zero R] [One R] [Add R] [Mul R] (hcomm : ∀ x y : R, x + y = y + x)
    (hone : ∀ x : R, 1 * x = x) {w : Nat} {th th' : Threads} (gp gi gp' gi' : Nat → Int)
    (gv gv' : Nat → R) (cj : R → R) (ta tb : Bool) (A B : Csr R) (hA : A.WF) (hB : B.WF) (hAd : A.NoDup)
    (hnd : B.NoDup) (hth : th.Ok w (userRows tb B)) (hth' : th'.Ok w (userRows tb B))
    (hr : userRows ta A = userRows tb B) (hc : userCols ta A = userCols tb B)
    (hfit : CountFits w A B) (hfit' : CountFits w B A) :
    ∃ C C' : Csr R, add w th gp gi gv cj (Op.code .none) (some (A.raw ta)) 1 (some (B.raw tb))
        = some (.ok ⟨C.m, C.n, C.arrs⟩) ∧
      add w th' gp' gi' gv' cj (Op.code .none) (some (B.raw tb)) 1 (some (A.raw ta))
        = some (.ok ⟨C'.m, C'.n, C'.arrs⟩) ∧ C.m = C'.m ∧ C.n = C'.n ∧
      ∀ i j, i < C.m → j < C.n → C.stored i j = C'.stored i j := by
  obtain ⟨C, h1, m1, n1, -, -, h2⟩ := C67_values (w := w) cj .none 1 ta tb A B hA hB hnd
    (by rw [if_pos rfl]; exact ⟨hr, hc⟩) hfit
  obtain ⟨C', h1', m1', n1', -, -, h2'⟩ := C67_values (w := w) cj .none 1 tb ta B A hB hA hAd
    (by rw [if_pos rfl]; exact ⟨hr.symm, hc.symm⟩) hfit'
  refine ⟨C, C', h1 th gp gi gv hth, h1' th' gp' gi' gv' (by rw [hr]; exact hth'), by omega, by omega,
    fun i j hi hj => ?_⟩
  rw [(h2 hAd).2 i j hi hj, (h2' hnd).2 i j (by omega) (by omega)]
  have e : ∀ (t : Bool) (M : Csr R), opStoredVal cj .none t M i j = opStoredVal id .none t M i j := by
    intro t M
    unfold opStoredVal
    rw [if_neg (show ¬ (Op.none = .conjTrans) by decide), if_neg (show ¬ (Op.none = .conjTrans) by decide)]
  rw [e, e]
  cases opStoredVal id .none ta A i j <;> cases opStoredVal id .none tb B i j <;>
    simp [sumStored, hone, hcomm]

section witness

theorem mapTo_nodup {S : Type} (f : R → S) {A : Csr R} (h : A.NoDup) : (A.mapTo f).NoDup := by
  intro i hi
  have := h i hi
  rwa [mapTo_row, List.map_map]

/-- the hypotheses of `C67_error` hold for double precision and two threads, with Aᵀ one-based, B in CSC
form, and positions that both, one or none of them store -/
example (gp gi : Nat → Int) (gv : Nat → Fp (binary 53)) :
    let A : Csr (Fp (binary 53)) := Csr.mapTo (fpInt _) ⟨2, 3, 1, [1, 3, 4], [1, 3, 2], [1, 2, 3]⟩
    let B : Csr (Fp (binary 53)) := Csr.mapTo (fpInt _) ⟨2, 3, 0, [0, 2, 4], [0, 1, 1, 2], [5, 6, 7, 8]⟩
    ∃ C : Csr (Fp (binary 53)), add 32 addTh gp gi gv id (Op.code .trans) (some (A.raw false)) ⟨3⟩
      (some (B.raw true)) = some (.ok ⟨C.m, C.n, C.arrs⟩) := by
  intro A B
  have wA : A.WF := mapTo_wf _ (by decide +kernel)
  have wB : B.WF := mapTo_wf _ (by decide +kernel)
  have dA : A.NoDup := mapTo_nodup _ (by decide +kernel)
  have dB : B.NoDup := mapTo_nodup _ (by decide +kernel)
  obtain ⟨C, e, -⟩ := C67_error (w := 32) (th := addTh) gp gi gv .trans ⟨3⟩ false true A B wA wB dA dB
    addTh_ok (by rw [if_neg (by decide)]; exact ⟨rfl, rfl⟩) (.inr (by
      show (1 : Int) + ((3 + 4 : Nat) : Int) ≤ intMax 32
      decide +kernel))
  exact ⟨C, e⟩

/-- the hypotheses of `C67_formats_agree`: the same operands, A as a one-based CSR matrix with Aᵀ taken and
as a zero-based matrix of the other shape, unsorted; B by columns and by rows -/
example :
    let A' : Csr Rat := ⟨3, 2, 0, [0, 1, 2, 3], [0, 1, 0], [1, 3, 2]⟩
    let B' : Csr Rat := ⟨3, 2, 1, [1, 2, 4, 5], [1, 2, 1, 2], [5, 7, 6, 8]⟩
    A'.WF ∧ B'.WF ∧ A'.NoDup ∧ B'.NoDup ∧ userRows true addB = userRows false B' ∧
      userCols true addB = userCols false B' ∧
      (∀ i < 3, ∀ j < 2, opStoredVal id .trans false addA i j = opStoredVal id .none false A' i j) ∧
      (∀ i < 3, ∀ j < 2, opStoredVal id .none true addB i j = opStoredVal id .none false B' i j) := by
  refine ⟨by decide +kernel, by decide +kernel, by decide +kernel, by decide +kernel, rfl, rfl,
    by decide +kernel, by decide +kernel⟩

/-- the elements of this sum: both operands, only B, only A, none -/
example : sumStored (10 : Rat) (some 1) (some 5) = some 15 ∧ sumStored (10 : Rat) none (some 6) = some 6 ∧
    sumStored (10 : Rat) (some 2) none = some 20 ∧ sumStored (10 : Rat) none none = none := by
  decide +kernel

end witness

end Verif
