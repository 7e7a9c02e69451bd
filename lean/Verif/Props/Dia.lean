/-
C12: the DIA format — counting the diagonals, the conversion, the matrix it denotes, products.
-/
import Verif.Proofs.DiaMv

namespace Verif
open Model Finset

variable {R : Type}

/-- `O` lists the offsets (column minus row) of the diagonals of `A` that hold a stored entry, in
increasing order, each once -/
def Csr.DiagonalsAre (A : Csr R) (O : List Int) : Prop :=
  O.Pairwise (· < ·) ∧ ∀ o, o ∈ O ↔ ∃ e ∈ A.entries, e.2.1 - (e.1 : Int) = o

/-- The counting call returns the number of populated diagonals. -/
theorem C12_ndiag (A : Csr R) (hA : A.WF) :
    ∃ O, A.DiagonalsAre O ∧ csr2diaNdiag A.m A.n A.base A.ptr A.ind = some (O.length : Int) :=
  ⟨A.diagOffsets, ⟨diagOffsets_sorted A, fun _ => mem_diagOffsets hA⟩, ndiag_spec hA⟩

theorem diagonals_unique {A : Csr R} (hA : A.WF) {O : List Int} (hO : A.DiagonalsAre O) :
    O = A.diagOffsets := by
  refine List.Perm.eq_of_pairwise (le := (· < ·)) (fun a b _ _ h1 h2 => ?_) hO.1 (diagOffsets_sorted A)
    ((List.perm_ext_iff_of_nodup ?_ ?_).2 fun o => ?_)
  · exact absurd h1 (lt_asymm h2)
  · exact hO.1.imp (fun h => ne_of_lt h)
  · exact (diagOffsets_sorted A).imp (fun h => ne_of_lt h)
  · rw [hO.2, mem_diagOffsets hA]

/-- The conversion, called with that number and buffers of the documented sizes, stays within the
buffers, stores the offsets in increasing order, stores every entry at row + m * (number of its
diagonal), and changes nothing else. -/
theorem C12_csr2dia (A : Csr R) (hA : A.WF) (hn : A.NoDup) (O : List Int) (hO : A.DiagonalsAre O)
    (off : List Int) (dval : List R) (hoff : O.length ≤ off.length)
    (hdv : A.m * O.length ≤ dval.length) :
    ∃ off' dval', csr2dia A.m A.n A.base A.ptr A.ind A.val O.length off dval = some (off', dval') ∧
      off'.take O.length = O ∧ off'.length = off.length ∧ dval'.length = dval.length ∧
      (∀ e ∈ A.entries, ∃ d : Nat, O[d]? = some (e.2.1 - e.1) ∧
        dval'[e.1 + A.m * d]? = some e.2.2) ∧
      (∀ k, (∀ e ∈ A.entries, ∀ d, O[d]? = some (e.2.1 - e.1) → k ≠ e.1 + A.m * d) →
        dval'[k]? = dval[k]?) := by
  have := diagonals_unique hA hO
  subst this
  by_cases h0 : A.m = 0 ∨ A.n = 0 ∨ A.diagOffsets.length = 0
  · have he : A.entries = [] := by
      rcases h0 with h | h | h
      · simp [Csr.entries, h]
      · apply List.eq_nil_iff_forall_not_mem.2
        intro e he
        have := entry_range hA he
        omega
      · apply List.eq_nil_iff_forall_not_mem.2
        intro e he
        have := (mem_diagOffsets hA).2 ⟨e, he, rfl⟩
        rw [List.length_eq_zero_iff] at h
        rw [h] at this
        simp at this
    have hO0 : A.diagOffsets = [] := by
      apply List.eq_nil_iff_forall_not_mem.2
      intro o ho
      obtain ⟨e, h1, _⟩ := (mem_diagOffsets hA).1 ho
      rw [he] at h1
      simp at h1
    refine ⟨off, dval, ?_, by simp [hO0], rfl, rfl, by simp [he], fun _ _ => rfl⟩
    unfold csr2dia
    rw [if_pos (by omega)]
  · obtain ⟨off', dval', e, hp, hl, hc, hr⟩ := csr2dia_core hA (nd := (A.diagOffsets.length : Int))
      (by omega) (by omega) (by omega) hoff hdv
    exact ⟨off', dval', e, List.prefix_iff_eq_take.1 hp.2 |>.symm, hp.1, hl, hc hn, hr⟩

/-- With a value buffer that the caller zeroed, the result denotes the same matrix. -/
theorem C12_same_matrix [Semiring R] (A : Csr R) (hA : A.WF) (hn : A.NoDup) (O : List Int)
    (hO : A.DiagonalsAre O) (off : List Int) (dval : List R) (hoff : O.length ≤ off.length)
    (hdv : A.m * O.length ≤ dval.length) (hz : ∀ k, k < A.m * O.length → dval[k]? = some 0) :
    ∃ off' dval', csr2dia A.m A.n A.base A.ptr A.ind A.val O.length off dval = some (off', dval') ∧
      off'.length = off.length ∧ dval'.length = dval.length ∧
      ∀ i j, i < A.m → diaMat A.m O.length off' dval' i j = A.mat i j := by
  obtain ⟨off', dval', e, h1, h2, h3, h4, h5⟩ := C12_csr2dia A hA hn O hO off dval hoff hdv
  refine ⟨off', dval', e, h2, h3, fun i j hi => ?_⟩
  have hget : ∀ d, d < O.length → off'.getD d 0 = O.getD d 0 := by
    intro d hd
    conv_rhs => rw [← h1]
    rw [List.getD_eq_getElem?_getD, List.getD_eq_getElem?_getD, List.getElem?_take, if_pos hd]
  have hnd : O.Nodup := hO.1.imp (fun h => ne_of_lt h)
  have huniq : ∀ d d' : Nat, ∀ o, O[d]? = some o → O[d']? = some o → d = d' := by
    intro d d' o hd hd'
    have hl := (List.getElem?_eq_some_iff.1 hd).1
    exact (List.getElem?_inj hl hnd).1 (hd.trans hd'.symm)
  unfold diaMat Csr.mat
  by_cases hmem : ((j : Int) - i) ∈ O
  · obtain ⟨d0, hd0⟩ := List.mem_iff_getElem?.1 hmem
    have hl := (List.getElem?_eq_some_iff.1 hd0).1
    rw [sum_eq_single d0]
    · rw [hget d0 hl, List.getD_eq_getElem?_getD, hd0, Option.getD_some, if_pos rfl]
      rw [Csr.entry_eq_get (hn i hi)]
      rcases Csr.get_cases (A := A) i j with ⟨v, hv, hg⟩ | ⟨hv, hg⟩
      · obtain ⟨d, hd, hc⟩ := h4 (i, (j : Int), v) (Csr.mem_entries.2 ⟨hi, hv⟩)
        have := huniq _ _ _ hd hd0
        subst this
        rw [hg, List.getD_eq_getElem?_getD, hc]
        rfl
      · rw [hg]
        have hlt : A.m * (d0 + 1) ≤ A.m * O.length := Nat.mul_le_mul_left _ hl
        rw [Nat.mul_succ] at hlt
        have := h5 (i + A.m * d0) (by
          intro e he d hd hk
          have her := entry_range hA he
          obtain ⟨q1, q2⟩ := off_inj (w := (A.m : Int)) (i := d0) (j := i) (i' := d) (j' := e.1)
            (by omega) (by omega) (by omega) (by omega) (by
              rw [mul_comm, add_comm, mul_comm (d : Int), add_comm (_ * _)]; exact_mod_cast hk)
          have hdd : d0 = d := by exact_mod_cast q1
          subst hdd
          rw [hd0] at hd
          have := Option.some.inj hd
          have hm := (Csr.mem_entries.1 he).2
          rw [show e.1 = i by omega, show e.2.1 = (j : Int) by omega] at hm
          exact hv _ hm)
        rw [List.getD_eq_getElem?_getD, this, hz _ (by omega)]
        rfl
    · intro d hd hne
      have hd := mem_range.1 hd
      rw [hget d hd, if_neg]
      intro heq
      apply hne
      refine huniq d d0 _ ?_ hd0
      rw [List.getD_eq_getElem?_getD, List.getElem?_eq_getElem hd] at heq
      rw [List.getElem?_eq_getElem hd]
      exact congrArg some heq
    · intro hd
      exact absurd (mem_range.2 hl) hd
  · rw [sum_eq_zero, Csr.entry_eq_get (hn i hi), Csr.get_of_not_mem]
    · intro v hv
      exact hmem ((hO.2 _).2 ⟨(i, (j : Int), v), Csr.mem_entries.2 ⟨hi, hv⟩, rfl⟩)
    · intro d hd
      have hd := mem_range.1 hd
      rw [hget d hd, if_neg]
      intro heq
      apply hmem
      rw [← heq, List.getD_eq_getElem?_getD, List.getElem?_eq_getElem hd]
      exact List.getElem_mem hd

/-- The DIA product is `alpha * M * x + beta * y` for the matrix the arrays denote, whichever kernel
(reference, row-major or diagonal-major of any register width) and whichever mode the caller or the
heuristic selects; no access leaves the arrays. -/
theorem C12_diamv [CommSemiring R] [DecidableEq R] (ker : DiaKernel) (hker : ∀ K, ker = .kt K → 0 < K)
    (mode : Int) (alpha beta : R) (m n nd : Nat) (off : List Int) (dval x y : List R)
    (hm0 : m ≠ 0) (hn0 : n ≠ 0) (hm : m ≤ y.length) (hx : n ≤ x.length) (hoff : nd ≤ off.length)
    (hdv : m * nd ≤ dval.length) :
    ∃ y', diamv ker mode alpha m n dval off nd x beta y = some y' ∧
      IsMv alpha beta (diaMat m nd off dval) m n x y y' :=
  diamv_spec hker hm0 hn0 hm hx hoff hdv

/-- Count, convert into a zeroed buffer, multiply: the product with the CSR matrix. -/
theorem C12_end_to_end [CommSemiring R] [DecidableEq R] (A : Csr R) (hA : A.WF) (hn : A.NoDup)
    (hm0 : A.m ≠ 0) (hn0 : A.n ≠ 0) (ker : DiaKernel) (hker : ∀ K, ker = .kt K → 0 < K)
    (mode : Int) (alpha beta : R) (x y : List R) (hm : A.m ≤ y.length) (hx : A.n ≤ x.length) :
    ∃ nd : Nat, csr2diaNdiag A.m A.n A.base A.ptr A.ind = some (nd : Int) ∧
      ∀ off : List Int, off.length = nd →
        ∃ off' dval', csr2dia A.m A.n A.base A.ptr A.ind A.val nd off
            (List.replicate (A.m * nd) 0) = some (off', dval') ∧
          ∃ y', diamv ker mode alpha A.m A.n dval' off' nd x beta y = some y' ∧
            IsMv alpha beta A.mat A.m A.n x y y' := by
  obtain ⟨O, hO, hc⟩ := C12_ndiag A hA
  refine ⟨O.length, hc, fun off hoff => ?_⟩
  obtain ⟨off', dval', e, h2, h3, h4⟩ := C12_same_matrix A hA hn O hO off
    (List.replicate (A.m * O.length) 0) (by omega) (by simp) (fun k hk => by simp [hk])
  obtain ⟨y', e', hy⟩ := C12_diamv ker hker mode alpha beta A.m A.n O.length off' dval' x y hm0 hn0
    hm hx (by omega) (by rw [h3]; simp)
  refine ⟨off', dval', e, y', e', hy.length, fun i hi => ?_, hy.rest⟩
  rw [hy.rows i hi]
  congr 3
  unfold matVec
  exact sum_congr rfl fun j _ => by rw [h4 i j hi]

/-- The values are not cleared by the conversion: cells of a populated diagonal for which no entry
is stored keep what the buffer held before, so with a dirty buffer another matrix is denoted. -/
theorem C12_dirty_buffer : ∃ A : Csr Int, A.WF ∧ A.NoDup ∧ ∃ off' dval',
    csr2dia A.m A.n A.base A.ptr A.ind A.val 1 [0] [7, 7] = some (off', dval') ∧
      ¬ ∀ i j, i < A.m → diaMat A.m 1 off' dval' i j = A.mat i j := by
  refine ⟨{ m := 2, n := 2, base := 0, ptr := [0, 1, 1], ind := [0], val := [1] }, by decide, by decide,
    [0], [1, 7], by decide, ?_⟩
  intro h
  exact absurd (h 1 1 (by decide)) (by decide)

/-- With no columns the call returns at once: `y` is not multiplied by `beta`. -/
theorem C12_no_columns [CommSemiring R] [DecidableEq R] (ker : DiaKernel) (mode : Int)
    (alpha beta : R) (m nd : Int) (off : List Int) (dval x y : List R) :
    diamv ker mode alpha m 0 dval off nd x beta y = some y := by
  simp [diamv]

/-- hypotheses are met: a 4x5 one-based matrix with three diagonals, unsorted row -/
def exDia : Csr Int :=
  { m := 4, n := 5, base := 1, ptr := [1, 3, 4, 4, 6], ind := [4, 1, 2, 5, 1], val := [10, 20, 30, 40, 50] }

example : exDia.WF ∧ exDia.NoDup ∧ exDia.diagOffsets = [-3, 0, 1, 3] ∧
    csr2diaNdiag 4 5 1 exDia.ptr exDia.ind = some 4 ∧
    csr2dia 4 5 1 exDia.ptr exDia.ind exDia.val 4 [9, 9, 9, 9] (List.replicate 16 0)
      = some ([-3, 0, 1, 3], [0, 0, 0, 50, 20, 30, 0, 0, 0, 0, 0, 40, 10, 0, 0, 0]) := by decide +kernel

example : diamv (.kt 2) 1 (2 : Int) 4 5 [0, 0, 0, 50, 20, 30, 0, 0, 0, 0, 0, 40, 10, 0, 0, 0]
      [-3, 0, 1, 3] 4 [1, 2, 3, 4, 5] 3 [1, 1, 1, 1] = some [123, 123, 3, 503] ∧
    diamv (.kt 2) 2 (2 : Int) 4 5 [0, 0, 0, 50, 20, 30, 0, 0, 0, 0, 0, 40, 10, 0, 0, 0]
      [-3, 0, 1, 3] 4 [1, 2, 3, 4, 5] 3 [1, 1, 1, 1] = some [123, 123, 3, 503] := by decide +kernel

end Verif
