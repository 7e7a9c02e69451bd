/-
Internal copies of a matrix: what they hold, and what changing their diagonal does.
-/
import Verif.Proofs.Csrmm3
import Verif.Proofs.CsrAdd
import Verif.Props.Doid

namespace Verif
open Model Finset

variable {R : Type}

/-- the kinds that hold the transpose -/
def kindT (d : Nat) : Bool := decide (d = 2 ∨ d = 3)

/-- the arrays of a copy of an `M × N` matrix -/
def Model.MCopy.csr (c : MCopy R) (M N : Nat) : Csr R :=
  ⟨if kindT c.doid then N else M, if kindT c.doid then M else N, c.base, c.ptr, c.ind, c.val⟩

/-- `p` is the position of the only diagonal entry of row `i` -/
structure DiagPos (X : Csr R) (i p : Nat) : Prop where
  lo : X.p i - X.base ≤ p
  hi : (p : Int) < X.p (i + 1) - X.base
  here : rd X.ind p = some ((i : Int) + X.base)
  only : ∀ q : Nat, X.p i - X.base ≤ q → (q : Int) < X.p (i + 1) - X.base →
    rd X.ind q = some ((i : Int) + X.base) → q = p

/-- `c` is a copy of the `M × N` matrix `U`: its arrays are well formed and its elements are those of
the operator its identifier stands for, with the diagonal its diagonal type asks for; copies of
symmetric and Hermitian matrices know their diagonal -/
structure CopyOk [Semiring R] [Star R] (U : Mat R) (M N : Nat) (c : MCopy R) : Prop where
  kind : c.doid < 12
  rows : c.m = ((c.csr M N).m : Int)
  wf : (c.csr M N).WF
  elems : ∃ D : Diag, c.mtxDiag = D.code ∧ ∀ i j, i < (c.csr M N).m → j < (c.csr M N).n →
    (c.csr M N).mat i j = doidOp D c.doid U i j
  sym : 4 ≤ c.doid → M = N ∧ ∃ idiag dv, c.idiag = some idiag ∧ c.diagVal = some dv ∧
    ∀ i, i < M → ∃ p : Nat, rd idiag i = some (p : Int) ∧ DiagPos (c.csr M N) i p ∧
      rd dv i = some (doidOp .nonUnit c.doid U i i)

theorem colSum_single_pos [AddCommMonoid R] (L : List (Int × R)) {t i : Nat} (ht : t < L.length)
    (hi : L[t].1 = (i : Int)) (hu : ∀ s (hs : s < L.length), L[s].1 = (i : Int) → s = t) :
    colSum L i = L[t].2 := by
  induction L generalizing t with
  | nil => simp at ht
  | cons a L ih =>
    rw [colSum_cons]
    cases t with
    | zero =>
      have h0 : colSum L i = 0 := by
        unfold colSum
        rw [List.filter_eq_nil_iff.2]
        · rfl
        · intro e he hc
          obtain ⟨s, hs, rfl⟩ := List.getElem_of_mem he
          have := hu (s + 1) (by simpa using hs) (by simpa using hc)
          omega
      rw [h0, if_pos (by simpa using hi), add_zero]
      rfl
    | succ t =>
      rw [if_neg, zero_add]
      · exact ih (by simpa using ht) (by simpa using hi) (fun s hs h => by
          have := hu (s + 1) (by simpa using hs) (by simpa using h); omega)
      · intro h
        have := hu 0 (by simp) (by simpa using h)
        omega

/-- writing the diagonal positions -/
theorem writeDiag_ok {M : Nat} {pos : Nat → Nat} {d : Nat → R} {val0 : List R}
    (hinj : ∀ i j, i < M → j < M → pos i = pos j → i = j)
    (hlt : ∀ i, i < M → pos i < val0.length) (f : Int → List R → Option (List R))
    (hf : ∀ (i : Nat) val, i < M → f i val = wr val (pos i : Int) (d i)) :
    ∃ val, forC 0 (M : Int) f val0 = some val ∧ val.length = val0.length ∧
      (∀ i, i < M → val[pos i]? = some (d i)) ∧
      (∀ q, (∀ i, i < M → q ≠ pos i) → val[q]? = val0[q]?) := by
  refine forC_inv_nat (n := M) (s := val0) (P := fun k val => val.length = val0.length ∧
    (∀ i, i < k → val[pos i]? = some (d i)) ∧
      (∀ q, (∀ i, i < k → q ≠ pos i) → val[q]? = val0[q]?))
    ⟨rfl, fun i hi => absurd hi (by omega), fun _ _ => rfl⟩ ?_
  rintro k val hk ⟨h1, h2, h3⟩
  refine ⟨val.set (pos k) (d k), ?_, by simpa using h1, ?_, ?_⟩
  · rw [hf k val hk, wr_ofNat (by rw [h1]; exact hlt k hk)]
  · intro i hi
    by_cases hik : i = k
    · subst hik
      rw [List.getElem?_set_self (by rw [h1]; exact hlt i hk)]
    · rw [List.getElem?_set_ne]
      · exact h2 i (by omega)
      · intro h
        exact hik (hinj k i hk (by omega) h).symm
  · intro q hq
    rw [List.getElem?_set_ne (fun h => hq k (by omega) h.symm)]
    exact h3 q (fun i hi => hq i (by omega))

/-- a matrix after its diagonal entries have been overwritten -/
theorem mat_of_diag [CommRing R] {X : Csr R} (hX : X.WF) {pos : Nat → Nat} {d : Nat → R}
    (hpos : ∀ i, i < X.m → DiagPos X i (pos i)) {val : List R} (hlen : val.length = X.val.length)
    (hd : ∀ i, i < X.m → val[pos i]? = some (d i))
    (hrest : ∀ q, (∀ i, i < X.m → q ≠ pos i) → val[q]? = X.val[q]?) :
    ({X with val := val} : Csr R).WF ∧ ∀ i j, i < X.m →
      ({X with val := val} : Csr R).mat i j = if i = j then d i else X.mat i j := by
  have hW : ({X with val := val} : Csr R).WF :=
    ⟨hX.base01, hX.ptr_len, hX.ptr_first, hX.ptr_mono, hX.ptr_last, by rw [hlen]; exact hX.val_len,
      hX.ind_range⟩
  refine ⟨hW, ?_⟩
  intro i j hi
  have hp := hpos i hi
  have hlo := hX.lo (i := i) (by omega)
  obtain ⟨t0, ht0⟩ : ∃ t0 : Nat, X.p i - X.base + t0 = (pos i : Int) :=
    ⟨((pos i : Int) - (X.p i - X.base)).toNat, by have := hp.lo; omega⟩
  have hrl := Csr.row_length hX hi
  have hrl' := Csr.row_length hW (i := i) hi
  have ep : ∀ i, ({X with val := val} : Csr R).p i = X.p i := fun _ => rfl
  rw [ep, ep] at hrl'
  have ht0' : (t0 : Int) < X.p (i + 1) - X.p i := by have := hp.hi; omega
  have ht0l : t0 < (X.row i).length := by omega
  obtain ⟨c0, v0, a1, a2, a3⟩ := Csr.row_getElem? hX hi ht0'
  have hc0 : c0 = (i : Int) + X.base := by
    rw [ht0, hp.here] at a1
    exact (Option.some.inj a1).symm
  have hL0 : (X.row i)[t0] = (((i : Int)), v0) := by
    rw [List.getElem?_eq_getElem ht0l, hc0] at a3
    have := Option.some.inj a3
    rw [this]
    congr 1
    ring
  have hrow : ({X with val := val} : Csr R).row i
      = (X.row i).set t0 ((X.row i)[t0].1, (X.row i)[t0].2 + (d i - (X.row i)[t0].2)) := by
    apply List.ext_getElem?
    intro t
    by_cases ht : (t : Int) < X.p (i + 1) - X.p i
    · obtain ⟨c, v, b1, b2, b3⟩ := Csr.row_getElem? hX hi ht
      obtain ⟨c', v', b1', b2', b3'⟩ := Csr.row_getElem? hW (i := i) hi (t := t) ht
      dsimp only at b1' b2' b3'
      rw [ep] at b1' b2'
      rw [b1] at b1'
      obtain rfl := Option.some.inj b1'
      rw [b3']
      obtain ⟨q, hq⟩ : ∃ q : Nat, X.p i - X.base + t = (q : Int) :=
        ⟨(X.p i - X.base + t).toNat, by omega⟩
      by_cases htt : t = t0
      · subst htt
        rw [List.getElem?_set_self ht0l, hL0]
        have hqp : q = pos i := by omega
        rw [hq, hqp, rd_ofNat, hd i hi] at b2'
        obtain rfl := Option.some.inj b2'
        rw [b1] at a1
        obtain rfl := Option.some.inj a1
        rw [hc0]
        simp
      · rw [List.getElem?_set_ne (fun h => htt h.symm), b3]
        have : val[q]? = X.val[q]? := by
          apply hrest
          intro k hk hqk
          have hpk := hpos k hk
          have g1 := hpk.lo
          have g2 := hpk.hi
          rcases Nat.lt_trichotomy i k with h | h | h
          · have := hX.mono (show i + 1 ≤ k by omega) (by omega : k ≤ X.m)
            omega
          · subst h
            exact htt (by omega)
          · have := hX.mono (show k + 1 ≤ i by omega) (by omega : i ≤ X.m)
            omega
        rw [hq, rd_ofNat] at b2 b2'
        rw [this, b2] at b2'
        obtain rfl := Option.some.inj b2'
        rfl
    · rw [List.getElem?_eq_none (by omega), List.getElem?_eq_none (by rw [List.length_set]; omega)]
  rw [mat_eq_colSum, hrow, colSum_set _ ht0l, ← mat_eq_colSum, hL0]
  by_cases hij : i = j
  · subst hij
    rw [if_pos rfl, if_pos rfl, mat_eq_colSum, colSum_single_pos (X.row i) ht0l (by rw [hL0]), hL0]
    · ring
    · intro s hs he
      obtain ⟨c, v, b1, b2, b3⟩ := Csr.row_getElem? hX hi (t := s) (by omega)
      rw [List.getElem?_eq_getElem hs] at b3
      rw [Option.some.inj b3] at he
      dsimp only at he
      obtain ⟨q, hq⟩ : ∃ q : Nat, X.p i - X.base + s = (q : Int) :=
        ⟨(X.p i - X.base + s).toNat, by omega⟩
      have := hp.only q (by omega) (by omega) (by rw [← hq, b1]; congr 1; omega)
      omega
  · rw [if_neg (by simpa using fun h => hij (by exact_mod_cast h)), if_neg hij, add_zero]

/-- the diagonal type only changes the diagonal of symmetric and Hermitian operators -/
theorem doidOp_diag [CommRing R] [StarRing R] {d : Nat} (hd : d < 12) (hs : 4 ≤ d) (U : Mat R) (D D' : Diag)
    (i j : Nat) : doidOp D' d U i j
      = if i = j then (match D' with | .nonUnit => doidOp .nonUnit d U i i | .unit => 1 | .zero => 0)
        else doidOp D d U i j := by
  by_cases hij : i = j
  · subst hij
    rw [if_pos rfl]
    interval_cases d <;> cases D' <;> simp [doidOp, doidMeaning, structured, diagVal, conjM]
  · rw [if_neg hij]
    interval_cases d <;> simp [doidOp, doidMeaning, structured, conjM, hij]

theorem setMatDiag_ok [CommRing R] [StarRing R] {U : Mat R} {M N : Nat} {c : MCopy R}
    (h : CopyOk U M N c) (hs : 4 ≤ c.doid) (D : Diag) :
    ∃ c', setMatDiag M D.code c = some (.success, c') ∧ c'.doid = c.doid ∧ c'.mtxDiag = D.code ∧
      CopyOk U M N c' ∧ c' = { c with val := c'.val, mtxDiag := D.code } ∧
      c'.val.length = c.val.length ∧
      ∃ pos : Nat → Nat,
        (∀ i, i < M → c.idiag.bind (fun l => rd l i) = some (pos i : Int)) ∧
        (∀ i, i < M → pos i < c.val.length ∧ c'.val[pos i]? = some (match D with
          | .nonUnit => doidOp .nonUnit c.doid U i i | .unit => 1 | .zero => 0)) ∧
        ∀ q, (∀ i, i < M → q ≠ pos i) → c'.val[q]? = c.val[q]? := by
  obtain ⟨hMN, idiag, dv, e1, e2, hall⟩ := h.sym hs
  subst hMN
  choose! pos hp using hall
  have hkT : kindT c.doid = false := by unfold kindT; simp; omega
  have hXm : (c.csr M M).m = M := by simp [MCopy.csr]
  have hX := h.wf
  set dd : Nat → R := fun i => match D with
    | .nonUnit => doidOp .nonUnit c.doid U i i | .unit => 1 | .zero => 0 with hdd
  have hinj : ∀ i j, i < M → j < M → pos i = pos j → i = j := by
    intro i j hi hj hij
    have a1 := (hp i hi).2.1
    have a2 := (hp j hj).2.1
    have b1 := a1.lo
    have b2 := a1.hi
    have b3 := a2.lo
    have b4 := a2.hi
    rw [hij] at b1 b2
    rcases Nat.lt_trichotomy i j with h | h | h
    · have := hX.mono (show i + 1 ≤ j by omega) (by omega)
      omega
    · exact h
    · have := hX.mono (show j + 1 ≤ i by omega) (by omega)
      omega
  have hlt : ∀ i, i < M → pos i < c.val.length := by
    intro i hi
    have b2 := (hp i hi).2.1.hi
    have := hX.hi (i := i + 1) (by omega)
    have := hX.val_len
    simp only [MCopy.csr] at *
    omega
  have fin : ∀ (val : List R), val.length = c.val.length → (∀ i, i < M → val[pos i]? = some (dd i)) →
      (∀ q, (∀ i, i < M → q ≠ pos i) → val[q]? = c.val[q]?) →
      CopyOk U M M { c with val := val, mtxDiag := D.code } := by
    intro val g1 g2 g3
    obtain ⟨D0, hD0, hel⟩ := h.elems
    obtain ⟨w1, w2⟩ := mat_of_diag (X := c.csr M M) hX (pos := pos) (d := dd)
      (fun i hi => (hp i (by omega)).2.1) g1 (fun i hi => g2 i (by omega))
      (fun q hq => g3 q (fun i hi => hq i (by omega)))
    refine ⟨h.kind, h.rows, w1, ⟨D, rfl, ?_⟩, ?_⟩
    · intro i j hi hj
      refine (w2 i j hi).trans ?_
      rw [doidOp_diag h.kind hs U D0 D]
      by_cases hij : i = j
      · rw [if_pos hij, if_pos hij]
      · rw [if_neg hij, if_neg hij]
        exact hel i j hi hj
    · intro _
      refine ⟨rfl, idiag, dv, e1, e2, fun i hi => ⟨pos i, (hp i hi).1, ?_, (hp i hi).2.2⟩⟩
      have := (hp i hi).2.1
      exact ⟨this.lo, this.hi, this.here, this.only⟩
  unfold setMatDiag
  rw [e1, e2]
  cases D
  · obtain ⟨val, g0, g1, g2, g3⟩ := writeDiag_ok (M := M) (pos := pos) (d := dd) hinj hlt
      (fun i val => do
        let p ← rd idiag i
        let d ← rd dv i
        wr val p d) (fun i val hi => by
          rw [(hp i hi).1, (hp i hi).2.2]
          rfl)
    refine ⟨{ c with val := val, mtxDiag := Diag.nonUnit.code }, ?_, rfl, rfl, fin val g1 g2 g3,
      by rw [← e1, ← e2], g1, pos, fun i hi => (hp i hi).1, fun i hi => ⟨hlt i hi, g2 i hi⟩, g3⟩
    simp only [Diag.code, if_true]
    rw [g0, ← e1, ← e2]
    rfl
  · obtain ⟨val, g0, g1, g2, g3⟩ := writeDiag_ok (M := M) (pos := pos) (d := dd) hinj hlt
      (fun i val => do
        let p ← rd idiag i
        wr val p 1) (fun i val hi => by
          rw [(hp i hi).1]
          rfl)
    refine ⟨{ c with val := val, mtxDiag := Diag.unit.code }, ?_, rfl, rfl, fin val g1 g2 g3,
      by rw [← e1, ← e2], g1, pos, fun i hi => (hp i hi).1, fun i hi => ⟨hlt i hi, g2 i hi⟩, g3⟩
    simp only [Diag.code, if_true]
    simp only [one_ne_zero, if_false, Option.bind_eq_bind, Option.bind_some] at g0 ⊢
    rw [g0, ← e1, ← e2]
    rfl
  · obtain ⟨val, g0, g1, g2, g3⟩ := writeDiag_ok (M := M) (pos := pos) (d := dd) hinj hlt
      (fun i val => do
        let p ← rd idiag i
        wr val p 0) (fun i val hi => by
          rw [(hp i hi).1]
          rfl)
    refine ⟨{ c with val := val, mtxDiag := Diag.zero.code }, ?_, rfl, rfl, fin val g1 g2 g3,
      by rw [← e1, ← e2], g1, pos, fun i hi => (hp i hi).1, fun i hi => ⟨hlt i hi, g2 i hi⟩, g3⟩
    simp only [Diag.code]
    simp only [show ¬ (2 : Nat) = 0 by omega, show ¬ (2 : Nat) = 1 by omega, if_false, if_true, Option.bind_eq_bind, Option.bind_some] at g0 ⊢
    rw [g0, ← e1, ← e2]
    rfl

end Verif
