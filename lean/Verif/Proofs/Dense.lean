/-
csr2dense: proofs.
-/
import Verif.Core.Scatter
import Verif.Proofs.Get
import Verif.Model.Dense
import Verif.Spec.Operator
import Mathlib.Tactic.Linarith

namespace Verif
open Model

variable {R : Type}

/-- Two-stage fill: after zeroing the window, a list of correct writes that reaches every
non-zero element produces the described dense matrix. -/
theorem dense_stage [Zero R] {m n : Nat} {off : Nat → Nat → Nat} {F : Nat → Nat → R}
    {a0 a1 : List R} {L : List (Int × R)}
    (hinj : ∀ i j i' j', i < m → j < n → i' < m → j' < n → off i j = off i' j' → i = i' ∧ j = j')
    (hb : ∀ i j, i < m → j < n → off i j < a0.length)
    (hlen : a1.length = a0.length)
    (hz : ∀ i j, i < m → j < n → a1[off i j]? = some 0)
    (hfr : ∀ k, (∀ i j, i < m → j < n → k ≠ off i j) → a1[k]? = a0[k]?)
    (H : ∀ e ∈ L, ∃ i j, i < m ∧ j < n ∧ e.1 = (off i j : Int) ∧ e.2 = F i j)
    (H2 : ∀ i j, i < m → j < n → (∃ e ∈ L, e.1 = (off i j : Int)) ∨ F i j = 0) :
    ∃ a', L.foldlM wr1 a1 = some a' ∧ a'.length = a0.length ∧
      (∀ i j, i < m → j < n → a'[off i j]? = some (F i j)) ∧
      (∀ k, (∀ i j, i < m → j < n → k ≠ off i j) → a'[k]? = a0[k]?) := by
  obtain ⟨a', h1, h2, h3, h4⟩ := scatter1 L a1 (by
    intro e he
    obtain ⟨i, j, hi, hj, e1, _⟩ := H e he
    have := hb i j hi hj
    omega)
  refine ⟨a', h1, by omega, ?_, ?_⟩
  · intro i j hi hj
    by_cases hex : ∃ e ∈ L, e.1 = (off i j : Int)
    · apply h3 _ _ hex
      intro e he hk
      obtain ⟨i', j', hi', hj', e1, e2⟩ := H e he
      obtain ⟨rfl, rfl⟩ := hinj i j i' j' hi hj hi' hj' (by omega)
      exact e2
    · rw [h4 _ (fun e he hk => hex ⟨e, he, hk⟩), hz i j hi hj]
      rcases H2 i j hi hj with h | h
      · exact absurd h hex
      · rw [h]
  · intro k hk
    rw [h4 k, hfr k hk]
    intro e he hek
    obtain ⟨i, j, hi, hj, e1, _⟩ := H e he
    exact hk i j hi hj (by omega)

theorem zero_window [Zero R] {m n : Nat} {off : Nat → Nat → Nat} {a0 : List R}
    (hb : ∀ i j, i < m → j < n → off i j < a0.length) :
    ∃ a1, ((List.range m).flatMap fun i => (List.range n).map fun j =>
        (((off i j : Nat) : Int), (0 : R))).foldlM wr1 a0 = some a1 ∧ a1.length = a0.length ∧
      (∀ i j, i < m → j < n → a1[off i j]? = some 0) ∧
      (∀ k, (∀ i j, i < m → j < n → k ≠ off i j) → a1[k]? = a0[k]?) := by
  have hm : ∀ e, e ∈ ((List.range m).flatMap fun i => (List.range n).map fun j =>
        (((off i j : Nat) : Int), (0 : R))) ↔ ∃ i j, i < m ∧ j < n ∧ e = ((off i j : Int), 0) := by
    intro e
    simp only [List.mem_flatMap, List.mem_range, List.mem_map]
    constructor
    · rintro ⟨i, hi, j, hj, rfl⟩; exact ⟨i, j, hi, hj, rfl⟩
    · rintro ⟨i, j, hi, hj, rfl⟩; exact ⟨i, hi, j, hj, rfl⟩
  obtain ⟨a', h1, h2, h3, h4⟩ := scatter1 ((List.range m).flatMap fun i => (List.range n).map fun j =>
        (((off i j : Nat) : Int), (0 : R))) a0 (by
    intro e he
    obtain ⟨i, j, hi, hj, rfl⟩ := (hm e).1 he
    have := hb i j hi hj
    dsimp only; omega)
  refine ⟨a', h1, h2, ?_, ?_⟩
  · intro i j hi hj
    apply h3
    · exact ⟨((off i j : Int), 0), (hm _).2 ⟨i, j, hi, hj, rfl⟩, rfl⟩
    · intro e he _
      obtain ⟨i, j, hi, hj, rfl⟩ := (hm e).1 he
      rfl
  · intro k hk
    apply h4
    intro e he hek
    obtain ⟨i, j, hi, hj, rfl⟩ := (hm e).1 he
    exact hk i j hi hj (by dsimp only at hek; omega)

theorem zeroRow_eq [Zero R] {m n ld : Nat} {a : List R} :
    zeroRow (m : Int) n ld a = ((List.range m).flatMap fun i => (List.range n).map fun j =>
        (((denseOff false ld i j : Nat) : Int), (0 : R))).foldlM wr1 a := by
  unfold zeroRow
  rw [forC_eq_foldlM, foldlM_flatMap']
  apply foldlM_congr'
  intro s i _
  rw [forC_eq_foldlM, foldlM_map']
  apply foldlM_congr'
  intro s j _
  simp only [wr1, denseOff, Bool.false_eq_true, if_false]
  congr 1
  push_cast; ring

theorem zeroCol_eq [Zero R] {m n ld : Nat} {a : List R} :
    zeroCol (m : Int) n ld a = ((List.range n).flatMap fun j => (List.range m).map fun i =>
        (((denseOff true ld i j : Nat) : Int), (0 : R))).foldlM wr1 a := by
  unfold zeroCol
  rw [forC_eq_foldlM, foldlM_flatMap']
  apply foldlM_congr'
  intro s i _
  rw [forC_eq_foldlM, foldlM_map']
  apply foldlM_congr'
  intro s j _
  simp only [wr1, denseOff]
  congr 1

/-- the row/entry loop is a list of writes -/
theorem denseLoop_eq {A : Csr R} (h : A.WF)
    (pre : Int → List R → Option (List R)) (body : Int → Int → R → List R → Option (List R))
    (wp : Nat → List (Int × R)) (wb : Nat → Int → R → List (Int × R))
    (hp : ∀ i a, i < A.m → pre (i : Int) a = (wp i).foldlM wr1 a)
    (hb : ∀ i c v a, i < A.m → body (i : Int) c v a = (wb i c v).foldlM wr1 a) (a : List R) :
    denseLoop A.m A.base A.ptr A.ind A.val pre body a
      = ((List.range A.m).flatMap fun i => wp i ++ (A.row i).flatMap fun e => wb i e.1 e.2).foldlM
          wr1 a := by
  unfold denseLoop
  rw [forC_eq_foldlM, foldlM_flatMap']
  apply foldlM_congr'
  intro s i hi
  have hi : i < A.m := by simpa using hi
  rw [hp i s hi, List.foldlM_append]
  congr 1
  funext s'
  have e1 := h.rd_ptr (i := i) (by omega)
  have e2 := h.rd_ptr (i := i + 1) (by omega)
  rw [show ((i + 1 : Nat) : Int) = (i : Int) + 1 by omega] at e2
  rw [e1, e2]
  simp only [Option.bind_eq_bind, Option.bind_some]
  have := Csr.forC_row h hi (fun c v s => body (i : Int) c v s) s'
  simp only [Option.bind_eq_bind] at this
  rw [this, foldlM_flatMap']
  apply foldlM_congr'
  intro s e _
  exact hb i e.1 e.2 s hi

theorem mem_denseWrites {A : Csr R} {wp : Nat → List (Int × R)} {wb : Nat → Int → R → List (Int × R)}
    {x : Int × R} :
    x ∈ ((List.range A.m).flatMap fun i => wp i ++ (A.row i).flatMap fun e => wb i e.1 e.2) ↔
      ∃ i, i < A.m ∧ (x ∈ wp i ∨ ∃ c v, (c, v) ∈ A.row i ∧ x ∈ wb i c v) := by
  simp only [List.mem_flatMap, List.mem_range, List.mem_append, Prod.exists]

theorem denseOff_inj {co : Bool} {ld m n : Nat} (hld : (if co then m else n) ≤ ld) :
    ∀ i j i' j', i < m → j < n → i' < m → j' < n → denseOff co ld i j = denseOff co ld i' j' →
      i = i' ∧ j = j' := by
  intro i j i' j' hi hj hi' hj' he
  cases co
  · simp only [denseOff, Bool.false_eq_true, if_false] at he hld
    have := off_inj (w := (ld : Int)) (i := i) (j := j) (i' := i') (j' := j') (by omega) (by omega)
      (by omega) (by omega) (by exact_mod_cast he)
    omega
  · simp only [denseOff, if_true] at he hld
    have := off_inj (w := (ld : Int)) (i := j) (j := i) (i' := j') (j' := i') (by omega) (by omega)
      (by omega) (by omega) (by
        have : ((i + ld * j : Nat) : Int) = ((i' + ld * j' : Nat) : Int) := by exact_mod_cast he
        push_cast at this; linarith)
    omega

theorem foldlM_nil' {a : List R} : ([] : List (Int × R)).foldlM wr1 a = some a := rfl
theorem foldlM_one {x : Int × R} {a : List R} : [x].foldlM wr1 a = wr a x.1 x.2 := by
  simp [wr1]
theorem foldlM_two {x y : Int × R} {a : List R} :
    [x, y].foldlM wr1 a = (wr a x.1 x.2).bind fun a => wr a y.1 y.2 := by
  simp [wr1]

variable [Zero R] [One R] [Star R]

/-- the diagonal writes made before a row -/
def dwp (D : Diag) (ld : Nat) (i : Nat) : List (Int × R) := match D with
  | .nonUnit => [] | .unit => [((i : Int) * ld + i, 1)] | .zero => [((i : Int) * ld + i, 0)]
/-- strict-triangle test as the code performs it -/
def dinT (f : Fill) (i c : Int) : Bool :=
  match f with | .lower => decide (c < i) | .upper => decide (c > i)
def dsym (f : Fill) (D : Diag) (ld : Nat) (hm : Bool) (i : Nat) (c : Int) (v : R) : List (Int × R) :=
  if (i : Int) = c then (if D = .nonUnit then [((i : Int) * ld + c, v)] else [])
  else if dinT f i c then [((i : Int) * ld + c, v), (c * ld + i, if hm then star v else v)] else []
def dtri (f : Fill) (D : Diag) (ld : Nat) (i : Nat) (c : Int) (v : R) : List (Int × R) :=
  if (i : Int) = c then (if D = .nonUnit then [((i : Int) * ld + c, v)] else [])
  else if dinT f i c then [((i : Int) * ld + c, v)] else []

theorem denseDiag_eq (D : Diag) (ld i : Nat) (a : List R) :
    denseDiag D.code (ld : Int) (i : Int) a = (dwp D ld i).foldlM wr1 a := by
  cases D <;> simp [denseDiag, Diag.code, dwp, wr1]

theorem dinT_iff (f : Fill) (i c : Nat) : dinT f i c = true ↔ strictTri f i c := by
  cases f <;> simp [dinT, strictTri]

theorem denseSymRow_eq (f : Fill) (D : Diag) (ld : Nat) (hm i c v) (a : List R) :
    denseSymRow hm f.code D.code (ld : Int) ((i : Nat) : Int) c v a
      = (dsym f D ld hm i c v).foldlM wr1 a := by
  simp only [denseSymRow, dsym]
  by_cases h1 : (i : Int) = c
  · cases D <;> simp [h1, Diag.code, wr1]
  · cases f
    · by_cases h2 : c < i <;> simp [h1, h2, dinT, Fill.code, wr1]
    · by_cases h2 : c > i <;> simp [h1, h2, dinT, Fill.code, wr1]

theorem denseSymCol_eq (f : Fill) (D : Diag) (ld : Nat) (i c v) (a : List R) :
    denseSymCol f.code D.code (ld : Int) ((i : Nat) : Int) c v a
      = (dsym f D ld false i c v).foldlM wr1 a := by
  simp only [denseSymCol, dsym]
  by_cases h1 : (i : Int) = c
  · cases D <;> simp [h1, Diag.code, wr1]; rw [add_comm]
  · cases f
    · by_cases h2 : c < i <;> simp [h1, h2, dinT, Fill.code, wr1]
    · by_cases h2 : c > i <;> simp [h1, h2, dinT, Fill.code, wr1]

theorem denseTriRow_eq (f : Fill) (D : Diag) (ld : Nat) (i c v) (a : List R) :
    denseTriRow f.code D.code (ld : Int) ((i : Nat) : Int) c v a
      = (dtri f D ld i c v).foldlM wr1 a := by
  simp only [denseTriRow, dtri]
  by_cases h1 : (i : Int) = c
  · cases D <;> simp [h1, Diag.code, wr1]
  · cases f
    · by_cases h2 : c < i <;> simp [h1, h2, dinT, Fill.code, wr1]
    · by_cases h2 : c > i <;> simp [h1, h2, dinT, Fill.code, wr1]

theorem oR (ld i j : Nat) : ((denseOff false ld i j : Nat) : Int) = (i : Int) * ld + j := by
  simp [denseOff]
theorem oC (ld i j : Nat) : ((denseOff true ld i j : Nat) : Int) = (j : Int) * ld + i := by
  simp [denseOff]; ring
theorem oD (co : Bool) (ld i : Nat) : ((denseOff co ld i i : Nat) : Int) = (i : Int) * ld + i := by
  cases co
  · exact oR ld i i
  · exact oC ld i i

/-- what the second stage must achieve -/
def DenseDone (A : Csr R) (F : Nat → Nat → R) (co : Bool) (ld : Nat) (a : List R)
    (L : List (Int × R)) (a1 : List R) : Prop :=
  ∃ a', L.foldlM wr1 a1 = some a' ∧ a'.length = a.length ∧
      (∀ i j, i < A.m → j < A.n → a'[denseOff co ld i j]? = some (F i j)) ∧
      (∀ k, (∀ i j, i < A.m → j < A.n → k ≠ denseOff co ld i j) → a'[k]? = a[k]?)

/-- state after zeroing -/
structure Zeroed (A : Csr R) (co : Bool) (ld : Nat) (a a1 : List R) : Prop where
  hld : (if co then A.m else A.n) ≤ ld
  hlen : ∀ i j, i < A.m → j < A.n → denseOff co ld i j < a.length
  z2 : a1.length = a.length
  z3 : ∀ i j, i < A.m → j < A.n → a1[denseOff co ld i j]? = some 0
  z4 : ∀ k, (∀ i j, i < A.m → j < A.n → k ≠ denseOff co ld i j) → a1[k]? = a[k]?

theorem dense_key {A : Csr R} (hA : A.WF) (hn : A.NoDup) {co : Bool} {ld : Nat} {a a1 : List R}
    (Z : Zeroed A co ld a a1) {F : Nat → Nat → R}
    (wp : Nat → List (Int × R)) (wb : Nat → Int → R → List (Int × R))
    (h1 : ∀ i, i < A.m → ∀ e ∈ wp i, ∃ i j, i < A.m ∧ j < A.n ∧
      e.1 = (denseOff co ld i j : Int) ∧ e.2 = F i j)
    (h2 : ∀ i c v, i < A.m → c < A.n → ((c : Int), v) ∈ A.row i → A.get i c = v → ∀ e ∈ wb i c v,
        ∃ i j, i < A.m ∧ j < A.n ∧ e.1 = (denseOff co ld i j : Int) ∧ e.2 = F i j)
    (h3 : ∀ i j, i < A.m → j < A.n →
        ((∃ i' , i' < A.m ∧ ((∃ e ∈ wp i', e.1 = (denseOff co ld i j : Int)) ∨
          ∃ (c : Nat) (v : R), ((c : Int), v) ∈ A.row i' ∧
            ∃ e ∈ wb i' c v, e.1 = (denseOff co ld i j : Int))) ∨ F i j = 0)) :
    DenseDone A F co ld a
      ((List.range A.m).flatMap fun i => wp i ++ (A.row i).flatMap fun e => wb i e.1 e.2) a1 := by
  refine dense_stage (denseOff_inj Z.hld) Z.hlen Z.z2 Z.z3 Z.z4 ?_ ?_
  · intro e he
    obtain ⟨i, hi, h | ⟨c, v, hcv, hm⟩⟩ := mem_denseWrites.1 he
    · exact h1 i hi e h
    · have hr := Csr.row_range hA hcv
      have hg := Csr.get_of_mem (hn i hi) hcv hr.1
      dsimp only at hr
      obtain ⟨c', rfl⟩ : ∃ c' : Nat, (c' : Int) = c := ⟨c.toNat, by omega⟩
      exact h2 i c' v hi (by omega) hcv (by simpa using hg) e hm
  · intro i j hi hj
    rcases h3 i j hi hj with ⟨i', hi', ⟨e, he, hk⟩ | ⟨c, v, hcv, e, he, hk⟩⟩ | h
    · exact .inl ⟨e, mem_denseWrites.2 ⟨i', hi', .inl he⟩, hk⟩
    · exact .inl ⟨e, mem_denseWrites.2 ⟨i', hi', .inr ⟨c, v, hcv, he⟩⟩, hk⟩
    · exact .inr h

theorem dwp_good {A : Csr R} {t : MType} {f : Fill} {D : Diag} {co : Bool} {ld : Nat}
    (ht : t ≠ .general) (hmn : A.m = A.n) : ∀ i, i < A.m → ∀ e ∈ (dwp D ld i : List (Int × R)),
      ∃ i j, i < A.m ∧ j < A.n ∧
      e.1 = (denseOff co ld i j : Int) ∧ e.2 = structured t f D A.get i j := by
  intro i hi e he
  refine ⟨i, i, hi, by omega, ?_, ?_⟩
  · rw [oD]; cases D <;> simp [dwp] at he <;> rw [he]
  · cases t <;> first | exact absurd rfl ht | (cases D <;> simp [dwp] at he <;> rw [he] <;> simp [structured, diagVal])

theorem mir (co : Bool) (ld i c : Nat) : ((i : Int) * ld + c = (denseOff co ld i c : Nat) ∧
        (c : Int) * ld + i = (denseOff co ld c i : Nat)) ∨
      (co = true ∧ (i : Int) * ld + c = (denseOff co ld c i : Nat) ∧
        (c : Int) * ld + i = (denseOff co ld i c : Nat)) := by
  cases co
  · left; rw [oR, oR]; exact ⟨rfl, rfl⟩
  · right; rw [oC, oC]; exact ⟨rfl, rfl, rfl⟩

theorem strict_not {f : Fill} {i c : Nat} : strictTri f i c → ¬ strictTri f c i ∧ c ≠ i ∧ i ≠ c := by
  cases f <;> simp only [strictTri] <;> omega

theorem dense_sym (hs0 : star (0 : R) = 0) {A : Csr R} (hA : A.WF) (hn : A.NoDup) {t : MType} {f : Fill} {D : Diag}
    {co : Bool} {ld : Nat} {a a1 : List R} (Z : Zeroed A co ld a a1) (hm : Bool) (hmn : A.m = A.n)
    (hm1 : hm = true → t = .hermitian ∧ co = false) (hm0 : hm = false → t = .symmetric) :
    DenseDone A (structured t f D A.get) co ld a
      ((List.range A.m).flatMap fun i => dwp D ld i ++ (A.row i).flatMap fun e =>
        dsym f D ld hm i e.1 e.2) a1 := by
  have ht : t ≠ .general := by
    intro h; cases hm
    · have := hm0 rfl; rw [h] at this; cases this
    · have := (hm1 rfl).1; rw [h] at this; cases this
  have sv1 : ∀ i c, strictTri f i c → structured t f D A.get i c = A.get i c := by
    intro i c h
    have h2 := strict_not h
    cases hm
    · rw [hm0 rfl]; simp [structured, h, h2]
    · rw [(hm1 rfl).1]; simp [structured, h, h2]
  have sv2 : ∀ i c, strictTri f i c → structured t f D A.get c i
      = (if hm then star (A.get i c) else A.get i c) := by
    intro i c h
    have h2 := strict_not h
    cases hm
    · rw [hm0 rfl]; simp [structured, h2]
    · rw [(hm1 rfl).1]; simp [structured, h2]
  have svd : ∀ i, structured t f D A.get i i = diagVal D A.get i := by
    intro i
    cases t <;> first | exact absurd rfl ht | simp [structured]
  refine dense_key hA hn Z (dwp D ld) (dsym f D ld hm) (dwp_good ht hmn) ?_ ?_
  · intro i c v hi hc hmem hg e he
    simp only [dsym] at he
    by_cases h1 : (i : Int) = c
    · have h1' : i = c := by omega
      subst h1'
      by_cases h3 : D = .nonUnit
      · simp [h3] at he
        subst he
        exact ⟨i, i, hi, hc, by rw [oD], by rw [svd, h3]; simp [diagVal, hg]⟩
      · simp [h3] at he
    · rw [if_neg h1] at he
      by_cases h3 : dinT f i c = true
      · rw [if_pos h3] at he
        have h4 := (dinT_iff f i c).1 h3
        simp only [List.mem_cons, List.not_mem_nil, or_false] at he
        rcases mir co ld i c with ⟨m1, m2⟩ | ⟨hco, m1, m2⟩
        · rcases he with rfl | rfl
          · exact ⟨i, c, hi, hc, m1, by rw [sv1 i c h4, hg]⟩
          · exact ⟨c, i, by omega, by omega, m2, by rw [sv2 i c h4, hg]⟩
        · have hm' : hm = false := by
            cases hm
            · rfl
            · have := (hm1 rfl).2; rw [hco] at this; cases this
          subst hm'
          rcases he with rfl | rfl
          · exact ⟨c, i, by omega, by omega, m1, by rw [sv2 i c h4, hg]; simp⟩
          · exact ⟨i, c, hi, hc, m2, by rw [sv1 i c h4, hg]; simp⟩
      · rw [if_neg h3] at he; simp at he
  · intro i j hi hj
    by_cases hij : i = j
    · subst hij
      cases D with
      | nonUnit =>
        rcases Csr.get_cases (A := A) i i with ⟨v, hv, hg⟩ | ⟨hv, hg⟩
        · left
          exact ⟨i, hi, .inr ⟨i, v, hv, ((i : Int) * ld + i, v), by simp [dsym], by rw [oD]⟩⟩
        · right; rw [svd]; simp [diagVal, hg]
      | unit => left; exact ⟨i, hi, .inl ⟨((i : Int) * ld + i, 1), by simp [dwp], by rw [oD]⟩⟩
      | zero => left; exact ⟨i, hi, .inl ⟨((i : Int) * ld + i, 0), by simp [dwp], by rw [oD]⟩⟩
    · -- (r, c) is the stored mirror image
      have main : ∀ r c : Nat, r < A.m → strictTri f r c →
          (∃ v, ((c : Int), v) ∈ A.row r ∧ ((((r : Int) * ld + c, v) ∈ dsym f D ld hm r c v) ∧
            (((c : Int) * ld + r, if hm then star v else v) ∈ dsym f D ld hm r c v))) ∨
          (A.get r c = 0 ∧ ∀ v, ((c : Int), v) ∉ A.row r) := by
        intro r c _ hs
        rcases Csr.get_cases (A := A) r c with ⟨v, hv, hg⟩ | ⟨hv, hg⟩
        · left
          have h1 : ¬ (r : Int) = c := by have := strict_not hs; omega
          refine ⟨v, hv, ?_, ?_⟩ <;> simp [dsym, h1, (dinT_iff f r c).2 hs]
        · exact .inr ⟨hg, hv⟩
      have tot : strictTri f i j ∨ strictTri f j i := by
        cases f <;> simp only [strictTri] <;> omega
      have mem : ∀ r c : Nat, strictTri f r c → r < A.m → (∃ v, ((c : Int), v) ∈ A.row r ∧
          (((r : Int) * ld + c, v) ∈ dsym f D ld hm r c v) ∧
            (((c : Int) * ld + r, if hm then star v else v) ∈ dsym f D ld hm r c v)) →
          ∀ x y : Nat, (x = r ∧ y = c ∨ x = c ∧ y = r) →
          ∃ i', i' < A.m ∧ ((∃ e ∈ (dwp D ld i' : List (Int × R)), e.1 = (denseOff co ld x y : Int)) ∨
            ∃ (c : Nat) (v : R), ((c : Int), v) ∈ A.row i' ∧
            ∃ e ∈ dsym f D ld hm i' c v, e.1 = (denseOff co ld x y : Int)) := by
        rintro r c hs hr ⟨v, hv, m1, m2⟩ x y hxy
        refine ⟨r, hr, .inr ⟨c, v, hv, ?_⟩⟩
        rcases mir co ld r c with ⟨k1, k2⟩ | ⟨_, k1, k2⟩ <;>
          rcases hxy with ⟨rfl, rfl⟩ | ⟨rfl, rfl⟩
        all_goals first
          | exact ⟨_, m1, k1⟩
          | exact ⟨_, m2, k2⟩
      rcases tot with hs | hs
      · rcases main i j hi hs with h | ⟨hg, _⟩
        · left; exact mem i j hs hi h i j (.inl ⟨rfl, rfl⟩)
        · right; rw [sv1 i j hs, hg]
      · rcases main j i (by omega) hs with h | ⟨hg, _⟩
        · left; exact mem j i hs (by omega) h i j (.inr ⟨rfl, rfl⟩)
        · right; rw [sv2 j i hs, hg, hs0]; simp

theorem dense_tri {A : Csr R} (hA : A.WF) (hn : A.NoDup) {f : Fill} {D : Diag}
    {ld : Nat} {a a1 : List R} (Z : Zeroed A false ld a a1) (hmn : A.m = A.n) :
    DenseDone A (structured .triangular f D A.get) false ld a
      ((List.range A.m).flatMap fun i => dwp D ld i ++ (A.row i).flatMap fun e =>
        dtri f D ld i e.1 e.2) a1 := by
  have sv1 : ∀ i c, strictTri f i c → structured .triangular f D A.get i c = A.get i c := by
    intro i c h
    have h2 := strict_not h
    simp [structured, h, h2]
  have svd : ∀ i, structured .triangular f D A.get i i = diagVal D A.get i := by
    intro i; simp [structured]
  refine dense_key hA hn Z (dwp D ld) (dtri f D ld) (dwp_good (by simp) hmn) ?_ ?_
  · intro i c v hi hc hmem hg e he
    simp only [dtri] at he
    by_cases h1 : (i : Int) = c
    · have h1' : i = c := by omega
      subst h1'
      by_cases h3 : D = .nonUnit
      · simp [h3] at he
        subst he
        exact ⟨i, i, hi, hc, by rw [oD], by rw [svd, h3]; simp [diagVal, hg]⟩
      · simp [h3] at he
    · rw [if_neg h1] at he
      by_cases h3 : dinT f i c = true
      · rw [if_pos h3] at he
        have h4 := (dinT_iff f i c).1 h3
        simp only [List.mem_cons, List.not_mem_nil, or_false] at he
        subst he
        exact ⟨i, c, hi, hc, by rw [oR], by rw [sv1 i c h4, hg]⟩
      · rw [if_neg h3] at he; simp at he
  · intro i j hi hj
    by_cases hij : i = j
    · subst hij
      cases D with
      | nonUnit =>
        rcases Csr.get_cases (A := A) i i with ⟨v, hv, hg⟩ | ⟨hv, hg⟩
        · left
          exact ⟨i, hi, .inr ⟨i, v, hv, ((i : Int) * ld + i, v), by simp [dtri], by rw [oD]⟩⟩
        · right; rw [svd]; simp [diagVal, hg]
      | unit => left; exact ⟨i, hi, .inl ⟨((i : Int) * ld + i, 1), by simp [dwp], by rw [oD]⟩⟩
      | zero => left; exact ⟨i, hi, .inl ⟨((i : Int) * ld + i, 0), by simp [dwp], by rw [oD]⟩⟩
    · by_cases hs : strictTri f i j
      · rcases Csr.get_cases (A := A) i j with ⟨v, hv, hg⟩ | ⟨hv, hg⟩
        · left
          have h1 : ¬ (i : Int) = j := by omega
          exact ⟨i, hi, .inr ⟨j, v, hv, ((i : Int) * ld + j, v),
            by simp [dtri, h1, (dinT_iff f i j).2 hs], by rw [oR]⟩⟩
        · right; rw [sv1 i j hs, hg]
      · right; simp [structured, hij, hs]

theorem dense_gen {A : Csr R} (hA : A.WF) (hn : A.NoDup) {f : Fill} {D : Diag} {co : Bool}
    {ld : Nat} {a a1 : List R} (Z : Zeroed A co ld a a1) (o : Nat → Int → Int)
    (ho : ∀ i c : Nat, o i c = (denseOff co ld i c : Nat)) :
    DenseDone A (structured .general f D A.get) co ld a
      ((List.range A.m).flatMap fun i => [] ++ (A.row i).flatMap fun e =>
        [(o i e.1, e.2)]) a1 := by
  refine dense_key hA hn Z (fun _ => []) (fun i c v => [(o i c, v)]) (by simp) ?_ ?_
  · intro i c v hi hc hmem hg e he
    simp at he; subst he
    exact ⟨i, c, hi, hc, ho i c, by simp [structured, hg]⟩
  · intro i j hi hj
    rcases Csr.get_cases (A := A) i j with ⟨v, hv, hg⟩ | ⟨hv, hg⟩
    · left
      exact ⟨i, hi, .inr ⟨j, v, hv, (o i j, v), by simp, ho i j⟩⟩
    · right; simp [structured, hg]

theorem csr2denseCore_spec (hs0 : star (0 : R) = 0) (A : Csr R) (hA : A.WF) (hn : A.NoDup)
    (t : MType) (f : Fill) (D : Diag) (co : Bool) (ld : Nat) (a : List R)
    (hsup : co = true → t = .general ∨ t = .symmetric)
    (hsq : t ≠ .general → A.m = A.n)
    (hld : (if co then A.m else A.n) ≤ ld)
    (hlen : ∀ i j, i < A.m → j < A.n → denseOff co ld i j < a.length) :
    ∃ a', csr2denseCore A.m A.n ⟨t.code, f.code, D.code, A.base⟩ A.ptr A.ind A.val ld co a = some a' ∧
      a'.length = a.length ∧
      (∀ i j, i < A.m → j < A.n → a'[denseOff co ld i j]? = some (structured t f D A.get i j)) ∧
      (∀ k, (∀ i j, i < A.m → j < A.n → k ≠ denseOff co ld i j) → a'[k]? = a[k]?) := by
  cases co
  · obtain ⟨a1, z1, z2, z3, z4⟩ := zero_window (m := A.m) (n := A.n) (off := denseOff false ld)
      (a0 := a) hlen
    have Z : Zeroed A false ld a a1 := ⟨hld, hlen, z2, z3, z4⟩
    simp only [csr2denseCore, Bool.false_eq_true, if_false, zeroRow_eq, z1, Option.bind_eq_bind,
      Option.bind_some]
    cases t
    · simp only [MType.code, if_true]
      rw [denseLoop_eq hA _ _ (fun _ => []) (fun i c v => [((i : Int) * ld + c, v)])
        (by intros; rfl) (by intros; rw [foldlM_one])]
      exact dense_gen hA hn Z (fun i c => (i : Int) * ld + c) (fun i c => (oR ld i c).symm)
    · simp only [MType.code]
      rw [if_neg (by decide), if_pos (by decide),
        denseLoop_eq hA _ _ (dwp D ld) (dsym f D ld false) (by intro i a _; exact denseDiag_eq D ld i a)
          (by intro i c v a _; exact denseSymRow_eq f D ld false i c v a)]
      exact dense_sym hs0 hA hn Z false (hsq (by simp)) (by simp) (by simp)
    · simp only [MType.code]
      rw [if_neg (by decide), if_pos (by decide),
        denseLoop_eq hA _ _ (dwp D ld) (dsym f D ld true) (by intro i a _; exact denseDiag_eq D ld i a)
          (by intro i c v a _; exact denseSymRow_eq f D ld true i c v a)]
      exact dense_sym hs0 hA hn Z true (hsq (by simp)) (by simp) (by simp)
    · simp only [MType.code]
      rw [if_neg (by decide), if_neg (by decide), if_pos (by decide),
        denseLoop_eq hA _ _ (dwp D ld) (dtri f D ld) (by intro i a _; exact denseDiag_eq D ld i a)
          (by intro i c v a _; exact denseTriRow_eq f D ld i c v a)]
      exact dense_tri hA hn Z (hsq (by simp))
  · obtain ⟨a1, z1, z2, z3, z4⟩ := zero_window (m := A.n) (n := A.m)
        (off := fun j i => denseOff true ld i j) (a0 := a) (fun i j hi hj => hlen j i hj hi)
    have Z : Zeroed A true ld a a1 := ⟨hld, hlen, z2, fun i j hi hj => z3 j i hj hi,
      fun k hk => z4 k (fun i j hi hj => hk j i hj hi)⟩
    simp only [csr2denseCore, if_true, zeroCol_eq, z1, Option.bind_eq_bind, Option.bind_some]
    rcases hsup rfl with rfl | rfl
    · simp only [MType.code, if_true]
      rw [denseLoop_eq hA _ _ (fun _ => []) (fun i c v => [(c * (ld : Int) + i, v)])
        (by intros; rfl) (by intros; rw [foldlM_one])]
      exact dense_gen hA hn Z (fun i c => c * (ld : Int) + i) (fun i c => (oC ld i c).symm)
    · simp only [MType.code]
      rw [if_neg (by decide), if_pos trivial,
        denseLoop_eq hA _ _ (dwp D ld) (dsym f D ld false) (by intro i a _; exact denseDiag_eq D ld i a)
          (by intro i c v a _; exact denseSymCol_eq f D ld i c v a)]
      exact dense_sym hs0 hA hn Z false (hsq (by simp)) (by simp) (by simp)

end Verif
