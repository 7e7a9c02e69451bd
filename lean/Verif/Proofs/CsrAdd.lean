import Verif.Core.Win
import Verif.Model.CsrAdd
import Verif.Proofs.CsrmvSym
import Verif.Proofs.Loop
import Verif.Spec.MatCheck

namespace Verif
open Model

variable {R : Type}

def Csr.arrs (A : Csr R) : Arrs R := ⟨A.base, A.ptr, A.ind, A.val⟩

theorem colSum_cons [AddMonoid R] (a : Int × R) (L : List (Int × R)) (j : Nat) :
    colSum (a :: L) j = (if a.1 = (j : Int) then a.2 else 0) + colSum L j := by
  by_cases h : a.1 = (j : Int) <;> simp [colSum, h]

theorem colSum_set [AddCommMonoid R] (L : List (Int × R)) {t : Nat} (ht : t < L.length) (v : R)
    (j : Nat) : colSum (L.set t (L[t].1, L[t].2 + v)) j
      = colSum L j + if L[t].1 = (j : Int) then v else 0 := by
  induction L generalizing t with
  | nil => simp at ht
  | cons a L ih =>
    cases t with
    | zero =>
      simp only [List.set_cons_zero, List.getElem_cons_zero, colSum_cons]
      split
      · rw [add_assoc, add_assoc, add_comm v]
      · simp
    | succ t =>
      simp only [List.set_cons_succ, List.getElem_cons_succ, colSum_cons]
      rw [ih (by simpa using ht), add_assoc]

theorem colSum_single [AddMonoid R] (c : Int) (v : R) (j : Nat) :
    colSum [(c, v)] j = if c = (j : Int) then v else 0 := by
  by_cases h : c = (j : Int) <;> simp [colSum, h]

theorem colSum_map [Semiring R] (cj : R →+* R) (alpha : R) (L : List (Int × R)) (j : Nat) :
    colSum (L.map fun e => (e.1, alpha * cj e.2)) j = alpha * cj (colSum L j) := by
  induction L with
  | nil => simp [colSum]
  | cons a L ih =>
    rw [List.map_cons, ← List.singleton_append, colSum_append, ih, ← List.singleton_append (l := L),
      colSum_append, colSum_single, map_add, mul_add]
    congr 1
    rw [show a = (a.1, a.2) from rfl, colSum_single]
    split <;> simp

/-! ### one row -/

/-- the new columns of B -/
def newB (A B : Csr R) (i : Nat) : List (Int × R) :=
  (B.row i).filter fun e => decide (e.1 ∉ A.cols i)

def addLen (A B : Csr R) (i : Nat) : Nat := (A.row i).length + (newB A B i).length

/-- what row `i` of the sum has to be -/
structure AddRowOk [Semiring R] (cj : R →+* R) (alpha : R) (A B : Csr R) (i : Nat)
    (L : List (Int × R)) : Prop where
  cols : L.map (·.1) = A.cols i ++ (newB A B i).map (·.1)
  sum : ∀ j : Nat, colSum L j = alpha * cj (A.mat i j) + B.mat i j

theorem AddRowOk.length [Semiring R] {cj : R →+* R} {alpha : R} {A B : Csr R} {i : Nat}
    {L : List (Int × R)} (h : AddRowOk cj alpha A B i L) : L.length = addLen A B i := by
  have := congrArg List.length h.cols
  simpa [addLen, Csr.cols] using this

/-- the locals before row `i` -/
def LocOk (n i : Nat) (l : AddLoc) : Prop :=
  (∃ f, Rep l.nnz (n + 1) f ∧ ∀ k, k < n + 1 → f k < (i : Int)) ∧ ∃ g, Rep l.colRec (n + 1) g

/-- state inside row `i`: `L` are the entries written so far -/
structure AddInv (A : Csr R) (i s len : Nat) (st0 : AddSt R) (L : List (Int × R)) (K : Nat)
    (st : AddSt R) : Prop where
  marks : ∃ f, Rep st.loc.nnz (A.n + 1) f ∧ ∀ k, k < A.n + 1 → f k ≤ (i : Int) ∧
    (f k = (i : Int) ↔ (k : Int) - A.base ∈ L.map (·.1))
  recs : ∃ g, Rep st.loc.colRec (A.n + 1) g ∧ ∀ k, k < A.n + 1 →
    (k : Int) - A.base ∈ (L.take K).map (·.1) →
      ∃ t, ∃ ht : t < L.length, g k = ((s + t : Nat) : Int) ∧ L[t].1 = (k : Int) - A.base
  idx : st.loc.idx = ((s + L.length : Nat) : Int)
  li : st.ind.length = st0.ind.length
  lv : st.val.length = st0.val.length
  wi : Win st.ind s (L.map fun e => e.1 + A.base)
  wv : Win st.val s (L.map (·.2))
  fi : ∀ q, q < s ∨ s + len ≤ q → st.ind[q]? = st0.ind[q]?
  fv : ∀ q, q < s ∨ s + len ≤ q → st.val[q]? = st0.val[q]?

variable [Semiring R]

/-- an entry of A -/
theorem addStepA_ok (cj : R → R) (alpha : R) {A : Csr R} {i s len : Nat} {st0 st : AddSt R}
    {L : List (Int × R)} (hb : A.base = 0 ∨ A.base = 1)
    (h : AddInv A i s len st0 L L.length st) (hlen : L.length < len)
    (hi : s + len ≤ st0.ind.length) (hv : s + len ≤ st0.val.length) {c : Int} (v : R)
    (hc : 0 ≤ c ∧ c < A.n) :
    ∃ st', addStepA cj alpha (i : Int) (c + A.base) v st = some st' ∧
      AddInv A i s len st0 (L ++ [(c, alpha * cj v)]) (L.length + 1) st' := by
  obtain ⟨f, hf, hf2⟩ := h.marks
  obtain ⟨g, hg, hg2⟩ := h.recs
  obtain ⟨k, hk⟩ : ∃ k : Nat, c + A.base = (k : Int) := ⟨(c + A.base).toNat, by omega⟩
  have hkn : k < A.n + 1 := by omega
  obtain ⟨nnz', e1, r1⟩ := hf.wr_nat (i : Int) hkn
  obtain ⟨rec', e2, r2⟩ := hg.wr_nat st.loc.idx hkn
  obtain ⟨ind', e3, l3, w3, f3⟩ := h.wi.snoc (c + A.base) (k := st.loc.idx)
    (by rw [h.idx, List.length_map]) (by rw [List.length_map, h.li]; omega)
  obtain ⟨val', e4, l4, w4, f4⟩ := h.wv.snoc (alpha * cj v) (k := st.loc.idx)
    (by rw [h.idx, List.length_map]) (by rw [List.length_map, h.lv]; omega)
  rw [List.length_map] at f3 f4
  refine ⟨⟨⟨nnz', rec', st.loc.idx + 1⟩, ind', val'⟩, ?_, ?_⟩
  · unfold addStepA
    rw [e3, hk, e1, e2, e4]
    rfl
  · refine ⟨⟨_, r1, ?_⟩, ⟨_, r2, ?_⟩, ?_, l3.trans h.li, l4.trans h.lv, ?_, ?_, ?_, ?_⟩
    · intro k' hk'
      by_cases e : k' = k
      · subst e
        rw [Function.update_self]
        refine ⟨le_refl _, fun _ => ?_, fun _ => rfl⟩
        simp; right; omega
      · rw [Function.update_of_ne e]
        refine ⟨(hf2 k' hk').1, ?_⟩
        rw [(hf2 k' hk').2]
        simp only [List.map_append, List.map_cons, List.map_nil, List.mem_append,
          List.mem_singleton]
        constructor
        · exact Or.inl
        · rintro (h | h)
          · exact h
          · exfalso; apply e; omega
    · intro k' hk' hm
      by_cases e : k' = k
      · subst e
        rw [Function.update_self]
        refine ⟨L.length, by simp, h.idx, ?_⟩
        simp; omega
      · rw [Function.update_of_ne e]
        rw [List.take_of_length_le (by simp)] at hm
        simp only [List.map_append, List.map_cons, List.map_nil, List.mem_append,
          List.mem_singleton] at hm
        obtain ⟨t, ht, h1, h2⟩ := hg2 k' hk' (by
          rw [List.take_length]
          rcases hm with h | h
          · exact h
          · exfalso; apply e; omega)
        exact ⟨t, by simp; omega, h1, by rw [List.getElem_append_left ht]; exact h2⟩
    · simp only [h.idx, List.length_append, List.length_singleton]; push_cast; omega
    · simpa using w3
    · simpa using w4
    · intro q hq; rw [f3 q (by omega), h.fi q hq]
    · intro q hq; rw [f4 q (by omega), h.fv q hq]

/-- an entry of B whose column is new -/
theorem addStepB_new {A : Csr R} {i s len K : Nat} {st0 st : AddSt R}
    {L : List (Int × R)} (hb : A.base = 0 ∨ A.base = 1)
    (h : AddInv A i s len st0 L K st) (hlen : L.length < len) (hK : K ≤ L.length)
    (hi : s + len ≤ st0.ind.length) (hv : s + len ≤ st0.val.length) {c : Int} (v : R)
    (hc : 0 ≤ c ∧ c < A.n) (hn : c ∉ L.map (·.1)) :
    ∃ st', addStepB (i : Int) (c + A.base) v st = some st' ∧
      AddInv A i s len st0 (L ++ [(c, v)]) K st' := by
  obtain ⟨f, hf, hf2⟩ := h.marks
  obtain ⟨g, hg, hg2⟩ := h.recs
  obtain ⟨k, hk⟩ : ∃ k : Nat, c + A.base = (k : Int) := ⟨(c + A.base).toNat, by omega⟩
  have hkn : k < A.n + 1 := by omega
  have hck : (k : Int) - A.base = c := by omega
  obtain ⟨nnz', e1, r1⟩ := hf.wr_nat (i : Int) hkn
  obtain ⟨ind', e3, l3, w3, f3⟩ := h.wi.snoc (c + A.base) (k := st.loc.idx)
    (by rw [h.idx, List.length_map]) (by rw [List.length_map, h.li]; omega)
  obtain ⟨val', e4, l4, w4, f4⟩ := h.wv.snoc v (k := st.loc.idx)
    (by rw [h.idx, List.length_map]) (by rw [List.length_map, h.lv]; omega)
  rw [List.length_map] at f3 f4
  have hne : f k ≠ (i : Int) := by
    intro e
    exact hn (hck ▸ ((hf2 k hkn).2.mp e))
  refine ⟨⟨⟨nnz', st.loc.colRec, st.loc.idx + 1⟩, ind', val'⟩, ?_, ?_⟩
  · unfold addStepB
    rw [e3, hk, hf.rd_nat hkn]
    simp only [Option.bind_eq_bind, Option.bind_some]
    rw [if_pos hne, e4, e1]
    rfl
  · refine ⟨⟨_, r1, ?_⟩, ⟨_, hg, ?_⟩, ?_, l3.trans h.li, l4.trans h.lv, ?_, ?_, ?_, ?_⟩
    · intro k' hk'
      by_cases e : k' = k
      · subst e
        rw [Function.update_self]
        refine ⟨le_refl _, fun _ => ?_, fun _ => rfl⟩
        simp; right; omega
      · rw [Function.update_of_ne e]
        refine ⟨(hf2 k' hk').1, ?_⟩
        rw [(hf2 k' hk').2]
        simp only [List.map_append, List.map_cons, List.map_nil, List.mem_append,
          List.mem_singleton]
        constructor
        · exact Or.inl
        · rintro (h | h)
          · exact h
          · exfalso; apply e; omega
    · intro k' hk' hm
      rw [List.take_append_of_le_length hK] at hm
      obtain ⟨t, ht, h1, h2⟩ := hg2 k' hk' hm
      exact ⟨t, by simp; omega, h1, by rw [List.getElem_append_left ht]; exact h2⟩
    · simp only [h.idx, List.length_append, List.length_singleton]; push_cast; omega
    · simpa using w3
    · simpa using w4
    · intro q hq; rw [f3 q (by omega), h.fi q hq]
    · intro q hq; rw [f4 q (by omega), h.fv q hq]

theorem map_fst_set (L : List (Int × R)) {t : Nat} (ht : t < L.length) (v : R) :
    (L.set t (L[t].1, v)).map (·.1) = L.map (·.1) := by
  rw [List.map_set]
  apply List.ext_getElem?
  intro k
  by_cases e : k = t
  · subst e; simp [ht]
  · rw [List.getElem?_set_ne (by omega)]

/-- an entry of B whose column is one of A's -/
theorem addStepB_old {A : Csr R} {i s len K : Nat} {st0 st : AddSt R}
    {L : List (Int × R)} (hb : A.base = 0 ∨ A.base = 1)
    (h : AddInv A i s len st0 L K st) (hlen : L.length ≤ len)
    (hv : s + len ≤ st0.val.length) {c : Int} (v : R)
    (hc : 0 ≤ c ∧ c < A.n) (hn : c ∈ (L.take K).map (·.1)) :
    ∃ st' t, ∃ ht : t < L.length, L[t].1 = c ∧ addStepB (i : Int) (c + A.base) v st = some st' ∧
      AddInv A i s len st0 (L.set t (L[t].1, L[t].2 + v)) K st' := by
  obtain ⟨f, hf, hf2⟩ := h.marks
  obtain ⟨g, hg, hg2⟩ := h.recs
  obtain ⟨k, hk⟩ : ∃ k : Nat, c + A.base = (k : Int) := ⟨(c + A.base).toNat, by omega⟩
  have hkn : k < A.n + 1 := by omega
  have hck : (k : Int) - A.base = c := by omega
  have hn' : c ∈ L.map (·.1) := by
    rw [List.mem_map] at hn ⊢
    obtain ⟨e, he, rfl⟩ := hn
    exact ⟨e, List.mem_of_mem_take he, rfl⟩
  have heq : f k = (i : Int) := (hf2 k hkn).2.mpr (by rw [hck]; exact hn')
  obtain ⟨t, ht, h1, h2⟩ := hg2 k hkn (by rw [hck]; exact hn)
  have htm : t < (L.map (·.2)).length := by simpa using ht
  have hr := h.wv.rd htm rfl
  obtain ⟨val', e4, l4, w4, f4⟩ := h.wv.set (L[t].2 + v) htm rfl
    (by rw [List.length_map, h.lv]; omega)
  rw [List.getElem_map] at hr
  refine ⟨⟨st.loc, st.ind, val'⟩, t, ht, by rw [h2, hck], ?_, ?_⟩
  · unfold addStepB
    rw [hk, hf.rd_nat hkn]
    simp only [Option.bind_eq_bind, Option.bind_some]
    rw [if_neg (by simp [heq]), hg.rd_nat hkn, Option.bind_some, h1, hr, Option.bind_some, e4]
    rfl
  · have hm := map_fst_set L ht (L[t].2 + v)
    have hmt : ((L.set t (L[t].1, L[t].2 + v)).take K).map (·.1) = (L.take K).map (·.1) := by
      rw [List.map_take, hm, List.map_take]
    refine ⟨⟨f, hf, ?_⟩, ⟨g, hg, ?_⟩, ?_, h.li, l4.trans h.lv, ?_, ?_, h.fi, ?_⟩
    · intro k' hk'
      rw [hm]; exact hf2 k' hk'
    · intro k' hk' hmem
      rw [hmt] at hmem
      obtain ⟨t', ht', q1, q2⟩ := hg2 k' hk' hmem
      refine ⟨t', by simpa using ht', q1, ?_⟩
      by_cases e : t' = t
      · subst e; simp [q2]
      · rw [List.getElem_set_ne (by omega)]; exact q2
    · rw [List.length_set]; exact h.idx
    · have : (L.set t (L[t].1, L[t].2 + v)).map (fun e => e.1 + A.base)
          = L.map (fun e => e.1 + A.base) := by
        have := congrArg (List.map (· + A.base)) hm
        simpa [List.map_map, Function.comp_def] using this
      rw [this]; exact h.wi
    · rw [List.map_set]; exact w4
    · intro q hq
      rw [f4 q (by omega), h.fv q hq]

/-- The two loops over one row. -/
theorem addMerge_ok (cj : R →+* R) (alpha : R) {A B : Csr R} (hA : A.WF) (hB : B.WF)
    (hm : B.m = A.m) (hn : B.n = A.n) {i : Nat} (hi : i < A.m)
    (hnd : ((B.row i).map (·.1)).Nodup) {s : Nat} {st : AddSt R} (hl : LocOk A.n i st.loc)
    (hidx : st.loc.idx = (s : Int)) (hci : s + addLen A B i ≤ st.ind.length)
    (hcv : s + addLen A B i ≤ st.val.length) :
    ∃ st' L, addMerge cj alpha A.arrs B.arrs (i : Int) st = some st' ∧
      AddRowOk cj alpha A B i L ∧ AddInv A i s (addLen A B i) st L (A.row i).length st' := by
  have hp1 := hA.rd_ptr (i := i) (by omega)
  have hp2 := hA.rd_ptr (i := i + 1) (by omega)
  have hq1 := hB.rd_ptr (i := i) (by omega)
  have hq2 := hB.rd_ptr (i := i + 1) (by omega)
  rw [show ((i + 1 : Nat) : Int) = (i : Int) + 1 by omega] at hp2 hq2
  obtain ⟨⟨f, hf, hf2⟩, g, hg⟩ := hl
  -- A
  have l1 := Csr.forC_row' hA hi (F := fun j s => do
      let col ← rd A.ind j
      let v ← rd A.val j
      addStepA cj alpha (i : Int) col v s)
    (G := fun c v s => addStepA cj alpha (i : Int) (c + A.base) v s)
    (by intro j c v s h1 h2 _; simp [h1, h2]) st
  obtain ⟨s1, e1, h1⟩ := foldlM_inv (f := fun s (e : Int × R) =>
      addStepA cj alpha (i : Int) (e.1 + A.base) e.2 s) (l := A.row i) (s := st)
    (fun pre st' => AddInv A i s (addLen A B i) st (pre.map fun e => (e.1, alpha * cj e.2))
      pre.length st')
    (by
      refine ⟨⟨f, hf, ?_⟩, ⟨g, hg, ?_⟩, by simpa using hidx, rfl, rfl, Win.nil, Win.nil,
        fun _ _ => rfl, fun _ _ => rfl⟩
      · intro k hk
        have := hf2 k hk
        refine ⟨by omega, fun h => absurd h (by omega), fun h => by simp at h⟩
      · intro k hk h; simp at h)
    (by
      intro pre e suf s' hl hP
      have hmem : e ∈ A.row i := by rw [hl]; simp
      have hlen : (A.row i).length = pre.length + (suf.length + 1) := by rw [hl]; simp
      have hP' : AddInv A i s (addLen A B i) st (pre.map fun e => (e.1, alpha * cj e.2))
          (pre.map fun e => (e.1, alpha * cj e.2)).length s' := by simpa using hP
      obtain ⟨st', q1, q2⟩ := addStepA_ok cj alpha hA.base01 hP'
        (by simp [addLen]; omega) hci hcv e.2 (Csr.row_range hA hmem)
      refine ⟨st', q1, ?_⟩
      simpa using q2)
  -- B
  have l2 := Csr.forC_row' hB (by omega : i < B.m) (F := fun j s => do
      let col ← rd B.ind j
      let v ← rd B.val j
      addStepB (i : Int) (col - B.base + A.base) v s)
    (G := fun c v s => addStepB (i : Int) (c + A.base) v s)
    (by intro j c v s h1 h2 _; simp [h1, h2]) s1
  have hcols : (A.row i).map (fun x => x.1) = A.cols i := rfl
  obtain ⟨s2, e2, L, h2, h3, h4⟩ := foldlM_inv (f := fun s (e : Int × R) =>
      addStepB (i : Int) (e.1 + A.base) e.2 s) (l := B.row i) (s := s1)
    (fun pre st' => ∃ L, AddInv A i s (addLen A B i) st L (A.row i).length st' ∧
      L.map (·.1) = A.cols i ++ (pre.filter fun e => decide (e.1 ∉ A.cols i)).map (·.1) ∧
      ∀ j : Nat, colSum L j = alpha * cj (A.mat i j) + colSum pre j)
    (by
      refine ⟨_, h1, ?_, ?_⟩
      · simp [Csr.cols]
      · intro j
        rw [colSum_map, mat_eq_colSum]
        simp [colSum])
    (by
      rintro pre e suf s' hl ⟨L, hP, hc, hs⟩
      have hmem : e ∈ B.row i := by rw [hl]; simp
      have hrange := Csr.row_range hB hmem
      rw [hn] at hrange
      have hL : L.length = (A.row i).length
          + (pre.filter fun e => decide (e.1 ∉ A.cols i)).length := by
        have := congrArg List.length hc
        simpa [Csr.cols] using this
      have hnew : (newB A B i).length = (pre.filter fun e => decide (e.1 ∉ A.cols i)).length
          + ((e :: suf).filter fun e => decide (e.1 ∉ A.cols i)).length := by
        rw [newB, hl, List.filter_append, List.length_append]
      by_cases hin : e.1 ∈ A.cols i
      · have htake : (L.take (A.row i).length).map (·.1) = A.cols i := by
          rw [List.map_take, hc, List.take_left' (by simp [Csr.cols])]
        obtain ⟨st', t, ht, q1, q2, q3⟩ := addStepB_old hA.base01 hP
          (by rw [addLen, hL, hnew]; omega) hcv e.2 hrange (by rw [htake]; exact hin)
        refine ⟨st', q2, _, q3, ?_, ?_⟩
        · rw [map_fst_set L ht, hc, List.filter_append]
          simp [hin]
        · intro j
          rw [colSum_set L ht, hs j, colSum_append, add_assoc, q1]
          congr 2
          rw [show e = (e.1, e.2) from rfl, colSum_single]
      · have hfe : ((e :: suf).filter fun e => decide (e.1 ∉ A.cols i)).length
            = (suf.filter fun e => decide (e.1 ∉ A.cols i)).length + 1 := by
          rw [List.filter_cons_of_pos (by simpa using hin)]; rfl
        have hnot : e.1 ∉ L.map (·.1) := by
          rw [hc, List.mem_append]
          rintro (h | h)
          · exact hin h
          · rw [List.mem_map] at h
            obtain ⟨e', he', h⟩ := h
            have hp := List.mem_of_mem_filter he'
            rw [hl, List.map_append, List.map_cons, List.nodup_append] at hnd
            exact hnd.2.2 _ (List.mem_map_of_mem (f := fun x => x.1) hp) e.1 (by simp) h
        obtain ⟨st', q1, q2⟩ := addStepB_new hA.base01 hP
          (by rw [addLen, hL, hnew, hfe]; omega) (by rw [hL]; omega) hci hcv e.2 hrange hnot
        refine ⟨st', q1, _, q2, ?_, ?_⟩
        · rw [List.map_append, hc, List.filter_append, List.map_append, List.append_assoc,
            List.filter_cons_of_pos (by simpa using hin)]
          rfl
        · intro j
          rw [colSum_append, hs j, colSum_append, add_assoc])
  refine ⟨s2, L, ?_, ⟨h3, fun j => by rw [h4 j, mat_eq_colSum B]⟩, h2⟩
  unfold addMerge
  simp only [Csr.arrs, hp1, hp2, hq1, hq2, Option.bind_eq_bind, Option.bind_some]
  simp only [Option.bind_eq_bind] at l1 l2
  rw [l1, e1, Option.bind_some, l2, e2]

end Verif
