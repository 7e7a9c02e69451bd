import Verif.Proofs.CsrAdd2

/-!
The exact contents of a row of a sparse sum, for any arithmetic.
-/

namespace Verif
open Model

variable {R : Type}

/-- the last position of `c` -/
def lastIdx (c : Int) : List Int → Nat
  | [] => 0
  | _ :: l => if c ∈ l then lastIdx c l + 1 else 0

theorem lastIdx_lt {c : Int} {l : List Int} (h : c ∈ l) : lastIdx c l < l.length := by
  induction l with
  | nil => simp at h
  | cons a l ih =>
    unfold lastIdx
    split
    · rename_i h'
      have := ih h'
      simp only [List.length_cons]; omega
    · simp

theorem lastIdx_get {c : Int} {l : List Int} (h : c ∈ l) : l[lastIdx c l]? = some c := by
  induction l with
  | nil => simp at h
  | cons a l ih =>
    unfold lastIdx
    split
    · rename_i h'
      simpa using ih h'
    · rename_i h'
      have : c = a := (List.mem_cons.1 h).resolve_right h'
      simp [this]

theorem lastIdx_snoc_self (c : Int) (l : List Int) : lastIdx c (l ++ [c]) = l.length := by
  induction l with
  | nil => simp [lastIdx]
  | cons a l ih =>
    rw [List.cons_append, lastIdx, if_pos (by simp), ih, List.length_cons]

theorem lastIdx_snoc_ne {c d : Int} {l : List Int} (h : c ≠ d) : lastIdx c (l ++ [d]) = lastIdx c l := by
  induction l with
  | nil => simp [lastIdx, h]
  | cons a l ih =>
    rw [List.cons_append, lastIdx, lastIdx, ih]
    simp [h]

/-- state inside row `i`: `L` are the entries written so far, the first `K` are those of A -/
structure AddInvX (A : Csr R) (i s len : Nat) (st0 : AddSt R) (L : List (Int × R)) (K : Nat)
    (st : AddSt R) : Prop where
  marks : ∃ f, Rep st.loc.nnz (A.n + 1) f ∧ ∀ k, k < A.n + 1 → f k ≤ (i : Int) ∧
    (f k = (i : Int) ↔ (k : Int) - A.base ∈ L.map (·.1))
  recs : ∃ g, Rep st.loc.colRec (A.n + 1) g ∧ ∀ k, k < A.n + 1 →
    (k : Int) - A.base ∈ (L.take K).map (·.1) →
      g k = ((s + lastIdx ((k : Int) - A.base) ((L.take K).map (·.1)) : Nat) : Int)
  idx : st.loc.idx = ((s + L.length : Nat) : Int)
  li : st.ind.length = st0.ind.length
  lv : st.val.length = st0.val.length
  wi : Win st.ind s (L.map fun e => e.1 + A.base)
  wv : Win st.val s (L.map (·.2))
  fi : ∀ q, q < s ∨ s + len ≤ q → st.ind[q]? = st0.ind[q]?
  fv : ∀ q, q < s ∨ s + len ≤ q → st.val[q]? = st0.val[q]?

theorem map_fst_setX (L : List (Int × R)) {t : Nat} (ht : t < L.length) (v : R) :
    (L.set t (L[t].1, v)).map (·.1) = L.map (·.1) := by
  rw [List.map_set]
  apply List.ext_getElem?
  intro k
  by_cases e : k = t
  · subst e; simp [ht]
  · rw [List.getElem?_set_ne (by omega)]

variable [Zero R] [Add R] [Mul R]

/-- an entry of A -/
theorem addStepA_okX (cj : R → R) (alpha : R) {A : Csr R} {i s len : Nat} {st0 st : AddSt R}
    {L : List (Int × R)} (hb : A.base = 0 ∨ A.base = 1)
    (h : AddInvX A i s len st0 L L.length st) (hlen : L.length < len)
    (hi : s + len ≤ st0.ind.length) (hv : s + len ≤ st0.val.length) {c : Int} (v : R)
    (hc : 0 ≤ c ∧ c < A.n) :
    ∃ st', addStepA cj alpha (i : Int) (c + A.base) v st = some st' ∧
      AddInvX A i s len st0 (L ++ [(c, alpha * cj v)]) (L.length + 1) st' := by
  obtain ⟨f, hf, hf2⟩ := h.marks
  obtain ⟨g, hg, hg2⟩ := h.recs
  obtain ⟨k, hk⟩ : ∃ k : Nat, c + A.base = (k : Int) := ⟨(c + A.base).toNat, by omega⟩
  have hkn : k < A.n + 1 := by omega
  obtain ⟨nnz', e1, r1⟩ := hf.wr_nat (i : Int) hkn
  obtain ⟨rec', e2, r2⟩ := hg.wr_nat st.loc.idx hkn
  obtain ⟨ind', e3, l3, w3, f3⟩ := h.wi.snoc (c + A.base) (k := st.loc.idx)
    (by rw [h.idx, List.length_map]) (by rw [List.length_map, h.li]; omega)
  obtain ⟨val', e4, l4, w4, f4⟩ := h.wv.snoc (alpha * cj v) (k := st.loc.idx)
    (by rw [h.idx, List.length_map]) (by rw [List.length_map, h.lv]; omega)
  rw [List.length_map] at f3 f4
  refine ⟨⟨⟨nnz', rec', st.loc.idx + 1⟩, ind', val'⟩, ?_, ?_⟩
  · unfold addStepA
    rw [e3, hk, e1, e2, e4]
    rfl
  · refine ⟨⟨_, r1, ?_⟩, ⟨_, r2, ?_⟩, ?_, l3.trans h.li, l4.trans h.lv, ?_, ?_, ?_, ?_⟩
    · intro k' hk'
      by_cases e : k' = k
      · subst e
        rw [Function.update_self]
        refine ⟨le_refl _, fun _ => ?_, fun _ => rfl⟩
        simp; right; omega
      · rw [Function.update_of_ne e]
        refine ⟨(hf2 k' hk').1, ?_⟩
        rw [(hf2 k' hk').2]
        simp only [List.map_append, List.map_cons, List.map_nil, List.mem_append,
          List.mem_singleton]
        constructor
        · exact Or.inl
        · rintro (h | h)
          · exact h
          · exfalso; apply e; omega
    · intro k' hk' hm
      by_cases e : k' = k
      · subst e
        rw [Function.update_self]
        rw [List.take_of_length_le (by simp), List.map_append, List.map_cons, List.map_nil,
          show (k' : Int) - A.base = c by omega, lastIdx_snoc_self, List.length_map]
        exact h.idx
      · rw [Function.update_of_ne e]
        rw [List.take_of_length_le (by simp)] at hm ⊢
        simp only [List.map_append, List.map_cons, List.map_nil, List.mem_append,
          List.mem_singleton] at hm
        have hne : (k' : Int) - A.base ≠ c := by omega
        have := hg2 k' hk' (by
          rw [List.take_length]
          exact hm.resolve_right hne)
        rw [List.take_length] at this
        rw [this, List.map_append, List.map_cons, List.map_nil, lastIdx_snoc_ne hne]
    · simp only [h.idx, List.length_append, List.length_singleton]; push_cast; omega
    · simpa using w3
    · simpa using w4
    · intro q hq; rw [f3 q (by omega), h.fi q hq]
    · intro q hq; rw [f4 q (by omega), h.fv q hq]
/-- an entry of B whose column is new -/
theorem addStepB_newX {A : Csr R} {i s len K : Nat} {st0 st : AddSt R}
    {L : List (Int × R)} (hb : A.base = 0 ∨ A.base = 1)
    (h : AddInvX A i s len st0 L K st) (hlen : L.length < len) (hK : K ≤ L.length)
    (hi : s + len ≤ st0.ind.length) (hv : s + len ≤ st0.val.length) {c : Int} (v : R)
    (hc : 0 ≤ c ∧ c < A.n) (hn : c ∉ L.map (·.1)) :
    ∃ st', addStepB (i : Int) (c + A.base) v st = some st' ∧
      AddInvX A i s len st0 (L ++ [(c, v)]) K st' := by
  obtain ⟨f, hf, hf2⟩ := h.marks
  obtain ⟨g, hg, hg2⟩ := h.recs
  obtain ⟨k, hk⟩ : ∃ k : Nat, c + A.base = (k : Int) := ⟨(c + A.base).toNat, by omega⟩
  have hkn : k < A.n + 1 := by omega
  have hck : (k : Int) - A.base = c := by omega
  obtain ⟨nnz', e1, r1⟩ := hf.wr_nat (i : Int) hkn
  obtain ⟨ind', e3, l3, w3, f3⟩ := h.wi.snoc (c + A.base) (k := st.loc.idx)
    (by rw [h.idx, List.length_map]) (by rw [List.length_map, h.li]; omega)
  obtain ⟨val', e4, l4, w4, f4⟩ := h.wv.snoc v (k := st.loc.idx)
    (by rw [h.idx, List.length_map]) (by rw [List.length_map, h.lv]; omega)
  rw [List.length_map] at f3 f4
  have hne : f k ≠ (i : Int) := by
    intro e
    exact hn (hck ▸ ((hf2 k hkn).2.mp e))
  refine ⟨⟨⟨nnz', st.loc.colRec, st.loc.idx + 1⟩, ind', val'⟩, ?_, ?_⟩
  · unfold addStepB
    rw [e3, hk, hf.rd_nat hkn]
    simp only [Option.bind_eq_bind, Option.bind_some]
    rw [if_pos hne, e4, e1]
    rfl
  · refine ⟨⟨_, r1, ?_⟩, ⟨_, hg, ?_⟩, ?_, l3.trans h.li, l4.trans h.lv, ?_, ?_, ?_, ?_⟩
    · intro k' hk'
      by_cases e : k' = k
      · subst e
        rw [Function.update_self]
        refine ⟨le_refl _, fun _ => ?_, fun _ => rfl⟩
        simp; right; omega
      · rw [Function.update_of_ne e]
        refine ⟨(hf2 k' hk').1, ?_⟩
        rw [(hf2 k' hk').2]
        simp only [List.map_append, List.map_cons, List.map_nil, List.mem_append,
          List.mem_singleton]
        constructor
        · exact Or.inl
        · rintro (h | h)
          · exact h
          · exfalso; apply e; omega
    · intro k' hk' hm
      rw [List.take_append_of_le_length hK] at hm ⊢
      exact hg2 k' hk' hm
    · simp only [h.idx, List.length_append, List.length_singleton]; push_cast; omega
    · simpa using w3
    · simpa using w4
    · intro q hq; rw [f3 q (by omega), h.fi q hq]
    · intro q hq; rw [f4 q (by omega), h.fv q hq]
/-- an entry of B whose column is one of A's -/
theorem addStepB_oldX {A : Csr R} {i s len K : Nat} {st0 st : AddSt R}
    {L : List (Int × R)} (hb : A.base = 0 ∨ A.base = 1)
    (h : AddInvX A i s len st0 L K st) (hlen : L.length ≤ len)
    (hv : s + len ≤ st0.val.length) {c : Int} (v : R)
    (hc : 0 ≤ c ∧ c < A.n) (hn : c ∈ (L.take K).map (·.1)) :
    ∃ st' t, ∃ ht : t < L.length, t = lastIdx c ((L.take K).map (·.1)) ∧
      rd st.loc.colRec (c + A.base) = some ((s + t : Nat) : Int) ∧
      addStepB (i : Int) (c + A.base) v st = some st' ∧
      AddInvX A i s len st0 (L.set t (L[t].1, L[t].2 + v)) K st' := by
  obtain ⟨f, hf, hf2⟩ := h.marks
  obtain ⟨g, hg, hg2⟩ := h.recs
  obtain ⟨k, hk⟩ : ∃ k : Nat, c + A.base = (k : Int) := ⟨(c + A.base).toNat, by omega⟩
  have hkn : k < A.n + 1 := by omega
  have hck : (k : Int) - A.base = c := by omega
  have hn' : c ∈ L.map (·.1) := by
    rw [List.mem_map] at hn ⊢
    obtain ⟨e, he, rfl⟩ := hn
    exact ⟨e, List.mem_of_mem_take he, rfl⟩
  have heq : f k = (i : Int) := (hf2 k hkn).2.mpr (by rw [hck]; exact hn')
  have h1 := hg2 k hkn (by rw [hck]; exact hn)
  rw [hck] at h1
  have ht : lastIdx c ((L.take K).map (·.1)) < L.length := by
    have := lastIdx_lt hn
    rw [List.length_map, List.length_take] at this
    omega
  generalize htt : lastIdx c ((L.take K).map (·.1)) = t at h1 ht
  have htm : t < (L.map (·.2)).length := by simpa using ht
  have hr := h.wv.rd htm rfl
  obtain ⟨val', e4, l4, w4, f4⟩ := h.wv.set (L[t].2 + v) htm rfl
    (by rw [List.length_map, h.lv]; omega)
  rw [List.getElem_map] at hr
  refine ⟨⟨st.loc, st.ind, val'⟩, t, ht, rfl, by rw [hk, hg.rd_nat hkn, h1], ?_, ?_⟩
  · unfold addStepB
    rw [hk, hf.rd_nat hkn]
    simp only [Option.bind_eq_bind, Option.bind_some]
    rw [if_neg (by simp [heq]), hg.rd_nat hkn, Option.bind_some, h1, hr, Option.bind_some, e4]
    rfl
  · have hm := map_fst_setX L ht (L[t].2 + v)
    have hmt : ((L.set t (L[t].1, L[t].2 + v)).take K).map (·.1) = (L.take K).map (·.1) := by
      rw [List.map_take, hm, List.map_take]
    refine ⟨⟨f, hf, ?_⟩, ⟨g, hg, ?_⟩, ?_, h.li, l4.trans h.lv, ?_, ?_, h.fi, ?_⟩
    · intro k' hk'
      rw [hm]; exact hf2 k' hk'
    · intro k' hk' hmem
      rw [hmt] at hmem ⊢
      exact hg2 k' hk' hmem
    · rw [List.length_set]; exact h.idx
    · have : (L.set t (L[t].1, L[t].2 + v)).map (fun e => e.1 + A.base)
          = L.map (fun e => e.1 + A.base) := by
        have := congrArg (List.map (· + A.base)) hm
        simpa [List.map_map, Function.comp_def] using this
      rw [this]; exact h.wi
    · rw [List.map_set]; exact w4
    · intro q hq
      rw [f4 q (by omega), h.fv q hq]


/-- an entry `e` of B is added to a row; `cols` are the columns of A -/
def addPut (cols : List Int) (L : List (Int × R)) (e : Int × R) : List (Int × R) :=
  if e.1 ∈ cols then L.modify (lastIdx e.1 cols) (fun x => (x.1, x.2 + e.2)) else L ++ [e]

/-- the contents of row `i` of the sum -/
def addRowX (cj : R → R) (alpha : R) (A B : Csr R) (i : Nat) : List (Int × R) :=
  (B.row i).foldl (addPut (A.cols i)) ((A.row i).map fun e => (e.1, alpha * cj e.2))

omit [Zero R] [Mul R] in
theorem addPut_cols (cols : List Int) (L : List (Int × R)) (e : Int × R) :
    (addPut cols L e).map (·.1) = L.map (·.1) ++ (if e.1 ∈ cols then [] else [e.1]) := by
  unfold addPut
  by_cases h : e.1 ∈ cols
  · rw [if_pos h, if_pos h, List.append_nil]
    apply List.ext_getElem?
    intro k
    rw [List.getElem?_map, List.getElem?_map, List.getElem?_modify]
    cases L[k]? with
    | none => simp
    | some x => by_cases hk : lastIdx e.1 cols = k <;> simp [hk]
  · rw [if_neg h, if_neg h]
    simp

omit [Zero R] in
theorem addFold_cols (cj : R → R) (alpha : R) (A : Csr R) (i : Nat) (pre : List (Int × R)) :
    (pre.foldl (addPut (A.cols i)) ((A.row i).map fun e => (e.1, alpha * cj e.2))).map (·.1)
      = A.cols i ++ (pre.filter fun e => decide (e.1 ∉ A.cols i)).map (·.1) := by
  induction pre using List.reverseRecOn with
  | nil => simp [Csr.cols]
  | append_singleton pre e ih =>
    rw [List.foldl_append, List.foldl_cons, List.foldl_nil, addPut_cols, ih, List.filter_append, List.map_append,
      List.append_assoc]
    by_cases h : e.1 ∈ A.cols i <;> simp [h]

omit [Zero R] in
theorem addRowX_cols (cj : R → R) (alpha : R) (A B : Csr R) (i : Nat) :
    (addRowX cj alpha A B i).map (·.1) = A.cols i ++ (newB A B i).map (·.1) := addFold_cols ..

omit [Zero R] in
theorem addRowX_length (cj : R → R) (alpha : R) (A B : Csr R) (i : Nat) :
    (addRowX cj alpha A B i).length = addLen A B i := by
  have := congrArg List.length (addRowX_cols cj alpha A B i)
  simpa [addLen, Csr.cols] using this

/-- the start of a row -/
theorem addInvX0 {A : Csr R} {i s len : Nat} {st : AddSt R} (hl : LocOk A.n i st.loc)
    (hidx : st.loc.idx = (s : Int)) : AddInvX A i s len st [] 0 st := by
  obtain ⟨⟨f, hf, hf2⟩, g, hg⟩ := hl
  refine ⟨⟨f, hf, ?_⟩, ⟨g, hg, ?_⟩, by simpa using hidx, rfl, rfl, Win.nil, Win.nil,
    fun _ _ => rfl, fun _ _ => rfl⟩
  · intro k hk
    have := hf2 k hk
    refine ⟨by omega, fun h => absurd h (by omega), fun h => by simp at h⟩
  · intro k hk h; simp at h

/-- an entry of A, in the row -/
theorem addMergeA_step (cj : R → R) (alpha : R) {A B : Csr R} (hA : A.WF) {i s : Nat} {st st1 : AddSt R}
    (hci : s + addLen A B i ≤ st.ind.length) (hcv : s + addLen A B i ≤ st.val.length)
    {pre suf : List (Int × R)} {e : Int × R} (hl : A.row i = pre ++ e :: suf)
    (hP : AddInvX A i s (addLen A B i) st (pre.map fun e => (e.1, alpha * cj e.2)) pre.length st1) :
    st1.loc.idx < ((s + addLen A B i : Nat) : Int) ∧ ∃ st', addStepA cj alpha (i : Int) (e.1 + A.base) e.2 st1 = some st' ∧
      AddInvX A i s (addLen A B i) st ((pre ++ [e]).map fun e => (e.1, alpha * cj e.2)) (pre ++ [e]).length st' := by
  have hmem : e ∈ A.row i := by rw [hl]; simp
  have hlen : (A.row i).length = pre.length + (suf.length + 1) := by rw [hl]; simp
  have hP' : AddInvX A i s (addLen A B i) st (pre.map fun e => (e.1, alpha * cj e.2))
      (pre.map fun e => (e.1, alpha * cj e.2)).length st1 := by simpa using hP
  obtain ⟨st', q1, q2⟩ := addStepA_okX cj alpha hA.base01 hP'
    (by simp [addLen]; omega) hci hcv e.2 (Csr.row_range hA hmem)
  refine ⟨?_, st', q1, ?_⟩
  · rw [hP'.idx, List.length_map]
    unfold addLen
    push_cast; omega
  · simpa using q2

/-- an entry of B, in the row -/
theorem addMergeB_step (cj : R → R) (alpha : R) {A B : Csr R} (hA : A.WF) (hB : B.WF) (hn : B.n = A.n) {i s : Nat}
    (hnd : ((B.row i).map (·.1)).Nodup) {st st1 : AddSt R}
    (hci : s + addLen A B i ≤ st.ind.length) (hcv : s + addLen A B i ≤ st.val.length)
    {pre suf : List (Int × R)} {e : Int × R} (hl : B.row i = pre ++ e :: suf)
    (hP : AddInvX A i s (addLen A B i) st
      (pre.foldl (addPut (A.cols i)) ((A.row i).map fun e => (e.1, alpha * cj e.2))) (A.row i).length st1) :
    (if rd st1.loc.nnz (e.1 + A.base) = some (i : Int) then
      ∃ r, rd st1.loc.colRec (e.1 + A.base) = some r ∧ (s : Int) ≤ r ∧ r < ((s + addLen A B i : Nat) : Int)
      else (s : Int) ≤ st1.loc.idx ∧ st1.loc.idx < ((s + addLen A B i : Nat) : Int)) ∧
    ∃ st', addStepB (i : Int) (e.1 + A.base) e.2 st1 = some st' ∧
      AddInvX A i s (addLen A B i) st
        ((pre ++ [e]).foldl (addPut (A.cols i)) ((A.row i).map fun e => (e.1, alpha * cj e.2))) (A.row i).length st' := by
  have hmem : e ∈ B.row i := by rw [hl]; simp
  have hrange := Csr.row_range hB hmem
  rw [hn] at hrange
  have hc := addFold_cols cj alpha A i pre
  rw [List.foldl_append, List.foldl_cons, List.foldl_nil]
  generalize pre.foldl (addPut (A.cols i)) ((A.row i).map fun e => (e.1, alpha * cj e.2)) = L at hP hc ⊢
  have hL : L.length = (A.row i).length
      + (pre.filter fun e => decide (e.1 ∉ A.cols i)).length := by
    have := congrArg List.length hc
    simpa [Csr.cols] using this
  have hnew : (newB A B i).length = (pre.filter fun e => decide (e.1 ∉ A.cols i)).length
      + ((e :: suf).filter fun e => decide (e.1 ∉ A.cols i)).length := by
    rw [newB, hl, List.filter_append, List.length_append]
  obtain ⟨f, hf, hf2⟩ := hP.marks
  have hb := hA.base01
  obtain ⟨k, hk⟩ : ∃ k : Nat, e.1 + A.base = (k : Int) := ⟨(e.1 + A.base).toNat, by omega⟩
  have hkn : k < A.n + 1 := by omega
  have hck : (k : Int) - A.base = e.1 := by omega
  have hmark : rd st1.loc.nnz (e.1 + A.base) = some (i : Int) ↔ e.1 ∈ L.map (·.1) := by
    rw [hk, hf.rd_nat hkn, Option.some.injEq, (hf2 k hkn).2, hck]
  by_cases hin : e.1 ∈ A.cols i
  · have htake : (L.take (A.row i).length).map (·.1) = A.cols i := by
      rw [List.map_take, hc, List.take_left' (by simp [Csr.cols])]
    obtain ⟨st', t, ht, q0, q1, q2, q3⟩ := addStepB_oldX hb hP
      (by rw [addLen, hL, hnew]; omega) hcv e.2 hrange (by rw [htake]; exact hin)
    rw [if_pos (hmark.2 (by rw [hc]; exact List.mem_append_left _ hin))]
    refine ⟨⟨_, q1, by push_cast; omega, ?_⟩, st', q2, ?_⟩
    · rw [addLen, hnew]; push_cast; omega
    · rw [htake] at q0
      unfold addPut
      rw [if_pos hin, ← q0]
      have : L.modify t (fun x => (x.1, x.2 + e.2)) = L.set t (L[t].1, L[t].2 + e.2) := by
        rw [List.modify_eq_set_getElem?, List.getElem?_eq_getElem ht]
        rfl
      rw [this]
      exact q3
  · have hfe : ((e :: suf).filter fun e => decide (e.1 ∉ A.cols i)).length
        = (suf.filter fun e => decide (e.1 ∉ A.cols i)).length + 1 := by
      rw [List.filter_cons_of_pos (by simpa using hin)]; rfl
    have hnot : e.1 ∉ L.map (·.1) := by
      rw [hc, List.mem_append]
      rintro (h | h)
      · exact hin h
      · rw [List.mem_map] at h
        obtain ⟨e', he', h⟩ := h
        have hp := List.mem_of_mem_filter he'
        rw [hl, List.map_append, List.map_cons, List.nodup_append] at hnd
        exact hnd.2.2 _ (List.mem_map_of_mem (f := fun x => x.1) hp) e.1 (by simp) h
    obtain ⟨st', q1, q2⟩ := addStepB_newX hb hP
      (by rw [addLen, hL, hnew, hfe]; omega) (by rw [hL]; omega) hci hcv e.2 hrange hnot
    rw [if_neg (fun h => hnot (hmark.1 h))]
    refine ⟨⟨by rw [hP.idx]; push_cast; omega, by rw [hP.idx, addLen, hL, hnew, hfe]; push_cast; omega⟩, st', q1, ?_⟩
    unfold addPut
    rw [if_neg hin]
    exact q2

/-- **row `i` of the sum, exactly** -/
theorem addMerge_exact (cj : R → R) (alpha : R) {A B : Csr R} (hA : A.WF) (hB : B.WF)
    (hm : B.m = A.m) (hn : B.n = A.n) {i : Nat} (hi : i < A.m)
    (hnd : ((B.row i).map (·.1)).Nodup) {s : Nat} {st : AddSt R} (hl : LocOk A.n i st.loc)
    (hidx : st.loc.idx = (s : Int)) (hci : s + addLen A B i ≤ st.ind.length)
    (hcv : s + addLen A B i ≤ st.val.length) :
    ∃ st', addMerge cj alpha A.arrs B.arrs (i : Int) st = some st' ∧
      AddInvX A i s (addLen A B i) st (addRowX cj alpha A B i) (A.row i).length st' := by
  have hp1 := hA.rd_ptr (i := i) (by omega)
  have hp2 := hA.rd_ptr (i := i + 1) (by omega)
  have hq1 := hB.rd_ptr (i := i) (by omega)
  have hq2 := hB.rd_ptr (i := i + 1) (by omega)
  rw [show ((i + 1 : Nat) : Int) = (i : Int) + 1 by omega] at hp2 hq2
  have l1 := Csr.forC_row' hA hi (F := fun j s => do
      let col ← rd A.ind j
      let v ← rd A.val j
      addStepA cj alpha (i : Int) col v s)
    (G := fun c v s => addStepA cj alpha (i : Int) (c + A.base) v s)
    (by intro j c v s h1 h2 _; simp [h1, h2]) st
  obtain ⟨s1, e1, h1⟩ := foldlM_inv (f := fun s (e : Int × R) =>
      addStepA cj alpha (i : Int) (e.1 + A.base) e.2 s) (l := A.row i) (s := st)
    (fun pre st' => AddInvX A i s (addLen A B i) st (pre.map fun e => (e.1, alpha * cj e.2))
      pre.length st')
    (addInvX0 hl hidx)
    (fun pre e suf s' hl hP => (addMergeA_step cj alpha hA hci hcv hl hP).2)
  have l2 := Csr.forC_row' hB (by omega : i < B.m) (F := fun j s => do
      let col ← rd B.ind j
      let v ← rd B.val j
      addStepB (i : Int) (col - B.base + A.base) v s)
    (G := fun c v s => addStepB (i : Int) (c + A.base) v s)
    (by intro j c v s h1 h2 _; simp [h1, h2]) s1
  obtain ⟨s2, e2, h2⟩ := foldlM_inv (f := fun s (e : Int × R) =>
      addStepB (i : Int) (e.1 + A.base) e.2 s) (l := B.row i) (s := s1)
    (fun pre st' => AddInvX A i s (addLen A B i) st
      (pre.foldl (addPut (A.cols i)) ((A.row i).map fun e : Int × R => (e.1, alpha * cj e.2))) (A.row i).length st')
    h1
    (fun pre e suf s' hl hP => (addMergeB_step cj alpha hA hB hn hnd hci hcv hl hP).2)
  refine ⟨s2, ?_, h2⟩
  unfold addMerge
  simp only [Csr.arrs, hp1, hp2, hq1, hq2, Option.bind_eq_bind, Option.bind_some]
  simp only [Option.bind_eq_bind] at l1 l2
  rw [l1, e1, Option.bind_some, l2, e2]

end Verif
