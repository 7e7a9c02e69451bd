import Verif.Proofs.Sp2m

namespace Verif
open Model

variable {R : Type}

/-- the values of a list added up from left to right -/
def addUp [Zero R] [Add R] : List R → R
  | [] => 0
  | v :: l => l.foldl (· + ·) v

/-- the values in column `j` of a list of entries, added up from left to right -/
def colAcc [Zero R] [Add R] (l : List (Int × R)) (j : Nat) : R :=
  addUp ((l.filter fun e => decide (e.1 = (j : Int))).map (·.2))

theorem addUp_snoc [Zero R] [Add R] {l : List R} (h : l ≠ []) (v : R) :
    addUp (l ++ [v]) = addUp l + v := by
  cases l with
  | nil => exact absurd rfl h
  | cons a l => simp [addUp, List.foldl_append]

theorem colAcc_other [Zero R] [Add R] (l : List (Int × R)) {c : Int} {j : Nat} (v : R)
    (h : c ≠ (j : Int)) : colAcc (l ++ [(c, v)]) j = colAcc l j := by
  simp [colAcc, List.filter_append, h]

theorem colAcc_new [Zero R] [Add R] {l : List (Int × R)} {j : Nat} (v : R)
    (h : (j : Int) ∉ l.map (·.1)) : colAcc (l ++ [((j : Int), v)]) j = v := by
  have : l.filter (fun e => decide (e.1 = (j : Int))) = [] := by
    rw [List.filter_eq_nil_iff]
    intro e he
    simp only [decide_eq_true_eq]
    intro hee
    exact h (hee ▸ List.mem_map_of_mem he)
  simp [colAcc, List.filter_append, this, addUp]

theorem colAcc_more [Zero R] [Add R] {l : List (Int × R)} {j : Nat} (v : R)
    (h : (j : Int) ∈ l.map (·.1)) : colAcc (l ++ [((j : Int), v)]) j = colAcc l j + v := by
  have hne : (l.filter fun e => decide (e.1 = (j : Int))).map (·.2) ≠ [] := by
    rw [List.mem_map] at h
    obtain ⟨e, he, hee⟩ := h
    intro h0
    rw [List.map_eq_nil_iff, List.filter_eq_nil_iff] at h0
    exact h0 e he (by simpa using hee)
  simp only [colAcc, List.filter_append, List.map_append]
  rw [show List.map (·.2) (List.filter (fun e : Int × R => decide (e.1 = (j : Int))) [((j : Int), v)])
    = [v] by simp, addUp_snoc hne]

theorem addUp_eq_sum [AddCommMonoid R] (l : List R) : addUp l = l.sum := by
  cases l with
  | nil => rfl
  | cons a l =>
    rw [List.sum_cons]
    show l.foldl (· + ·) a = _
    induction l generalizing a with
    | nil => simp
    | cons b l ih => rw [List.foldl_cons, ih, List.sum_cons, add_assoc]

/-- with an associative addition it is the sum of the column -/
theorem colAcc_eq_colSum [AddCommMonoid R] (l : List (Int × R)) (j : Nat) :
    colAcc l j = colSum l j := by
  rw [colAcc, addUp_eq_sum]
  rfl

variable [Zero R] [Add R] [Mul R]

/-- the products added up in row `i`, in order -/
def prodRow (cA cB : R → R) (A B : Csr R) (i : Nat) : List (Int × R) :=
  (A.row i).flatMap fun e => (B.row e.1.toNat).map fun f => (f.1, cA e.2 * cB f.2)

/-- row `i` of the product -/
def mmRowL (cA cB : R → R) (A B : Csr R) (i : Nat) : List (Int × R) :=
  (firsts (mmCols A B i)).map fun c => (c, colAcc (prodRow cA cB A B i) c.toNat)

theorem prodRow_cols (cA cB : R → R) (A B : Csr R) (i : Nat) :
    (prodRow cA cB A B i).map (·.1) = mmCols A B i := by
  simp only [prodRow, mmCols, List.map_flatMap, List.map_map]
  rfl

/-- invariant of the accumulation of row `i` -/
structure MmInv (bn i off : Nat) (base : Int) (ind0 : List Int) (pre : List (Int × R))
    (s : MmSt R) : Prop where
  pos : s.pos = ((off + (firsts (pre.map (·.1))).length : Nat) : Int)
  idx : ∃ f, Rep s.idx bn f ∧ ∀ k, k < bn → f k ≤ (i : Int) ∧
    (f k = (i : Int) ↔ (k : Int) - base ∈ pre.map (·.1))
  sum : ∃ g, Rep s.sum bn g ∧ ∀ c k : Nat, (c : Int) ∈ pre.map (·.1) → (k : Int) = c + base →
    g k = colAcc pre c
  win : Win s.ind off ((firsts (pre.map (·.1))).map (· + base))
  len : s.ind.length = ind0.length
  frame : ∀ q, ¬ (off ≤ q ∧ q < off + (firsts (pre.map (·.1))).length) → s.ind[q]? = ind0[q]?

theorem mmStep_ok {bn i off : Nat} {base : Int} {ind0 : List Int} {pre : List (Int × R)}
    {s : MmSt R} (h : MmInv bn i off base ind0 pre s) {c : Int} {v : R}
    (hc : 0 ≤ c) (hb : 0 ≤ base) (hcb : c + base < bn)
    (hcap : off + (firsts ((pre ++ [(c, v)]).map (·.1))).length ≤ ind0.length) :
    ∃ s', mmStep (i : Int) (c + base) v s = some s' ∧ MmInv bn i off base ind0 (pre ++ [(c, v)]) s' := by
  obtain ⟨cn, rfl⟩ : ∃ cn : Nat, c = (cn : Int) := ⟨c.toNat, by omega⟩
  obtain ⟨k, hk⟩ : ∃ k : Nat, (cn : Int) + base = (k : Int) := ⟨((cn : Int) + base).toNat, by omega⟩
  obtain ⟨f, hf, hf2⟩ := h.idx
  obtain ⟨g, hg, hg2⟩ := h.sum
  have hkn : k < bn := by omega
  have hcase := (hf2 k hkn).2
  rw [show (k : Int) - base = cn by omega] at hcase
  have ecols : (pre ++ [((cn : Int), v)]).map (·.1) = pre.map (·.1) ++ [(cn : Int)] := by simp
  rw [ecols, firsts_append] at hcap
  unfold mmStep
  rw [hk, hf.rd_nat hkn]
  simp only [Option.bind_eq_bind, Option.bind_some]
  by_cases hin : (cn : Int) ∈ pre.map (·.1)
  · have hfin : (cn : Int) ∈ firsts (pre.map (·.1)) := mem_firsts.mpr hin
    obtain ⟨b, e1, r1⟩ := hg.wr_nat (g k + v) hkn
    rw [if_neg (by simp [hcase.mpr hin]), hg.rd_nat hkn, Option.bind_some, e1, Option.bind_some]
    refine ⟨_, rfl, ?_⟩
    constructor
    · rw [ecols, firsts_append, if_pos hfin]; exact h.pos
    · refine ⟨f, hf, fun k' hk' => ⟨(hf2 k' hk').1, ?_⟩⟩
      rw [(hf2 k' hk').2, ecols, List.mem_append, List.mem_singleton]
      constructor
      · exact Or.inl
      · rintro (h | h)
        · exact h
        · rw [h]; exact hin
    · refine ⟨_, r1, ?_⟩
      intro c' k' hc' hk'
      rw [ecols, List.mem_append, List.mem_singleton] at hc'
      by_cases e : k' = k
      · subst e
        have : c' = cn := by omega
        subst this
        rw [Function.update_self, colAcc_more v hin, hg2 c' k' hin hk']
      · rw [Function.update_of_ne e, colAcc_other _ v (by omega)]
        refine hg2 c' k' (hc'.resolve_right ?_) hk'
        omega
    · rw [ecols, firsts_append, if_pos hfin]; exact h.win
    · exact h.len
    · rw [ecols, firsts_append, if_pos hfin]; exact h.frame
  · have hfin : (cn : Int) ∉ firsts (pre.map (·.1)) := fun h => hin (mem_firsts.mp h)
    rw [if_neg hfin] at hcap
    obtain ⟨b, e1, r1⟩ := hg.wr_nat v hkn
    obtain ⟨a, e2, r2⟩ := hf.wr_nat (i : Int) hkn
    obtain ⟨d, e3, l3, w3, f3⟩ := h.win.snoc (k : Int) (k := s.pos)
      (by rw [h.pos, List.length_map]) (by
        rw [List.length_map, h.len]
        rw [List.length_append, List.length_singleton] at hcap
        omega)
    rw [if_pos (fun e => hin (hcase.mp e)), e3, Option.bind_some, e2, Option.bind_some, e1,
      Option.bind_some]
    refine ⟨_, rfl, ?_⟩
    constructor
    · rw [ecols, firsts_append, if_neg hfin, List.length_append, List.length_singleton]
      simp only [h.pos]
      push_cast; omega
    · refine ⟨_, r2, fun k' hk' => ?_⟩
      rw [ecols, List.mem_append, List.mem_singleton]
      by_cases e : k' = k
      · subst e
        rw [Function.update_self]
        exact ⟨le_refl _, fun _ => .inr (by omega), fun _ => rfl⟩
      · rw [Function.update_of_ne e]
        refine ⟨(hf2 k' hk').1, ?_⟩
        rw [(hf2 k' hk').2]
        constructor
        · exact Or.inl
        · rintro (h | h)
          · exact h
          · exfalso; apply e; omega
    · refine ⟨_, r1, ?_⟩
      intro c' k' hc' hk'
      rw [ecols, List.mem_append, List.mem_singleton] at hc'
      by_cases e : k' = k
      · subst e
        have : c' = cn := by omega
        subst this
        rw [Function.update_self, colAcc_new v hin]
      · rw [Function.update_of_ne e, colAcc_other _ v (by omega)]
        refine hg2 c' k' (hc'.resolve_right ?_) hk'
        omega
    · rw [ecols, firsts_append, if_neg hfin, List.map_append]
      simp only [List.map_cons, List.map_nil, hk]
      exact w3
    · exact l3.trans h.len
    · rw [ecols, firsts_append, if_neg hfin, List.length_append, List.length_singleton]
      intro q hq
      rw [f3 q (by rw [List.length_map]; omega)]
      exact h.frame q (by omega)

theorem mmAcc_eq (cA cB : R → R) {A B : Csr R} (hA : A.WF) (hB : B.WF) (hk : A.n = B.m) {i : Nat}
    (hi : i < A.m) (s : MmSt R) :
    mmAcc cA cB A.arrs B.arrs (i : Int) s
      = (prodRow cA cB A B i).foldlM (fun s e => mmStep (i : Int) (e.1 + B.base) e.2 s) s := by
  have hp1 := hA.rd_ptr (i := i) (by omega)
  have hp2 := hA.rd_ptr (i := i + 1) (by omega)
  rw [show ((i + 1 : Nat) : Int) = (i : Int) + 1 by omega] at hp2
  have l1 := Csr.forC_row' hA hi (F := fun j s => do
      let col ← rd A.ind j
      let v ← rd A.val j
      mmInner cB B.arrs (i : Int) (col - A.base) (cA v) s)
    (G := fun c v s => ((B.row c.toNat).map fun f => (f.1, cA v * cB f.2)).foldlM
      (fun s e => mmStep (i : Int) (e.1 + B.base) e.2 s) s)
    (by
      intro j c v s h1 h2 hmem
      have hr := Csr.row_range hA hmem
      obtain ⟨q, rfl⟩ : ∃ q : Nat, c = (q : Int) := ⟨c.toNat, by omega⟩
      have hq1 := hB.rd_ptr (i := q) (by omega)
      have hq2 := hB.rd_ptr (i := q + 1) (by omega)
      rw [show ((q + 1 : Nat) : Int) = (q : Int) + 1 by omega] at hq2
      have := Csr.forC_row_raw hB (i := q) (by omega)
        (fun c w s => mmStep (i : Int) c (cA v * cB w) s) s
      simp only [h1, h2, Option.bind_eq_bind, Option.bind_some, Int.add_sub_cancel,
        Int.toNat_natCast, mmInner, Csr.arrs, hq1, hq2] at this ⊢
      rw [foldlM_map', this]) s
  unfold mmAcc
  simp only [Csr.arrs, hp1, hp2, Option.bind_eq_bind, Option.bind_some]
  simp only [Option.bind_eq_bind, Csr.arrs] at l1
  rw [l1, prodRow, foldlM_flatMap']

theorem mmAcc_ok (cA cB : R → R) {A B : Csr R} (hA : A.WF) (hB : B.WF) (hk : A.n = B.m) {i : Nat}
    (hi : i < A.m) {bn off : Nat} (hbn : (bn : Int) = B.n + B.base) {idx : List Int} {sum : List R}
    {ind : List Int} {f : Nat → Int} {g : Nat → R} (hf : Rep idx bn f)
    (hf2 : ∀ k, k < bn → f k < (i : Int)) (hg : Rep sum bn g)
    (hcap : off + mmLen A B i ≤ ind.length) :
    ∃ s', mmAcc cA cB A.arrs B.arrs (i : Int) ⟨idx, sum, off, ind⟩ = some s' ∧
      MmInv bn i off B.base ind (prodRow cA cB A B i) s' := by
  rw [mmAcc_eq cA cB hA hB hk hi]
  have hb := hB.base01
  refine foldlM_inv (fun pre s => MmInv bn i off B.base ind pre s) ?_ ?_
  · refine ⟨by simp, ⟨f, hf, fun k hk => ?_⟩, ⟨g, hg, fun c k hc => by simp at hc⟩,
      by simpa using Win.nil, rfl, fun q _ => rfl⟩
    have := hf2 k hk
    exact ⟨by omega, fun h => absurd h (by omega), fun h => by simp at h⟩
  · intro pre e suf s' hl hP
    have hmem : e.1 ∈ mmCols A B i := by
      rw [← prodRow_cols cA cB, hl]; simp
    have hr := mmCols_range hB hmem
    refine mmStep_ok hP hr.1 (by omega) (by omega) ?_
    have hpre := firsts_prefix ((pre ++ [e]).map (·.1)) (suf.map (·.1))
    have : (pre ++ [e]).map (·.1) ++ suf.map (·.1) = mmCols A B i := by
      rw [← prodRow_cols cA cB, hl]; simp
    rw [this] at hpre
    have := hpre.length_le
    unfold mmLen at hcap
    show off + (firsts ((pre ++ [e]).map (·.1))).length ≤ _
    omega

/-- the copy loop stores the sums and rebases the columns -/
theorem mmCopy_ok {base : Int} {off : Nat} {F : List Int} {ind : List Int} {val : List R}
    {sum : List R} {S : Int → R} (hF : ∀ c ∈ F, rd sum (c + base) = some (S c))
    (hw : Win ind off (F.map (· + base))) (hi : off + F.length ≤ ind.length)
    (hv : off + F.length ≤ val.length) :
    ∃ c, forC (off : Int) ((off + F.length : Nat) : Int) (mmCopy base sum) (ind, val) = some c ∧
      Win c.1 off F ∧ Win c.2 off (F.map S) ∧ c.1.length = ind.length ∧ c.2.length = val.length ∧
      (∀ q, ¬ (off ≤ q ∧ q < off + F.length) → c.1[q]? = ind[q]?) ∧
      (∀ q, ¬ (off ≤ q ∧ q < off + F.length) → c.2[q]? = val[q]?) := by
  have hsh := forC_shift (off : Int) 0 (F.length : Int) (mmCopy base sum) (ind, val)
  rw [Int.add_zero] at hsh
  rw [show ((off + F.length : Nat) : Int) = (off : Int) + F.length by push_cast; rfl, ← hsh]
  obtain ⟨c, e, h1, h2, h3, h4, h5, h6, h7⟩ := forC_inv_nat (n := F.length)
    (f := fun k s => mmCopy base sum ((off : Int) + k) s) (s := (ind, val))
    (fun t (c : List Int × List R) =>
      (∀ q, q < t → c.1[off + q]? = F[q]?) ∧
      (∀ q, t ≤ q → q < F.length → c.1[off + q]? = (F.map (· + base))[q]?) ∧
      (∀ q, q < t → c.2[off + q]? = (F.map S)[q]?) ∧
      c.1.length = ind.length ∧ c.2.length = val.length ∧
      (∀ q, ¬ (off ≤ q ∧ q < off + F.length) → c.1[q]? = ind[q]?) ∧
      (∀ q, ¬ (off ≤ q ∧ q < off + F.length) → c.2[q]? = val[q]?))
    ⟨fun q h => absurd h (by omega), fun q _ h => hw q (by rwa [List.length_map]),
      fun q h => absurd h (by omega), rfl, rfl, fun _ _ => rfl, fun _ _ => rfl⟩
    (by
      rintro t c ht ⟨h1, h2, h3, h4, h5, h6, h7⟩
      have hr : rd c.1 ((off : Int) + t) = some (F[t] + base) := by
        rw [show (off : Int) + t = ((off + t : Nat) : Int) by push_cast; rfl, rd_ofNat,
          h2 t (le_refl _) ht]
        simp [ht]
      refine ⟨(c.1.set (off + t) F[t], c.2.set (off + t) (S F[t])), ?_, ?_⟩
      · unfold mmCopy
        rw [hr]
        simp only [Option.bind_eq_bind, Option.bind_some]
        rw [hF F[t] (List.getElem_mem _)]
        rw [Option.bind_some, show (off : Int) + t = ((off + t : Nat) : Int) by push_cast; rfl,
          wr_ofNat (by omega), Option.bind_some, wr_ofNat (by omega), Option.bind_some,
          Int.add_sub_cancel]
      · refine ⟨?_, ?_, ?_, by simpa using h4, by simpa using h5, ?_, ?_⟩
        · intro q hq
          by_cases e : q = t
          · subst e
            rw [List.getElem?_set_self (by omega)]
            simp [ht]
          · rw [List.getElem?_set_ne (by omega)]
            exact h1 q (by omega)
        · intro q hq hq2
          rw [List.getElem?_set_ne (by omega)]
          exact h2 q (by omega) hq2
        · intro q hq
          by_cases e : q = t
          · subst e
            rw [List.getElem?_set_self (by omega)]
            simp [ht]
          · rw [List.getElem?_set_ne (by omega)]
            exact h3 q (by omega)
        · intro q hq
          rw [List.getElem?_set_ne (by omega)]
          exact h6 q hq
        · intro q hq
          rw [List.getElem?_set_ne (by omega)]
          exact h7 q hq)
  refine ⟨c, e, fun t ht => h1 t ht, fun t ht => h3 t (by simpa using ht), h4, h5, h6, h7⟩

/-- the rows in `S` are in place -/
def MmDone (cA cB : R → R) (A B : Csr R) (N : Nat) (S : Nat → Prop)
    (s : (List Int × List R) × Bool) : Prop :=
  s.2 = false ∧ s.1.1.length = N ∧ s.1.2.length = N ∧ ∀ r, r < A.m → S r →
    Win s.1.1 (mmOff A B r) ((mmRowL cA cB A B r).map (·.1)) ∧
    Win s.1.2 (mmOff A B r) ((mmRowL cA cB A B r).map (·.2))

/-- the locals at the start of row `i` -/
def MmLoc (bn i : Nat) (l : List Int × List R) : Prop :=
  (∃ f, Rep l.1 bn f ∧ ∀ k, k < bn → f k < (i : Int)) ∧ ∃ g, Rep l.2 bn g

theorem mmRowL_length (cA cB : R → R) (A B : Csr R) (i : Nat) :
    (mmRowL cA cB A B i).length = mmLen A B i := by simp [mmRowL, mmLen]

theorem mmRow_ok (cA cB : R → R) {A B : Csr R} (hA : A.WF) (hB : B.WF) (hk : A.n = B.m) {i : Nat}
    (hi : i < A.m) {bn : Nat} (hbn : (bn : Int) = B.n + B.base) {ptr : List Int}
    (hp : Rep ptr (A.m + 1) (fun k => (mmOff A B k : Int))) {S : Nat → Prop} (hS : ¬ S i)
    {s : (List Int × List R) × Bool} (h : MmDone cA cB A B (mmOff A B A.m) S s)
    {l : List Int × List R} (hl : MmLoc bn i l) :
    ∃ l' s', mmRow cA cB A.arrs B.arrs ptr (i : Int) (l, s) = some (l', s') ∧
      MmDone cA cB A B (mmOff A B A.m) (fun r => S r ∨ r = i) s' ∧ MmLoc bn (i + 1) l' := by
  obtain ⟨⟨f, hf, hf2⟩, g, hg⟩ := hl
  obtain ⟨d0, d1, d2, d3⟩ := h
  have hcap : mmOff A B i + mmLen A B i ≤ mmOff A B A.m := by
    have := mmOff_mono A B (show i + 1 ≤ A.m by omega)
    rwa [mmOff_succ] at this
  obtain ⟨r, e, hinv⟩ := mmAcc_ok cA cB hA hB hk hi hbn (off := mmOff A B i) (ind := s.1.1) hf hf2 hg
    (by rw [d1]; exact hcap)
  have hcols := prodRow_cols cA cB A B i
  have hpos := hinv.pos
  have hwin := hinv.win
  have hframe := hinv.frame
  rw [hcols] at hpos hwin hframe
  obtain ⟨f', hf', hf2'⟩ := hinv.idx
  obtain ⟨g', hg', hg2'⟩ := hinv.sum
  have hb := hB.base01
  obtain ⟨c, ec, w1, w2, l1, l2, f1, f2⟩ := mmCopy_ok (base := B.base) (off := mmOff A B i)
    (F := firsts (mmCols A B i)) (ind := r.ind) (val := s.1.2) (sum := r.sum)
    (S := fun c => colAcc (prodRow cA cB A B i) c.toNat)
    (by
      intro c hc
      have hc' := mem_firsts.mp hc
      have hr := mmCols_range hB hc'
      obtain ⟨cn, rfl⟩ : ∃ cn : Nat, c = (cn : Int) := ⟨c.toNat, by omega⟩
      obtain ⟨k, hk⟩ : ∃ k : Nat, (cn : Int) + B.base = (k : Int) :=
        ⟨((cn : Int) + B.base).toNat, by omega⟩
      rw [hk, hg'.rd_nat (by omega), hg2' cn k (by rw [hcols]; exact hc') hk.symm, Int.toNat_natCast])
    hwin (by rw [hinv.len, d1]; exact hcap) (by rw [d2]; exact hcap)
  refine ⟨(r.idx, r.sum), (c, s.2), ?_, ⟨d0, ?_, ?_, ?_⟩, ?_⟩
  · unfold mmRow
    have hp2 := hp.rd_nat (i := i + 1) (by omega)
    rw [show ((i + 1 : Nat) : Int) = (i : Int) + 1 by omega] at hp2
    rw [hp.rd_nat (i := i) (by omega)]
    simp only [Option.bind_eq_bind, Option.bind_some]
    rw [e, Option.bind_some, hp2, Option.bind_some]
    have hend : r.pos = ((mmOff A B (i + 1) : Nat) : Int) := by
      rw [hpos, mmOff_succ]; rfl
    rw [if_neg (by simp [hend]), mmOff_succ]
    show (forC _ _ (mmCopy B.base r.sum) _).bind _ = _
    rw [show mmOff A B i + mmLen A B i = mmOff A B i + (firsts (mmCols A B i)).length from rfl, ec]
    rfl
  · exact (l1.trans hinv.len).trans d1
  · exact l2.trans d2
  · intro q hq hs
    by_cases er : q = i
    · subst er
      have e1 : (mmRowL cA cB A B q).map (·.1) = firsts (mmCols A B q) := by
        simp [mmRowL, Function.comp_def]
      have e2 : (mmRowL cA cB A B q).map (·.2)
          = (firsts (mmCols A B q)).map fun c => colAcc (prodRow cA cB A B q) c.toNat := by
        simp [mmRowL, Function.comp_def]
      rw [e1, e2]
      exact ⟨w1, w2⟩
    · obtain ⟨q1, q2⟩ := d3 q hq (hs.resolve_right er)
      have hdisj : mmOff A B q + mmLen A B q ≤ mmOff A B i ∨
          mmOff A B i + mmLen A B i ≤ mmOff A B q := by
        rcases Nat.lt_or_gt_of_ne er with h | h
        · have := mmOff_mono A B (show q + 1 ≤ i by omega)
          rw [mmOff_succ] at this; exact Or.inl this
        · have := mmOff_mono A B (show i + 1 ≤ q by omega)
          rw [mmOff_succ] at this; exact Or.inr this
      have hll : (firsts (mmCols A B i)).length = mmLen A B i := rfl
      refine ⟨q1.frame ?_, q2.frame ?_⟩
      · intro t t1 t2
        rw [List.length_map, mmRowL_length] at t2
        have hn : ¬ (mmOff A B i ≤ t ∧ t < mmOff A B i + (firsts (mmCols A B i)).length) := by
          omega
        rw [f1 t hn, hframe t hn]
      · intro t t1 t2
        rw [List.length_map, mmRowL_length] at t2
        exact f2 t (by omega)
  · exact ⟨⟨f', hf', fun k hk => by have := (hf2' k hk).1; push_cast; omega⟩, g', hg'⟩

/-- the product of two matrices given by their rows -/
def mmCsr (cA cB : R → R) (A B : Csr R) : Csr R := mkCsr A.m B.n 0 (mmRowL cA cB A B)

theorem mmOff_offs (cA cB : R → R) (A B : Csr R) (k : Nat) :
    offs (mmRowL cA cB A B) k = mmOff A B k := by
  induction k with
  | zero => simp [mmOff]
  | succ k ih => rw [offs_succ, mmOff_succ, ih, mmRowL_length]

/-- **the computation of the values** for any arrays with the right row pointers and lengths -/
theorem mmFill_ok {w : Nat} {tm : Teams} (cA cB : R → R) {A B : Csr R} (hA : A.WF) (hB : B.WF)
    (hk : A.n = B.m) (ht : TeamOk w A.m tm.t2 tm.ord2) {c : Arrs R}
    (hp : Rep c.ptr (A.m + 1) (fun k => (mmOff A B k : Int))) (hb : c.base = 0)
    (hi : c.ind.length = mmOff A B A.m) (hv : c.val.length = mmOff A B A.m) :
    mmFill w tm cA cB A.m B.n A.arrs B.arrs c = some ((mmCsr cA cB A B).arrs, false) := by
  have hbase := hB.base01
  obtain ⟨bn, hbn⟩ : ∃ bn : Nat, (bn : Int) = B.n + B.base := ⟨(B.n + B.base).toNat, by omega⟩
  obtain ⟨r, e, d0, d1, d2, d3⟩ := team_inv (w := w) (T := tm.t2) (m := A.m) (order := tm.ord2)
    (loc := (List.replicate bn (-1), List.replicate bn (0 : R)))
    (body := mmRow cA cB A.arrs B.arrs c.ptr) (s := ((c.ind, c.val), false)) ht.pos ht.ov ht.ord
    (P := MmDone cA cB A B (mmOff A B A.m)) (Q := MmLoc bn)
    ⟨rfl, hi, hv, fun _ _ h => h.elim⟩
    (by
      intro i
      refine ⟨⟨fun _ => -1, ⟨by simp, ?_⟩, by intro k _; show (-1 : Int) < i; omega⟩,
        fun _ => 0, by simp, ?_⟩
      · intro k hk
        rw [List.getElem?_replicate, if_pos hk]
      · intro k hk
        rw [List.getElem?_replicate, if_pos hk])
    (by
      intro S i s l hi' hS hP hQ
      exact mmRow_ok cA cB hA hB hk hi' hbn hp hS hP hQ)
  unfold mmFill
  have t1 : ((B.n : Int) + B.arrs.base).toNat = bn := by simp only [Csr.arrs]; omega
  rw [t1, e, Option.bind_eq_bind, Option.bind_some, d0]
  have hcsr := csr_of_win (m := A.m) (n := B.n) (base := 0) (rows := mmRowL cA cB A B)
    (ptr := c.ptr) (ind := r.1.1) (val := r.1.2)
    (by
      rw [hp.eq_map]
      apply List.map_congr_left
      intro i hi
      rw [mmOff_offs, zero_add])
    (by rw [mmOff_offs]; omega) (by rw [mmOff_offs]; omega)
    (fun i hi => by rw [mmOff_offs]; simpa using (d3 i hi hi).1)
    (fun i hi => by rw [mmOff_offs]; exact (d3 i hi hi).2)
  rw [mmOff_offs, List.take_of_length_le (l := r.1.1) (by omega),
    List.take_of_length_le (l := r.1.2) (by omega)] at hcsr
  unfold mmCsr
  rw [← hcsr]
  simp only [Csr.arrs, hb]

theorem mmCsr_wf (cA cB : R → R) {A B : Csr R} (hB : B.WF) : (mmCsr cA cB A B).WF := by
  apply mkCsr_wf (.inl rfl)
  intro i hi e he
  simp only [mmRowL, List.mem_map] at he
  obtain ⟨c, hc, rfl⟩ := he
  exact mmCols_range hB (mem_firsts.mp hc)

end Verif
