import Verif.Proofs.SyrkEst
import Verif.Proofs.Expand3
import Verif.Proofs.Sp2md

namespace Verif
open Model Finset

/-! ### the transpose is strictly sorted -/

section
variable {R : Type}

theorem colRow_sorted (A : Csr R) (j : Nat) :
    (((A.entries.filter (fun e => e.2.1 = (j : Int))).map (fun e => ((e.1 : Int), e.2.2))).map (·.1)).Pairwise
      (· ≤ ·) := by
  rw [List.map_map]
  unfold Csr.entries
  have key : ∀ k : Nat, ((((List.range k).flatMap fun i => (A.row i).map fun e => (i, e.1, e.2)).filter
      (fun e => decide (e.2.1 = (j : Int)))).map (fun e => (e.1 : Int))).Pairwise (· ≤ ·) ∧
      ∀ x ∈ ((((List.range k).flatMap fun i => (A.row i).map fun e => (i, e.1, e.2)).filter
      (fun e => decide (e.2.1 = (j : Int)))).map (fun e => (e.1 : Int))), x < (k : Int) := by
    intro k
    induction k with
    | zero => simp
    | succ k ih =>
      obtain ⟨h1, h2⟩ := ih
      rw [List.range_succ, List.flatMap_append, List.filter_append, List.map_append]
      simp only [List.flatMap_cons, List.flatMap_nil, List.append_nil]
      have hrow : (((A.row k).map fun e => (k, e.1, e.2)).filter
          (fun e => decide (e.2.1 = (j : Int)))).map (fun e => (e.1 : Int))
          = ((A.row k).filter fun e => decide (e.1 = (j : Int))).map fun _ => (k : Int) := by
        rw [List.filter_map, List.map_map]; rfl
      rw [hrow]
      refine ⟨?_, ?_⟩
      · rw [List.pairwise_append]
        refine ⟨h1, ?_, ?_⟩
        · rw [List.map_const', List.pairwise_replicate]
          exact .inr (le_refl _)
        · intro a ha b hb
          have := h2 a ha
          simp only [List.mem_map] at hb
          obtain ⟨_, _, hb⟩ := hb
          omega
      · intro x hx
        rw [List.mem_append] at hx
        rcases hx with h | h
        · have := h2 x h; push_cast; omega
        · simp only [List.mem_map] at h
          obtain ⟨_, _, hb⟩ := h
          push_cast; omega
  have := (key A.m).1
  simpa [Function.comp_def] using this

theorem orient_strict [AddCommMonoid R] {A : Csr R} (h : A.WF) (hnd : A.NoDup) (isT : Bool) :
    ∃ A', orient true (A.raw isT) = some (.ok A'.arrs) ∧ Oriented true A A' ∧ A'.Strict := by
  obtain ⟨B, he, h1, h2, h3, hwf, hrow, hp⟩ := C05_csr2csc A h A.base h.base01
      (List.replicate (A.n + 1) 0) (List.replicate A.nnz 0) (List.replicate A.nnz (0 : R))
      (by simp) (by simp) (by simp)
  have ho := oriented_trans h h1 h2 h3 hwf hrow hp
  refine ⟨B, ?_, ho, ?_⟩
  · unfold orient
    simp only [Csr.raw, if_true]
    rw [show ((A.n : Int) + 1).toNat = A.n + 1 by omega, Int.toNat_natCast, he]
    simp [Csr.arrs, h3]
  · refine Csr.strict_of ?_ (ho.nodup hnd)
    intro i hi
    rw [hrow i (by omega)]
    exact colRow_sorted A i

theorem Csr.Strict.mapVal {A : Csr R} (hA : A.WF) (h : A.Strict) (f : R → R) : (A.mapVal f).Strict := by
  intro i hi
  rw [Csr.mapVal_row hA f hi, List.map_map]
  exact h i hi

theorem mapVal_cols {A : Csr R} (hA : A.WF) (f : R → R) {i : Nat} (hi : i < A.m) :
    (A.mapVal f).cols i = A.cols i := by
  rw [Csr.cols, Csr.mapVal_row hA f hi, List.map_map]
  rfl

end

/-! ### rows multiplied by a dense row -/

section
variable {R : Type} [Semiring R]

/-- value of an element of a row without repeated columns -/
theorem mat_of_mem {A : Csr R} {i : Nat} (hi : i < A.m) (hnd : A.NoDup) {pre suf : List (Int × R)}
    {c : Nat} {v : R} (hl : A.row i = pre ++ ((c : Int), v) :: suf) : A.mat i c = v := by
  have hn := hnd i hi
  have hlen : pre.length < (A.row i).length := by rw [hl]; simp
  have hget : (A.row i)[pre.length] = ((c : Int), v) := by simp [hl]
  rw [mat_eq_colSum, colSum_single_pos (A.row i) hlen (by rw [hget]) ?_, hget]
  intro s hs hse
  have := (List.Nodup.getElem_inj_iff hn (i := s) (j := pre.length) (hi := by simpa using hs)
    (hj := by simpa using hlen)).mp (by simp [hse, hget])
  exact this

omit [Semiring R] in
theorem aatScatter_eq {A : Csr R} (hA : A.WF) {i : Nat} (hi : i < A.m) (f : R → R) (t : List R) :
    aatScatter A.arrs f i t = (A.row i).foldlM (fun s e => wr s e.1 (f e.2)) t := by
  obtain ⟨p1, p2⟩ := rd_ptr2 hA hi
  unfold aatScatter
  simp only [Csr.arrs, p1, p2, Option.bind_eq_bind, Option.bind_some]
  exact forC_rowB hA hi (G := fun c v s => wr s c (f v)) (by
    intro j c v s h1 h2 _
    simp only [h1, h2, Option.bind_some, Int.add_sub_cancel]) t

theorem aatScatter_ok {A : Csr R} (hA : A.WF) (hnd : A.NoDup) {i : Nat} (hi : i < A.m) (f : R → R)
    {t : List R} {f0 : Nat → R} (ht : Rep t A.n f0) :
    ∃ t', aatScatter A.arrs f i t = some t' ∧
      Rep t' A.n (fun k => if (k : Int) ∈ A.cols i then f (A.mat i k) else f0 k) := by
  rw [aatScatter_eq hA hi]
  obtain ⟨t', e, h⟩ := foldlM_inv
    (f := fun (s : List R) (e : Int × R) => wr s e.1 (f e.2)) (l := A.row i) (s := t)
    (fun pre s => Rep s A.n (fun k => if (k : Int) ∈ pre.map (·.1) then f (A.mat i k) else f0 k))
    (by simpa using ht)
    (by
      intro pre e suf s hl hP
      have hr := Csr.row_range hA (i := i) (e := e) (by rw [hl]; simp)
      obtain ⟨c, hc⟩ : ∃ c : Nat, e.1 = (c : Int) := ⟨e.1.toNat, by omega⟩
      have hm : A.mat i c = e.2 := mat_of_mem hi hnd (pre := pre) (suf := suf) (by rw [hl, ← hc])
      obtain ⟨s', e1, r1⟩ := hP.wr_nat (f e.2) (i := c) (by omega)
      refine ⟨s', by rw [hc, e1], r1.congr ?_⟩
      intro q _
      rw [List.map_append]
      simp only [List.map_cons, List.map_nil, List.mem_append, List.mem_singleton, hc]
      by_cases eq : q = c
      · subst eq
        rw [Function.update_self, if_pos (.inr rfl), hm]
      · rw [Function.update_of_ne eq]
        refine if_congr ⟨.inl, ?_⟩ rfl rfl
        rintro (h | h)
        · exact h
        · exact absurd h (by omega))
  exact ⟨t', e, h⟩

/-- an element of A·Aᴴ -/
def aatVal (cj : R → R) (A : Csr R) (i j : Nat) : R := ∑ k ∈ range A.n, A.mat i k * cj (A.mat j k)

theorem foldl_colSum {A : Csr R} (hA : A.WF) (j : Nat) (cj : R →+* R) (g : Nat → R) :
    ((A.row j).foldl (fun (s : R) (e : Int × R) => s + g e.1.toNat * cj e.2) 0)
      = ∑ k ∈ range A.n, g k * cj (A.mat j k) := by
  have key : ∀ (L : List (Int × R)), (∀ e ∈ L, 0 ≤ e.1 ∧ e.1 < A.n) → ∀ s : R,
      L.foldl (fun (s : R) (e : Int × R) => s + g e.1.toNat * cj e.2) s
        = s + ∑ k ∈ range A.n, g k * cj (colSum L k) := by
    intro L
    induction L with
    | nil => intro _ s; simp [colSum]
    | cons a L ih =>
      intro hr s
      rw [List.foldl_cons, ih (fun e he => hr e (by simp [he]))]
      have ha := hr a (by simp)
      have : ∀ k ∈ range A.n, g k * cj (colSum (a :: L) k)
          = (if k = a.1.toNat then g k * cj a.2 else 0) + g k * cj (colSum L k) := by
        intro k _
        rw [colSum_cons]
        by_cases e : k = a.1.toNat
        · rw [if_pos e, if_pos (by omega), map_add, mul_add]
        · rw [if_neg e, if_neg (by omega), zero_add, zero_add]
      rw [Finset.sum_congr rfl this, Finset.sum_add_distrib, Finset.sum_ite_eq', if_pos (by simp; omega),
        add_assoc]
  rw [key (A.row j) (fun e he => Csr.row_range hA he), zero_add]
  exact Finset.sum_congr rfl fun k _ => by rw [mat_eq_colSum]

theorem aatDot_ok {A : Csr R} (hA : A.WF) {i j : Nat} (hj : j < A.m) (cj : R →+* R) {t : List R}
    (ht : Rep t A.n (A.mat i)) : aatDot cj A.arrs t j = some (aatVal cj A i j) := by
  obtain ⟨p1, p2⟩ := rd_ptr2 hA hj
  unfold aatDot
  simp only [Csr.arrs, p1, p2, Option.bind_eq_bind, Option.bind_some]
  rw [forC_rowB hA hj (G := fun c v s => some (s + A.mat i c.toNat * cj v)) (by
    intro k c v s h1 h2 hm
    have hr := Csr.row_range hA hm
    simp only [h1, h2, Option.bind_some, Int.add_sub_cancel]
    rw [ht.rd (by omega) (by omega)]
    rfl)]
  rw [foldlM_pure, foldl_colSum hA j cj (A.mat i)]
  rfl

/-- the elements of row `i` of the result with column below `t` -/
def aatPart [DecidableEq R] (cj : R → R) (A : Csr R) (i t : Nat) : List (Int × R) :=
  ((List.range t).filter fun (j : Nat) => decide (i ≤ j ∧ aatVal cj A i j ≠ 0)).map fun (j : Nat) => ((j : Int), aatVal cj A i j)

theorem aatPart_succ [DecidableEq R] (cj : R → R) (A : Csr R) (i t : Nat) (h : i ≤ t) :
    aatPart cj A i (t + 1)
      = aatPart cj A i t ++ (if aatVal cj A i t ≠ 0 then [((t : Int), aatVal cj A i t)] else []) := by
  unfold aatPart
  rw [List.range_succ, List.filter_append, List.map_append]
  congr 1
  by_cases e : aatVal cj A i t ≠ 0
  · rw [if_pos e, List.filter_cons_of_pos (by simp [h, e])]
    rfl
  · rw [if_neg e, List.filter_cons_of_neg (by simp only [decide_eq_true_eq]; exact fun x => e x.2)]
    rfl

theorem aatPart_start [DecidableEq R] (cj : R → R) (A : Csr R) (i : Nat) : aatPart cj A i i = [] := by
  unfold aatPart
  rw [List.filter_eq_nil_iff.mpr]
  · rfl
  · intro j hj
    rw [List.mem_range] at hj
    simp only [decide_eq_true_eq]
    exact fun h => by omega

theorem aatPart_len_mono [DecidableEq R] (cj : R → R) (A : Csr R) (i : Nat) {s t : Nat} (h : s ≤ t) :
    (aatPart cj A i s).length ≤ (aatPart cj A i t).length := by
  unfold aatPart
  rw [List.length_map, List.length_map]
  exact ((List.range_sublist.mpr h).filter _).length_le

/-- the rows of the result -/
def aatRows [DecidableEq R] (cj : R → R) (A : Csr R) (i : Nat) : List (Int × R) := aatPart cj A i A.m

theorem aatElems_ok [DecidableEq R] {A : Csr R} (hA : A.WF) {i : Nat} (hi : i < A.m) (cj : R →+* R)
    {t : List R} (ht : Rep t A.n (A.mat i)) {ind : List Int} {val : List R}
    (h1 : offs (aatRows cj A) A.m ≤ ind.length) (h2 : offs (aatRows cj A) A.m ≤ val.length) :
    ∃ ind' val', forC (i : Int) A.m (aatElem cj A.arrs t) (ind, val, (offs (aatRows cj A) i : Int))
        = some (ind', val', (offs (aatRows cj A) (i + 1) : Int)) ∧
      ind'.length = ind.length ∧ val'.length = val.length ∧
      Win ind' (offs (aatRows cj A) i) ((aatRows cj A i).map fun e => e.1 + A.base) ∧
      Win val' (offs (aatRows cj A) i) ((aatRows cj A i).map (·.2)) ∧
      (∀ q, q < offs (aatRows cj A) i → ind'[q]? = ind[q]? ∧ val'[q]? = val[q]?) := by
  have hle : offs (aatRows cj A) (i + 1) ≤ offs (aatRows cj A) A.m := offs_mono _ (by omega)
  rw [offs_succ] at hle ⊢
  obtain ⟨⟨ind', val', cnt⟩, e, hc, l1, l2, w1, w2, fr⟩ := forC_inv_off (a := (i : Int)) (b := A.m)
    (n := A.m - i) (f := aatElem cj A.arrs t) (s := (ind, val, (offs (aatRows cj A) i : Int)))
    (fun d s => s.2.2 = ((offs (aatRows cj A) i + (aatPart cj A i (i + d)).length : Nat) : Int) ∧
      s.1.length = ind.length ∧ s.2.1.length = val.length ∧
      Win s.1 (offs (aatRows cj A) i) ((aatPart cj A i (i + d)).map fun e => e.1 + A.base) ∧
      Win s.2.1 (offs (aatRows cj A) i) ((aatPart cj A i (i + d)).map (·.2)) ∧
      (∀ q, q < offs (aatRows cj A) i → s.1[q]? = ind[q]? ∧ s.2.1[q]? = val[q]?))
    (by omega)
    (by
      rw [Nat.add_zero, aatPart_start]
      exact ⟨by simp, rfl, rfl, Win.nil, Win.nil, fun _ _ => ⟨rfl, rfl⟩⟩)
    (by
      rintro d ⟨a, b, cnt⟩ hd ⟨hc, l1, l2, w1, w2, fr⟩
      simp only at hc l1 l2 w1 w2 fr
      have hlen := aatPart_len_mono cj A i (s := i + (d + 1)) (t := A.m) (by omega)
      rw [show i + (d + 1) = i + d + 1 by omega, aatPart_succ cj A i (i + d) (by omega)] at hlen ⊢
      unfold aatElem
      rw [show ((i : Int) + d) = ((i + d : Nat) : Int) by omega, aatDot_ok hA (by omega) cj ht]
      simp only [Option.bind_eq_bind, Option.bind_some]
      by_cases hz : aatVal cj A i (i + d) ≠ 0
      · rw [if_pos hz] at hlen ⊢
        rw [if_pos hz]
        rw [List.length_append, List.length_singleton] at hlen
        have hr : (aatRows cj A i).length = (aatPart cj A i A.m).length := rfl
        obtain ⟨a', e1, m1, x1, y1⟩ := w1.snoc (((i + d : Nat) : Int) + A.base) (k := cnt)
          (by rw [hc, List.length_map]) (by rw [List.length_map]; omega)
        obtain ⟨b', e2, m2, x2, y2⟩ := w2.snoc (aatVal cj A i (i + d)) (k := cnt)
          (by rw [hc, List.length_map]) (by rw [List.length_map]; omega)
        rw [List.length_map] at y1 y2
        refine ⟨(a', b', cnt + 1), ?_, ?_, by simp only; omega, by simp only; omega, ?_, ?_, ?_⟩
        · rw [show A.arrs.base = A.base from rfl, e1, Option.bind_some, e2, Option.bind_some]
        · simp only [hc, List.length_append, List.length_singleton]
          push_cast; ring
        · rw [List.map_append]; exact x1
        · rw [List.map_append]; exact x2
        · intro q hq
          exact ⟨(y1 q (by omega)).trans (fr q hq).1, (y2 q (by omega)).trans (fr q hq).2⟩
      · rw [if_neg hz] at hlen ⊢
        rw [if_neg hz, List.append_nil]
        exact ⟨_, rfl, hc, l1, l2, w1, w2, fr⟩)
  rw [show i + (A.m - i) = A.m by omega] at hc w1 w2
  refine ⟨ind', val', ?_, l1, l2, w1, w2, fr⟩
  rw [e]
  simp only at hc
  rw [hc]
  rfl

theorem aatDense_ok [DecidableEq R] {A : Csr R} (hA : A.WF) (hnd : A.NoDup) (cj : R →+* R)
    {ptr ind : List Int} {val : List R} (hp : ptr.length = A.m + 1)
    (h1 : offs (aatRows cj A) A.m ≤ ind.length) (h2 : offs (aatRows cj A) A.m ≤ val.length) :
    ∃ ptr' ind' val', aatDense cj A.m A.n A.arrs ptr ind val
        = some (ptr', ind', val', (offs (aatRows cj A) A.m : Int)) ∧
      ind'.length = ind.length ∧ val'.length = val.length ∧
      HoldsCsr (mkCsr A.m A.m A.base (aatRows cj A)) ptr' ind' val' := by
  unfold aatDense
  obtain ⟨ptr0, e0, r0⟩ : ∃ p, wr ptr 0 A.base = some p ∧
      Rep p (A.m + 1) (fun q => if q = 0 then A.base else ptr.getD q 0) := by
    have hrp : Rep ptr (A.m + 1) (fun q => ptr.getD q 0) := hp ▸ Rep.of_list ptr 0
    obtain ⟨p, e, r⟩ := hrp.wr_nat A.base (i := 0) (by omega)
    refine ⟨p, e, r.congr ?_⟩
    intro q _
    by_cases hq : q = 0
    · subst hq; simp
    · rw [Function.update_of_ne hq, if_neg hq]
  simp only [Csr.arrs, Option.bind_eq_bind, e0, Option.bind_some, Int.toNat_natCast]
  obtain ⟨⟨tr, p, a, b, cnt⟩, e, ht, hP, hcnt, l1, l2, w⟩ := forC_inv_nat (n := A.m)
    (f := aatRow cj A.m A.arrs) (s := (List.replicate A.n 0, ptr0, ind, val, 0))
    (fun i s => Rep s.1 A.n (fun _ => (0 : R)) ∧
      (s.2.1.length = A.m + 1 ∧ ∀ q, q ≤ i → s.2.1[q]? = some (A.base + (offs (aatRows cj A) q : Int))) ∧
      s.2.2.2.2 = (offs (aatRows cj A) i : Int) ∧ s.2.2.1.length = ind.length ∧
      s.2.2.2.1.length = val.length ∧
      ∀ r, r < i → Win s.2.2.1 (offs (aatRows cj A) r) ((aatRows cj A r).map fun e => e.1 + A.base) ∧
        Win s.2.2.2.1 (offs (aatRows cj A) r) ((aatRows cj A r).map (·.2)))
    (by
      refine ⟨⟨by simp, fun q hq => by simp [hq]⟩, ⟨r0.1, ?_⟩, by simp, rfl, rfl,
        fun r hr => absurd hr (by omega)⟩
      intro q hq
      have hq0 : q = 0 := by omega
      subst hq0
      rw [r0.2 0 (by omega)]
      simp)
    (by
      rintro i ⟨tr, p, a, b, cnt⟩ hi ⟨ht, ⟨hpl, hpq⟩, hcnt, l1, l2, w⟩
      simp only at ht hpl hpq hcnt l1 l2 w
      obtain ⟨t1, e1, r1⟩ := aatScatter_ok hA hnd hi id ht
      have r1' : Rep t1 A.n (A.mat i) := r1.congr (by
        intro k _
        by_cases hk : (k : Int) ∈ A.cols i
        · rw [if_pos hk]; rfl
        · rw [if_neg hk, mat_zero_of_not_mem hk])
      obtain ⟨a', b', e2, m1, m2, x1, x2, fr⟩ := aatElems_ok hA hi cj r1' (ind := a) (val := b)
        (by omega) (by omega)
      obtain ⟨t2, e3, r3⟩ := aatScatter_ok hA hnd hi (fun _ => 0) r1'
      refine ⟨(t2, p.set (i + 1) (A.base + (offs (aatRows cj A) (i + 1) : Int)), a', b',
        (offs (aatRows cj A) (i + 1) : Int)), ?_, ?_, ⟨by simpa using hpl, ?_⟩, rfl, by simp only; omega, by simp only; omega, ?_⟩
      · unfold aatRow
        simp only [Option.bind_eq_bind, e1, Option.bind_some, hcnt, e2]
        rw [show ((i : Int) + 1) = ((i + 1 : Nat) : Int) by omega, wr_ofNat (by omega), Option.bind_some,
          e3]
        rfl
      · refine r3.congr ?_
        intro k _
        by_cases hk : (k : Int) ∈ A.cols i
        · rw [if_pos hk]
        · rw [if_neg hk, mat_zero_of_not_mem hk]
      · intro q hq
        by_cases hqi : q = i + 1
        · subst hqi
          rw [List.getElem?_set_self (by omega)]
        · rw [List.getElem?_set_ne (by omega)]
          exact hpq q (by omega)
      · intro r hr
        by_cases hri : r = i
        · subst hri
          exact ⟨x1, x2⟩
        · obtain ⟨y1, y2⟩ := w r (by omega)
          have hle : offs (aatRows cj A) (r + 1) ≤ offs (aatRows cj A) i := offs_mono _ (by omega)
          rw [offs_succ] at hle
          refine ⟨y1.frame ?_, y2.frame ?_⟩
          · intro q _ hq
            rw [List.length_map] at hq
            exact (fr q (by omega)).1
          · intro q _ hq
            rw [List.length_map] at hq
            exact (fr q (by omega)).2)
  simp only at ht hP hcnt l1 l2 w
  refine ⟨p, a, b, ?_, l1, l2, ?_⟩
  · have e' : forC 0 (A.m : Int) (aatRow cj A.m ⟨A.base, A.ptr, A.ind, A.val⟩)
        (List.replicate A.n 0, ptr0, ind, val, 0) = some (tr, p, a, b, cnt) := e
    rw [e']
    simp [hcnt]
  · have hptr : p = (List.range (A.m + 1)).map fun i => A.base + (offs (aatRows cj A) i : Int) :=
      Rep.eq_map ⟨hP.1, fun k hk => hP.2 k (by omega)⟩
    have hC := csr_of_win (n := A.m) hptr (by rw [l1]; exact h1) (by rw [l2]; exact h2)
      (fun i hi => (w i hi).1) (fun i hi => (w i hi).2)
    refine ⟨?_, ?_, ?_⟩
    · rw [← hC]
    · rw [mkCsr_nnz, ← hC]
    · rw [mkCsr_nnz, ← hC]

end

end Verif
