import Verif.Proofs.AddExact

/-!
The exact contents of a sparse sum, for any arithmetic, team and order of its threads.
-/

namespace Verif
open Model

variable {R : Type} [Zero R] [Add R] [Mul R]

/-- the rows in `S` are in place -/
def RowsX (cj : R → R) (alpha : R) (A B : Csr R) (N : Nat) (S : Nat → Prop)
    (s : List Int × List R) : Prop :=
  s.1.length = N ∧ s.2.length = N ∧ ∀ r, r < A.m → S r →
    Win s.1 (addOff A B r) ((addRowX cj alpha A B r).map fun e => e.1 + A.base) ∧
    Win s.2 (addOff A B r) ((addRowX cj alpha A B r).map (·.2))

/-- the new state of a row -/
theorem rowsX_next (cj : R → R) (alpha : R) {A B : Csr R} {N i : Nat} {S : Nat → Prop}
    {s : List Int × List R} (h : RowsX cj alpha A B N S s) {l : AddLoc}
    {st' : AddSt R} (hinv : AddInvX A i (addOff A B i) (addLen A B i) ⟨l, s.1, s.2⟩ (addRowX cj alpha A B i)
      (A.row i).length st') :
      RowsX cj alpha A B N (fun r => S r ∨ r = i) (st'.ind, st'.val) ∧
      LocOk A.n (i + 1) st'.loc ∧ st'.loc.idx = (addOff A B (i + 1) : Int) := by
  obtain ⟨h1, h2, h3⟩ := h
  refine ⟨⟨hinv.li.trans h1, hinv.lv.trans h2, ?_⟩, ?_, ?_⟩
  · intro r hr hs
    by_cases er : r = i
    · subst er
      exact ⟨hinv.wi, hinv.wv⟩
    · obtain ⟨w1, w2⟩ := h3 r hr (hs.resolve_right er)
      have hdisj : addOff A B r + addLen A B r ≤ addOff A B i ∨
          addOff A B i + addLen A B i ≤ addOff A B r := by
        rcases Nat.lt_or_gt_of_ne er with h | h
        · have := addOff_mono A B (show r + 1 ≤ i by omega)
          rw [addOff_succ] at this; exact Or.inl this
        · have := addOff_mono A B (show i + 1 ≤ r by omega)
          rw [addOff_succ] at this; exact Or.inr this
      have hL' := addRowX_length cj alpha A B r
      refine ⟨w1.frame ?_, w2.frame ?_⟩
      · intro q hq1 hq2
        rw [List.length_map] at hq2
        exact hinv.fi q (by omega)
      · intro q hq1 hq2
        rw [List.length_map] at hq2
        exact hinv.fv q (by omega)
  · obtain ⟨f, hf, hf2⟩ := hinv.marks
    obtain ⟨g, hg, _⟩ := hinv.recs
    exact ⟨⟨f, hf, fun k hk => by have := (hf2 k hk).1; push_cast; omega⟩, g, hg⟩
  · rw [hinv.idx, addRowX_length, addOff_succ]

theorem rowsX_step (cj : R → R) (alpha : R) {A B : Csr R} (hA : A.WF) (hB : B.WF)
    (hm : B.m = A.m) (hn : B.n = A.n) {N i : Nat} (hi : i < A.m)
    (hnd : ((B.row i).map (·.1)).Nodup) (hN : addOff A B A.m ≤ N) {S : Nat → Prop}
    {s : List Int × List R} (hS : ¬ S i) (h : RowsX cj alpha A B N S s) {l : AddLoc}
    (hl : LocOk A.n i l) (hidx : l.idx = (addOff A B i : Int)) :
    ∃ st', addMerge cj alpha A.arrs B.arrs (i : Int) ⟨l, s.1, s.2⟩ = some st' ∧
      RowsX cj alpha A B N (fun r => S r ∨ r = i) (st'.ind, st'.val) ∧
      LocOk A.n (i + 1) st'.loc ∧ st'.loc.idx = (addOff A B (i + 1) : Int) := by
  have hcap : addOff A B i + addLen A B i ≤ N := by
    have := addOff_mono A B (show i + 1 ≤ A.m by omega)
    rw [addOff_succ] at this
    omega
  obtain ⟨st', e, hinv⟩ := addMerge_exact cj alpha hA hB hm hn hi hnd
    (st := ⟨l, s.1, s.2⟩) (s := addOff A B i) hl hidx (by have := h.1; simp only; omega)
    (by have := h.2.1; simp only; omega)
  exact ⟨st', e, rowsX_next cj alpha h hinv⟩

/-- the sum -/
def addSum (cj : R → R) (alpha : R) (A B : Csr R) : Csr R := mkCsr A.m A.n A.base (addRowX cj alpha A B)

omit [Zero R] in
theorem addOff_offs (cj : R → R) (alpha : R) (A B : Csr R) (k : Nat) :
    offs (addRowX cj alpha A B) k = addOff A B k := by
  induction k with
  | zero => simp [addOff]
  | succ k ih => rw [offs_succ, addOff_succ, ih, addRowX_length]

omit [Zero R] in
theorem rowsX_csr (cj : R → R) (alpha : R) {A B : Csr R} {N : Nat} (hN : addOff A B A.m ≤ N)
    {s : List Int × List R} {S : Nat → Prop} (h : RowsX cj alpha A B N S s) (hS : ∀ r, r < A.m → S r) {ptr : List Int}
    (hp : Rep ptr (A.m + 1) (fun k => A.base + (addOff A B k : Int))) :
    (addSum cj alpha A B).arrs = ⟨A.base, ptr, s.1.take (addOff A B A.m), s.2.take (addOff A B A.m)⟩ := by
  obtain ⟨h1, h2, h3⟩ := h
  have hcsr := csr_of_win (m := A.m) (n := A.n) (base := A.base) (rows := addRowX cj alpha A B) (ptr := ptr)
    (ind := s.1) (val := s.2)
    (by
      rw [hp.eq_map]
      apply List.map_congr_left
      intro i hi
      rw [addOff_offs])
    (by rw [addOff_offs]; omega) (by rw [addOff_offs]; omega)
    (fun i hi => by rw [addOff_offs]; exact (h3 i hi (hS i hi)).1)
    (fun i hi => by rw [addOff_offs]; exact (h3 i hi (hS i hi)).2)
  unfold addSum
  rw [← hcsr, addOff_offs]
  rfl

/-- **aoclsparse_add_csr_ref, exactly** -/
theorem addCsr_exact {w : Nat} {th : Threads} (gp gi : Nat → Int) (gv : Nat → R) (cj : R → R)
    (alpha : R) {A B : Csr R} (hth : th.Ok w A.m) (hA : A.WF)
    (hB : B.WF) (hm : B.m = A.m) (hn : B.n = A.n) (hnd : B.NoDup)
    (hov : sumOverflow 64 w (A.base + (addOff A B A.m : Int)) = false) :
    addCsr w th gp gi gv cj A.m A.n A.nnz B.nnz A.arrs alpha B.arrs
        = some (.ok (addSum cj alpha A B).arrs) := by
  have t1 : (((A.m : Int) + 1).toNat) = A.m + 1 := by omega
  unfold addCsr
  by_cases h0 : (A.m : Int) = 0 ∨ (A.n : Int) = 0 ∨ ((A.nnz : Int) = 0 ∧ (B.nnz : Int) = 0)
  · rw [if_pos h0]
    have hrA : ∀ i, A.row i = [] := by
      intro i
      by_contra hne
      obtain ⟨e, he⟩ := List.exists_mem_of_ne_nil _ hne
      have h1 := Csr.row_range hA he
      by_cases hi : i < A.m
      · have hl := Csr.row_length hA hi
        have := hA.lo (i := i) (by omega)
        have := hA.hi (i := i + 1) (by omega)
        have hp : 0 < (A.row i).length := List.length_pos_of_mem he
        simp only [Csr.nnz] at h0
        omega
      · rw [Csr.row_of_ge hA (by omega)] at he
        simp at he
    have hrB : ∀ i, B.row i = [] := by
      intro i
      by_contra hne
      obtain ⟨e, he⟩ := List.exists_mem_of_ne_nil _ hne
      have h1 := Csr.row_range hB he
      by_cases hi : i < B.m
      · have hl := Csr.row_length hB hi
        have := hB.lo (i := i) (by omega)
        have := hB.hi (i := i + 1) (by omega)
        have hp : 0 < (B.row i).length := List.length_pos_of_mem he
        simp only [Csr.nnz] at h0
        omega
      · rw [Csr.row_of_ge hB (by omega)] at he
        simp at he
    have hx : ∀ i, addRowX cj alpha A B i = [] := by
      intro i
      unfold addRowX
      rw [hrA, hrB]
      rfl
    have hof : ∀ k, offs (addRowX cj alpha A B) k = 0 := by
      intro k
      induction k with
      | zero => simp [offs]
      | succ k ih => rw [offs_succ, ih, hx]; rfl
    have hptr : (mkCsr A.m A.n A.base (addRowX cj alpha A B)).ptr = List.replicate (A.m + 1) A.base := by
      apply List.ext_getElem?
      intro k
      by_cases hk : k < A.m + 1
      · simp [mkCsr, hof, hk]
      · simp [mkCsr, hk]
    have e1 : (mkCsr A.m A.n A.base (addRowX cj alpha A B)).ind = [] := by simp [mkCsr, hx]
    have e2 : (mkCsr A.m A.n A.base (addRowX cj alpha A B)).val = [] := by simp [mkCsr, hx]
    unfold addSum Csr.arrs
    rw [hptr, e1, e2, t1]
    rfl
  · rw [if_neg h0]
    split
    · obtain ⟨ptr, hp, hcnt⟩ := addCount_ok hth hA hB hm hn hnd gp
      rw [t1, hcnt, hov]
      simp only [Bool.false_eq_true, if_false, Option.bind_eq_bind, Option.bind_some]
      have hr := hp.rd_nat (i := A.m) (by omega)
      have t2 : (A.base + (addOff A B A.m : Int) - A.base).toNat = addOff A B A.m := by omega
      rw [hr, Option.bind_some, show A.arrs.base = A.base from rfl, t2]
      obtain ⟨r, e, hd⟩ := team_inv (w := w) (T := th.req) (m := A.m)
        (order := th.ord2) (loc := addLoc0 (A.n : Int))
        (body := addRowPre cj alpha A.arrs B.arrs ptr)
        (s := (alloc (addOff A B A.m) gi, alloc (addOff A B A.m) gv)) hth.req hth.ov2 hth.ord2
        (P := RowsX cj alpha A B (addOff A B A.m)) (Q := LocOk A.n)
        ⟨by simp, by simp, fun _ _ h => h.elim⟩ (locOk0 A.n)
        (by
          rintro S i s l hi hS hP hQ
          obtain ⟨st', e, h1, h2, h3⟩ := rowsX_step cj alpha hA hB hm hn hi
            (hnd i (by omega)) (le_refl _) hS hP (l := { l with idx := addOff A B i }) hQ rfl
          refine ⟨st'.loc, (st'.ind, st'.val), ?_, h1, h2⟩
          unfold addRowPre
          rw [hp.rd_nat (i := i) (by omega)]
          simp only [Option.bind_eq_bind, Option.bind_some]
          rw [show A.base + (addOff A B i : Int) - A.arrs.base = (addOff A B i : Int) by
            simp [Csr.arrs], e]
          rfl)
      have c1 := rowsX_csr cj alpha (le_refl _) hd (fun _ h => h) hp
      have l1 : r.1.take (addOff A B A.m) = r.1 := List.take_of_length_le (by rw [hd.1])
      have l2 : r.2.take (addOff A B A.m) = r.2 := List.take_of_length_le (by rw [hd.2.1])
      rw [l1, l2] at c1
      rw [e, Option.bind_some, c1]
    · rename_i hc
      have hreq : th.req = 1 := by omega
      have hord : th.ord2 = [0] := by
        have := hth.ord2
        rw [hreq] at this
        exact List.perm_singleton.mp (by simpa using this)
      have hrep : Rep (alloc (A.m + 1) gp) (A.m + 1) gp := Rep.of_map
      obtain ⟨p0, e0, r0⟩ := hrep.wr_nat A.base (i := 0) (by omega)
      have t3 : ((A.nnz : Int) + (B.nnz : Int)).toNat = A.nnz + B.nnz := by omega
      have hcap := addOff_le A B hA hB hm
      obtain ⟨r, e, ⟨f, hf, hf2⟩, hd, -⟩ := forC_inv_nat (n := A.m)
        (f := addRowSeq cj alpha A.arrs B.arrs)
        (s := (addLoc0 (A.n : Int), p0, alloc (A.nnz + B.nnz) gi, alloc (A.nnz + B.nnz) gv))
        (fun i (s : AddLoc × List Int × List Int × List R) =>
          (∃ f, Rep s.2.1 (A.m + 1) f ∧ ∀ k, k ≤ i → f k = A.base + (addOff A B k : Int)) ∧
          RowsX cj alpha A B (A.nnz + B.nnz) (fun r => r < i) s.2.2 ∧ LocOk A.n i s.1 ∧
          s.1.idx = (addOff A B i : Int))
        ⟨⟨_, r0, by
            intro k hk
            have : k = 0 := by omega
            subst this
            simp [addOff]⟩, ⟨by simp, by simp, fun r hr h => absurd h (by omega)⟩, locOk0 _ _, by
            simp [addLoc0, addOff]⟩
        (by
          rintro i ⟨l, p, s⟩ hi ⟨⟨f, hf, hf2⟩, hP, hQ, hidx⟩
          obtain ⟨st', e, h1, h2, h3⟩ := rowsX_step cj alpha hA hB hm hn hi
            (hnd i (by omega)) hcap (S := fun r => r < i) (by omega) hP hQ hidx
          obtain ⟨p', e4, r4⟩ := hf.wr_nat (st'.loc.idx + A.base) (i := i + 1) (by omega)
          refine ⟨(st'.loc, p', st'.ind, st'.val), ?_, ⟨_, r4, ?_⟩, ?_, h2, h3⟩
          · unfold addRowSeq
            simp only [Option.bind_eq_bind]
            rw [e, Option.bind_some]
            rw [show ((i + 1 : Nat) : Int) = (i : Int) + 1 by omega] at e4
            rw [show A.arrs.base = A.base from rfl, e4]
            rfl
          · intro k hk
            by_cases ek : k = i + 1
            · subst ek
              rw [Function.update_self, h3, add_comm]
            · rw [Function.update_of_ne ek]
              exact hf2 k (by omega)
          · refine ⟨h1.1, h1.2.1, ?_⟩
            intro r hr hs
            exact h1.2.2 r hr (by omega))
      have c1 := rowsX_csr cj alpha hcap hd (fun _ h => h)
        (hf.congr (fun k hk => hf2 k (by omega)))
      rw [t1, t3, show A.arrs.base = A.base from rfl,
        show wr (alloc (A.m + 1) gp) 0 A.base = some p0 from e0]
      simp only [Option.bind_eq_bind, Option.bind_some]
      have hteam : inTeam w th.ord2 th.req (A.m : Int) (addLoc0 (A.n : Int))
          (addRowSeq cj alpha A.arrs B.arrs)
          (p0, alloc (A.nnz + B.nnz) gi, alloc (A.nnz + B.nnz) gv) = some r.2 := by
        have hov2 := hth.ov2
        rw [hreq] at hov2
        rw [hord, hreq]
        unfold inTeam
        rw [List.foldlM_cons]
        unfold threadRows
        rw [chk_of_le (by simp) (by push_cast; omega), chk_of_le (by omega) (by simpa using hov2)]
        simp only [Option.bind_eq_bind, Option.bind_some, Nat.cast_zero, mul_zero, Nat.cast_one,
          Int.tdiv_one, zero_add, mul_one]
        rw [e]
        rfl
      rw [hteam, Option.bind_some, hf.rd_nat (i := A.m) (by omega), Option.bind_some,
        hf2 A.m (le_refl _), c1]
      rw [show (A.base + (addOff A B A.m : Int) - A.base).toNat = addOff A B A.m by omega]

end Verif
