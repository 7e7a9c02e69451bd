import Verif.Proofs.CsrAdd
import Verif.Proofs.Triples

namespace Verif
open Model

variable {R : Type}

def addOff (A B : Csr R) (i : Nat) : Nat := ((List.range i).map (addLen A B)).sum

theorem addOff_succ (A B : Csr R) (i : Nat) : addOff A B (i + 1) = addOff A B i + addLen A B i := by
  simp [addOff, List.range_succ]

theorem addOff_mono (A B : Csr R) {i j : Nat} (h : i ≤ j) : addOff A B i ≤ addOff A B j := by
  induction h with
  | refl => exact Nat.le_refl _
  | step _ ih => rw [addOff_succ]; omega

theorem addOff_le (A B : Csr R) (hA : A.WF) (hB : B.WF) (hm : B.m = A.m) :
    addOff A B A.m ≤ A.nnz + B.nnz := by
  have h1 : ∀ k, addOff A B k ≤ offs A.row k + offs B.row k := by
    intro k
    induction k with
    | zero => simp [addOff]
    | succ k ih =>
      rw [addOff_succ, offs_succ, offs_succ]
      have : (newB A B k).length ≤ (B.row k).length := List.length_filter_le ..
      unfold addLen
      omega
  have h2 := h1 A.m
  have a1 := hA.offs_row (i := A.m) (le_refl _)
  have a2 := hB.offs_row (i := A.m) (by omega)
  have b1 := hA.ptr_last
  have b2 := hB.ptr_last
  rw [hm] at b2
  simp only [Csr.nnz]
  omega

/-- the threads of a run -/
structure Model.Threads.Ok (th : Threads) (w m : Nat) : Prop where
  team : 0 < th.team
  req : 0 < th.req
  ord1 : th.ord1.Perm (List.range th.team)
  ord2 : th.ord2.Perm (List.range th.req)
  ov1 : (m : Int) * th.team ≤ intMax w
  ov2 : (m : Int) * th.req ≤ intMax w

/-! ### counting -/

/-- stamps while counting row `i` -/
def CntInv (n i : Nat) (base : Int) (cols : List Int) (s : List Int × Int) : Prop :=
  (∃ f, Rep s.1 (n + 1) f ∧ ∀ k, k < n + 1 → f k ≤ (i : Int) ∧
    (f k = (i : Int) ↔ (k : Int) - base ∈ cols)) ∧ s.2 = cols.length

theorem addCntA_ok {n i : Nat} {base : Int} (hb : base = 0 ∨ base = 1) {cols : List Int}
    {s : List Int × Int} (h : CntInv n i base cols s) {c : Int} (hc : 0 ≤ c ∧ c < n) :
    ∃ s', addCntA (i : Int) (c + base) s = some s' ∧ CntInv n i base (cols ++ [c]) s' := by
  obtain ⟨⟨f, hf, hf2⟩, hs⟩ := h
  obtain ⟨k, hk⟩ : ∃ k : Nat, c + base = (k : Int) := ⟨(c + base).toNat, by omega⟩
  have hkn : k < n + 1 := by omega
  obtain ⟨a, e1, r1⟩ := hf.wr_nat (i : Int) hkn
  refine ⟨(a, s.2 + 1), by unfold addCntA; rw [hk, e1]; rfl, ⟨_, r1, ?_⟩, by simp [hs]⟩
  intro k' hk'
  by_cases e : k' = k
  · subst e
    rw [Function.update_self]
    refine ⟨le_refl _, fun _ => ?_, fun _ => rfl⟩
    simp; right; omega
  · rw [Function.update_of_ne e]
    refine ⟨(hf2 k' hk').1, ?_⟩
    rw [(hf2 k' hk').2]
    simp only [List.mem_append, List.mem_singleton]
    constructor
    · exact Or.inl
    · rintro (h | h)
      · exact h
      · exfalso; apply e; omega

theorem addCntB_ok {n i : Nat} {base : Int} (hb : base = 0 ∨ base = 1) {cols : List Int}
    {s : List Int × Int} (h : CntInv n i base cols s) {c : Int} (hc : 0 ≤ c ∧ c < n) :
    ∃ s', addCntB (i : Int) (c + base) s = some s' ∧
      CntInv n i base (if c ∈ cols then cols else cols ++ [c]) s' := by
  obtain ⟨⟨f, hf, hf2⟩, hs⟩ := id h
  obtain ⟨k, hk⟩ : ∃ k : Nat, c + base = (k : Int) := ⟨(c + base).toNat, by omega⟩
  have hkn : k < n + 1 := by omega
  have hck : (k : Int) - base = c := by omega
  have hcase := (hf2 k hkn).2
  rw [hck] at hcase
  unfold addCntB
  rw [hk, hf.rd_nat hkn]
  simp only [Option.bind_eq_bind, Option.bind_some]
  by_cases hin : c ∈ cols
  · rw [if_neg (by simp [hcase.mpr hin]), if_pos hin]
    exact ⟨s, rfl, h⟩
  · rw [if_pos (fun e => hin (hcase.mp e)), if_neg hin]
    obtain ⟨s', e1, h'⟩ := addCntA_ok hb h hc
    refine ⟨s', ?_, h'⟩
    unfold addCntA at e1
    rw [hk] at e1
    exact e1

theorem addCntRow_ok {A B : Csr R} (hA : A.WF) (hB : B.WF) (hm : B.m = A.m) (hn : B.n = A.n)
    {i : Nat} (hi : i < A.m) (hnd : ((B.row i).map (·.1)).Nodup) {nz ptr : List Int}
    {f p : Nat → Int} (hf : Rep nz (A.n + 1) f) (hf2 : ∀ k, k < A.n + 1 → f k < (i : Int))
    (hp : Rep ptr (A.m + 1) p) :
    ∃ nz' ptr', addCntRow A.arrs B.arrs (i : Int) (nz, ptr) = some (nz', ptr') ∧
      Rep ptr' (A.m + 1) (Function.update p (i + 1) (addLen A B i : Int)) ∧
      ∃ f', Rep nz' (A.n + 1) f' ∧ ∀ k, k < A.n + 1 → f' k < ((i + 1 : Nat) : Int) := by
  have hp1 := hA.rd_ptr (i := i) (by omega)
  have hp2 := hA.rd_ptr (i := i + 1) (by omega)
  have hq1 := hB.rd_ptr (i := i) (by omega)
  have hq2 := hB.rd_ptr (i := i + 1) (by omega)
  rw [show ((i + 1 : Nat) : Int) = (i : Int) + 1 by omega] at hp2 hq2
  have l1 := Csr.forC_row' hA hi (F := fun j c => do
      let col ← rd A.ind j
      addCntA (i : Int) col c)
    (G := fun c _ s => addCntA (i : Int) (c + A.base) s)
    (by intro j c v s h1 h2 _; simp [h1]) (nz, 0)
  obtain ⟨s1, e1, h1⟩ := foldlM_inv (f := fun s (e : Int × R) =>
      addCntA (i : Int) (e.1 + A.base) s) (l := A.row i) (s := (nz, 0))
    (fun pre s => CntInv A.n i A.base (pre.map (·.1)) s)
    (by
      refine ⟨⟨f, hf, ?_⟩, rfl⟩
      intro k hk
      have := hf2 k hk
      exact ⟨by omega, fun h => absurd h (by omega), fun h => by simp at h⟩)
    (by
      intro pre e suf s' hl hP
      have hmem : e ∈ A.row i := by rw [hl]; simp
      obtain ⟨s2, q1, q2⟩ := addCntA_ok hA.base01 hP (Csr.row_range hA hmem)
      exact ⟨s2, q1, by simpa using q2⟩)
  have l2 := Csr.forC_row' hB (by omega : i < B.m) (F := fun j c => do
      let col ← rd B.ind j
      addCntB (i : Int) (col - B.base + A.base) c)
    (G := fun c _ s => addCntB (i : Int) (c + A.base) s)
    (by intro j c v s h1 h2 _; simp [h1]) s1
  obtain ⟨s2, e2, h2⟩ := foldlM_inv (f := fun s (e : Int × R) =>
      addCntB (i : Int) (e.1 + A.base) s) (l := B.row i) (s := s1)
    (fun pre s => CntInv A.n i A.base
      (A.cols i ++ (pre.filter fun e => decide (e.1 ∉ A.cols i)).map (·.1)) s)
    (by simpa [Csr.cols] using h1)
    (by
      intro pre e suf s' hl hP
      have hmem : e ∈ B.row i := by rw [hl]; simp
      have hrange := Csr.row_range hB hmem
      rw [hn] at hrange
      obtain ⟨s2, q1, q2⟩ := addCntB_ok hA.base01 hP hrange
      refine ⟨s2, q1, ?_⟩
      by_cases hin : e.1 ∈ A.cols i
      · rw [if_pos (by simp [hin])] at q2
        rw [List.filter_append]
        simpa [hin] using q2
      · rw [if_neg] at q2
        · rw [List.filter_append, List.filter_cons_of_pos (by simpa using hin)]
          simpa using q2
        · rw [List.mem_append]
          rintro (h | h)
          · exact hin h
          · rw [List.mem_map] at h
            obtain ⟨e', he', h⟩ := h
            have hp := List.mem_of_mem_filter he'
            rw [hl, List.map_append, List.map_cons, List.nodup_append] at hnd
            exact hnd.2.2 _ (List.mem_map_of_mem (f := fun x => x.1) hp) e.1 (by simp) h)
  obtain ⟨⟨f', hf', hf2'⟩, hcnt⟩ := h2
  obtain ⟨ptr', e3, r3⟩ := hp.wr_nat s2.2 (i := i + 1) (by omega)
  rw [show ((i + 1 : Nat) : Int) = (i : Int) + 1 by omega] at e3
  refine ⟨s2.1, ptr', ?_, ?_, f', hf', fun k hk => by have := (hf2' k hk).1; omega⟩
  · unfold addCntRow
    simp only [Csr.arrs, hp1, hp2, hq1, hq2, Option.bind_eq_bind, Option.bind_some]
    simp only [Option.bind_eq_bind] at l1 l2
    rw [l1, e1, Option.bind_some, l2, e2, Option.bind_some, e3]
    rfl
  · rw [hcnt] at r3
    have : ((A.cols i ++ (List.filter (fun e => decide (e.1 ∉ A.cols i)) (B.row i)).map
        (·.1)).length : Int) = (addLen A B i : Int) := by
      simp [addLen, newB, Csr.cols]
    rw [this] at r3
    exact r3

/-- prefix sum of row counts -/
theorem prefixSum_ok {m : Nat} {start : Int} {ptr : List Int} {p : Nat → Int}
    (hp : Rep ptr (m + 1) p) (h0 : p 0 = start) :
    ∃ ptr', prefixSum m start ptr
        = some (start + ((List.range m).map fun r => p (r + 1)).sum, ptr') ∧
      Rep ptr' (m + 1) (fun k => start + ((List.range k).map fun r => p (r + 1)).sum) := by
  unfold prefixSum
  obtain ⟨s, e, h1, h2⟩ := forC_inv_off (a := 1) (b := (m : Int) + 1) (n := m)
    (f := fun i (s : Int × List Int) => do
      let c ← rd s.2 i
      let ptr ← wr s.2 i (s.1 + c)
      some (s.1 + c, ptr)) (s := (start, ptr))
    (fun t (s : Int × List Int) => s.1 = start + ((List.range t).map fun r => p (r + 1)).sum ∧
      Rep s.2 (m + 1) (fun k => if k ≤ t then start + ((List.range k).map fun r => p (r + 1)).sum
        else p k)) (by omega)
    (by
      refine ⟨by simp, hp.congr ?_⟩
      intro k hk
      split
      · have : k = 0 := by omega
        subst this; simp [h0]
      · rfl)
    (by
      rintro t ⟨a, q⟩ ht ⟨ha, hq⟩
      have hr := hq.rd_nat (i := t + 1) (by omega)
      obtain ⟨q', e1, r1⟩ := hq.wr_nat (a + p (t + 1)) (i := t + 1) (by omega)
      rw [show ((t + 1 : Nat) : Int) = 1 + (t : Int) by omega] at hr e1
      rw [if_neg (by omega)] at hr
      refine ⟨(a + p (t + 1), q'), by simp [hr, e1], ?_, r1.congr ?_⟩
      · have ha : a = _ := ha
        simp [List.range_succ, ha, add_assoc]
      · intro k hk
        by_cases e : k = t + 1
        · subst e
          have ha : a = _ := ha
          rw [Function.update_self, if_pos (le_refl _)]
          simp [List.range_succ, ha, add_assoc]
        · rw [Function.update_of_ne e]
          by_cases hkt : k ≤ t
          · rw [if_pos hkt, if_pos (by omega)]
          · rw [if_neg hkt, if_neg (by omega)])
  refine ⟨s.2, ?_, h2.congr ?_⟩
  · rw [e, ← h1]
  · intro k hk
    rw [if_pos (by omega)]

theorem sum_cast_len (A B : Csr R) (p : Nat → Int) (m k : Nat) (hk : k ≤ m)
    (h : ∀ r, r < m → p (r + 1) = (addLen A B r : Int)) :
    ((List.range k).map fun r => p (r + 1)).sum = (addOff A B k : Int) := by
  induction k with
  | zero => simp [addOff]
  | succ k ih =>
    rw [List.range_succ, List.map_append, List.sum_append, ih (by omega), addOff_succ]
    simp [h k (by omega)]

/-- The counting stage. -/
theorem addCount_ok {w : Nat} {th : Threads} {A B : Csr R} (hth : th.Ok w A.m) (hA : A.WF)
    (hB : B.WF) (hm : B.m = A.m) (hn : B.n = A.n) (hnd : B.NoDup) (g : Nat → Int) :
    ∃ ptr, Rep ptr (A.m + 1) (fun k => A.base + (addOff A B k : Int)) ∧
      addCount w th A.m A.n A.arrs B.arrs (alloc (A.m + 1) g)
        = if sumOverflow 64 w (A.base + (addOff A B A.m : Int)) then some (.error .invalidSize)
          else some (.ok ptr) := by
  have hrep : Rep (alloc (A.m + 1) g) (A.m + 1) g := Rep.of_map
  obtain ⟨p0, e0, r0⟩ := hrep.wr_nat A.base (i := 0) (by omega)
  obtain ⟨p1, e1, f, hf, hf0, hf1⟩ := team_inv (w := w) (T := th.team) (m := A.m)
    (order := th.ord1) (loc := List.replicate (A.n + 1) (-1)) (body := addCntRow A.arrs B.arrs)
    (s := p0) hth.team hth.ov1 hth.ord1
    (P := fun S ptr => ∃ f, Rep ptr (A.m + 1) f ∧ f 0 = A.base ∧
      ∀ r, r < A.m → S r → f (r + 1) = (addLen A B r : Int))
    (Q := fun i l => ∃ f, Rep l (A.n + 1) f ∧ ∀ k, k < A.n + 1 → f k < (i : Int))
    ⟨_, r0, by simp, fun _ _ h => h.elim⟩
    (by
      intro i
      refine ⟨fun _ => -1, ⟨by simp, ?_⟩, by intro k _; show (-1 : Int) < i; omega⟩
      intro k hk
      rw [List.getElem?_replicate, if_pos hk])
    (by
      rintro S i s l hi hS ⟨f, hf, hf0, hf1⟩ ⟨q, hq, hq2⟩
      obtain ⟨nz', ptr', h1, h2, h3⟩ := addCntRow_ok hA hB hm hn hi (hnd i (by omega)) hq hq2 hf
      refine ⟨nz', ptr', h1, ⟨_, h2, ?_, ?_⟩, h3⟩
      · rw [Function.update_of_ne (by omega), hf0]
      · intro r hr hs
        by_cases e : r = i
        · subst e; rw [Function.update_self]
        · rw [Function.update_of_ne (by omega)]
          exact hf1 r hr (hs.resolve_right e))
  obtain ⟨p2, e2, r2⟩ := prefixSum_ok hf hf0
  have hlen := fun k hk => sum_cast_len A B f A.m k hk (fun r hr => hf1 r hr hr)
  rw [hlen A.m (le_refl _)] at e2
  refine ⟨p2, r2.congr ?_, ?_⟩
  · intro k hk; rw [hlen k (by omega)]
  · unfold addCount
    have t1 : (((A.n : Int) + 1).toNat) = A.n + 1 := by omega
    rw [show wr (alloc (A.m + 1) g) 0 A.arrs.base = some p0 from e0, Option.bind_eq_bind,
      Option.bind_some, t1, e1, Option.bind_eq_bind, Option.bind_some]
    rw [show A.arrs.base = A.base from rfl, e2]
    rfl

/-! ### the main region -/

variable [Semiring R]

/-- the rows done so far are in place -/
def RowsDone (cj : R →+* R) (alpha : R) (A B : Csr R) (N : Nat) (S : Nat → Prop)
    (s : List Int × List R) : Prop :=
  s.1.length = N ∧ s.2.length = N ∧ ∀ r, r < A.m → S r → ∃ L, AddRowOk cj alpha A B r L ∧
    Win s.1 (addOff A B r) (L.map fun e => e.1 + A.base) ∧
    Win s.2 (addOff A B r) (L.map (·.2))

/-- row `i` is put in place and nothing else changes -/
theorem rowsDone_step (cj : R →+* R) (alpha : R) {A B : Csr R} (hA : A.WF) (hB : B.WF)
    (hm : B.m = A.m) (hn : B.n = A.n) {N i : Nat} (hi : i < A.m)
    (hnd : ((B.row i).map (·.1)).Nodup) (hN : addOff A B A.m ≤ N) {S : Nat → Prop}
    {s : List Int × List R} (hS : ¬ S i) (h : RowsDone cj alpha A B N S s) {l : AddLoc}
    (hl : LocOk A.n i l) (hidx : l.idx = (addOff A B i : Int)) :
    ∃ st', addMerge cj alpha A.arrs B.arrs (i : Int) ⟨l, s.1, s.2⟩ = some st' ∧
      RowsDone cj alpha A B N (fun r => S r ∨ r = i) (st'.ind, st'.val) ∧
      LocOk A.n (i + 1) st'.loc ∧ st'.loc.idx = (addOff A B (i + 1) : Int) := by
  obtain ⟨h1, h2, h3⟩ := h
  have hcap : addOff A B i + addLen A B i ≤ N := by
    have := addOff_mono A B (show i + 1 ≤ A.m by omega)
    rw [addOff_succ] at this
    omega
  obtain ⟨st', L, e, hok, hinv⟩ := addMerge_ok cj alpha hA hB hm hn hi hnd
    (st := ⟨l, s.1, s.2⟩) (s := addOff A B i) hl hidx (by simp only; omega) (by simp only; omega)
  refine ⟨st', e, ⟨hinv.li.trans h1, hinv.lv.trans h2, ?_⟩, ?_, ?_⟩
  · intro r hr hs
    by_cases er : r = i
    · subst er
      exact ⟨L, hok, hinv.wi, hinv.wv⟩
    · obtain ⟨L', ok', w1, w2⟩ := h3 r hr (hs.resolve_right er)
      have hdisj : addOff A B r + addLen A B r ≤ addOff A B i ∨
          addOff A B i + addLen A B i ≤ addOff A B r := by
        rcases Nat.lt_or_gt_of_ne er with h | h
        · have := addOff_mono A B (show r + 1 ≤ i by omega)
          rw [addOff_succ] at this; exact Or.inl this
        · have := addOff_mono A B (show i + 1 ≤ r by omega)
          rw [addOff_succ] at this; exact Or.inr this
      have hL' := ok'.length
      refine ⟨L', ok', w1.frame ?_, w2.frame ?_⟩
      · intro q hq1 hq2
        rw [List.length_map] at hq2
        exact hinv.fi q (by omega)
      · intro q hq1 hq2
        rw [List.length_map] at hq2
        exact hinv.fv q (by omega)
  · obtain ⟨f, hf, hf2⟩ := hinv.marks
    obtain ⟨g, hg, _⟩ := hinv.recs
    exact ⟨⟨f, hf, fun k hk => by have := (hf2 k hk).1; push_cast; omega⟩, g, hg⟩
  · rw [hinv.idx, hok.length, addOff_succ]

theorem locOk0 (n i : Nat) : LocOk n i (addLoc0 n) := by
  have t1 : (((n : Int) + 1).toNat) = n + 1 := by omega
  refine ⟨⟨fun _ => -1, ⟨by simp [addLoc0, t1], ?_⟩, fun k _ => by show (-1 : Int) < i; omega⟩, fun _ => -1,
    by simp [addLoc0, t1], ?_⟩
  · intro k hk
    simp only [addLoc0, t1]
    rw [List.getElem?_replicate, if_pos hk]
  · intro k hk
    simp only [addLoc0, t1]
    rw [List.getElem?_replicate, if_pos hk]

/-- the finished arrays are those of a well-formed matrix -/
theorem rowsDone_csr (cj : R →+* R) (alpha : R) {A B : Csr R} (hA : A.WF) (hB : B.WF)
    (hn : B.n = A.n) {N : Nat} (hN : addOff A B A.m ≤ N)
    {s : List Int × List R} (h : RowsDone cj alpha A B N (fun r => r < A.m) s) {ptr : List Int}
    (hp : Rep ptr (A.m + 1) (fun k => A.base + (addOff A B k : Int))) :
    ∃ C : Csr R, C.arrs = ⟨A.base, ptr, s.1.take (addOff A B A.m), s.2.take (addOff A B A.m)⟩ ∧
      C.m = A.m ∧ C.n = A.n ∧ C.WF ∧ ∀ i, i < A.m → AddRowOk cj alpha A B i (C.row i) := by
  obtain ⟨h1, h2, h3⟩ := h
  have hch : ∀ r, ∃ L, r < A.m → AddRowOk cj alpha A B r L ∧
      Win s.1 (addOff A B r) (L.map fun e => e.1 + A.base) ∧
      Win s.2 (addOff A B r) (L.map (·.2)) := by
    intro r
    by_cases hr : r < A.m
    · obtain ⟨L, hL⟩ := h3 r hr hr
      exact ⟨L, fun _ => hL⟩
    · exact ⟨[], fun h => absurd h hr⟩
  choose rows hrows using hch
  have hoff : ∀ k, k ≤ A.m → offs rows k = addOff A B k := by
    intro k
    induction k with
    | zero => intro _; simp [addOff]
    | succ k ih =>
      intro hk
      rw [offs_succ, addOff_succ, ih (by omega), (hrows k (by omega)).1.length]
  have hcsr := csr_of_win (m := A.m) (n := A.n) (base := A.base) (rows := rows) (ptr := ptr)
    (ind := s.1) (val := s.2)
    (by
      rw [hp.eq_map]
      apply List.map_congr_left
      intro i hi
      rw [hoff i (by have := List.mem_range.mp hi; omega)])
    (by rw [hoff _ (le_refl _)]; omega) (by rw [hoff _ (le_refl _)]; omega)
    (fun i hi => by rw [hoff i (by omega)]; exact (hrows i hi).2.1)
    (fun i hi => by rw [hoff i (by omega)]; exact (hrows i hi).2.2)
  refine ⟨mkCsr A.m A.n A.base rows, ?_, rfl, rfl, ?_, ?_⟩
  · rw [← hcsr, hoff _ (le_refl _)]
    rfl
  · apply mkCsr_wf hA.base01
    intro i hi e he
    have hc := (hrows i hi).1.cols
    have : e.1 ∈ (rows i).map (·.1) := List.mem_map_of_mem he
    rw [hc, List.mem_append] at this
    rcases this with h | h
    · rw [Csr.cols, List.mem_map] at h
      obtain ⟨e', he', h⟩ := h
      have := Csr.row_range hA he'
      omega
    · rw [List.mem_map] at h
      obtain ⟨e', he', h⟩ := h
      have := Csr.row_range hB (List.mem_of_mem_filter he')
      omega
  · intro i hi
    rw [mkCsr_row hi]
    exact (hrows i hi).1

/-- **aoclsparse_add_csr_ref** -/
theorem addCsr_ok {w : Nat} {th : Threads} (gp gi : Nat → Int) (gv : Nat → R) (cj : R →+* R)
    (alpha : R) {A B : Csr R} (hth : th.Ok w A.m) (hA : A.WF)
    (hB : B.WF) (hm : B.m = A.m) (hn : B.n = A.n) (hnd : B.NoDup)
    (hov : sumOverflow 64 w (A.base + (addOff A B A.m : Int)) = false) :
    ∃ C : Csr R, addCsr w th gp gi gv cj A.m A.n A.nnz B.nnz A.arrs alpha B.arrs
        = some (.ok C.arrs) ∧
      C.m = A.m ∧ C.n = A.n ∧ C.base = A.base ∧ C.WF ∧
      ∀ i, i < A.m → AddRowOk cj alpha A B i (C.row i) := by
  have t1 : (((A.m : Int) + 1).toNat) = A.m + 1 := by omega
  unfold addCsr
  by_cases h0 : (A.m : Int) = 0 ∨ (A.n : Int) = 0 ∨ ((A.nnz : Int) = 0 ∧ (B.nnz : Int) = 0)
  · rw [if_pos h0]
    have hrA : ∀ i, A.row i = [] := by
      intro i
      by_contra hne
      obtain ⟨e, he⟩ := List.exists_mem_of_ne_nil _ hne
      have h1 := Csr.row_range hA he
      by_cases hi : i < A.m
      · have hl := Csr.row_length hA hi
        have := hA.lo (i := i) (by omega)
        have := hA.hi (i := i + 1) (by omega)
        have hp : 0 < (A.row i).length := List.length_pos_of_mem he
        simp only [Csr.nnz] at h0
        omega
      · rw [Csr.row_of_ge hA (by omega)] at he
        simp at he
    have hrB : ∀ i, B.row i = [] := by
      intro i
      by_contra hne
      obtain ⟨e, he⟩ := List.exists_mem_of_ne_nil _ hne
      have h1 := Csr.row_range hB he
      by_cases hi : i < B.m
      · have hl := Csr.row_length hB hi
        have := hB.lo (i := i) (by omega)
        have := hB.hi (i := i + 1) (by omega)
        have hp : 0 < (B.row i).length := List.length_pos_of_mem he
        simp only [Csr.nnz] at h0
        omega
      · rw [Csr.row_of_ge hB (by omega)] at he
        simp at he
    have hof : ∀ k, offs (fun _ => ([] : List (Int × R))) k = 0 := by
      intro k; simp [offs]
    refine ⟨mkCsr A.m A.n A.base (fun _ => []), ?_, rfl, rfl, rfl,
      mkCsr_wf hA.base01 (fun _ _ e he => by simp at he), ?_⟩
    · have : (mkCsr A.m A.n A.base (fun _ => ([] : List (Int × R)))).ptr
          = List.replicate (A.m + 1) A.base := by
        apply List.ext_getElem?
        intro k
        by_cases hk : k < A.m + 1
        · simp [mkCsr, hof, hk]
        · simp [mkCsr, hk]
      have h2 : (List.range A.m).flatMap (fun _ => ([] : List (Int × R))) = [] := by simp
      simp only [Csr.arrs, this, t1]
      simp [mkCsr]
    · intro i hi
      rw [mkCsr_row hi]
      refine ⟨by simp [Csr.cols, hrA, newB, hrB], ?_⟩
      intro j
      rw [mat_eq_colSum, mat_eq_colSum, hrA, hrB]
      simp [colSum]
  · rw [if_neg h0]
    split
    · obtain ⟨ptr, hp, hcnt⟩ := addCount_ok hth hA hB hm hn hnd gp
      rw [t1, hcnt, hov]
      simp only [Bool.false_eq_true, if_false, Option.bind_eq_bind, Option.bind_some]
      have hr := hp.rd_nat (i := A.m) (by omega)
      have t2 : (A.base + (addOff A B A.m : Int) - A.base).toNat = addOff A B A.m := by omega
      rw [hr, Option.bind_some, show A.arrs.base = A.base from rfl, t2]
      obtain ⟨r, e, hd⟩ := team_inv (w := w) (T := th.req) (m := A.m)
        (order := th.ord2) (loc := addLoc0 (A.n : Int))
        (body := addRowPre cj alpha A.arrs B.arrs ptr)
        (s := (alloc (addOff A B A.m) gi, alloc (addOff A B A.m) gv)) hth.req hth.ov2 hth.ord2
        (P := RowsDone cj alpha A B (addOff A B A.m)) (Q := LocOk A.n)
        ⟨by simp, by simp, fun _ _ h => h.elim⟩ (locOk0 A.n)
        (by
          rintro S i s l hi hS hP hQ
          obtain ⟨st', e, h1, h2, h3⟩ := rowsDone_step cj alpha hA hB hm hn hi
            (hnd i (by omega)) (le_refl _) hS hP (l := { l with idx := addOff A B i }) hQ rfl
          refine ⟨st'.loc, (st'.ind, st'.val), ?_, h1, h2⟩
          unfold addRowPre
          rw [hp.rd_nat (i := i) (by omega)]
          simp only [Option.bind_eq_bind, Option.bind_some]
          rw [show A.base + (addOff A B i : Int) - A.arrs.base = (addOff A B i : Int) by
            simp [Csr.arrs], e]
          rfl)
      obtain ⟨C, c1, c2, c3, c4, c5⟩ := rowsDone_csr cj alpha hA hB hn (le_refl _) hd hp
      have l1 : r.1.take (addOff A B A.m) = r.1 := List.take_of_length_le (by rw [hd.1])
      have l2 : r.2.take (addOff A B A.m) = r.2 := List.take_of_length_le (by rw [hd.2.1])
      rw [l1, l2] at c1
      refine ⟨C, ?_, c2, c3, congrArg Arrs.base c1, c4, c5⟩
      rw [e, Option.bind_some, c1]
    · rename_i hc
      have hreq : th.req = 1 := by omega
      have hord : th.ord2 = [0] := by
        have := hth.ord2
        rw [hreq] at this
        exact List.perm_singleton.mp (by simpa using this)
      have hrep : Rep (alloc (A.m + 1) gp) (A.m + 1) gp := Rep.of_map
      obtain ⟨p0, e0, r0⟩ := hrep.wr_nat A.base (i := 0) (by omega)
      have t3 : ((A.nnz : Int) + (B.nnz : Int)).toNat = A.nnz + B.nnz := by omega
      have hcap := addOff_le A B hA hB hm
      obtain ⟨r, e, ⟨f, hf, hf2⟩, hd, -⟩ := forC_inv_nat (n := A.m)
        (f := addRowSeq cj alpha A.arrs B.arrs)
        (s := (addLoc0 (A.n : Int), p0, alloc (A.nnz + B.nnz) gi, alloc (A.nnz + B.nnz) gv))
        (fun i (s : AddLoc × List Int × List Int × List R) =>
          (∃ f, Rep s.2.1 (A.m + 1) f ∧ ∀ k, k ≤ i → f k = A.base + (addOff A B k : Int)) ∧
          RowsDone cj alpha A B (A.nnz + B.nnz) (fun r => r < i) s.2.2 ∧ LocOk A.n i s.1 ∧
          s.1.idx = (addOff A B i : Int))
        ⟨⟨_, r0, by
            intro k hk
            have : k = 0 := by omega
            subst this
            simp [addOff]⟩, ⟨by simp, by simp, fun r hr h => absurd h (by omega)⟩, locOk0 _ _, by
            simp [addLoc0, addOff]⟩
        (by
          rintro i ⟨l, p, s⟩ hi ⟨⟨f, hf, hf2⟩, hP, hQ, hidx⟩
          obtain ⟨st', e, h1, h2, h3⟩ := rowsDone_step cj alpha hA hB hm hn hi
            (hnd i (by omega)) hcap (S := fun r => r < i) (by omega) hP hQ hidx
          obtain ⟨p', e4, r4⟩ := hf.wr_nat (st'.loc.idx + A.base) (i := i + 1) (by omega)
          refine ⟨(st'.loc, p', st'.ind, st'.val), ?_, ⟨_, r4, ?_⟩, ?_, h2, h3⟩
          · unfold addRowSeq
            simp only [Option.bind_eq_bind]
            rw [e, Option.bind_some]
            rw [show ((i + 1 : Nat) : Int) = (i : Int) + 1 by omega] at e4
            rw [show A.arrs.base = A.base from rfl, e4]
            rfl
          · intro k hk
            by_cases ek : k = i + 1
            · subst ek
              rw [Function.update_self, h3, add_comm]
            · rw [Function.update_of_ne ek]
              exact hf2 k (by omega)
          · refine ⟨h1.1, h1.2.1, ?_⟩
            intro r hr hs
            exact h1.2.2 r hr (by omega))
      obtain ⟨C, c1, c2, c3, c4, c5⟩ := rowsDone_csr cj alpha hA hB hn hcap hd
        (hf.congr (fun k hk => hf2 k (by omega)))
      refine ⟨C, ?_, c2, c3, congrArg Arrs.base c1, c4, c5⟩
      rw [t1, t3, show A.arrs.base = A.base from rfl,
        show wr (alloc (A.m + 1) gp) 0 A.base = some p0 from e0]
      simp only [Option.bind_eq_bind, Option.bind_some]
      have hteam : inTeam w th.ord2 th.req (A.m : Int) (addLoc0 (A.n : Int))
          (addRowSeq cj alpha A.arrs B.arrs)
          (p0, alloc (A.nnz + B.nnz) gi, alloc (A.nnz + B.nnz) gv) = some r.2 := by
        have hov2 := hth.ov2
        rw [hreq] at hov2
        rw [hord, hreq]
        unfold inTeam
        rw [List.foldlM_cons]
        unfold threadRows
        rw [chk_of_le (by simp) (by push_cast; omega), chk_of_le (by omega) (by simpa using hov2)]
        simp only [Option.bind_eq_bind, Option.bind_some, Nat.cast_zero, mul_zero, Nat.cast_one,
          Int.tdiv_one, zero_add, mul_one]
        rw [e]
        rfl
      rw [hteam, Option.bind_some, hf.rd_nat (i := A.m) (by omega), Option.bind_some,
        hf2 A.m (le_refl _), c1]
      rw [show (A.base + (addOff A B A.m : Int) - A.base).toNat = addOff A B A.m by omega]

end Verif
