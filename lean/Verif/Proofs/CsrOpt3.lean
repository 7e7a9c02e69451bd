/-
The clean copy: filling the missing diagonal.
-/
import Verif.Proofs.CsrOpt2

namespace Verif
open Model

variable {R : Type}

/-- row `i` lacks a diagonal entry that belongs to it -/
def lacks (n i : Nat) (S : List (Int × R)) : Prop := dgPart i S = [] ∧ i < n

instance (n i : Nat) (S : List (Int × R)) : Decidable (lacks n i S) := by
  unfold lacks
  have : Decidable (dgPart i S = []) := by
    match dgPart i S with
    | [] => exact isTrue rfl
    | _ :: _ => exact isFalse (by simp)
  infer_instance

/-- row `i` with its missing diagonal -/
def filled [Zero R] (n i : Nat) (S : List (Int × R)) : List (Int × R) :=
  if lacks n i S then loPart i S ++ [((i : Int), 0)] ++ upPart i S else S

/-- number of rows before `i` lacking their diagonal -/
def lackCount (n : Nat) (rows : Nat → List (Int × R)) (i : Nat) : Nat :=
  ((List.range i).map fun k => if lacks n k (rows k) then 1 else 0).sum

theorem lackCount_succ (n : Nat) (rows : Nat → List (Int × R)) (i : Nat) :
    lackCount n rows (i + 1) = lackCount n rows i + if lacks n i (rows i) then 1 else 0 := by
  simp [lackCount, List.range_succ]

theorem lackCount_mono (n : Nat) (rows : Nat → List (Int × R)) {i j : Nat} (h : i ≤ j) :
    lackCount n rows i ≤ lackCount n rows j := by
  induction h with
  | refl => exact Nat.le_refl _
  | step _ ih => rw [lackCount_succ]; omega

theorem lackCount_zero {n : Nat} {rows : Nat → List (Int × R)} {m : Nat}
    (h : lackCount n rows m = 0) : ∀ i, i < m → ¬ lacks n i (rows i) := by
  intro i hi hl
  have := lackCount_mono n rows (show i + 1 ≤ m by omega)
  rw [lackCount_succ, if_pos hl] at this
  omega

theorem filled_length [Zero R] {n i : Nat} {S : List (Int × R)} (hg : GroupedRow i S) :
    (filled n i S).length = S.length + if lacks n i S then 1 else 0 := by
  unfold filled
  split
  · rename_i h
    conv_rhs => rw [grouped_split hg]
    simp [h.1]
    omega
  · simp

theorem offs_filled [Zero R] {n m : Nat} {rows : Nat → List (Int × R)}
    (hg : ∀ i, i < m → GroupedRow i (rows i)) {i : Nat} (hi : i ≤ m) :
    offs (fun k => filled n k (rows k)) i = offs rows i + lackCount n rows i := by
  induction i with
  | zero => rfl
  | succ i ih =>
    rw [offs_succ, offs_succ, lackCount_succ, ih (by omega), filled_length (hg i (by omega))]
    omega

theorem filled_perm [Zero R] {n i : Nat} {S : List (Int × R)} (hg : GroupedRow i S) :
    (filled n i S).Perm (S ++ if lacks n i S then [((i : Int), 0)] else []) := by
  unfold filled
  split
  · rename_i h
    have := grouped_split hg
    rw [h.1, List.append_nil] at this
    conv_rhs => rw [this]
    rw [List.append_assoc, List.append_assoc]
    exact List.Perm.append_left _ List.perm_append_comm
  · simp

theorem lacks_iff {A : Csr R} {i : Nat} :
    lacks A.n i (A.row i) ↔ (i : Int) ∉ A.cols i ∧ i < A.n := by
  unfold lacks
  constructor
  · rintro ⟨h, hn⟩
    refine ⟨?_, hn⟩
    intro hm
    obtain ⟨e, he, h1⟩ := List.mem_map.mp hm
    have : e ∈ dgPart i (A.row i) := mem_dgPart.mpr ⟨he, h1⟩
    rw [h] at this
    simp at this
  · rintro ⟨h, hn⟩
    refine ⟨List.eq_nil_iff_forall_not_mem.mpr ?_, hn⟩
    intro e he
    have := mem_dgPart.mp he
    exact h (List.mem_map.mpr ⟨e, this.1, this.2⟩)

/-! ### searching for missing diagonals -/

theorem scanDiag_spec {A : Csr R} (hA : A.WF) {i : Nat} (hi : i < A.m)
    (hg : GroupedRow i (A.row i)) :
    ∃ q, scanDiag A.base i A.ind (A.p i - A.base) (A.p (i + 1) - A.base)
        = some (decide (dgPart i (A.row i) ≠ []), q) ∧
      (dgPart i (A.row i) = [] → q = A.p i - A.base + (loPart i (A.row i)).length) := by
  have hseg := A.seg_row hA hi
  have hlen := Csr.row_length hA hi
  have hf := hseg.forE (σ := Unit) (ε := Bool × Int) (fun idx c _ =>
    if (i : Int) = c - A.base then .error (true, idx)
      else if c - A.base > i then .error (false, idx) else .ok ()) ()
  unfold scanDiag
  rw [hf]
  simp only [add_sub_cancel_right, Option.bind_eq_bind, Option.bind_some]
  have hsp := grouped_split hg
  have hl : (A.row i).length = (loPart i (A.row i)).length + (dgPart i (A.row i)).length
      + (upPart i (A.row i)).length := by
    conv_lhs => rw [hsp]
    simp [Nat.add_assoc]
  have happ := scanE_append (fun idx j (_ : Unit) => if (i : Int) = j then
      (.error (true, idx) : Except (Bool × Int) Unit)
      else if j > (i : Int) then .error (false, idx) else .ok ())
      (A.p i - A.base) (loPart i (A.row i)) (dgPart i (A.row i) ++ upPart i (A.row i)) ()
  have hskip : scanE (fun idx j (_ : Unit) => if (i : Int) = j then
      (.error (true, idx) : Except (Bool × Int) Unit)
      else if j > (i : Int) then .error (false, idx) else .ok ())
      (A.p i - A.base) (loPart i (A.row i)) () = .ok () := scanE_skip (by
    intro e he idx
    have := (mem_loPart.mp he).2
    rw [if_neg (by omega), if_neg (by omega)])
  rw [hskip, ← List.append_assoc, ← hsp] at happ
  rw [happ]
  simp only
  match hD : dgPart i (A.row i), hU : upPart i (A.row i) with
  | [], [] =>
    rw [hD, hU] at hl
    simp at hl
    refine ⟨_, by simp [scanE]; rfl, ?_⟩
    intro _
    split <;> omega
  | [], u :: U =>
    have : (i : Int) < u.1 := (mem_upPart.mp (by rw [hU]; simp)).2
    simp only [List.nil_append, scanE]
    rw [if_neg (by omega), if_pos (by omega)]
    exact ⟨_, by simp, fun _ => rfl⟩
  | e :: D, U =>
    have : e.1 = (i : Int) := (mem_dgPart.mp (by rw [hD]; simp)).2
    simp only [List.cons_append, scanE]
    rw [if_pos (by omega)]
    exact ⟨_, by simp; rfl, by simp⟩

/-- where row `i` must get its diagonal in the new arrays; -1 if nothing is missing -/
def missAt [Zero R] (n : Nat) (rows : Nat → List (Int × R)) (i : Nat) : Int :=
  if lacks n i (rows i) then
    (offs (fun k => filled n k (rows k)) i : Int) + (loPart i (rows i)).length
  else -1

theorem fillMissing_spec [Zero R] {A : Csr R} (hA : A.WF) (hg : A.Grouped) :
    fillMissing A.m A.n A.base A.ptr A.ind
      = some ((List.range A.m).map (missAt A.n A.row), (lackCount A.n A.row A.m : Int)) := by
  unfold fillMissing
  obtain ⟨s, h1, h2, h3⟩ := forC_inv_nat (n := A.m) (f := missRow A.n A.base A.ptr A.ind)
    (s := (List.replicate (A.m : Int).toNat (-1), 0))
    (P := fun i s => s.2 = (lackCount A.n A.row i : Int) ∧
      Rep s.1 A.m (fun k => if k < i then missAt A.n A.row k else -1))
    ⟨rfl, by simp, by intro k hk; simp [hk]⟩ (by
      rintro i ⟨md, c⟩ hi ⟨rfl, p⟩
      have e1 := hA.rd_ptr (i := i) (by omega)
      have e2 := hA.rd_ptr (i := i + 1) (by omega)
      rw [show ((i + 1 : Nat) : Int) = (i : Int) + 1 by push_cast; rfl] at e2
      obtain ⟨q, hq, hq2⟩ := scanDiag_spec hA hi (hg i hi)
      unfold missRow
      simp only [e1, e2, Option.bind_eq_bind, Option.bind_some, hq]
      by_cases hl : lacks A.n i (A.row i)
      · rw [if_pos ⟨by simp [hl.1], by exact_mod_cast hl.2⟩]
        have hv : q + (lackCount A.n A.row i : Int) = missAt A.n A.row i := by
          rw [hq2 hl.1, hA.offs_row (by omega)]
          unfold missAt
          rw [if_pos hl, offs_filled (m := A.m) (fun k hk => hg k hk) (by omega)]
          push_cast
          ring
        obtain ⟨md', hw1, hw2⟩ := p.wr_nat (i := i) (missAt A.n A.row i) hi
        rw [hv, hw1]
        refine ⟨_, rfl, ?_, ?_⟩
        · rw [lackCount_succ, if_pos hl]; push_cast; rfl
        · refine hw2.congr ?_
          intro k hk
          by_cases hki : k = i
          · subst hki; simp
          · rw [Function.update_of_ne hki]
            by_cases h : k < i
            · rw [if_pos h, if_pos (by omega)]
            · rw [if_neg h, if_neg (by omega)]
      · rw [if_neg (by
          rintro ⟨h1, h2⟩
          simp at h1
          exact hl ⟨h1, by exact_mod_cast h2⟩)]
        refine ⟨_, rfl, ?_, ?_⟩
        · rw [lackCount_succ, if_neg hl]; rfl
        · refine p.congr ?_
          intro k hk
          by_cases hki : k = i
          · subst hki
            simp [missAt, hl]
          · by_cases h : k < i
            · rw [if_pos h, if_pos (by omega)]
            · rw [if_neg h, if_neg (by omega)])
  rw [h1]
  congr 1
  ext1
  · simp only
    rw [h3.eq_map]
    apply List.map_congr_left
    intro k hk
    rw [if_pos (List.mem_range.mp hk)]
  · exact h2

/-! ### building the new rows -/

/-- arrays of capacity `N` holding the entries `T` so far, `a` diagonals added -/
def FS (N : Nat) (T : List (Int × R)) (a : Int) (s : FillSt R) : Prop :=
  Pre s.icol N (T.map (·.1)) ∧ Pre s.aval N (T.map (·.2)) ∧ s.cur = T.length ∧ s.added = a

theorem FS.ins [Zero R] {N : Nat} {T : List (Int × R)} {a : Int} {s : FillSt R} (h : FS N T a s)
    (hl : T.length < N) (i : Int) :
    ∃ s', fillIns i s = some s' ∧ FS N (T ++ [(i, 0)]) (a + 1) s' := by
  obtain ⟨h1, h2, h3, h4⟩ := h
  obtain ⟨x, q1, q2⟩ := h1.wr i (k := s.cur) (by rw [h3]; simp) (by simpa using hl)
  obtain ⟨y, r1, r2⟩ := h2.wr 0 (k := s.cur) (by rw [h3]; simp) (by simpa using hl)
  refine ⟨⟨x, y, s.added + 1, s.cur + 1⟩, by simp [fillIns, q1, r1], by simpa using q2,
    by simpa using r2, by simp [h3], by simp [h4]⟩

theorem FS.put {N : Nat} {T : List (Int × R)} {a : Int} {s : FillSt R} (h : FS N T a s)
    (hl : T.length < N) (c : Int) (v : R) :
    ∃ s', fillPut c v s = some s' ∧ FS N (T ++ [(c, v)]) a s' := by
  obtain ⟨h1, h2, h3, h4⟩ := h
  obtain ⟨x, q1, q2⟩ := h1.wr c (k := s.cur) (by rw [h3]; simp) (by simpa using hl)
  obtain ⟨y, r1, r2⟩ := h2.wr v (k := s.cur) (by rw [h3]; simp) (by simpa using hl)
  refine ⟨⟨x, y, s.added, s.cur + 1⟩, by simp [fillPut, q1, r1], by simpa using q2,
    by simpa using r2, by simp [h3], by simp [h4]⟩

/-- one iteration of the inner loop -/
def fillStep [Zero R] (md i : Int) (s : FillSt R) (e : Int × R) : Option (FillSt R) :=
  (fillTest md i s).bind fun s => fillPut e.1 e.2 s

theorem copyRun [Zero R] {N : Nat} {md i : Int} {S : List (Int × R)} {T : List (Int × R)} {a : Int}
    {s : FillSt R} (h : FS N T a s) (hl : T.length + S.length ≤ N)
    (hne : ∀ t : Nat, t < S.length → ((T.length + t : Nat) : Int) ≠ md) :
    ∃ s', S.foldlM (fillStep md i) s = some s' ∧ FS N (T ++ S) a s' := by
  induction S generalizing T s with
  | nil => exact ⟨s, rfl, by simpa using h⟩
  | cons e S ih =>
    simp only [List.length_cons] at hl hne
    have h0 := hne 0 (by omega)
    obtain ⟨s1, q1, q2⟩ := h.put (by omega) e.1 e.2
    have hstep : fillStep md i s e = some s1 := by
      unfold fillStep fillTest
      rw [if_neg (by rw [h.2.2.1]; simpa using h0)]
      exact q1
    obtain ⟨s2, r1, r2⟩ := ih q2 (by simp; omega) (by
      intro t ht
      have := hne (t + 1) (by omega)
      simp only [List.length_append, List.length_singleton]
      rwa [show T.length + 1 + t = T.length + (t + 1) by omega])
    refine ⟨s2, ?_, by simpa using r2⟩
    rw [List.foldlM_cons, hstep]
    exact r1

theorem fillRow_inner [Zero R] {N n i : Nat} {S : List (Int × R)} {T : List (Int × R)} {a : Int}
    {s : FillSt R} (hg : GroupedRow i S) (h : FS N T a s)
    (hl : T.length + (filled n i S).length ≤ N) {md : Int}
    (hmd : md = if lacks n i S then (T.length : Int) + (loPart i S).length else -1) :
    ∃ s', (S.foldlM (fillStep md i) s).bind (fillTest md i) = some s' ∧
      FS N (T ++ filled n i S) (a + if lacks n i S then 1 else 0) s' := by
  by_cases hk : lacks n i S
  · rw [if_pos hk] at hmd
    have hfl := filled_length (n := n) hg
    rw [if_pos hk] at hfl
    have hsp := grouped_split hg
    rw [hk.1, List.append_nil] at hsp
    have hlen : S.length = (loPart i S).length + (upPart i S).length := by
      conv_lhs => rw [hsp]
      simp
    obtain ⟨s1, q1, q2⟩ := copyRun (md := md) (i := i) (S := loPart i S) h (by omega) (by
      intro t ht; subst hmd; push_cast; omega)
    have hfold : S.foldlM (fillStep md i) s = (upPart i S).foldlM (fillStep md i) s1 := by
      conv_lhs => rw [hsp]
      rw [List.foldlM_append, q1]
      rfl
    rw [hfold, if_pos hk]
    have hfil : filled n i S = loPart i S ++ [((i : Int), 0)] ++ upPart i S := by
      unfold filled; rw [if_pos hk]
    rw [hfil]
    obtain ⟨s2, r1, r2⟩ := q2.ins (by simp; omega) i
    have ht1 : fillTest md i s1 = some s2 := by
      unfold fillTest
      rw [if_pos (by rw [q2.2.2.1, hmd]; simp)]
      exact r1
    match hU : upPart i S with
    | [] =>
      refine ⟨s2, by simpa using ht1, by simpa using r2⟩
    | u :: U =>
      have hlu : (upPart i S).length = U.length + 1 := by rw [hU]; rfl
      obtain ⟨s3, v1, v2⟩ := r2.put (by simp; omega) u.1 u.2
      obtain ⟨s4, w1, w2⟩ := copyRun (md := md) (i := i) (S := U) v2 (by simp; omega) (by
        intro t ht; subst hmd; simp; omega)
      have hstep : fillStep md i s1 u = some s3 := by
        unfold fillStep
        rw [ht1]
        exact v1
      have ht4 : fillTest md i s4 = some s4 := by
        unfold fillTest
        rw [if_neg (by rw [w2.2.2.1, hmd]; simp; omega)]
      refine ⟨s4, ?_, ?_⟩
      · rw [List.foldlM_cons, hstep]
        simp only [Option.bind_eq_bind, Option.bind_some, w1, ht4]
      · simpa using w2
  · rw [if_neg hk] at hmd
    have hfil : filled n i S = S := by unfold filled; rw [if_neg hk]
    rw [hfil] at hl ⊢
    obtain ⟨s1, q1, q2⟩ := copyRun (md := md) (i := i) (S := S) h (by omega) (by
      intro t ht; subst hmd; omega)
    have ht : fillTest md i s1 = some s1 := by
      unfold fillTest
      rw [if_neg (by rw [q2.2.2.1, hmd]; omega)]
    refine ⟨s1, ?_, by rw [if_neg hk]; simpa using q2⟩
    rw [q1]
    exact ht

theorem fillDiag_spec [Zero R] {A : Csr R} (hA : A.WF) (hg : A.Grouped) (h0 : A.base = 0)
    (gi : Nat → Int) (gv : Nat → R) :
    fillDiag gi gv A.m A.n A.nnz 0 A.ptr A.ind A.val
      = some ((mkCsr A.m A.n 0 (fun k => filled A.n k (A.row k))).ptr,
          (mkCsr A.m A.n 0 (fun k => filled A.n k (A.row k))).ind,
          (mkCsr A.m A.n 0 (fun k => filled A.n k (A.row k))).val) := by
  unfold fillDiag
  have hfm := fillMissing_spec hA hg
  rw [h0] at hfm
  rw [hfm]
  simp only [Option.bind_eq_bind, Option.bind_some]
  have hgr : ∀ i, i < A.m → GroupedRow i (A.row i) := hg
  have hofs : ∀ i, i ≤ A.m → offs (fun k => filled A.n k (A.row k)) i
      = offs A.row i + lackCount A.n A.row i := fun i hi => offs_filled hgr hi
  have htot : offs A.row A.m = A.ind.length := by
    have e1 := hA.offs_row (i := A.m) (by omega)
    have e2 := hA.ptr_last
    omega
  by_cases hc : (lackCount A.n A.row A.m : Int) ≤ 0
  · rw [if_pos hc]
    have hz := lackCount_zero (show lackCount A.n A.row A.m = 0 by omega)
    have heq : mkCsr A.m A.n 0 (fun k => filled A.n k (A.row k)) = A := by
      have e := hA.eq_mkCsr
      rw [h0] at e
      conv_rhs => rw [e]
      apply mkCsr_congr
      intro k hk
      unfold filled
      rw [if_neg (hz k hk)]
    rw [heq]
  rw [if_neg hc]
  set N := A.ind.length + lackCount A.n A.row A.m with hN
  have hNt : offs (fun k => filled A.n k (A.row k)) A.m = N := by
    rw [hofs _ (le_refl _), htot]
  have hNi : (A.nnz : Int) + (lackCount A.n A.row A.m : Int) = (N : Int) := by
    rw [hN]; unfold Csr.nnz; push_cast; rfl
  rw [hNi]
  obtain ⟨s, hs1, hs2, hs3⟩ := forC_inv_nat (n := A.m)
    (f := fillRow 0 A.ptr A.ind A.val ((List.range A.m).map (missAt A.n A.row)))
    (s := (alloc ((A.m : Int) + 1).toNat gi,
      (⟨alloc (N : Int).toNat gi, alloc (N : Int).toNat gv, 0, 0⟩ : FillSt R)))
    (P := fun i s => Pre s.1 (A.m + 1)
        ((List.range i).map fun k => (offs (fun k => filled A.n k (A.row k)) k : Int)) ∧
      FS N ((List.range i).flatMap fun k => filled A.n k (A.row k))
        (lackCount A.n A.row i : Int) s.2)
    ⟨by simpa using alloc_pre (A.m + 1) gi, by simpa using alloc_pre N gi,
      by simpa using alloc_pre N gv, by simp, by simp [lackCount]⟩ (by
      rintro i ⟨pr, f⟩ hi ⟨p1, p2⟩
      simp only at p1 p2
      have e1 := hA.rd_ptr (i := i) (by omega)
      have e2 := hA.rd_ptr (i := i + 1) (by omega)
      rw [show ((i + 1 : Nat) : Int) = (i : Int) + 1 by push_cast; rfl] at e2
      have hpi := hA.offs_row (i := i) (by omega)
      rw [h0] at hpi
      obtain ⟨pr', q1, q2⟩ := p1.wr (offs (fun k => filled A.n k (A.row k)) i : Int) (k := i)
        (by simp) (by simp; omega)
      have emd : rd ((List.range A.m).map (missAt A.n A.row)) (i : Int)
          = some (missAt A.n A.row i) := by
        rw [rd_ofNat, List.getElem?_map, List.getElem?_range hi]; rfl
      have hlt : ((List.range i).flatMap fun k => filled A.n k (A.row k)).length
          = offs (fun k => filled A.n k (A.row k)) i := (offs_eq _ _).symm
      obtain ⟨f', r1, r2⟩ := fillRow_inner (n := A.n) (i := i) (S := A.row i)
        (md := missAt A.n A.row i) (hgr i hi) p2
        (by
          rw [hlt, ← offs_succ (fun k => filled A.n k (A.row k)) i, ← hNt]
          exact offs_mono _ (by omega))
        (by rw [hlt]; rfl)
      have hseg := A.seg_row hA hi
      rw [h0] at hseg
      have hloop : forC (A.p i - 0) (A.p (i + 1) - 0) (fun idx f => do
          let f ← fillTest (missAt A.n A.row i) i f
          let v ← rd A.val idx
          let c ← rd A.ind idx
          fillPut (c - 0) v f) f
          = (A.row i).foldlM (fillStep (missAt A.n A.row i) i) f := by
        have := hseg.forC (fun c v f => (fillTest (missAt A.n A.row i) (i : Int) f).bind fun f =>
          fillPut (c - 0) v f) f
        simp only [add_sub_cancel_right, sub_zero, add_zero] at this
        simp only [sub_zero]
        refine Eq.trans ?_ this
        apply forC_congr
        intro j s hj1 hj2
        obtain ⟨g1, g2⟩ := hseg.2 (j - A.p i).toNat (by have := hseg.1; omega)
        rw [show A.p i - 0 + ((j - A.p i).toNat : Int) = j by omega] at g1 g2
        simp only [g1, g2, Option.bind_eq_bind, Option.bind_some]
      refine ⟨(pr', f'), ?_, ?_, ?_⟩
      · unfold fillRow
        simp only [e1, e2, Option.bind_eq_bind, Option.bind_some]
        rw [show A.p i - 0 + f.added = (offs (fun k => filled A.n k (A.row k)) i : Int) by
          rw [p2.2.2.2, hofs i (by omega), hpi]; push_cast; ring]
        simp only [q1, emd, Option.bind_some]
        simp only [Option.bind_eq_bind] at hloop
        rw [hloop]
        cases hfo : (A.row i).foldlM (fillStep (missAt A.n A.row i) i) f with
        | none => rw [hfo] at r1; simp at r1
        | some f1 =>
          rw [hfo] at r1
          simp only [Option.bind_some] at r1 ⊢
          rw [r1]
          rfl
      · rw [List.range_succ]; simpa using q2
      · rw [List.range_succ, List.flatMap_append, lackCount_succ]
        have : (((lackCount A.n A.row i + if lacks A.n i (A.row i) then 1 else 0 : Nat)) : Int)
            = (lackCount A.n A.row i : Int) + if lacks A.n i (A.row i) then 1 else 0 := by
          split <;> simp
        rw [this]
        simpa using r2)
  rw [hs1]
  simp only [Option.bind_some]
  obtain ⟨pr, w1, w2⟩ := hs2.wr (N : Int) (k := A.m) (by simp) (by simp)
  rw [w1]
  simp only [Option.bind_some]
  have hl : ((List.range A.m).flatMap fun k => filled A.n k (A.row k)).length = N := by
    rw [← offs_eq]; exact hNt
  rw [w2.full (by simp), hs3.1.full (by simpa using hl), hs3.2.1.full (by simpa using hl)]
  congr 1
  simp only [mkCsr, add_zero, zero_add]
  congr 1
  rw [List.range_succ, List.map_append, List.map_singleton, hNt]

end Verif
