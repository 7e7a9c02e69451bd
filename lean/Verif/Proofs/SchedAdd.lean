import Verif.Proofs.Sched
import Verif.Proofs.AddExact2
import Verif.Proofs.SyrkEst

namespace Verif
open Model

variable {R : Type}

/-- a loop over a row -/
theorem wp_row {α L V : Type} [DecidableEq L] {own ro : L → Prop} {A : Csr R} (hA : A.WF) {i : Nat} (hi : i < A.m)
    {F : Int → α → ThP L V α} {G : Int → R → α → ThP L V α}
    (hF : ∀ j col v s, rd A.ind j = some col → rd A.val j = some v → F j s = G (col - A.base) v s)
    (J : List (Int × R) → α → (L → Option V) → Prop) {s : α} {m : L → Option V} (h0 : J [] s m)
    (hs : ∀ pre e suf s m, A.row i = pre ++ e :: suf → J pre s m →
      (G e.1 e.2 s).wp own ro m (fun s' m' => J (pre ++ [e]) s' m')) :
    (ThP.forP (A.p i - A.base) (A.p (i + 1) - A.base) F s).wp own ro m (fun s' m' => J (A.row i) s' m') := by
  have hmo := hA.mono (i := i) (j := i + 1) (by omega) (by omega)
  have hlen := Csr.row_length hA hi
  have key := ThP.wp_forP (own := own) (ro := ro) (f := F) (lo := A.p i - A.base) (hi := A.p (i + 1) - A.base)
    (fun j s m => J ((A.row i).take (j - (A.p i - A.base)).toNat) s m) (s := s) (m := m) (by omega)
    (by simpa using h0)
    (by
      intro j s m h1 h2 hJ
      obtain ⟨t, rfl⟩ : ∃ t : Nat, j = A.p i - A.base + t := ⟨(j - (A.p i - A.base)).toNat, by omega⟩
      obtain ⟨c, v, e1, e2, e3⟩ := Csr.row_getElem? hA hi (t := t) (by omega)
      rw [show (A.p i - A.base + (t : Int) - (A.p i - A.base)).toNat = t by omega] at hJ
      rw [show (A.p i - A.base + (t : Int) + 1 - (A.p i - A.base)).toNat = t + 1 by omega]
      obtain ⟨ht, e4⟩ := List.getElem?_eq_some_iff.1 e3
      rw [hF _ _ _ _ e1 e2]
      have := hs ((A.row i).take t) (c - A.base, v) ((A.row i).drop (t + 1)) s m
        (by rw [← e4, ← List.drop_eq_getElem_cons ht, List.take_append_drop]) hJ
      rw [List.take_succ, e3]
      exact this)
  rwa [List.take_of_length_le (by omega)] at key

variable [Zero R] [Add R] [Mul R] {own ro : CCell → Prop}

/-- an entry of A -/
theorem addStepAP_wp (cj : R → R) (alpha : R) {i col : Int} {v : R} {st st' : AddSt R}
    (h : addStepA cj alpha i col v st = some st') (ho : ∀ b, own (b, st.loc.idx)) :
    (addStepAP cj alpha i col v st.loc).wp own ro (cMem st.ind st.val)
      (fun a m => a = st'.loc ∧ m = cMem st'.ind st'.val) := by
  unfold addStepA at h
  simp only [Option.bind_eq_bind, Option.bind_eq_some_iff] at h
  obtain ⟨nnz, e1, rec, e2, ind, e3, val, e4, h⟩ := h
  cases h
  unfold addStepAP
  rw [wp_lift e1, wp_lift e2]
  exact wp_putI e3 (ho _) _ _ (wp_putV e4 (ho _) _ _ ⟨rfl, rfl⟩)

/-- an entry of B -/
theorem addStepBP_wp {i col : Int} {v : R} {st st' : AddSt R} (h : addStepB i col v st = some st') {p q : Int}
    (hr : if rd st.loc.nnz col = some i then ∃ r, rd st.loc.colRec col = some r ∧ p ≤ r ∧ r < q
      else p ≤ st.loc.idx ∧ st.loc.idx < q) (ho : ∀ b k, p ≤ k → k < q → own (b, k)) :
    (addStepBP i col v st.loc).wp own ro (cMem st.ind st.val)
      (fun a m => a = st'.loc ∧ m = cMem st'.ind st'.val) := by
  unfold addStepB at h
  simp only [Option.bind_eq_bind, Option.bind_eq_some_iff] at h
  obtain ⟨t, e1, h⟩ := h
  unfold addStepBP
  rw [wp_lift e1]
  by_cases ht : t ≠ i
  · rw [if_pos ht] at h ⊢
    rw [if_neg (by rw [e1, Option.some.injEq]; exact ht)] at hr
    simp only [Option.bind_eq_some_iff] at h
    obtain ⟨ind, e2, val, e3, nnz, e4, h⟩ := h
    cases h
    refine wp_putI e2 (ho _ _ hr.1 hr.2) _ _ (wp_putV e3 (ho _ _ hr.1 hr.2) _ _ ?_)
    rw [wp_lift e4]
    exact ⟨rfl, rfl⟩
  · rw [if_neg ht] at h ⊢
    rw [if_pos (by rw [e1, not_not.1 ht])] at hr
    obtain ⟨r', e5, h1, h2⟩ := hr
    simp only [Option.bind_eq_some_iff] at h
    obtain ⟨r, e2, x, e3, val, e4, h⟩ := h
    rw [e5] at e2
    cases e2
    cases h
    rw [wp_lift e5]
    exact wp_getV e3 (ho _ _ h1 h2) _ _ (wp_putV e4 (ho _ _ h1 h2) _ _ ⟨rfl, rfl⟩)

/-- row `i` of C -/
def addOwn (A B : Csr R) (i : Nat) (x : CCell) : Prop :=
  (addOff A B i : Int) ≤ x.2 ∧ x.2 < (addOff A B (i + 1) : Int)

/-- a row -/
theorem addMergeP_wp (cj : R → R) (alpha : R) {A B : Csr R} (hA : A.WF) (hB : B.WF)
    (hm : B.m = A.m) (hn : B.n = A.n) {i : Nat} (hi : i < A.m)
    (hnd : ((B.row i).map (·.1)).Nodup) {st : AddSt R} (hl : LocOk A.n i st.loc)
    (hidx : st.loc.idx = (addOff A B i : Int)) (hci : addOff A B i + addLen A B i ≤ st.ind.length)
    (hcv : addOff A B i + addLen A B i ≤ st.val.length) :
    (addMergeP cj alpha A.arrs B.arrs (i : Int) st.loc).wp (addOwn A B i) ro (cMem st.ind st.val)
      (fun a m => ∃ st', AddInvX A i (addOff A B i) (addLen A B i) st (addRowX cj alpha A B i) (A.row i).length st' ∧
        a = st'.loc ∧ m = cMem st'.ind st'.val) := by
  obtain ⟨hp1, hp2⟩ := rd_ptr2 hA hi
  obtain ⟨hq1, hq2⟩ := rd_ptr2 hB (show i < B.m by omega)
  unfold addMergeP
  rw [wp_lift (show rd A.arrs.ptr (i : Int) = _ from hp1), wp_lift (show rd A.arrs.ptr ((i : Int) + 1) = _ from hp2),
    ThP.wp_bind]
  refine ThP.wp_mono ?_ (wp_row hA hi (own := addOwn A B i) (ro := ro)
    (G := fun c v s => addStepAP cj alpha (i : Int) (c + A.base) v s) ?_
    (fun pre a m => ∃ st', AddInvX A i (addOff A B i) (addLen A B i) st (pre.map fun e : Int × R => (e.1, alpha * cj e.2))
      pre.length st' ∧ a = st'.loc ∧ m = cMem st'.ind st'.val)
    ⟨st, addInvX0 hl hidx, rfl, rfl⟩ ?_)
  · rintro a m ⟨st1, h1, rfl, rfl⟩
    rw [wp_lift (show rd B.arrs.ptr (i : Int) = _ from hq1), wp_lift (show rd B.arrs.ptr ((i : Int) + 1) = _ from hq2)]
    refine wp_row hB (show i < B.m by omega) (own := addOwn A B i) (ro := ro)
      (G := fun c v s => addStepBP (i : Int) (c + A.base) v s) ?_
      (fun pre a m => ∃ st', AddInvX A i (addOff A B i) (addLen A B i) st
        (pre.foldl (addPut (A.cols i)) ((A.row i).map fun e : Int × R => (e.1, alpha * cj e.2))) (A.row i).length st' ∧
        a = st'.loc ∧ m = cMem st'.ind st'.val)
      ⟨st1, h1, rfl, rfl⟩ ?_
    · intro j col v s e1 e2
      show (ThP.lift (rd B.ind j)).bind _ = _
      rw [e1]
      show (ThP.lift (rd B.val j)).bind _ = _
      rw [e2]
      rfl
    · rintro pre e suf a m hrow ⟨st2, h2, rfl, rfl⟩
      obtain ⟨hr, st3, e3, h3⟩ := addMergeB_step cj alpha hA hB hn hnd hci hcv hrow h2
      refine ThP.wp_mono ?_ (addStepBP_wp e3 hr ?_)
      · rintro a m ⟨rfl, rfl⟩
        exact ⟨st3, h3, rfl, rfl⟩
      · intro b k k1 k2
        rw [← addOff_succ] at k2
        exact ⟨k1, k2⟩
  · intro j col v s e1 e2
    show (ThP.lift (rd A.ind j)).bind _ = _
    rw [e1]
    show (ThP.lift (rd A.val j)).bind _ = _
    rw [e2]
    show addStepAP cj alpha (i : Int) col v s = addStepAP cj alpha (i : Int) (col - A.base + A.base) v s
    rw [Int.sub_add_cancel]
  · rintro pre e suf a m hrow ⟨st2, h2, rfl, rfl⟩
    obtain ⟨hr, st3, e3, h3⟩ := addMergeA_step (B := B) cj alpha hA hci hcv hrow h2
    refine ThP.wp_mono ?_ (addStepAP_wp cj alpha e3 ?_)
    · rintro a m ⟨rfl, rfl⟩
      exact ⟨st3, h3, rfl, rfl⟩
    · intro b
      rw [← addOff_succ] at hr
      exact ⟨by show (addOff A B i : Int) ≤ st2.loc.idx; rw [h2.idx]; push_cast; omega, hr⟩

omit [Zero R] [Add R] [Mul R] in
theorem addOff_cover (A B : Csr R) {m : Nat} {k : Int} (h0 : 0 ≤ k) (h1 : k < (addOff A B m : Int)) :
    ∃ r < m, (addOff A B r : Int) ≤ k ∧ k < (addOff A B (r + 1) : Int) := by
  induction m with
  | zero => simp [addOff] at h1; omega
  | succ m ih =>
    by_cases h : k < (addOff A B m : Int)
    · obtain ⟨r, hr, h2⟩ := ih h
      exact ⟨r, by omega, h2⟩
    · exact ⟨m, by omega, by omega, h1⟩

/-- **the main region of the sum under every schedule** -/
theorem add_schedules {w T : Nat} {ord : List Nat} (cj : R → R) (alpha : R) {A B : Csr R} (hA : A.WF) (hB : B.WF)
    (hm : B.m = A.m) (hn : B.n = A.n) (hnd : B.NoDup) (ht : TeamOk w A.m T ord) {ptr ind : List Int} {val : List R}
    (hp : Rep ptr (A.m + 1) (fun k => A.base + (addOff A B k : Int)))
    (hi : ind.length = addOff A B A.m) (hv : val.length = addOff A B A.m) :
    ∃ r, inTeam w ord T A.m (addLoc0 (A.n : Int)) (addRowPre cj alpha A.arrs B.arrs ptr) (ind, val) = some r ∧
      (addSum cj alpha A B).arrs = ⟨A.base, ptr, r.1, r.2⟩ ∧
      AllSchedules (addTeamP w T cj alpha A.m A.n A.arrs B.arrs ptr) (cMem ind val) (cMem r.1 r.2) := by
  obtain ⟨r, e, hd⟩ := team_inv (w := w) (T := T) (m := A.m)
    (order := ord) (loc := addLoc0 (A.n : Int))
    (body := addRowPre cj alpha A.arrs B.arrs ptr)
    (s := (ind, val)) ht.pos ht.ov ht.ord
    (P := RowsX cj alpha A B (addOff A B A.m)) (Q := LocOk A.n)
    ⟨hi, hv, fun _ _ h => h.elim⟩ (locOk0 A.n)
    (by
      rintro S i s l hi hS hP hQ
      obtain ⟨st', e, h1, h2, h3⟩ := rowsX_step cj alpha hA hB hm hn hi
        (hnd i (by omega)) (le_refl _) hS hP (l := { l with idx := addOff A B i }) hQ rfl
      refine ⟨st'.loc, (st'.ind, st'.val), ?_, h1, h2⟩
      unfold addRowPre
      rw [hp.rd_nat (i := i) (by omega)]
      simp only [Option.bind_eq_bind, Option.bind_some]
      rw [show A.base + (addOff A B i : Int) - A.arrs.base = (addOff A B i : Int) by
        simp [Csr.arrs], e]
      rfl)
  have c1 := rowsX_csr cj alpha (le_refl _) hd (fun _ h => h) hp
  rw [List.take_of_length_le (by rw [hd.1]), List.take_of_length_le (by rw [hd.2.1])] at c1
  refine ⟨r, e, c1, ?_⟩
  obtain ⟨g1, g2, g3⟩ := hd
  unfold addTeamP
  refine team_schedules ht.pos ht.ov (addOwn A B) ?_
    (fun S mem => ∃ s, RowsX cj alpha A B (addOff A B A.m) S s ∧ mem = cMem s.1 s.2) (LocOk A.n)
    ⟨(ind, val), ⟨hi, hv, fun _ _ h => h.elim⟩, rfl⟩ (locOk0 A.n) ?_ ?_ ?_ ?_
  · rintro a b x - - ⟨h1, h2⟩ ⟨h3, h4⟩
    by_contra hne
    rcases Nat.lt_or_ge a b with h | h
    · have := addOff_mono A B (show a + 1 ≤ b from h)
      omega
    · have := addOff_mono A B (show b + 1 ≤ a by omega)
      omega
  · rintro S S' mem h ⟨s, ⟨d1, d2, d3⟩, e⟩
    exact ⟨s, ⟨d1, d2, fun r hr hS => d3 r hr ((h r).2 hS)⟩, e⟩
  · rintro S i mem l hi hS ⟨s, hs, rfl⟩ hl
    have hcap : addOff A B i + addLen A B i ≤ addOff A B A.m := by
      have := addOff_mono A B (show i + 1 ≤ A.m by omega)
      rwa [addOff_succ] at this
    unfold addRowP
    rw [wp_lift (hp.rd_nat (by omega)), show A.base + (addOff A B i : Int) - A.arrs.base = (addOff A B i : Int) by
      simp [Csr.arrs]]
    refine ThP.wp_mono ?_ (addMergeP_wp cj alpha hA hB hm hn hi (hnd i (by omega))
      (st := ⟨{ l with idx := (addOff A B i : Int) }, s.1, s.2⟩) hl rfl
      (by have := hs.1; simp only; omega) (by have := hs.2.1; simp only; omega))
    rintro a m ⟨st', hinv, rfl, rfl⟩
    obtain ⟨n1, n2, -⟩ := rowsX_next cj alpha hs hinv
    exact ⟨⟨_, n1, rfl⟩, n2⟩
  · rintro S mem ⟨s, ⟨d1, d2, d3⟩, rfl⟩ r' hr hS x ⟨hx1, hx2⟩
    refine cMem_win (d3 r' hr hS).1 (d3 r' hr hS).2 (g3 r' hr hr).1 (g3 r' hr hr).2
      (n := addLen A B r') (by rw [List.length_map, addRowX_length]) (by rw [List.length_map, addRowX_length]) hx1 ?_
    rw [addOff_succ] at hx2
    exact hx2
  · rintro ⟨b, k⟩ hx
    have hout : ¬ (0 ≤ k ∧ k < (addOff A B A.m : Int)) := by
      rintro ⟨h0, h1⟩
      obtain ⟨r, hr, h2⟩ := addOff_cover A B h0 h1
      exact hx r hr h2
    have hnone : ∀ {X : Type} (l : List X), l.length = addOff A B A.m → rd l k = none := by
      intro X l hl
      by_contra hne
      have := rd_isSome_iff.1 (Option.isSome_iff_ne_none.2 hne)
      omega
    cases b with
    | false => show (rd ind k).map _ = (rd _ k).map _; rw [hnone _ hi, hnone _ g1]
    | true => show (rd val k).map _ = (rd _ k).map _; rw [hnone _ hv, hnone _ g2]

/-! ### counting -/

/-- a row of the counting region -/
theorem addCntRowP_sim {own ro : Int → Prop} (A B : Arrs R) {i : Int} (ho : own (i + 1)) {l l' p p' : List Int}
    (h : addCntRow A B i (l, p) = some (l', p')) :
    (addCntRowP A B i l).wp own ro (rd p) (fun a m => a = l' ∧ m = rd p') := by
  unfold addCntRow at h
  simp only [Option.bind_eq_bind, Option.bind_eq_some_iff] at h
  obtain ⟨b, hb, e, he, c, hc, b', hb', e', he', c', hc', q, hq, h⟩ := h
  cases h
  unfold addCntRowP
  rw [wp_lift hb, wp_lift he]
  refine (wp_lift hc _ _ _).2 ?_
  rw [wp_lift hb', wp_lift he']
  refine (wp_lift hc' _ _ _).2 ?_
  obtain ⟨h0, h1, -⟩ := wr_some_iff.1 hq
  refine ⟨ho, ?_, rfl, ?_⟩
  · have := rd_isSome_iff.2 (⟨h0, h1⟩ : 0 ≤ i + 1 ∧ i + 1 < (p.length : Int))
    exact Option.isSome_iff_ne_none.1 this
  · funext x
    rw [rd_wr hq]
    by_cases hx : x = i + 1
    · subst hx; rw [Function.update_self, if_pos rfl]
    · rw [Function.update_of_ne hx, if_neg hx]

/-- **the counting region of the sum under every schedule** -/
theorem addCnt_schedules {w T : Nat} {ord : List Nat} {A B : Csr R} (hA : A.WF) (hB : B.WF) (hm : B.m = A.m) (hn : B.n = A.n)
    (hnd : B.NoDup) (ht : TeamOk w A.m T ord) {p0 : List Int} (hp : p0.length = A.m + 1) :
    ∃ p1, inTeam w ord T A.m (List.replicate (A.n + 1) (-1)) (addCntRow A.arrs B.arrs) p0 = some p1 ∧
      AllSchedules (addCntTeamP w T A.m A.n A.arrs B.arrs) (rd p0) (rd p1) := by
  obtain ⟨f0, hf0⟩ : ∃ f, Rep p0 (A.m + 1) f := ⟨fun k => (p0[k]?).getD 0, hp, fun k hk => by
    simp [List.getElem?_eq_getElem (show k < p0.length by omega)]⟩
  have hloc : ∀ i : Nat, ∃ f, Rep (List.replicate (A.n + 1) (-1)) (A.n + 1) f ∧ ∀ k, k < A.n + 1 → f k < (i : Int) := by
    intro i
    refine ⟨fun _ => -1, ⟨by simp, ?_⟩, by intro k _; show (-1 : Int) < i; omega⟩
    intro k hk
    rw [List.getElem?_replicate, if_pos hk]
  have hstep : ∀ (S : Nat → Prop) (i : Nat) (s l : List Int), i < A.m → ¬ S i →
      (∃ f, Rep s (A.m + 1) f ∧ f 0 = f0 0 ∧ ∀ r, r < A.m → S r → f (r + 1) = (addLen A B r : Int)) →
      (∃ f, Rep l (A.n + 1) f ∧ ∀ k, k < A.n + 1 → f k < (i : Int)) →
      ∃ l' s', addCntRow A.arrs B.arrs (i : Int) (l, s) = some (l', s') ∧
        (∃ f, Rep s' (A.m + 1) f ∧ f 0 = f0 0 ∧ ∀ r, r < A.m → (S r ∨ r = i) → f (r + 1) = (addLen A B r : Int)) ∧
        (∃ f, Rep l' (A.n + 1) f ∧ ∀ k, k < A.n + 1 → f k < ((i + 1 : Nat) : Int)) := by
    rintro S i s l hi hS ⟨f, hf, hf0, hf1⟩ ⟨q, hq, hq2⟩
    obtain ⟨nz', ptr', h1, h2, h3⟩ := addCntRow_ok hA hB hm hn hi (hnd i (by omega)) hq hq2 hf
    refine ⟨nz', ptr', h1, ⟨_, h2, ?_, ?_⟩, h3⟩
    · rw [Function.update_of_ne (by omega), hf0]
    · intro r hr hs
      by_cases e : r = i
      · subst e; rw [Function.update_self]
      · rw [Function.update_of_ne (by omega)]
        exact hf1 r hr (hs.resolve_right e)
  obtain ⟨p1, e1, f, hf, h1, h2⟩ := team_inv (w := w) (T := T) (m := A.m)
    (order := ord) (loc := List.replicate (A.n + 1) (-1)) (body := addCntRow A.arrs B.arrs)
    (s := p0) ht.pos ht.ov ht.ord
    (P := fun S ptr => ∃ f, Rep ptr (A.m + 1) f ∧ f 0 = f0 0 ∧
      ∀ r, r < A.m → S r → f (r + 1) = (addLen A B r : Int))
    (Q := fun i l => ∃ f, Rep l (A.n + 1) f ∧ ∀ k, k < A.n + 1 → f k < (i : Int))
    ⟨_, hf0, rfl, fun _ _ h => h.elim⟩ hloc hstep
  refine ⟨p1, e1, ?_⟩
  unfold addCntTeamP
  rw [show ((A.n : Int) + 1).toNat = A.n + 1 by omega]
  refine team_schedules ht.pos ht.ov (fun r x => x = ((r + 1 : Nat) : Int)) ?_
    (fun S mem => ∃ s, mem = rd s ∧ ∃ f, Rep s (A.m + 1) f ∧ f 0 = f0 0 ∧
      ∀ r, r < A.m → S r → f (r + 1) = (addLen A B r : Int))
    (fun i l => ∃ f, Rep l (A.n + 1) f ∧ ∀ k, k < A.n + 1 → f k < (i : Int))
    ⟨p0, rfl, _, hf0, rfl, fun _ _ h => h.elim⟩ hloc ?_ ?_ ?_ ?_
  · intro r r' x _ _ h h'
    omega
  · rintro S S' mem h ⟨s, e, f, d1, d2, d3⟩
    exact ⟨s, e, f, d1, d2, fun r hr hS => d3 r hr ((h r).2 hS)⟩
  · rintro S i mem l hi hS ⟨s, rfl, hs⟩ hl
    obtain ⟨l', s', e, g1, g2⟩ := hstep S i s l hi hS hs hl
    refine ThP.wp_mono ?_ (addCntRowP_sim A.arrs B.arrs (by show (i : Int) + 1 = ((i + 1 : Nat) : Int); omega) e)
    rintro a m ⟨rfl, rfl⟩
    exact ⟨⟨s', rfl, g1⟩, g2⟩
  · rintro S mem ⟨s, rfl, f', d1, -, d3⟩ r hr hS x rfl
    rw [d1.rd_nat (by omega), hf.rd_nat (by omega), d3 r hr hS, h2 r hr hr]
  · intro x hx
    by_cases hin : 0 ≤ x ∧ x < ((A.m + 1 : Nat) : Int)
    · have : x = ((0 : Nat) : Int) := by
        by_contra hne
        refine hx (x - 1).toNat (by omega) (by omega)
      subst this
      rw [hf0.rd_nat (by omega), hf.rd_nat (by omega), h1]
    · have hnone : ∀ (l : List Int), l.length = A.m + 1 → rd l x = none := by
        intro l hl
        by_contra hne
        have := rd_isSome_iff.1 (Option.isSome_iff_ne_none.2 hne)
        omega
      rw [hnone _ hp, hnone _ hf.1]

end Verif
