import Verif.Model.Sched
import Verif.Proofs.RoundedSp2m3

namespace Verif
open Model

section sim
variable {L V σ α β : Type} [DecidableEq L]

/-- `P` does, access by access and within the region, what `f` does, as long as the position stays
between `p` and `q`; the position never decreases -/
def SimW (own ro : L → Prop) (loc : σ → α) (enc : σ → L → Option V) (pos : σ → Int) (p q : Int)
    (f : σ → Option σ) (P : α → ThP L V α) : Prop :=
  ∀ s s', f s = some s' → pos s ≤ pos s' ∧ (p ≤ pos s → pos s' ≤ q →
    (P (loc s)).wp own ro (enc s) (fun a m => a = loc s' ∧ m = enc s'))

variable {own ro : L → Prop} {loc : σ → α} {enc : σ → L → Option V} {pos : σ → Int} {p q : Int}

theorem wp_lift {o : Option α} {x : α} (h : o = some x) (f : α → ThP L V β) (m : L → Option V)
    (Q : β → (L → Option V) → Prop) :
    ((ThP.lift o).bind f).wp own ro m Q ↔ (f x).wp own ro m Q := by
  subst h; rfl

/-- a local computation first -/
theorem SimW.lift {o : Option β} {f : β → σ → Option σ} {P : β → α → ThP L V α}
    (h : ∀ x, o = some x → SimW own ro loc enc pos p q (f x) (P x)) :
    SimW own ro loc enc pos p q (fun s => o.bind fun x => f x s) (fun a => (ThP.lift o).bind fun x => P x a) := by
  intro s s' e
  cases ho : o with
  | none => rw [ho] at e; simp at e
  | some x =>
    rw [ho] at e
    exact h x ho s s' e

/-- loops -/
theorem SimW.forC {lo hi : Int} {f : Int → σ → Option σ} {P : Int → α → ThP L V α}
    (h : ∀ i, lo ≤ i → i < hi → SimW own ro loc enc pos p q (f i) (P i)) :
    SimW own ro loc enc pos p q (forC lo hi f) (ThP.forP lo hi P) := by
  unfold Verif.forC ThP.forP
  have key : ∀ (n : Nat) (i : Int), lo ≤ i → i + (n : Int) ≤ max lo hi →
      SimW own ro loc enc pos p q (forN f n i) (ThP.forPN P n i) := by
    intro n
    induction n with
    | zero =>
      intro i _ _ s s' e
      cases e
      exact ⟨le_refl _, fun _ _ => ⟨rfl, rfl⟩⟩
    | succ n ih =>
      intro i h1 h2 s s' e
      have e' : (f i s).bind (forN f n (i + 1)) = some s' := e
      cases hf : f i s with
      | none => rw [hf] at e'; simp at e'
      | some s1 =>
        rw [hf, Option.bind_some] at e'
        obtain ⟨m1, w1⟩ := h i h1 (by omega) s s1 hf
        obtain ⟨m2, w2⟩ := ih (i + 1) (by omega) (by omega) s1 s' e'
        refine ⟨le_trans m1 m2, fun hp hq => ?_⟩
        show ((P i (loc s)).bind _).wp own ro (enc s) _
        rw [ThP.wp_bind]
        refine ThP.wp_mono ?_ (w1 hp (by omega))
        rintro a m ⟨rfl, rfl⟩
        exact w2 (by omega) hq
  exact key _ lo (le_refl _) (by omega)

end sim

/-! ### the shared arrays of C -/

section cmem
variable {R : Type}

theorem cMem_putI {ind ind' : List Int} {val : List R} {k x : Int} (h : wr ind k x = some ind') :
    cMem ind val (false, k) ≠ none ∧
      Function.update (cMem ind val) (false, k) (some (.inl x)) = cMem ind' val := by
  obtain ⟨h0, h1, rfl⟩ := wr_some_iff.1 h
  constructor
  · show (rd ind k).map _ ≠ none
    have : (rd ind k).isSome := rd_isSome_iff.2 ⟨h0, by omega⟩
    cases hr : rd ind k with
    | none => rw [hr] at this; simp at this
    | some y => simp
  · funext l
    rcases l with ⟨b, j⟩
    by_cases e : ((b, j) : CCell) = (false, k)
    · cases e
      rw [Function.update_self]
      show _ = (rd (ind.set k.toNat x) k).map _
      rw [rd_wr h, if_pos rfl]
      rfl
    · rw [Function.update_of_ne e]
      cases b with
      | true => rfl
      | false =>
        show (rd ind j).map _ = (rd (ind.set k.toNat x) j).map _
        rw [rd_wr h, if_neg (by rintro rfl; exact e rfl)]

theorem cMem_putV {ind : List Int} {val val' : List R} {k : Int} {x : R} (h : wr val k x = some val') :
    cMem ind val (true, k) ≠ none ∧
      Function.update (cMem ind val) (true, k) (some (.inr x)) = cMem ind val' := by
  obtain ⟨h0, h1, rfl⟩ := wr_some_iff.1 h
  constructor
  · show (rd val k).map _ ≠ none
    have : (rd val k).isSome := rd_isSome_iff.2 ⟨h0, by omega⟩
    cases hr : rd val k with
    | none => rw [hr] at this; simp at this
    | some y => simp
  · funext l
    rcases l with ⟨b, j⟩
    by_cases e : ((b, j) : CCell) = (true, k)
    · cases e
      rw [Function.update_self]
      show _ = (rd (val.set k.toNat x) k).map _
      rw [rd_wr h, if_pos rfl]
      rfl
    · rw [Function.update_of_ne e]
      cases b with
      | false => rfl
      | true =>
        show (rd val j).map _ = (rd (val.set k.toNat x) j).map _
        rw [rd_wr h, if_neg (by rintro rfl; exact e rfl)]

variable {own ro : CCell → Prop} {β : Type}

theorem wp_putI {ind ind' : List Int} {val : List R} {k x : Int} (h : wr ind k x = some ind')
    (ho : own (false, k)) (f : Unit → ThP CCell (CVal R) β) (Q : β → (CCell → Option (CVal R)) → Prop)
    (hf : (f ()).wp own ro (cMem ind' val) Q) : ((putI k x).bind f).wp own ro (cMem ind val) Q := by
  obtain ⟨h1, h2⟩ := cMem_putI (val := val) h
  refine ⟨ho, h1, ?_⟩
  rw [h2]
  exact hf

theorem wp_putV {ind : List Int} {val val' : List R} {k : Int} {x : R} (h : wr val k x = some val')
    (ho : own (true, k)) (f : Unit → ThP CCell (CVal R) β) (Q : β → (CCell → Option (CVal R)) → Prop)
    (hf : (f ()).wp own ro (cMem ind val') Q) : ((putV k x).bind f).wp own ro (cMem ind val) Q := by
  obtain ⟨h1, h2⟩ := cMem_putV (ind := ind) h
  refine ⟨ho, h1, ?_⟩
  rw [h2]
  exact hf

theorem wp_getI {ind : List Int} {val : List R} {k x : Int} (h : rd ind k = some x)
    (ho : own (false, k)) (f : Int → ThP CCell (CVal R) β) (Q : β → (CCell → Option (CVal R)) → Prop)
    (hf : (f x).wp own ro (cMem ind val) Q) : ((getI k).bind f).wp own ro (cMem ind val) Q :=
  ⟨.inl ho, .inl x, by show (rd ind k).map _ = _; rw [h]; rfl, hf⟩

theorem wp_getV {ind : List Int} {val : List R} {k : Int} {x : R} (h : rd val k = some x)
    (ho : own (true, k)) (f : R → ThP CCell (CVal R) β) (Q : β → (CCell → Option (CVal R)) → Prop)
    (hf : (f x).wp own ro (cMem ind val) Q) : ((getV k).bind f).wp own ro (cMem ind val) Q :=
  ⟨.inl ho, .inr x, by show (rd val k).map _ = _; rw [h]; rfl, hf⟩

end cmem

/-! ### the value region of sp2m -/

section mm
variable {R : Type} [Zero R] [Add R] [Mul R] {own ro : CCell → Prop} {p q : Int}

def mmLc (s : MmSt R) : MmLc R := ⟨s.idx, s.sum, s.pos⟩

theorem mmStepP_sim (val : List R) (ho : ∀ k, p ≤ k → k < q → own (false, k)) (i col : Int) (v : R) :
    SimW own ro mmLc (fun s => cMem s.ind val) (fun s => s.pos) p q (mmStep i col v) (mmStepP i col v) := by
  intro s s' e
  unfold mmStep at e
  simp only [Option.bind_eq_bind, Option.bind_eq_some_iff] at e
  obtain ⟨t, ht, e⟩ := e
  unfold mmStepP
  by_cases h : t ≠ i
  · rw [if_pos h] at e
    simp only [Option.bind_eq_some_iff] at e
    obtain ⟨ind, h1, idx, h2, sum, h3, e⟩ := e
    cases e
    refine ⟨by show s.pos ≤ s.pos + 1; omega, fun hp hq => ?_⟩
    rw [wp_lift (show rd (mmLc s).idx col = some t from ht), if_pos h]
    refine wp_putI h1 (ho _ hp (by have : s.pos + 1 ≤ q := hq; omega)) _ _ ?_
    rw [wp_lift (show wr (mmLc s).idx col i = some idx from h2),
      wp_lift (show wr (mmLc s).sum col v = some sum from h3)]
    exact ⟨rfl, rfl⟩
  · rw [if_neg h] at e
    simp only [Option.bind_eq_some_iff] at e
    obtain ⟨x, h1, sum, h2, e⟩ := e
    cases e
    refine ⟨le_refl _, fun hp hq => ?_⟩
    rw [wp_lift (show rd (mmLc s).idx col = some t from ht), if_neg h,
      wp_lift (show rd (mmLc s).sum col = some x from h1),
      wp_lift (show wr (mmLc s).sum col (x + v) = some sum from h2)]
    exact ⟨rfl, rfl⟩

theorem mmAccP_sim (val : List R) (ho : ∀ k, p ≤ k → k < q → own (false, k)) (cA cB : R → R) (A B : Arrs R)
    (i : Int) :
    SimW own ro mmLc (fun s => cMem s.ind val) (fun s => s.pos) p q (mmAcc cA cB A B i)
      (mmAccP cA cB A B i) := by
  unfold mmAcc mmAccP
  refine SimW.lift fun b _ => SimW.lift fun e _ => SimW.forC fun j _ _ => SimW.lift fun col _ =>
    SimW.lift fun v _ => ?_
  unfold mmInner mmInnerP
  exact SimW.lift fun b _ => SimW.lift fun e _ => SimW.forC fun j _ _ => SimW.lift fun col _ =>
    SimW.lift fun v _ => mmStepP_sim val ho _ _ _

/-- the copy loop -/
theorem mmCopyP_sim {lo hi : Int} (ho : ∀ b k, lo ≤ k → k < hi → own (b, k)) (base : Int) (sum : List R) :
    SimW own ro (fun _ => ()) (fun s => cMem s.1 s.2) (fun _ => 0) 0 0 (forC lo hi (mmCopy base sum))
      (ThP.forP lo hi (mmCopyP base sum)) := by
  refine SimW.forC fun k h1 h2 => ?_
  intro s s' e
  unfold mmCopy at e
  simp only [Option.bind_eq_bind, Option.bind_eq_some_iff] at e
  obtain ⟨col, e1, x, e2, val, e3, ind, e4, e⟩ := e
  cases e
  refine ⟨le_refl _, fun _ _ => ?_⟩
  unfold mmCopyP
  refine wp_getI e1 (ho _ _ h1 h2) _ _ ?_
  rw [wp_lift e2]
  refine wp_putV e3 (ho _ _ h1 h2) _ _ ?_
  exact wp_putI e4 (ho _ _ h1 h2) _ _ ⟨rfl, rfl⟩

/-- a row -/
theorem mmRowP_sim (cA cB : R → R) (A B : Arrs R) {ptr : List Int} {i p q : Int}
    (hp : rd ptr i = some p) (hq : rd ptr (i + 1) = some q)
    (ho : ∀ b k, p ≤ k → k < q → own (b, k)) {l l' : List Int × List R}
    {s s' : List Int × List R} (h : mmRow cA cB A B ptr i (l, s, false) = some (l', s', false)) :
    (mmRowP cA cB A B ptr i l).wp own ro (cMem s.1 s.2)
      (fun a m => a = l' ∧ m = cMem s'.1 s'.2) := by
  unfold mmRow at h
  unfold mmRowP
  rw [wp_lift hp]
  rw [hp] at h
  simp only [Option.bind_eq_bind, Option.bind_some, Option.bind_eq_some_iff] at h
  obtain ⟨r, er, e, he, h⟩ := h
  rw [hq] at he
  cases he
  by_cases hr : r.pos ≠ q
  · rw [if_pos hr] at h
    simp at h
  · rw [if_neg hr] at h
    simp only [Option.bind_eq_some_iff] at h
    obtain ⟨c, ec, h⟩ := h
    simp only [Option.some.injEq, Prod.mk.injEq, and_true] at h
    obtain ⟨rfl, rfl⟩ := h
    have hs := (mmAccP_sim (own := own) (ro := ro) (p := p) (q := q) s.2
      (fun k h1 h2 => ho false k h1 h2) cA cB A B i _ _ er).2 (le_refl _) (by simpa using le_of_eq (not_not.mp hr))
    rw [ThP.wp_bind]
    refine ThP.wp_mono ?_ hs
    rintro a m ⟨rfl, rfl⟩
    rw [wp_lift hq]
    have hr' : ¬ (mmLc r).pos ≠ q := hr
    rw [if_neg hr', ThP.wp_bind]
    refine ThP.wp_mono ?_ ((mmCopyP_sim ho B.base r.sum _ _ ec).2 (le_refl _) (le_refl _))
    rintro _ m ⟨-, rfl⟩
    exact ⟨rfl, rfl⟩

/-- row `i` of C -/
def mmOwn (A B : Csr R) (i : Nat) (x : CCell) : Prop :=
  (mmOff A B i : Int) ≤ x.2 ∧ x.2 < (mmOff A B (i + 1) : Int)

theorem cMem_win {ind ind' : List Int} {val val' : List R} {o n : Nat} {l : List Int} {v : List R}
    (h1 : Win ind o l) (h2 : Win val o v) (h1' : Win ind' o l) (h2' : Win val' o v)
    (hl : l.length = n) (hv : v.length = n) {x : CCell} (hx : (o : Int) ≤ x.2) (hx' : x.2 < ((o + n : Nat) : Int)) :
    cMem ind val x = cMem ind' val' x := by
  obtain ⟨b, k⟩ := x
  obtain ⟨k', rfl⟩ : ∃ k' : Nat, k = ((o + k' : Nat) : Int) := ⟨(k - o).toNat, by simp only at hx; omega⟩
  have hk : k' < n := by simp only at hx'; omega
  cases b with
  | false =>
    show (rd ind _).map _ = (rd ind' _).map _
    rw [rd_ofNat, rd_ofNat, h1 k' (by omega), h1' k' (by omega)]
  | true =>
    show (rd val _).map _ = (rd val' _).map _
    rw [rd_ofNat, rd_ofNat, h2 k' (by omega), h2' k' (by omega)]

theorem mmLoc_init (bn i : Nat) :
    MmLoc bn i (List.replicate bn (-1), List.replicate bn (0 : R)) := by
  refine ⟨⟨fun _ => -1, ⟨by simp, ?_⟩, by intro k _; show (-1 : Int) < i; omega⟩, fun _ => 0, by simp, ?_⟩
  · intro k hk
    rw [List.getElem?_replicate, if_pos hk]
  · intro k hk
    rw [List.getElem?_replicate, if_pos hk]

/-- when all rows are in place, the arrays are those of the product -/
theorem mmDone_all (cA cB : R → R) {A B : Csr R} {s : (List Int × List R) × Bool} {S : Nat → Prop}
    (h : MmDone cA cB A B (mmOff A B A.m) S s) (hS : ∀ r, r < A.m → S r) :
    s.1.1 = (mmCsr cA cB A B).arrs.ind ∧ s.1.2 = (mmCsr cA cB A B).arrs.val := by
  obtain ⟨d0, d1, d2, d3⟩ := h
  have hcsr := csr_of_win (m := A.m) (n := B.n) (base := 0) (rows := mmRowL cA cB A B)
    (ptr := (List.range (A.m + 1)).map fun k => (0 : Int) + (offs (mmRowL cA cB A B) k : Int)) (ind := s.1.1) (val := s.1.2)
    rfl
    (by rw [mmOff_offs]; omega) (by rw [mmOff_offs]; omega)
    (fun i hi => by rw [mmOff_offs]; simpa using (d3 i hi (hS i hi)).1)
    (fun i hi => by rw [mmOff_offs]; exact (d3 i hi (hS i hi)).2)
  rw [mmOff_offs, List.take_of_length_le (l := s.1.1) (by omega),
    List.take_of_length_le (l := s.1.2) (by omega)] at hcsr
  unfold mmCsr
  rw [← hcsr]
  exact ⟨rfl, rfl⟩

/-- every cell of the arrays is in some row -/
theorem mmOff_cover (A B : Csr R) {m : Nat} {k : Int} (h0 : 0 ≤ k) (h1 : k < (mmOff A B m : Int)) :
    ∃ r < m, (mmOff A B r : Int) ≤ k ∧ k < (mmOff A B (r + 1) : Int) := by
  induction m with
  | zero => simp [mmOff] at h1; omega
  | succ m ih =>
    by_cases h : k < (mmOff A B m : Int)
    · obtain ⟨r, hr, h2⟩ := ih h
      exact ⟨r, by omega, h2⟩
    · exact ⟨m, by omega, by omega, h1⟩

/-- **the value region of sp2m under every schedule** -/
theorem mmFill_schedules {w : Nat} {tm : Teams} (cA cB : R → R) {A B : Csr R} (hA : A.WF) (hB : B.WF)
    (hk : A.n = B.m) (ht : TeamOk w A.m tm.t2 tm.ord2) {c : Arrs R} (hc : MmArr A B c) :
    AllSchedules (mmFillTeamP w tm.t2 cA cB A.m B.n A.arrs B.arrs c.ptr) (cMem c.ind c.val)
      (cMem (mmCsr cA cB A B).arrs.ind (mmCsr cA cB A B).arrs.val) := by
  have hbase := hB.base01
  obtain ⟨bn, hbn⟩ : ∃ bn : Nat, (bn : Int) = B.n + B.base := ⟨(B.n + B.base).toNat, by omega⟩
  obtain ⟨r, -, hr⟩ := team_inv (w := w) (T := tm.t2) (m := A.m) (order := tm.ord2)
    (loc := (List.replicate bn (-1), List.replicate bn (0 : R)))
    (body := mmRow cA cB A.arrs B.arrs c.ptr) (s := ((c.ind, c.val), false)) ht.pos ht.ov ht.ord
    (P := MmDone cA cB A B (mmOff A B A.m)) (Q := MmLoc bn)
    ⟨rfl, hc.ind, hc.val, fun _ _ h => h.elim⟩ (fun i => mmLoc_init bn i)
    (fun S i s l hi' hS hP hQ => mmRow_ok cA cB hA hB hk hi' hbn hc.ptr hS hP hQ)
  obtain ⟨f1, f2⟩ := mmDone_all cA cB hr (fun r h => h)
  obtain ⟨-, g1, g2, g3⟩ := hr
  rw [f1] at g1 g3
  rw [f2] at g2 g3
  have t1 : ((B.n : Int) + B.arrs.base).toNat = bn := by simp only [Csr.arrs]; omega
  unfold mmFillTeamP
  rw [t1]
  refine team_schedules ht.pos ht.ov (mmOwn A B) ?_
    (fun S mem => ∃ s, MmDone cA cB A B (mmOff A B A.m) S s ∧ mem = cMem s.1.1 s.1.2) (MmLoc bn)
    ⟨((c.ind, c.val), false), ⟨rfl, hc.ind, hc.val, fun _ _ h => h.elim⟩, rfl⟩ (fun i => mmLoc_init bn i)
    ?_ ?_ ?_ ?_
  · rintro a b x - - ⟨h1, h2⟩ ⟨h3, h4⟩
    by_contra hne
    rcases Nat.lt_or_ge a b with h | h
    · have := mmOff_mono A B (show a + 1 ≤ b from h)
      omega
    · have := mmOff_mono A B (show b + 1 ≤ a by omega)
      omega
  · rintro S S' mem h ⟨s, ⟨d0, d1, d2, d3⟩, e⟩
    exact ⟨s, ⟨d0, d1, d2, fun r hr hS => d3 r hr ((h r).2 hS)⟩, e⟩
  · rintro S i mem l hi hS ⟨s, hs, rfl⟩ hl
    obtain ⟨l', s', e, h1, h2⟩ := mmRow_ok cA cB hA hB hk hi hbn hc.ptr hS hs hl
    have e' : mmRow cA cB A.arrs B.arrs c.ptr (i : Int) (l, s.1, false) = some (l', s'.1, false) := by
      rw [show s = (s.1, false) from Prod.ext rfl hs.1, show s' = (s'.1, false) from Prod.ext rfl h1.1] at e
      exact e
    refine ThP.wp_mono ?_ (mmRowP_sim cA cB A.arrs B.arrs (hc.ptr.rd_nat (by omega))
      (by have := hc.ptr.rd_nat (i := i + 1) (by omega); push_cast at this; exact this) ?_ e')
    · rintro a m ⟨rfl, rfl⟩
      exact ⟨⟨s', h1, rfl⟩, h2⟩
    · intro b k hk1 hk2
      exact ⟨hk1, hk2⟩
  · rintro S mem ⟨s, ⟨-, d1, d2, d3⟩, rfl⟩ r hr hS x ⟨hx1, hx2⟩
    refine cMem_win (d3 r hr hS).1 (d3 r hr hS).2 (g3 r hr hr).1 (g3 r hr hr).2
      (n := mmLen A B r) (by rw [List.length_map, mmRowL_length]) (by rw [List.length_map, mmRowL_length]) hx1 ?_
    rw [mmOff_succ] at hx2
    exact hx2
  · rintro ⟨b, k⟩ hx
    have hout : ¬ (0 ≤ k ∧ k < (mmOff A B A.m : Int)) := by
      rintro ⟨h0, h1⟩
      obtain ⟨r, hr, h2⟩ := mmOff_cover A B h0 h1
      exact hx r hr h2
    have hnone : ∀ {X : Type} (l : List X), l.length = mmOff A B A.m → rd l k = none := by
      intro X l hl
      by_contra hne
      have := rd_isSome_iff.1 (Option.isSome_iff_ne_none.2 hne)
      omega
    cases b with
    | false => show (rd c.ind k).map _ = (rd _ k).map _; rw [hnone _ hc.ind, hnone _ g1]
    | true => show (rd c.val k).map _ = (rd _ k).map _; rw [hnone _ hc.val, hnone _ g2]

/-! ### the counting region of sp2m -/

/-- a row of the counting region -/
theorem mmCntRowP_sim {own ro : Int → Prop} (A B : Arrs R) {i : Int} (ho : own (i + 1)) {l l' p p' : List Int}
    (h : mmCntRow A B i (l, p) = some (l', p')) :
    (mmCntRowP A B i l).wp own ro (rd p) (fun a m => a = l' ∧ m = rd p') := by
  unfold mmCntRow at h
  simp only [Option.bind_eq_bind, Option.bind_eq_some_iff] at h
  obtain ⟨b, hb, e, he, c, hc, q, hq, h⟩ := h
  cases h
  unfold mmCntRowP
  rw [wp_lift hb, wp_lift he]
  refine (wp_lift hc _ _ _).2 ?_
  obtain ⟨h0, h1, -⟩ := wr_some_iff.1 hq
  refine ⟨ho, ?_, rfl, ?_⟩
  · have := rd_isSome_iff.2 (⟨h0, h1⟩ : 0 ≤ i + 1 ∧ i + 1 < (p.length : Int))
    exact Option.isSome_iff_ne_none.1 this
  · funext x
    rw [rd_wr hq]
    by_cases hx : x = i + 1
    · subst hx; rw [Function.update_self, if_pos rfl]
    · rw [Function.update_of_ne hx, if_neg hx]

/-- **the counting region of sp2m under every schedule** -/
theorem mmCnt_schedules {w T : Nat} {ord : List Nat} {A B : Csr R} (hA : A.WF) (hB : B.WF) (hk : A.n = B.m)
    (ht : TeamOk w A.m T ord) {p0 : List Int} (hp : p0.length = A.m + 1) :
    ∃ p1, inTeam w ord T A.m (List.replicate B.n (-1)) (mmCntRow A.arrs B.arrs) p0 = some p1 ∧
      AllSchedules (mmCntTeamP w T A.m B.n A.arrs B.arrs) (rd p0) (rd p1) := by
  obtain ⟨f0, hf0⟩ : ∃ f, Rep p0 (A.m + 1) f := ⟨fun k => (p0[k]?).getD 0, hp, fun k hk => by
    simp [List.getElem?_eq_getElem (show k < p0.length by omega)]⟩
  have hloc : ∀ i : Nat, ∃ f, Rep (List.replicate B.n (-1)) B.n f ∧ ∀ k, k < B.n → f k < (i : Int) := by
    intro i
    refine ⟨fun _ => -1, ⟨by simp, ?_⟩, by intro k _; show (-1 : Int) < i; omega⟩
    intro k hk
    rw [List.getElem?_replicate, if_pos hk]
  have hstep : ∀ (S : Nat → Prop) (i : Nat) (s l : List Int), i < A.m → ¬ S i →
      (∃ f, Rep s (A.m + 1) f ∧ f 0 = f0 0 ∧ ∀ r, r < A.m → S r → f (r + 1) = (mmLen A B r : Int)) →
      (∃ f, Rep l B.n f ∧ ∀ k, k < B.n → f k < (i : Int)) →
      ∃ l' s', mmCntRow A.arrs B.arrs (i : Int) (l, s) = some (l', s') ∧
        (∃ f, Rep s' (A.m + 1) f ∧ f 0 = f0 0 ∧ ∀ r, r < A.m → (S r ∨ r = i) → f (r + 1) = (mmLen A B r : Int)) ∧
        (∃ f, Rep l' B.n f ∧ ∀ k, k < B.n → f k < ((i + 1 : Nat) : Int)) := by
    rintro S i s l hi hS ⟨f, hf, hf0, hf1⟩ ⟨q, hq, hq2⟩
    obtain ⟨nz', ptr', h1, h2, h3⟩ := mmCntRow_ok hA hB hk hi hq hq2 hf
    refine ⟨nz', ptr', h1, ⟨_, h2, ?_, ?_⟩, h3⟩
    · rw [Function.update_of_ne (by omega), hf0]
    · intro r hr hs
      by_cases e : r = i
      · subst e; rw [Function.update_self]
      · rw [Function.update_of_ne (by omega)]
        exact hf1 r hr (hs.resolve_right e)
  obtain ⟨p1, e1, f, hf, h1, h2⟩ := team_inv (w := w) (T := T) (m := A.m)
    (order := ord) (loc := List.replicate B.n (-1)) (body := mmCntRow A.arrs B.arrs)
    (s := p0) ht.pos ht.ov ht.ord
    (P := fun S ptr => ∃ f, Rep ptr (A.m + 1) f ∧ f 0 = f0 0 ∧
      ∀ r, r < A.m → S r → f (r + 1) = (mmLen A B r : Int))
    (Q := fun i l => ∃ f, Rep l B.n f ∧ ∀ k, k < B.n → f k < (i : Int))
    ⟨_, hf0, rfl, fun _ _ h => h.elim⟩ hloc hstep
  refine ⟨p1, e1, ?_⟩
  unfold mmCntTeamP
  rw [Int.toNat_natCast]
  refine team_schedules ht.pos ht.ov (fun r x => x = ((r + 1 : Nat) : Int)) ?_
    (fun S mem => ∃ s, mem = rd s ∧ ∃ f, Rep s (A.m + 1) f ∧ f 0 = f0 0 ∧
      ∀ r, r < A.m → S r → f (r + 1) = (mmLen A B r : Int))
    (fun i l => ∃ f, Rep l B.n f ∧ ∀ k, k < B.n → f k < (i : Int))
    ⟨p0, rfl, _, hf0, rfl, fun _ _ h => h.elim⟩ hloc ?_ ?_ ?_ ?_
  · intro r r' x _ _ h h'
    omega
  · rintro S S' mem h ⟨s, e, f, d1, d2, d3⟩
    exact ⟨s, e, f, d1, d2, fun r hr hS => d3 r hr ((h r).2 hS)⟩
  · rintro S i mem l hi hS ⟨s, rfl, hs⟩ hl
    obtain ⟨l', s', e, g1, g2⟩ := hstep S i s l hi hS hs hl
    refine ThP.wp_mono ?_ (mmCntRowP_sim A.arrs B.arrs (by show (i : Int) + 1 = ((i + 1 : Nat) : Int); omega) e)
    rintro a m ⟨rfl, rfl⟩
    exact ⟨⟨s', rfl, g1⟩, g2⟩
  · rintro S mem ⟨s, rfl, f', d1, -, d3⟩ r hr hS x rfl
    rw [d1.rd_nat (by omega), hf.rd_nat (by omega), d3 r hr hS, h2 r hr hr]
  · intro x hx
    by_cases hin : 0 ≤ x ∧ x < ((A.m + 1 : Nat) : Int)
    · have : x = ((0 : Nat) : Int) := by
        by_contra hne
        refine hx (x - 1).toNat (by omega) (by omega)
      subst this
      rw [hf0.rd_nat (by omega), hf.rd_nat (by omega), h1]
    · have hnone : ∀ (l : List Int), l.length = A.m + 1 → rd l x = none := by
        intro l hl
        by_contra hne
        have := rd_isSome_iff.1 (Option.isSome_iff_ne_none.2 hne)
        omega
      rw [hnone _ hp, hnone _ hf.1]

end mm

end Verif
