import Verif.Proofs.SchedAdd
import Verif.Props.Sp2m
import Verif.Props.CsrAdd

/-!
C66 — the threads of a parallel region may interleave their accesses to memory in any way.

`AllSchedules th m0 m1` (Verif/Core/Sched.lean): however the threads `th`, started on the memory `m0`,
are interleaved, one access at a time, no access is undefined, no two threads race for a cell, every run
ends, and it ends with the memory `m1`.  The memory that is reached is the one that the model of the
region in which the threads run one after another computes; this model is the one of C28, C29, C64
and C65.
-/

namespace Verif
open Model

variable {R : Type}

/-! ### products of sparse matrices -/

/-- The counting region of a product.  `p0` is the array of the row pointers before the region, `p1`
after it. -/
theorem C66_product_counts [Zero R] [Add R] [Mul R] {w T : Nat} {ord : List Nat} {A B : Csr R} (hA : A.WF)
    (hB : B.WF) (hk : A.n = B.m) (ht : TeamOk w A.m T ord) {p0 : List Int} (hp : p0.length = A.m + 1) :
    ∃ p1, inTeam w ord T A.m (List.replicate B.n (-1)) (mmCntRow A.arrs B.arrs) p0 = some p1 ∧
      AllSchedules (mmCntTeamP w T A.m B.n A.arrs B.arrs) (rd p0) (rd p1) :=
  mmCnt_schedules hA hB hk ht hp

/-- The region that computes the values, on the arrays `H.csr` that a counting stage with another team
has left. -/
theorem C66_product_values [Zero R] [Add R] [Mul R] {w : Nat} {tm tm' : Teams} {g : Nat → Garb R} (cA cB : R → R)
    {A B : Csr R} (hA : A.WF) (hB : B.WF) (hk : A.n = B.m) (ht : TeamOk w A.m tm.t1 tm.ord1)
    (ht' : TeamOk w A.m tm'.t2 tm'.ord2) {flag : Int} (hf : flag ≠ 3) {H : Sp2mH R}
    (hc : mmCount w tm g A.m B.n A.arrs B.arrs flag = some (.ok H)) :
    ∃ r, mmFill w tm' cA cB A.m B.n A.arrs B.arrs H.csr = some (r, false) ∧
      AllSchedules (mmFillTeamP w tm'.t2 cA cB A.m B.n A.arrs B.arrs H.csr.ptr) (cMem H.csr.ind H.csr.val)
        (cMem r.ind r.val) := by
  obtain ⟨H', hH, e⟩ := mmCount_ok g hA hB hk ht flag
  rw [hc] at e
  have hHH : H = H' := by
    by_cases ho : sumOverflow 64 w (mmOff A B A.m : Int) = true
    · rw [if_pos ho] at e; cases e
    · rw [if_neg ho] at e; cases e; rfl
  subst hHH
  obtain ⟨-, hH⟩ := hH
  rw [if_neg hf] at hH
  obtain ⟨-, -, -, hm⟩ := hH
  exact ⟨_, mmFill_ok cA cB hA hB hk ht' hm.ptr hm.base hm.ind hm.val, mmFill_schedules cA cB hA hB hk ht' hm⟩

/-- The same when the result is to be transposed afterwards (both operands transposed). -/
theorem C66_product_values_csc [Zero R] [Add R] [Mul R] {w : Nat} {tm tm' : Teams} {g : Nat → Garb R} (cA cB : R → R)
    {A B : Csr R} (hA : A.WF) (hB : B.WF) (hk : A.n = B.m) (ht : TeamOk w A.m tm.t1 tm.ord1)
    (ht' : TeamOk w A.m tm'.t2 tm'.ord2) {H : Sp2mH R}
    (hc : mmCount w tm g A.m B.n A.arrs B.arrs 3 = some (.ok H)) :
    ∃ c r, H.csc = some c ∧ mmFill w tm' cA cB A.m B.n A.arrs B.arrs c = some (r, false) ∧
      AllSchedules (mmFillTeamP w tm'.t2 cA cB A.m B.n A.arrs B.arrs c.ptr) (cMem c.ind c.val)
        (cMem r.ind r.val) := by
  obtain ⟨H', hH, e⟩ := mmCount_ok g hA hB hk ht 3
  rw [hc] at e
  have hHH : H = H' := by
    by_cases ho : sumOverflow 64 w (mmOff A B A.m : Int) = true
    · rw [if_pos ho] at e; cases e
    · rw [if_neg ho] at e; cases e; rfl
  subst hHH
  obtain ⟨-, hH⟩ := hH
  rw [if_pos rfl] at hH
  obtain ⟨-, -, ⟨c, hcc, hm⟩, -⟩ := hH
  exact ⟨c, _, hcc, mmFill_ok cA cB hA hB hk ht' hm.ptr hm.base hm.ind hm.val,
    mmFill_schedules cA cB hA hB hk ht' hm⟩

/-! ### sums of sparse matrices -/

/-- The counting region of a sum. -/
theorem C66_sum_counts [Zero R] [Add R] [Mul R] {w T : Nat} {ord : List Nat} {A B : Csr R} (hA : A.WF) (hB : B.WF)
    (hm : B.m = A.m) (hn : B.n = A.n) (hnd : B.NoDup) (ht : TeamOk w A.m T ord) {p0 : List Int}
    (hp : p0.length = A.m + 1) :
    ∃ p1, inTeam w ord T A.m (List.replicate (A.n + 1) (-1)) (addCntRow A.arrs B.arrs) p0 = some p1 ∧
      AllSchedules (addCntTeamP w T A.m A.n A.arrs B.arrs) (rd p0) (rd p1) :=
  addCnt_schedules hA hB hm hn hnd ht hp

/-- The main region of a sum, with the row pointers of a counting stage and arrays of the size it found. -/
theorem C66_sum_values [Zero R] [Add R] [Mul R] {w : Nat} {th : Threads} (cj : R → R) (alpha : R) {A B : Csr R}
    (hA : A.WF) (hB : B.WF) (hm : B.m = A.m) (hn : B.n = A.n) (hnd : B.NoDup) (hth : th.Ok w A.m)
    {g : Nat → Int} {ptr : List Int}
    (hc : addCount w th A.m A.n A.arrs B.arrs (alloc (A.m + 1) g) = some (.ok ptr)) {e : Int}
    (he : rd ptr A.m = some e) {ind : List Int} {val : List R} (hi : ind.length = (e - A.base).toNat)
    (hv : val.length = (e - A.base).toNat) :
    ∃ r, inTeam w th.ord2 th.req A.m (addLoc0 (A.n : Int)) (addRowPre cj alpha A.arrs B.arrs ptr) (ind, val) = some r ∧
      AllSchedules (addTeamP w th.req cj alpha A.m A.n A.arrs B.arrs ptr) (cMem ind val) (cMem r.1 r.2) := by
  obtain ⟨ptr', hp, e1⟩ := addCount_ok hth hA hB hm hn hnd g
  rw [hc] at e1
  have hpp : ptr = ptr' := by
    by_cases ho : sumOverflow 64 w (A.base + (addOff A B A.m : Int)) = true
    · rw [if_pos ho] at e1; cases e1
    · rw [if_neg ho] at e1; cases e1; rfl
  subst hpp
  rw [hp.rd_nat (by omega)] at he
  cases he
  have t : (A.base + (addOff A B A.m : Int) - A.base).toNat = addOff A B A.m := by omega
  rw [t] at hi hv
  obtain ⟨r, h1, -, h2⟩ := add_schedules cj alpha hA hB hm hn hnd ⟨hth.req, hth.ord2, hth.ov2⟩ hp hi hv
  exact ⟨r, h1, h2⟩

/-! ### what the definition excludes -/

/-- two threads that write the same cell -/
def raceP (t : Nat) : ThP Int Int Unit :=
  if t < 2 then .write 0 (t : Int) (.ret ()) else .ret ()

/-- … do not have this property, whatever the final memory -/
theorem C66_race_excluded (m1 : Int → Option Int) : ¬ AllSchedules raceP (rd [7]) m1 := by
  intro h
  refine (h.safe 0 _ (.zero _)).2 ⟨0, 1, 0, true, true, by decide, rfl, rfl, .inl rfl⟩

/-- two threads that read and then write their own cell, but the second one reads the cell of the first -/
def staleP (t : Nat) : ThP Int Int Unit :=
  if t < 2 then .read 0 (fun v => .write (t : Int) (v + 1) (.ret ())) else .ret ()

theorem C66_stale_excluded (m1 : Int → Option Int) : ¬ AllSchedules staleP (rd [7, 8]) m1 := by
  intro h
  have s1 : PStep ⟨staleP, rd [7, 8]⟩
      ⟨Function.update staleP 0 (.write 0 8 (.ret ())), rd [7, 8]⟩ :=
    PStep.read 0 (c := ⟨staleP, rd [7, 8]⟩) (l := 0) (k := fun v => .write 0 (v + 1) (.ret ())) (v := 7) rfl rfl
  refine (h.safe 1 _ (.succ (.zero _) s1)).2 ⟨0, 1, 0, true, false, by decide, rfl, rfl, .inl rfl⟩

/-! ### concrete cases -/

section witness

/-- the hypotheses of the theorems on products … -/
example : mmA.WF ∧ mmB.WF ∧ mmA.n = mmB.m ∧ TeamOk 32 mmA.m mmTm.t1 mmTm.ord1 ∧
    TeamOk 32 mmA.m mmTm.t2 mmTm.ord2 ∧
    ∃ H, mmCount 32 mmTm mmG mmA.m mmB.n mmA.arrs mmB.arrs 0 = some (.ok H) :=
  ⟨by decide +kernel, by decide +kernel, rfl, (mmTm_ok _ (by decide)).1, (mmTm_ok _ (by decide)).2, by
    obtain ⟨H, -, e⟩ := mmCount_ok (w := 32) (tm := mmTm) mmG (A := mmA) (B := mmB) (by decide +kernel) (by decide +kernel) rfl
      (mmTm_ok _ (by decide)).1 0
    exact ⟨H, by rw [e, if_neg (by decide +kernel)]⟩⟩

/-- … and on sums, with two threads -/
example : addA.WF ∧ addB.WF ∧ addB.m = addA.m ∧ addB.n = addA.n ∧ addB.NoDup ∧ addTh.Ok 32 addA.m ∧
    (addCount 32 addTh addA.m addA.n addA.arrs addB.arrs (alloc 3 fun _ => 77)).bind
      (fun c => match c with | .ok p => some p | .error _ => none) = some [1, 4, 6] :=
  ⟨by decide +kernel, by decide +kernel, rfl, rfl, by decide +kernel,
    ⟨by decide, by decide, by decide, by decide, by decide +kernel, by decide +kernel⟩, by decide +kernel⟩

end witness

end Verif
