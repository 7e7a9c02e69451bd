import Verif.Proofs.OomSp2m
import Verif.Props.CsrAdd

namespace Verif
open Model

section
variable {R : Type} [Semiring R]

/-- an outcome of a call without memory: an error, and which one -/
def AddFails (o : AddOom) (th : Threads) {α : Type} (r : Option (Except Status α)) : Prop :=
  r = some (.error .memoryError) ∨ (r = some (.error .internalError) ∧ th.ord1.any o.cnt = true)

omit [Semiring R] in
/-- the counting stage -/
theorem addCountM_law [Zero R] [Add R] [Mul R] (o : AddOom) {w : Nat} {th : Threads} {A B : Csr R}
    (hth : th.Ok w A.m) (hA : A.WF)
    (hB : B.WF) (hm : B.m = A.m) (hn : B.n = A.n) (hnd : B.NoDup) (g : Nat → Int) :
    (th.ord1.any o.cnt = false ∧ addCountM o w th A.m A.n A.arrs B.arrs (alloc (A.m + 1) g)
      = addCount w th A.m A.n A.arrs B.arrs (alloc (A.m + 1) g)) ∨
    (th.ord1.any o.cnt = true ∧ addCountM o w th A.m A.n A.arrs B.arrs (alloc (A.m + 1) g)
      = some (.error .memoryError)) := by
  cases hc : th.ord1.any o.cnt with
  | false =>
    refine Or.inl ⟨rfl, ?_⟩
    unfold addCountM addCount
    simp only [hc, inTeamM_none hc, Bool.false_eq_true, if_false]
  | true =>
    refine Or.inr ⟨rfl, ?_⟩
    have hrep : Rep (alloc (A.m + 1) g) (A.m + 1) g := Rep.of_map
    obtain ⟨p0, e0, r0⟩ := hrep.wr_nat A.base (i := 0) (by omega)
    obtain ⟨p1, e1, -⟩ := team_keep (fail := o.cnt) (w := w) (T := th.team) (m := A.m)
      (order := th.ord1) (loc := List.replicate (A.n + 1) (-1)) (body := addCntRow A.arrs B.arrs)
      (s := p0) hth.ov1 (fun t ht => by simpa using hth.ord1.mem_iff.mp ht)
      (P := fun ptr => ∃ f, Rep ptr (A.m + 1) f)
      (Q := fun i l => ∃ f, Rep l (A.n + 1) f ∧ ∀ k, k < A.n + 1 → f k < (i : Int))
      ⟨_, r0⟩
      (by
        intro i
        refine ⟨fun _ => -1, ⟨by simp, ?_⟩, by intro k _; show (-1 : Int) < i; omega⟩
        intro k hk
        rw [List.getElem?_replicate, if_pos hk])
      (by
        rintro i s l hi ⟨f, hf⟩ ⟨q, hq, hq2⟩
        obtain ⟨nz', ptr', h1, h2, h3⟩ := addCntRow_ok hA hB hm hn hi (hnd i (by omega)) hq hq2 hf
        exact ⟨nz', ptr', h1, ⟨_, h2⟩, h3⟩)
    unfold addCountM
    have t1 : (((A.n : Int) + 1).toNat) = A.n + 1 := by omega
    rw [show wr (alloc (A.m + 1) g) 0 A.arrs.base = some p0 from e0, Option.bind_eq_bind,
      Option.bind_some, t1, e1, Option.bind_eq_bind, Option.bind_some, if_pos hc]

/-- the rows after the counting stage -/
theorem addPreM_law (o : AddOom) {w : Nat} {th : Threads} (gi : Nat → Int) (gv : Nat → R) (cj : R →+* R)
    (alpha : R) {A B : Csr R} (hth : th.Ok w A.m) (hA : A.WF)
    (hB : B.WF) (hm : B.m = A.m) (hn : B.n = A.n) (hnd : B.NoDup) {ptr : List Int}
    (hp : Rep ptr (A.m + 1) (fun k => A.base + (addOff A B k : Int))) :
    addPreM o w th gi gv cj A.m A.n A.arrs alpha B.arrs ptr = some (.error .memoryError) ∨
    addPreM o w th gi gv cj A.m A.n A.arrs alpha B.arrs ptr = (do
      let e ← rd ptr A.m
      let nnz := (e - A.arrs.base).toNat
      let r ← inTeam w th.ord2 th.req A.m (addLoc0 A.n) (addRowPre cj alpha A.arrs B.arrs ptr)
        (alloc nnz gi, alloc nnz gv)
      some (.ok ⟨A.arrs.base, ptr, r.1, r.2⟩)) := by
  unfold addPreM
  cases ha : o.arrs with
  | true => exact Or.inl rfl
  | false =>
    simp only [Bool.false_eq_true, if_false]
    cases hc : th.ord2.any o.loc with
    | false =>
      refine Or.inr ?_
      simp only [inTeamM_none hc, Bool.false_eq_true, if_false]
    | true =>
      refine Or.inl ?_
      have hr := hp.rd_nat (i := A.m) (by omega)
      have t2 : (A.base + (addOff A B A.m : Int) - A.base).toNat = addOff A B A.m := by omega
      rw [hr, Option.bind_eq_bind, Option.bind_some, show A.arrs.base = A.base from rfl, t2]
      obtain ⟨r, e, -⟩ := team_keep (fail := o.loc) (w := w) (T := th.req) (m := A.m)
        (order := th.ord2) (loc := addLoc0 (A.n : Int))
        (body := addRowPre cj alpha A.arrs B.arrs ptr)
        (s := (alloc (addOff A B A.m) gi, alloc (addOff A B A.m) gv)) hth.ov2
        (fun t ht => by simpa using hth.ord2.mem_iff.mp ht)
        (P := RowsDone cj alpha A B (addOff A B A.m) (fun _ => False)) (Q := LocOk A.n)
        ⟨by simp, by simp, fun _ _ h => h.elim⟩ (locOk0 A.n)
        (by
          rintro i s l hi hP hQ
          obtain ⟨st', e, h1, h2, h3⟩ := rowsDone_step cj alpha hA hB hm hn hi
            (hnd i (by omega)) (le_refl _) (S := fun _ => False) not_false hP
            (l := { l with idx := addOff A B i }) hQ rfl
          refine ⟨st'.loc, (st'.ind, st'.val), ?_, ⟨h1.1, h1.2.1, fun _ _ h => h.elim⟩, h2⟩
          unfold addRowPre
          rw [hp.rd_nat (i := i) (by omega)]
          simp only [Option.bind_eq_bind, Option.bind_some]
          rw [show A.base + (addOff A B i : Int) - A.arrs.base = (addOff A B i : Int) by
            simp [Csr.arrs], e]
          rfl)
      rw [e, Option.bind_eq_bind, Option.bind_some, if_pos rfl]

/-- **the sum of two matrices whose allocations may fail** -/
theorem addCsrM_law (o : AddOom) {w : Nat} {th : Threads} (gp gi : Nat → Int) (gv : Nat → R) (cj : R →+* R)
    (alpha : R) {A B : Csr R} (hth : th.Ok w A.m) (hA : A.WF)
    (hB : B.WF) (hm : B.m = A.m) (hn : B.n = A.n) (hnd : B.NoDup) :
    AddFails o th (addCsrM o w th gp gi gv cj A.m A.n A.nnz B.nnz A.arrs alpha B.arrs) ∨
    addCsrM o w th gp gi gv cj A.m A.n A.nnz B.nnz A.arrs alpha B.arrs
      = addCsr w th gp gi gv cj A.m A.n A.nnz B.nnz A.arrs alpha B.arrs := by
  have t1 : (((A.m : Int) + 1).toNat) = A.m + 1 := by omega
  unfold addCsrM addCsr
  by_cases h0 : (A.m : Int) = 0 ∨ (A.n : Int) = 0 ∨ ((A.nnz : Int) = 0 ∧ (B.nnz : Int) = 0)
  · rw [if_pos h0, if_pos h0]
    cases o.empty with
    | true => exact Or.inl (Or.inl rfl)
    | false => exact Or.inr rfl
  · rw [if_neg h0, if_neg h0]
    by_cases h1 : th.req ≠ 1 ∨ (A.nnz : Int) + (B.nnz : Int) > intMax w
    · rw [if_pos h1, if_pos h1]
      cases o.ptr with
      | true => exact Or.inl (Or.inl rfl)
      | false =>
        rw [if_neg (by decide), t1]
        rcases addCountM_law o hth hA hB hm hn hnd gp with ⟨hc, e⟩ | ⟨hc, e⟩
        · obtain ⟨ptr, hp, hcnt⟩ := addCount_ok hth hA hB hm hn hnd gp
          rw [e, hcnt]
          cases sumOverflow 64 w (A.base + (addOff A B A.m : Int)) with
          | true => exact Or.inr rfl
          | false =>
            rcases addPreM_law o gi gv cj alpha hth hA hB hm hn hnd hp with h | h
            · exact Or.inl (Or.inl h)
            · exact Or.inr h
        · rw [e]
          exact Or.inl (Or.inr ⟨rfl, hc⟩)
    · rw [if_neg h1, if_neg h1]
      have hreq : th.req = 1 := by omega
      have hord : th.ord2 = [0] := by
        have := hth.ord2
        rw [hreq] at this
        exact List.perm_singleton.mp (by simpa using this)
      unfold addSeqM
      cases o.over with
      | true => exact Or.inl (Or.inl rfl)
      | false =>
        simp only [Bool.false_eq_true, if_false]
        cases hc : th.ord2.any o.loc with
        | false =>
          refine Or.inr ?_
          simp only [inTeamM_none hc, Bool.false_eq_true, if_false]
        | true =>
          refine Or.inl (Or.inl ?_)
          have hrep : Rep (alloc (A.m + 1) gp) (A.m + 1) gp := Rep.of_map
          obtain ⟨p0, e0, r0⟩ := hrep.wr_nat A.base (i := 0) (by omega)
          have hl : o.loc 0 = true := by rw [hord] at hc; simpa using hc
          have hov := hth.ov2
          rw [hreq] at hov
          rw [t1, show wr (alloc (A.m + 1) gp) 0 A.arrs.base = some p0 from e0, hord, hreq]
          have hk : ∀ s : List Int × List Int × List R,
              inTeamM o.loc w [0] 1 (A.m : Int) (addLoc0 (A.n : Int))
                (addRowSeq cj alpha A.arrs B.arrs) s = some s := by
            intro s
            unfold inTeamM threadRowsM
            rw [List.foldlM_cons, if_pos hl, chk_of_le (by simp) (by simp; omega),
              chk_of_le (by simp) (by simpa using hov)]
            rfl
          simp only [Option.bind_eq_bind, Option.bind_some, hk, if_true]
end

section
variable {R : Type} [CommRing R] [StarRing R]

/-- the pointer arrays or no memory -/
theorem orientM_law (fail tr : Bool) (A : RawMat R) :
    orientM fail tr A = some (.error .memoryError) ∨ orientM fail tr A = orient tr A := by
  unfold orientM
  by_cases h : tr = true ∧ fail = true
  · rw [if_pos h]; exact .inl rfl
  · rw [if_neg h]; exact .inr rfl

/-- **everything but the handle** -/
theorem addRunM_law (o : AddOom) {w : Nat} {th : Threads} (gp gi : Nat → Int) (gv : Nat → R) (op : Op)
    (alpha : R) (ta tb : Bool) (A B : Csr R) (hA : A.WF) (hB : B.WF) (hnd : B.NoDup)
    (hth : th.Ok w (userRows tb B))
    (hdim : if op = .none then userRows ta A = userRows tb B ∧ userCols ta A = userCols tb B
      else userCols ta A = userRows tb B ∧ userRows ta A = userCols tb B) :
    AddFails o th (addRunM o w th gp gi gv star op.code (A.raw ta) alpha (B.raw tb)) ∨
    addRunM o w th gp gi gv star op.code (A.raw ta) alpha (B.raw tb)
      = addRun w th gp gi gv star op.code (A.raw ta) alpha (B.raw tb) := by
  obtain ⟨A', ea, oa⟩ := orient_ok hA (ta == decide (op = .none)) ta
  obtain ⟨B', eb, ob⟩ := orient_ok hB tb tb
  have hBm : B'.m = userRows tb B := by rw [ob.m]; rfl
  have hBn : B'.n = userCols tb B := by rw [ob.n]; rfl
  have hAm : A'.m = userRows tb B := by
    rw [oa.m]
    cases ta <;> cases op <;> simp_all [userRows, userCols]
  have hAn : A'.n = userCols tb B := by
    rw [oa.n]
    cases ta <;> cases op <;> simp_all [userRows, userCols]
  let cj : R →+* R := if op = .conjTrans then starRingEnd R else RingHom.id R
  have hcj : (if op.code = 113 then (star : R → R) else id) = cj := by
    cases op <;> simp [cj, Op.code] <;> rfl
  have hc111 : (op.code = 111) ↔ op = .none := by cases op <;> simp [Op.code]
  have hT : ((A.raw ta).isT == decide (op.code = 111))
      = (ta == decide (op = .none)) := by
    simp only [hc111]; rfl
  have hM : (if (ta == decide (op = .none)) = true then (A.raw ta).n else (A.raw ta).m)
      = (A'.m : Int) := by rw [oa.m]; split <;> rfl
  have hN : (if (ta == decide (op = .none)) = true then (A.raw ta).m else (A.raw ta).n)
      = (A'.n : Int) := by rw [oa.n]; split <;> rfl
  have hl := addCsrM_law o gp gi gv cj alpha (A := A') (B := B')
    (by rw [hAm]; exact hth) oa.wf ob.wf (by rw [hBm, hAm]) (by rw [hBn, hAn]) (ob.nodup hnd)
  have zA : ((A.raw ta).nnz : Int) = (A'.nnz : Int) := by rw [oa.nnz]; rfl
  have zB : ((B.raw tb).nnz : Int) = (B'.nnz : Int) := by rw [ob.nnz]; rfl
  unfold addRunM addRun
  simp only [hT, hM, hN, hcj, zA, zB, show (B.raw tb).isT = tb from rfl]
  rcases orientM_law o.trA (ta == decide (op = .none)) (A.raw ta) with e | e
  · rw [e]; exact .inl (.inl rfl)
  rw [e, ea]
  simp only [Option.bind_some]
  rcases orientM_law o.trB tb (B.raw tb) with e | e
  · rw [e]; exact .inl (.inl rfl)
  rw [e, eb]
  simp only [Option.bind_some]
  rcases hl with (h | ⟨h, hc⟩) | h
  · rw [h]; exact .inl (.inl rfl)
  · rw [h]; exact .inl (.inr ⟨rfl, hc⟩)
  · rw [h]; exact .inr rfl
end

section
variable {R : Type} [Zero R] [Add R] [Mul R]

/-- enough memory for everything but the handle -/
theorem addCountM_upTo (h p : Bool) (w : Nat) (th : Threads) (M N : Int) (A B : Arrs R) (ptr : List Int) :
    addCountM (.upTo h p) w th M N A B ptr = addCount w th M N A B ptr := by
  have hc : th.ord1.any (fun _ => false) = false := by simp
  unfold addCountM addCount
  simp only [AddOom.upTo, inTeamM_plenty, hc, Bool.false_eq_true, if_false]

theorem addCsrM_upTo (h p : Bool) (w : Nat) (th : Threads) (gp gi : Nat → Int) (gv : Nat → R) (cj : R → R)
    (M N : Int) (Annz Bnnz : Int) (A : Arrs R) (alpha : R) (B : Arrs R) :
    addCsrM (.upTo h p) w th gp gi gv cj M N Annz Bnnz A alpha B
      = addCsr w th gp gi gv cj M N Annz Bnnz A alpha B := by
  have hc : th.ord2.any (fun _ => false) = false := by simp
  unfold addCsrM addCsr
  rw [addCountM_upTo]
  unfold addPreM addSeqM
  simp only [AddOom.upTo, inTeamM_plenty, hc, Bool.false_eq_true, if_false]
  rfl

theorem addRunM_upTo (h p : Bool) (w : Nat) (th : Threads) (gp gi : Nat → Int) (gv : Nat → R) (cj : R → R)
    (op : Int) (A : RawMat R) (alpha : R) (B : RawMat R) :
    addRunM (.upTo h p) w th gp gi gv cj op A alpha B = addRun w th gp gi gv cj op A alpha B := by
  have ho : ∀ tr (A : RawMat R), orientM false tr A = orient tr A := fun tr A => by
    unfold orientM
    rw [if_neg (by simp)]
  unfold addRunM addRun
  simp only [addCsrM_upTo, show (AddOom.upTo h p).trA = false from rfl,
    show (AddOom.upTo h p).trB = false from rfl, ho]
  rfl
end

end Verif
