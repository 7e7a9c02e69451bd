import Verif.Proofs.OomAdd
import Verif.Props.RoundedSp2m

/-!
C65 — products and sums of sparse matrices that run out of memory.
-/

namespace Verif
open Model

variable {R : Type}

/-! ### products -/

/-- with enough memory the function is the one of C28 and C64, for all arguments -/
theorem C65_plenty [Zero R] [Add R] [Mul R] (w : Nat) (isReal : Bool) (tm : Teams) (g : Nat → Garb R)
    (cj : R → R) (opA : Int) (dA : Option Descr) (A : Option (RawMat R)) (opB : Int) (dB : Option Descr)
    (B : Option (RawMat R)) (req : Int) (C : Option (Sp2mH R)) :
    sp2mM .plenty w isReal tm g cj opA dA A opB dB B req C
      = sp2m w isReal tm g cj opA dA A opB dB B req C :=
  sp2mM_plenty w isReal tm g cj opA dA A opB dB B req C

/-- Handles that a history of calls produces, on matrices with the patterns of `A` and `B` and arbitrary
values, when in every call any allocations may fail: a count stage or a full call that leaves a handle,
whatever its status, then any number of finalize stages, whatever their status. -/
inductive MmCallsM [Zero R] [Add R] [Mul R] (w : Nat) (isReal : Bool) (cj : R → R) (opA : Op) (ta : Bool)
    (A : Csr R) (opB : Op) (tb : Bool) (B : Csr R) : Sp2mH R → Prop
  | start (o : MmOom) (tm : Teams) (g : Nat → Garb R) (dA dB : Descr) (A' B' : Csr R) (req : Int)
      (C : Option (Sp2mH R)) (st : Status) (H : Sp2mH R) (hA : A'.WF) (hB : B'.WF) (pA : SamePat A A')
      (pB : SamePat B B') (hda : dA.type = 0 ∧ dA.base = A'.base)
      (hdb : dB.type = 0 ∧ dB.base = B'.base)
      (ht : tm.Ok w (opRows opA ta A) (opCols opB tb B)) (hreq : req = 0 ∨ req = 2)
      (he : sp2mM o w isReal tm g cj opA.code (some dA) (some (A'.raw ta)) opB.code (some dB)
        (some (B'.raw tb)) req C = some (st, some H)) :
      MmCallsM w isReal cj opA ta A opB tb B H
  | next (o : MmOom) (tm : Teams) (g : Nat → Garb R) (dA dB : Descr) (A' B' : Csr R) (H : Sp2mH R)
      (st : Status) (H' : Sp2mH R)
      (hr : MmCallsM w isReal cj opA ta A opB tb B H) (hA : A'.WF) (hB : B'.WF) (pA : SamePat A A')
      (pB : SamePat B B') (hda : dA.type = 0 ∧ dA.base = A'.base)
      (hdb : dB.type = 0 ∧ dB.base = B'.base)
      (ht : tm.Ok w (opRows opA ta A) (opCols opB tb B))
      (he : sp2mM o w isReal tm g cj opA.code (some dA) (some (A'.raw ta)) opB.code (some dB)
        (some (B'.raw tb)) 1 (some H) = some (st, some H')) :
      MmCallsM w isReal cj opA ta A opB tb B H'

theorem MmCallsM.ready [Zero R] [Add R] [Mul R] {w : Nat} {isReal : Bool} {cj : R → R} {opA : Op}
    {ta : Bool} {A : Csr R} {opB : Op} {tb : Bool} {B : Csr R} {H : Sp2mH R} (hw : 0 ≤ intMax w)
    (hA : A.WF) (hB : B.WF) (hdim : opCols opA ta A = opRows opB tb B)
    (h : MmCallsM w isReal cj opA ta A opB tb B H) : ReadyL opA ta A opB tb B H := by
  induction h with
  | start o tm g dA dB A' B' req C st H hA' hB' pA pB hda hdb ht hreq he =>
    have dA' := pA.dims opA ta
    have dB' := pB.dims opB tb
    have hdim' : opCols opA ta A' = opRows opB tb B' := by rw [dA'.2, dB'.1, hdim]
    have ht' : tm.Ok w (opRows opA ta A') (opCols opB tb B') := by rw [dA'.1, dB'.2]; exact ht
    have hs := start_law isReal tm g cj (opA := opA) (dA := dA) (ta := ta) (opB := opB) (dB := dB)
      (tb := tb) hA' hB' hda hdb hdim' (w := w) ht' req hreq C
    rcases startM_law o isReal tm g cj hA' hB' hda hdb hdim' ht' req hreq C with e | ⟨C', e, hc⟩
    · rw [e] at he
      by_cases hf : ProdFits w opA ta A' opB tb B'
      · obtain ⟨H1, e1, hr, -⟩ := hs.1 hf
        rw [he] at e1
        simp only [Option.some.injEq, Prod.mk.injEq] at e1
        obtain ⟨-, rfl⟩ := e1
        exact hr.congr hA' hB' hA hB pA.symm pB.symm
      · rw [hs.2 hf hw] at he
        simp at he
    · rw [e] at he
      simp only [Option.some.injEq, Prod.mk.injEq] at he
      rcases hc with hc | ⟨-, H1, hc, hr⟩
      · rw [hc] at he
        simp at he
      · rw [hc] at he
        simp only [Option.some.injEq] at he
        obtain ⟨-, rfl⟩ := he
        exact hr.congr hA' hB' hA hB pA.symm pB.symm
  | next o tm g dA dB A' B' H st H' hr hA' hB' pA pB hda hdb ht he ih =>
    have dA' := pA.dims opA ta
    have dB' := pB.dims opB tb
    have hdim' : opCols opA ta A' = opRows opB tb B' := by rw [dA'.2, dB'.1, hdim]
    have ht' : tm.Ok w (opRows opA ta A') (opCols opB tb B') := by rw [dA'.1, dB'.2]; exact ht
    have hrd := ih.congr hA hB hA' hB' pA pB
    have hn := (next_law isReal tm g cj hA' hB' hda hdb hdim' ht' hrd).2
    rcases nextM_law o isReal tm g cj hA' hB' hda hdb hdim' ht' hrd with e | ⟨H1, e, h1⟩
    · rw [e] at he
      simp only [Option.some.injEq, Prod.mk.injEq] at he
      obtain ⟨-, rfl⟩ := he
      exact hn.congr hA' hB' hA hB pA.symm pB.symm
    · rw [e] at he
      simp only [Option.some.injEq, Prod.mk.injEq] at he
      obtain ⟨-, rfl⟩ := he
      exact h1.congr hA' hB' hA hB pA.symm pB.symm

/-- C65 (a): whichever allocations fail, in whichever threads, a call never misbehaves and never returns
another matrix.  There is one handle `H`, the product that a call with enough memory returns, and
* a full call returns success with `H`, or memory_error;
* a finalize stage on a handle from any history of calls with failing allocations returns success with
  `H`, or memory_error with a handle on which the stage can be repeated (it belongs to such a history);
* a finalize stage with enough memory on such a handle returns success with `H`. -/
theorem C65_product [Zero R] [Add R] [Mul R] {w : Nat} (hw : 0 ≤ intMax w) (isReal : Bool)
    (cj : R → R) (opA : Op) (ta : Bool) (A : Csr R) (opB : Op) (tb : Bool) (B : Csr R)
    (hA : A.WF) (hB : B.WF) (hdim : opCols opA ta A = opRows opB tb B)
    (hfit : ProdFits w opA ta A opB tb B) :
    ∃ H, ∀ (tm : Teams) (g : Nat → Garb R) (dA dB : Descr),
      dA.type = 0 ∧ dA.base = A.base → dB.type = 0 ∧ dB.base = B.base →
      tm.Ok w (opRows opA ta A) (opCols opB tb B) →
      (∀ C, sp2m w isReal tm g cj opA.code (some dA) (some (A.raw ta)) opB.code (some dB)
          (some (B.raw tb)) 2 C = some (.success, some H)) ∧
      (∀ (o : MmOom) (C : Option (Sp2mH R)),
        sp2mM o w isReal tm g cj opA.code (some dA) (some (A.raw ta)) opB.code (some dB)
          (some (B.raw tb)) 2 C = some (.success, some H) ∨
        ∃ C', sp2mM o w isReal tm g cj opA.code (some dA) (some (A.raw ta)) opB.code (some dB)
          (some (B.raw tb)) 2 C = some (.memoryError, C')) ∧
      (∀ (o : MmOom) (H' : Sp2mH R), MmCallsM w isReal cj opA ta A opB tb B H' →
        sp2mM o w isReal tm g cj opA.code (some dA) (some (A.raw ta)) opB.code (some dB)
          (some (B.raw tb)) 1 (some H') = some (.success, some H) ∨
        ∃ H'', sp2mM o w isReal tm g cj opA.code (some dA) (some (A.raw ta)) opB.code (some dB)
            (some (B.raw tb)) 1 (some H') = some (.memoryError, some H'') ∧
          MmCallsM w isReal cj opA ta A opB tb B H'') ∧
      (∀ H', MmCallsM w isReal cj opA ta A opB tb B H' →
        sp2m w isReal tm g cj opA.code (some dA) (some (A.raw ta)) opB.code (some dB)
          (some (B.raw tb)) 1 (some H') = some (.success, some H)) := by
  refine ⟨resH cj isReal opA ta A opB tb B, fun tm g dA dB hda hdb ht => ?_⟩
  have hfull : ∀ C, sp2m w isReal tm g cj opA.code (some dA) (some (A.raw ta)) opB.code (some dB)
      (some (B.raw tb)) 2 C = some (.success, some (resH cj isReal opA ta A opB tb B)) := by
    intro C
    obtain ⟨H, e, -, h2⟩ := (start_law isReal tm g cj hA hB hda hdb hdim ht 2 (.inr rfl) C).1 hfit
    rw [e, h2 rfl]
  have pA : SamePat A A := ⟨rfl, rfl, fun _ _ => Iff.rfl⟩
  have pB : SamePat B B := ⟨rfl, rfl, fun _ _ => Iff.rfl⟩
  refine ⟨hfull, ?_, ?_, ?_⟩
  · intro o C
    rcases startM_law o isReal tm g cj hA hB hda hdb hdim ht 2 (.inr rfl) C with e | ⟨C', e, -⟩
    · exact .inl (e.trans (hfull C))
    · exact .inr ⟨C', e⟩
  · intro o H' hc
    rcases nextM_law o isReal tm g cj hA hB hda hdb hdim ht (hc.ready hw hA hB hdim) with e | ⟨H1, e, -⟩
    · exact .inl e
    · exact .inr ⟨H1, e, .next o tm g dA dB A B H' _ H1 hc hA hB pA pB hda hdb ht e⟩
  · intro H' hc
    exact (next_law isReal tm g cj hA hB hda hdb hdim ht (hc.ready hw hA hB hdim)).1

/-- C65 (b): the count stage returns what it returns with enough memory, or memory_error and a null
pointer. -/
theorem C65_count [Zero R] [Add R] [Mul R] (o : MmOom) {w : Nat} (isReal : Bool) (tm : Teams)
    (g : Nat → Garb R) (cj : R → R) (opA : Op) (dA : Descr) (ta : Bool) (A : Csr R) (opB : Op) (dB : Descr)
    (tb : Bool) (B : Csr R) (hA : A.WF) (hB : B.WF)
    (hda : dA.type = 0 ∧ dA.base = A.base) (hdb : dB.type = 0 ∧ dB.base = B.base)
    (hdim : opCols opA ta A = opRows opB tb B)
    (ht : tm.Ok w (opRows opA ta A) (opCols opB tb B)) (C : Option (Sp2mH R)) :
    sp2mM o w isReal tm g cj opA.code (some dA) (some (A.raw ta)) opB.code (some dB)
        (some (B.raw tb)) 0 C
      = sp2m w isReal tm g cj opA.code (some dA) (some (A.raw ta)) opB.code (some dB)
        (some (B.raw tb)) 0 C ∨
    sp2mM o w isReal tm g cj opA.code (some dA) (some (A.raw ta)) opB.code (some dB)
        (some (B.raw tb)) 0 C = some (.memoryError, none) := by
  rcases startM_law o isReal tm g cj hA hB hda hdb hdim ht 0 (.inl rfl) C with e | ⟨C', e, h | h⟩
  · exact .inl e
  · rw [h] at e
    exact .inr e
  · exact absurd h.1 (by decide)

/-! ### sums -/

/-- C65 (c): a sum whose allocations may fail.  There is one result, the sum of C29.  Whichever
allocations fail, in whichever threads, the call returns success with it, or memory_error, or
internal_error, the last only if a thread of the counting stage ran out of memory.  It deletes nothing
of the caller, except the matrix that `*C` pointed to before, and that only if `*C` was not null and the
handle of the result cannot be allocated. -/
theorem C65_add [CommRing R] [StarRing R] {w : Nat} (op : Op) (alpha : R)
    (ta tb : Bool) (A B : Csr R) (hA : A.WF) (hB : B.WF) (hnd : B.NoDup)
    (hdim : if op = .none then userRows ta A = userRows tb B ∧ userCols ta A = userCols tb B
      else userCols ta A = userRows tb B ∧ userRows ta A = userCols tb B)
    (hfit : CountFits w A B) (th : Threads) (hth : th.Ok w (userRows tb B)) (gp gi : Nat → Int)
    (gv : Nat → R) :
    ∃ C : Csr R, add w th gp gi gv star op.code (some (A.raw ta)) alpha (some (B.raw tb))
        = some (.ok ⟨C.m, C.n, C.arrs⟩) ∧
      ∀ (o : AddOom) (old : Bool), ∃ r freed,
        addM o w th gp gi gv star op.code (some (A.raw ta)) alpha (some (B.raw tb)) old = some (r, freed) ∧
        (r = .ok ⟨C.m, C.n, C.arrs⟩ ∨ r = .error .memoryError ∨
          (r = .error .internalError ∧ ∃ t ∈ th.ord1, o.cnt t = true)) ∧
        (freed = true → old = true ∧ o.handle = true ∧ r = .error .memoryError) := by
  obtain ⟨C, e, -⟩ := C29_add gp gi gv op alpha ta tb A B hA hB hnd hth hdim hfit
  refine ⟨C, e, fun o old => ?_⟩
  have hf : ¬ ((A.raw ta).fmt ≠ 0 ∨ (B.raw tb).fmt ≠ 0) := by simp [Csr.raw]
  unfold addM
  unfold add at e
  dsimp only at e ⊢
  rw [if_neg hf] at e ⊢
  split at e
  · simp at e
  · rename_i hs
    rw [if_neg hs]
    rcases addRunM_law o gp gi gv op alpha ta tb A B hA hB hnd hth hdim with (h | ⟨h, hc⟩) | h
    · rw [h]
      exact ⟨_, _, rfl, .inr (.inl rfl), fun h => absurd h (by decide)⟩
    · rw [h]
      exact ⟨_, _, rfl, .inr (.inr ⟨rfl, by simpa using hc⟩), fun h => absurd h (by decide)⟩
    · rw [h, e]
      simp only [Option.map_some, addHandleM]
      cases hh : o.handle with
      | true => exact ⟨_, _, rfl, .inr (.inl rfl), fun h => ⟨h, rfl, rfl⟩⟩
      | false =>
        cases o.push with
        | true => exact ⟨_, _, rfl, .inr (.inl rfl), fun h => absurd h (by decide)⟩
        | false => exact ⟨_, _, rfl, .inl rfl, fun h => absurd h (by decide)⟩

/-- with enough memory the function is the one of C29 and deletes nothing, for all arguments -/
theorem C65_add_plenty [Zero R] [Add R] [Mul R] (w : Nat) (th : Threads) (gp gi : Nat → Int) (gv : Nat → R)
    (cj : R → R) (op : Int) (A : Option (RawMat R)) (alpha : R) (B : Option (RawMat R)) (old : Bool) :
    addM .plenty w th gp gi gv cj op A alpha B old
      = (add w th gp gi gv cj op A alpha B).map fun r => (r, false) := by
  unfold addM add
  cases A with
  | none => rfl
  | some A =>
    cases B with
    | none => rfl
    | some B =>
      dsimp only
      by_cases h1 : A.fmt ≠ 0 ∨ B.fmt ≠ 0
      · rw [if_pos h1, if_pos h1]; rfl
      rw [if_neg h1, if_neg h1]
      by_cases h2 : (op = 111 ∧ (A.um ≠ B.um ∨ A.un ≠ B.un)) ∨
          (op ≠ 111 ∧ (A.um ≠ B.un ∨ A.un ≠ B.um))
      · rw [if_pos h2, if_pos h2]; rfl
      rw [if_neg h2, if_neg h2, AddOom.plenty, addRunM_upTo]
      congr 1
      funext r
      cases r <;> rfl

/-- F100: the output pointer is not reset before the handle is allocated.  If that allocation is the only
one that fails, the call returns memory_error and deletes the matrix that `*C` pointed to before the call,
for all operands: a matrix that the caller still uses through another pointer is gone, and a pointer
without a value is deleted. -/
theorem C65_add_deletes [CommRing R] [StarRing R] {w : Nat} (op : Op) (alpha : R)
    (ta tb : Bool) (A B : Csr R) (hA : A.WF) (hB : B.WF) (hnd : B.NoDup)
    (hdim : if op = .none then userRows ta A = userRows tb B ∧ userCols ta A = userCols tb B
      else userCols ta A = userRows tb B ∧ userRows ta A = userCols tb B)
    (hfit : CountFits w A B) (th : Threads) (hth : th.Ok w (userRows tb B)) (gp gi : Nat → Int)
    (gv : Nat → R) :
    addM (.upTo true false) w th gp gi gv star op.code (some (A.raw ta)) alpha
      (some (B.raw tb)) true = some (.error .memoryError, true) := by
  obtain ⟨C, e, -⟩ := C29_add gp gi gv op alpha ta tb A B hA hB hnd hth hdim hfit
  have hf : ¬ ((A.raw ta).fmt ≠ 0 ∨ (B.raw tb).fmt ≠ 0) := by simp [Csr.raw]
  unfold addM
  unfold add at e
  dsimp only at e ⊢
  rw [if_neg hf] at e ⊢
  split at e
  · simp at e
  · rename_i hs
    rw [if_neg hs, addRunM_upTo, e]
    rfl

section witness

/-- failing allocations of a product: the third thread of the value stage -/
def mmOomAcc : MmOom := { MmOom.plenty with acc := fun t => t == 2 }

/-- status, and dimensions, row pointers and values of the handle -/
def mmShowM (r : Option (Status × Option (Sp2mH Rat))) :
    Option (Status × Option (List Int × List Int × List Rat)) :=
  r.map fun r => (r.1, r.2.map fun h => ([h.m, h.n, h.nnz], h.csr.ptr, h.csr.val))

/-- the hypotheses of `C65_product` hold for Aᵀ·B of C28 … -/
example : mmA.WF ∧ mmB.WF ∧ opCols .trans false mmA = opRows .none true mmB ∧
    mmTm.Ok 32 (opRows .trans false mmA) (opCols .none true mmB) ∧
    ProdFits 32 .trans false mmA .none true mmB :=
  ⟨by decide +kernel, by decide +kernel, by decide,
    ⟨(mmTm_ok _ (by decide)).1, (mmTm_ok _ (by decide)).2, (mmTm_ok _ (by decide)).1,
      (mmTm_ok _ (by decide)).2⟩,
    .inr (le_trans (by exact_mod_cast prodCount_le ..) (show ((9 : Nat) : Int) ≤ intMax 32 by
      decide +kernel))⟩

/-- F102: … and a full call whose value stage runs out of memory returns memory_error and leaves a
handle, which the caller has to destroy or to finalize; until then its row pointers, column indices and
values are the content of fresh memory. -/
theorem C65_full_leaves_handle :
    mmShowM (sp2mM mmOomAcc 32 true mmTm mmG id 112 (some ⟨0, 0, 0, 1⟩) (some (mmA.raw false)) 111
      (some ⟨0, 0, 0, 0⟩) (some (mmB.raw true)) 2 none)
      = some (.memoryError, some ([3, 3, 6], [73, 73, 73, 73], [93, 93, 93, 93, 93, 93])) := by
  decide +kernel

/-- the finalize stage on this handle, with memory, returns the product: the statements of `C65_product`
about histories are not vacuous -/
example : ((sp2mM mmOomAcc 32 true mmTm mmG id 112 (some ⟨0, 0, 0, 1⟩) (some (mmA.raw false)) 111
      (some ⟨0, 0, 0, 0⟩) (some (mmB.raw true)) 2 none).bind fun r =>
      mmShowM (sp2m 32 true mmTm mmG id 112 (some ⟨0, 0, 0, 1⟩) (some (mmA.raw false)) 111
        (some ⟨0, 0, 0, 0⟩) (some (mmB.raw true)) 1 r.2))
      = some (.success, some ([3, 3, 6], [0, 2, 4, 6], [4, 6, 15, 21, 28, 42])) := by
  decide +kernel

/-- the status and the deletion of a sum -/
def addShowM (r : Option (Except Status (OutMat Rat) × Bool)) : Option (Option Status × Bool) :=
  r.map fun r => (match r.1 with | .error e => some e | .ok _ => none, r.2)

/-- F101: a thread of the counting stage that runs out of memory makes the call return internal_error,
not memory_error (hypotheses of `C65_add`: the example after `C29_add`) … -/
theorem C65_add_internal_error :
    addShowM (addM { AddOom.plenty with cnt := fun t => t == 1 } 32 addTh (fun _ => 77) (fun _ => 78)
      (fun _ => 79) star 112 (some (addA.raw false)) 10 (some (addB.raw true)) false)
      = some (some .internalError, false) := by
  decide +kernel

/-- … and a thread of the main region makes it return memory_error. -/
example :
    addShowM (addM { AddOom.plenty with loc := fun t => t == 1 } 32 addTh (fun _ => 77) (fun _ => 78)
      (fun _ => 79) star 112 (some (addA.raw false)) 10 (some (addB.raw true)) true)
      = some (some .memoryError, false) := by
  decide +kernel

/-- the case of `C65_add_deletes` -/
example :
    addShowM (addM (.upTo true false) 32 addTh (fun _ => 77) (fun _ => 78)
      (fun _ => 79) star 112 (some (addA.raw false)) 10 (some (addB.raw true)) true)
      = some (some .memoryError, true) := by
  decide +kernel

end witness

end Verif
