/-
Parallel regions one memory access at a time.

The regions of csr2m.cpp and csradd.hpp, with the accesses to the arrays that all threads share as the
steps of a thread (Verif/Core/Sched.lean).  The operands are read only in these regions, and the row
pointers of C are in the ones that compute values; reading them is not a step.  The work arrays are
local to a thread, and so is the status, which OpenMP combines at the end of the region.
-/
import Verif.Core.Sched
import Verif.Model.Sp2m

namespace Verif
namespace Model

variable {R : Type} [Zero R] [Add R] [Mul R]

/-- a cell of the two shared arrays of C: `(false, k)` is column index `k`, `(true, k)` is value `k` -/
abbrev CCell : Type := Bool × Int

/-- what a cell holds -/
abbrev CVal (R : Type) : Type := Int ⊕ R

/-- the shared memory: the column indices and values of C -/
def cMem (ind : List Int) (val : List R) : CCell → Option (CVal R)
  | (false, k) => (rd ind k).map .inl
  | (true, k) => (rd val k).map .inr

/-- read a column index -/
def getI (k : Int) : ThP CCell (CVal R) Int :=
  .read (false, k) fun v => match v with
    | .inl x => .ret x
    | .inr _ => .fail

/-- read a value -/
def getV (k : Int) : ThP CCell (CVal R) R :=
  .read (true, k) fun v => match v with
    | .inl _ => .fail
    | .inr x => .ret x

/-- write a column index -/
def putI (k : Int) (x : Int) : ThP CCell (CVal R) Unit := .write (false, k) (.inl x) (.ret ())

/-- write a value -/
def putV (k : Int) (x : R) : ThP CCell (CVal R) Unit := .write (true, k) (.inr x) (.ret ())

/-! ### sp2m -/

/-- csr2m.cpp:99-206 — count row `i`; the only shared array is the one of the row pointers -/
def mmCntRowP (A B : Arrs R) (i : Int) (marks : List Int) : ThP Int Int (List Int) :=
  (ThP.lift (rd A.ptr i)).bind fun b =>
  (ThP.lift (rd A.ptr (i + 1))).bind fun e =>
  (ThP.lift (forC (b - A.base) (e - A.base) (fun j c => do
    let col ← rd A.ind j
    mmCntInner B i (col - A.base) c) (marks, 0))).bind fun c =>
  .write (i + 1) c.2 (.ret c.1)

/-- the locals of a thread while a row is accumulated -/
structure MmLc (R : Type) where
  idx : List Int
  sum : List R
  pos : Int

/-- csr2m.cpp:460-483 — `mmStep` -/
def mmStepP (i col : Int) (v : R) (s : MmLc R) : ThP CCell (CVal R) (MmLc R) :=
  (ThP.lift (rd s.idx col)).bind fun t =>
  if t ≠ i then
    (putI s.pos col).bind fun _ =>
    (ThP.lift (wr s.idx col i)).bind fun idx =>
    (ThP.lift (wr s.sum col v)).bind fun sum =>
    .ret ⟨idx, sum, s.pos + 1⟩
  else
    (ThP.lift (rd s.sum col)).bind fun x =>
    (ThP.lift (wr s.sum col (x + v))).bind fun sum =>
    .ret ⟨s.idx, sum, s.pos⟩

/-- csr2m.cpp:449-484 — `mmInner` -/
def mmInnerP (cjB : R → R) (B : Arrs R) (i colA : Int) (vA : R) (s : MmLc R) : ThP CCell (CVal R) (MmLc R) :=
  (ThP.lift (rd B.ptr colA)).bind fun b =>
  (ThP.lift (rd B.ptr (colA + 1))).bind fun e =>
  ThP.forP (b - B.base) (e - B.base) (fun k s =>
    (ThP.lift (rd B.ind k)).bind fun col =>
    (ThP.lift (rd B.val k)).bind fun v =>
    mmStepP i col (vA * cjB v) s) s

/-- csr2m.cpp:435-485 — `mmAcc` -/
def mmAccP (cjA cjB : R → R) (A B : Arrs R) (i : Int) (s : MmLc R) : ThP CCell (CVal R) (MmLc R) :=
  (ThP.lift (rd A.ptr i)).bind fun b =>
  (ThP.lift (rd A.ptr (i + 1))).bind fun e =>
  ThP.forP (b - A.base) (e - A.base) (fun j s =>
    (ThP.lift (rd A.ind j)).bind fun col =>
    (ThP.lift (rd A.val j)).bind fun v =>
    mmInnerP cjB B i (col - A.base) (cjA v) s) s

/-- csr2m.cpp:493-500 — `mmCopy` -/
def mmCopyP (baseB : Int) (sum : List R) (k : Int) (u : Unit) : ThP CCell (CVal R) Unit :=
  (getI k).bind fun col =>
  (ThP.lift (rd sum col)).bind fun x =>
  (putV k x).bind fun _ =>
  (putI k (col - baseB)).bind fun _ => .ret u

/-- csr2m.cpp:424-503 — `mmRow`.  A thread that finds another number of entries than was counted reports
an internal error; that outcome is `fail` here, so a run without `fail` is one without this error. -/
def mmRowP (cjA cjB : R → R) (A B : Arrs R) (ptr : List Int) (i : Int)
    (s : List Int × List R) : ThP CCell (CVal R) (List Int × List R) :=
  (ThP.lift (rd ptr i)).bind fun p =>
  (mmAccP cjA cjB A B i ⟨s.1, s.2, p⟩).bind fun r =>
  (ThP.lift (rd ptr (i + 1))).bind fun e =>
  if r.pos ≠ e then .fail
  else (ThP.forP p e (mmCopyP B.base r.sum) ()).bind fun _ => .ret (r.idx, r.sum)

/-- csr2m.cpp:83-206 — the threads of the counting region -/
def mmCntTeamP (w T : Nat) (m n : Int) (A B : Arrs R) : Nat → ThP Int Int Unit :=
  teamP w T m (List.replicate n.toNat (-1)) (mmCntRowP A B)

/-- csr2m.cpp:405-503 — the threads of the region that computes the values -/
def mmFillTeamP (w T : Nat) (cjA cjB : R → R) (m n : Int) (A B : Arrs R) (ptr : List Int) :
    Nat → ThP CCell (CVal R) Unit :=
  teamP w T m (List.replicate (n + B.base).toNat (-1), List.replicate (n + B.base).toNat (0 : R))
    (mmRowP cjA cjB A B ptr)

/-! ### add -/

/-- csradd.hpp:71-94 — `addCntRow`; the only shared array is the one of the row pointers -/
def addCntRowP (A B : Arrs R) (i : Int) (marks : List Int) : ThP Int Int (List Int) :=
  (ThP.lift (rd A.ptr i)).bind fun st =>
  (ThP.lift (rd A.ptr (i + 1))).bind fun en =>
  (ThP.lift (forC (st - A.base) (en - A.base) (fun j c => do
    let col ← rd A.ind j
    addCntA i col c) (marks, 0))).bind fun c =>
  (ThP.lift (rd B.ptr i)).bind fun st =>
  (ThP.lift (rd B.ptr (i + 1))).bind fun en =>
  (ThP.lift (forC (st - B.base) (en - B.base) (fun j c => do
    let col ← rd B.ind j
    addCntB i (col - B.base + A.base) c) c)).bind fun c =>
  .write (i + 1) c.2 (.ret c.1)

/-- csradd.hpp:266-276 — `addStepA` -/
def addStepAP (cj : R → R) (alpha : R) (i col : Int) (v : R) (s : AddLoc) : ThP CCell (CVal R) AddLoc :=
  (ThP.lift (wr s.nnz col i)).bind fun nnz =>
  (ThP.lift (wr s.colRec col s.idx)).bind fun colRec =>
  (putI s.idx col).bind fun _ =>
  (putV s.idx (alpha * cj v)).bind fun _ =>
  .ret ⟨nnz, colRec, s.idx + 1⟩

/-- csradd.hpp:279-293 — `addStepB` -/
def addStepBP (i col : Int) (v : R) (s : AddLoc) : ThP CCell (CVal R) AddLoc :=
  (ThP.lift (rd s.nnz col)).bind fun t =>
  if t ≠ i then
    (putI s.idx col).bind fun _ =>
    (putV s.idx v).bind fun _ =>
    (ThP.lift (wr s.nnz col i)).bind fun nnz =>
    .ret ⟨nnz, s.colRec, s.idx + 1⟩
  else
    (ThP.lift (rd s.colRec col)).bind fun r =>
    (getV r).bind fun x =>
    (putV r (x + v)).bind fun _ =>
    .ret s

/-- csradd.hpp:266-293 — `addMerge` -/
def addMergeP (cj : R → R) (alpha : R) (A B : Arrs R) (i : Int) (s : AddLoc) : ThP CCell (CVal R) AddLoc :=
  (ThP.lift (rd A.ptr i)).bind fun st =>
  (ThP.lift (rd A.ptr (i + 1))).bind fun en =>
  (ThP.forP (st - A.base) (en - A.base) (fun j s =>
    (ThP.lift (rd A.ind j)).bind fun col =>
    (ThP.lift (rd A.val j)).bind fun v =>
    addStepAP cj alpha i col v s) s).bind fun s =>
  (ThP.lift (rd B.ptr i)).bind fun st =>
  (ThP.lift (rd B.ptr (i + 1))).bind fun en =>
  ThP.forP (st - B.base) (en - B.base) (fun j s =>
    (ThP.lift (rd B.ind j)).bind fun col =>
    (ThP.lift (rd B.val j)).bind fun v =>
    addStepBP i (col - B.base + A.base) v s) s

/-- csradd.hpp:259-298 — `addRowPre` -/
def addRowP (cj : R → R) (alpha : R) (A B : Arrs R) (ptr : List Int) (i : Int) (s : AddLoc) :
    ThP CCell (CVal R) AddLoc :=
  (ThP.lift (rd ptr i)).bind fun p =>
  addMergeP cj alpha A B i { s with idx := p - A.base }

/-- csradd.hpp:49-98 — the threads of the counting region -/
def addCntTeamP (w T : Nat) (M N : Int) (A B : Arrs R) : Nat → ThP Int Int Unit :=
  teamP w T M (List.replicate (N + 1).toNat (-1)) (addCntRowP A B)

/-- csradd.hpp:246-304 — the threads of the main region, when the row pointers are known -/
def addTeamP (w T : Nat) (cj : R → R) (alpha : R) (M N : Int) (A B : Arrs R) (ptr : List Int) :
    Nat → ThP CCell (CVal R) Unit :=
  teamP w T M (addLoc0 N) (addRowP cj alpha A B ptr)

end Model
end Verif
