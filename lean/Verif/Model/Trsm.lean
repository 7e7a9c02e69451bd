/-
Model of the triangular solve with several right-hand sides
  library/src/level3/aoclsparse_trsm.hpp  36-159
  library/src/level3/aoclsparse_trsm.cpp  (wrappers)
The columns are solved by a parallel loop.  A schedule is the order in which the columns are solved; the
solve of a column is one step of the schedule.  The shared variable `status` is written by all columns.
-/
import Verif.Model.Symgs
import Verif.Model.Tcsr

namespace Verif
namespace Model

variable {R : Type}

/-- `&a[off]`: the part of the array from `off` on; a pointer past the end is undefined -/
def ptrAt (a : List R) (off : Int) : Option (List R) :=
  if 0 ≤ off ∧ off ≤ a.length then some (a.drop off.toNat) else none

/-- trsm.hpp:148-155 — the solve of column `ld`; the state is `status`, X and the handle.  `solve` is the
call of aoclsparse::trsv with its right-hand side and solution -/
def trsmCol {σ : Type} (solve : σ → List R → List R → Option (Status × List R × σ)) (boff xoff : Int)
    (B : List R) (s : Status × List R × σ) (ld : Nat) : Option (Status × List R × σ) := do
  let b ← ptrAt B (ld * boff)
  let x ← ptrAt s.2.1 (ld * xoff)
  let r ← solve s.2.2 b x
  some (r.1, s.2.1.take (ld * xoff).toNat ++ r.2.1, r.2.2)

/-- trsm.hpp:148-157 — the parallel loop in the order `sched` -/
def trsmLoop {σ : Type} (solve : σ → List R → List R → Option (Status × List R × σ)) (boff xoff : Int)
    (B X : List R) (h : σ) (sched : List Nat) : Option (Status × List R × σ) :=
  sched.foldlM (trsmCol solve boff xoff B) (.success, X, h)

/-- trsm.hpp:112-145 — strides and offsets of the layout, and the overflow check: `incb`, `incx`,
`b_offset`, `x_offset` -/
def trsmLayout (w : Nat) (order n ldb ldx : Int) : Except Status (Int × Int × Int × Int) :=
  let l : Option (Int × Int × Int × Int) :=
    if order = 0 then some (ldb, ldx, 1, 1)
    else if order = 1 then some (1, 1, ldb, ldx)
    else none
  match l with
  | none => .error .invalidValue
  | some (ib, ix, ob, ox) =>
    if prodOvf w n ob ∨ prodOvf w n ox then .error .invalidSize else .ok (ib, ix, ob, ox)

/-- trsm.hpp:59-97 — the checks of the arguments before the matrix is prepared: the status if the call ends
here.  `fmt`, `m`, `an`, `nnz`, `base` are those of the handle -/
def trsmCheck (fmt m an nnz base : Int) (d : Descr) (op n ldb ldx : Int) : Option Status :=
  if base ≠ d.base then some .invalidValue
  else if fmt ≠ 0 ∧ fmt ≠ 8 then some .notImplemented
  else if m < 0 ∨ nnz < 0 ∨ n < 0 then some .invalidSize
  else if m = 0 ∨ an = 0 ∨ nnz = 0 ∨ n = 0 then some .success
  else if m ≠ an then some .invalidSize
  else if ldb < 0 ∨ ldx < 0 then some .invalidSize
  else if d.base ≠ 0 ∧ d.base ≠ 1 then some .invalidValue
  else if op ≠ 111 ∧ op ≠ 112 ∧ op ≠ 113 then some .invalidValue
  else if d.type ≠ 1 ∧ d.type ≠ 3 then some .invalidValue
  else if d.fill ≠ 0 ∧ d.fill ≠ 1 then some .notImplemented
  else none

section csr
variable [Zero R] [One R] [Add R] [Sub R] [Neg R] [Mul R] [Div R] [DecidableEq R]

/-- trsm.hpp:153-157 — what the loop takes from one call of the solver on a column: status, column, handle -/
def trsvOut (r : Status × Option (List R) × Option (MvHandle R)) : Option (Status × List R × MvHandle R) :=
  match r with
  | (st, some x, some H) => some (st, x, H)
  | _ => none

/-- trsm.hpp:36-159 — aoclsparse_trsm on a handle created from CSR or CSC arrays (or another format, which is
refused): the status, X and the handle.  `sameType`: the handle holds values of the type of the call; `im` is
the kernel picked by the dispatcher; `sched` is the order of the columns. -/
def trsmH (isReal : Bool) (w : Nat) (cjg : R → R) (srt : (Int → Int → Bool) → List Int → List Int)
    (g : Garb R) (im : TrsvImpl R) (sameType : Bool) (sched : List Nat) (op : Int) (alpha : R)
    (A : Option (MvHandle R)) (d : Option Descr) (order : Int) (B : Option (List R)) (n ldb : Int)
    (X : Option (List R)) (ldx : Int) : Option (Status × Option (List R) × Option (MvHandle R)) :=
  match A, X, B, d with
  | some H, some X, some B, some d =>
    match trsmCheck H.raw.fmt H.raw.um H.raw.un H.raw.nnz H.raw.base d op n ldb ldx with
    | some st => some (st, some X, some H)
    | none =>
      if sameType = false then some (.wrongType, some X, some H)
      else do
        let r ← csrCscOptimize srt g.i g.v H
        match r with
        | .error e => some (e, some X, some H)
        | .ok q =>
          match trsmLayout w order n ldb ldx with
          | .error e => some (e, some X, some q.2)
          | .ok (ib, ix, ob, ox) => do
            let s ← trsmLoop (fun H b x => (trsvH isReal w cjg srt g im true op alpha (some H) (some d) (some b)
              ib (some x) ix).bind trsvOut) ob ox B X q.2 sched
            some (s.1, some s.2.1, some s.2.2)
  | A, X, _, _ => some (.invalidPointer, X, A)

end csr

/-- trsm.hpp:153-157 — what the loop takes from one call of the solver for TCSR matrices on a column: a refused call
leaves the column as it was -/
def trsvTOut (x : List R) (r : Except Status (List R)) : Status × List R × Unit :=
  match r with
  | .error e => (e, x, ())
  | .ok x => (.success, x, ())

/-- trsm.hpp:36-159 — aoclsparse_trsm on a TCSR handle -/
def trsmTcsr [Field R] [DecidableEq R] (isReal : Bool) (w : Nat) (cjg : R → R) (im : TrsvImpl R)
    (sameType : Bool) (sched : List Nat) (op : Int) (alpha : R) (T : Option (Tcsr R)) (d : Option Descr)
    (order : Int) (B : Option (List R)) (n ldb : Int) (X : Option (List R)) (ldx : Int) :
    Option (Status × Option (List R)) :=
  match T, X, B, d with
  | some T, some X, some B, some d =>
    match trsmCheck 8 T.m T.n T.nnz T.base d op n ldb ldx with
    | some st => some (st, some X)
    | none =>
      match trsmLayout w order n ldb ldx with
      | .error e => some (e, some X)
      | .ok (ib, ix, ob, ox) => do
        let s ← trsmLoop (fun (_ : Unit) b x => (trsvTcsr isReal w cjg im sameType op alpha (some T) (some d)
          (some b) ib (some x) ix).map (trsvTOut x)) ob ox B X () sched
        some (s.1, some s.2.1)
  | _, X, _, _ => some (.invalidPointer, X)

end Model
end Verif
