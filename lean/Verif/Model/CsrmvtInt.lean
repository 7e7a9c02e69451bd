/-
The transposed vector kernel with threads, its row bounds in the integer type of the library.
-/
import Verif.Model.Csrmv
import Verif.Model.Overflow

namespace Verif
namespace Model

variable {R : Type} [Zero R] [One R] [Add R] [Mul R] [DecidableEq R]

/-- csrmv_kt.cpp:146-147 — `start = m * tid / nthreads`, `end = m * (tid + 1) / nthreads` in an integer type of `w`
bits; a value out of range is undefined -/
def mvtSplit (w : Nat) (m : Int) (nthreads tid : Nat) : Option (Int × Int) := do
  let a ← chk w (m * tid)
  let t ← chk w ((tid : Int) + 1)
  let b ← chk w (m * t)
  some (a.tdiv nthreads, b.tdiv nthreads)

/-- csrmv_kt.cpp:140-193 — the private buffer of thread `tid`, rows `start` to `end` -/
def csrmvtBufInt (w K : Nat) (base : Int) (alpha : R) (m n : Int) (val : List R) (ind ptr : List Int)
    (x : List R) (nthreads tid : Nat) : Option (List R) := do
  let r ← mvtSplit w m nthreads tid
  forC r.1 r.2 (fun i b => do
    let lo ← rd ptr i
    let hi ← rd ptr (i + 1)
    let xi ← rd x i
    csrmvtRow K base alpha val ind lo hi xi b) (List.replicate n.toNat 0)

/-- csrmv_kt.cpp:96-207 — csrmvt_kt with OpenMP; as `csrmvtKt`, with the bounds in the integer type -/
def csrmvtKtInt (w K : Nat) (base : Int) (alpha : R) (m n : Int) (val : List R) (ind ptr : List Int)
    (x : List R) (beta : R) (y : List R) (nthreads : Nat) (order : List Nat) : Option (List R) := do
  let y ← scaleY beta n y
  order.foldlM (fun y tid => do
    let b ← csrmvtBufInt w K base alpha m n val ind ptr x nthreads tid
    mergeBuf n y b) y

end Model
end Verif
