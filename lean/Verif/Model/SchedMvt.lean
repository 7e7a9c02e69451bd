/-
The parallel regions of the transposed product, one memory access at a time.

The only shared array that is written is y.  The matrix and x (which must not overlap y) are read only, and
reading them is not a step; nor is work on a thread's own buffer.
-/
import Verif.Core.Crit
import Verif.Model.SchedMm
import Verif.Model.Oom

namespace Verif
namespace Model

variable {R : Type} [Zero R] [One R] [Add R] [Mul R] [DecidableEq R]

/-- csrmv_kt.cpp:117-136 — one iteration of the loops that scale y (`scaleY`); not run if beta is one -/
def mvtScaleP (beta : R) (i : Int) : ThP Int R Unit :=
  if beta = 0 then .write i 0 (.ret ()) else updP i fun c => beta * c

/-- csrmv_kt.cpp:197-203 — `mergeBuf`: what a thread with the buffer `b` does inside the critical section -/
def mvtMergeP (n : Int) (b : List R) : ThP Int R Unit :=
  ThP.forP 0 n (fun i _ => (ThP.lift (rd b i)).bind fun v => updP i fun c => c + v) ()

/-- csrmv_kt.cpp:139-204 — thread `t`: its buffer, then the critical section -/
def mvtThreadP (K : Nat) (base : Int) (alpha : R) (m n : Int) (val : List R) (ind ptr : List Int) (x : List R)
    (T t : Nat) : ThP Int R Unit :=
  (ThP.lift (csrmvtBuf K base alpha m n val ind ptr x T t)).bind fun b => mvtMergeP n b

/-- csrmv_kt.cpp:139-206 — the team; `fail` tells whose buffer cannot be allocated: such a thread does not
come to the critical section -/
def mvtTeam (fail : Nat → Bool) (K : Nat) (base : Int) (alpha : R) (m n : Int) (val : List R) (ind ptr : List Int)
    (x : List R) (T t : Nat) : CrTh Int R :=
  if t < T then
    if fail t then .fin else .out (mvtThreadP K base alpha m n val ind ptr x T t)
  else .fin

end Model
end Verif
