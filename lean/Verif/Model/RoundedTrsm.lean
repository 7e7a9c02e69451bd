/-
aoclsparse_trsm in floating point: the loop over the columns around the kernels of Model/RoundedTrsv.
-/
import Verif.Model.Trsm
import Verif.Model.RoundedTrsv

namespace Verif
namespace Model

variable {R : Type} [Zero R] [One R] [Add R] [Sub R] [Neg R] [Mul R] [Div R] [DecidableEq R]

/-- trsm.hpp:119-157 — the strides and offsets of the layout (`col`: column-major) and the loop over the columns in
the order `sched`, each solved by the kernel `im` on the prepared arrays.  Simplified: the checks of the arguments, the
preparation of the matrix and the choice of the kernel are those of `trsmH` and are not repeated; the kernel cannot
fail on prepared arrays, so the status is success. -/
def trsmFp (F : SolveFpu R) (im : FpTrsv R) (doid : Nat) (alpha : R) (m base : Int) (a : List R)
    (icol ilrow idiag iurow : List Int) (unit col : Bool) (B : List R) (ldb : Int) (X : List R) (ldx : Int)
    (sched : List Nat) : Option (Status × List R) :=
  (trsmLoop (fun (_ : Unit) b x =>
    (trsvFp F im doid alpha m base a icol ilrow idiag iurow b (if col then 1 else ldb) x (if col then 1 else ldx)
      unit).map fun x' => (.success, x', ()))
    (if col then ldb else 1) (if col then ldx else 1) B X () sched).map fun s => (s.1, s.2.1)

end Model
end Verif
