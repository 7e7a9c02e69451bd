/-
Successive over-relaxation in floating point: the sweep of Model/Symgs with the multiply-add as a parameter.
-/
import Verif.Model.Symgs
import Verif.Spec.Rounding

namespace Verif
namespace Model

variable {R : Type} [Zero R] [One R] [Add R] [Sub R] [Neg R] [Mul R] [Div R] [DecidableEq R]

/-- sorv.hpp:98-110 — the entries of a row: (axi, diag_ele); `axi += csr_val[j] * x[col]` -/
def sorRowStepFp (F : Fpu R) (base : Int) (ind : List Int) (val : List R) (x : List R) (i j : Int) (s : R × R) :
    Option (R × R) := do
  let c ← rd ind (j - base)
  let v ← rd val (j - base)
  if i ≠ c - base then do
    let xc ← rd x (c - base)
    some (F.smac v xc s.1, s.2)
  else some (s.1, v)

/-- sorv.hpp:92-112 — one row; `x[i] += omega * ((b[i] - axi) / diag_ele - x[i])` -/
def sorRowFp (F : Fpu R) (base : Int) (ptr ind : List Int) (val : List R) (omega : R) (b : List R) (i : Int)
    (x : List R) : Option (List R) := do
  let lo ← rd ptr i
  let hi ← rd ptr (i + 1)
  let s ← forC lo hi (sorRowStepFp F base ind val x i) (0, 1)
  let xi ← rd x i
  let bi ← rd b i
  wr x i (F.smac omega ((bi - s.1) / s.2 - xi) xi)

/-- sorv.hpp:76-115 — aoclsparse_sor_forward_sol -/
def sorForwardFp (F : Fpu R) (n base : Int) (ptr ind : List Int) (val : List R) (omega : R) (x b : List R) :
    Option (List R) :=
  forC 0 n (sorRowFp F base ptr ind val omega b) x

/-- sorv.hpp:213-226 — scaling of x and sweep.  Simplified: the checks of the arguments and of the diagonal are those
of `sorv` and are not repeated. -/
def sorFp (F : Fpu R) (n base : Int) (ptr ind : List Int) (val : List R) (omega alpha : R) (x b : List R) :
    Option (List R) := do
  let x ← sorScale n alpha x
  sorForwardFp F n base ptr ind val omega x b

end Model
end Verif
