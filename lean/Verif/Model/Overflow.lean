/-
Model of the integer-overflow guards
  library/src/extra/aoclsparse_utils.hpp: int_max, int_min (391-393),
    aoclsparse_int_sum_overflow (395-405), aoclsparse_int_product_overflow (407-421)

`w` is the width of aoclsparse_int in bits (32 in LP64 builds, 64 in ILP64).
Machine integers are `Int`s; every intermediate result goes through `chk`, which
is `none` (undefined behaviour: signed overflow) outside the representable range.
-/
import Verif.Core.Types

namespace Verif
namespace Model

/-- utils.hpp:392 — int_max -/
def intMax (w : Nat) : Int := 2 ^ (w - 1) - 1
/-- utils.hpp:393 — int_min -/
def intMin (w : Nat) : Int := -2 ^ (w - 1)

/-- result of a signed `w`-bit operation: `none` = signed overflow (UB) -/
def chk (w : Nat) (x : Int) : Option Int :=
  if intMin w ≤ x ∧ x ≤ intMax w then some x else none

/-- utils.hpp:399-405 — aoclsparse_int_sum_overflow; the accumulator is `acc` bits wide -/
def sumOverflow (acc w : Nat) (v : Int) : Bool :=
  if acc > w then decide (v > intMax w) else false

/-- utils.hpp:418-419 — absolute value; negation may overflow -/
def absChk (w : Nat) (a : Int) : Option Int := if a < 0 then chk w (-a) else some a

/-- utils.hpp:409-421 — aoclsparse_int_product_overflow; C++ division truncates -/
def productOverflow (w : Nat) (a b : Int) : Option Bool := do
  if b = 0 ∨ a = 0 then return false
  if a = intMin w then return decide (b ≠ 1)
  if b = intMin w then return decide (a ≠ 1)
  let absA ← absChk w a
  let absB ← absChk w b
  let q ← chk w ((intMax w).tdiv absB)
  return decide (absA > q)

/-- csr_convert.hpp:739 and others use the guard as a plain boolean; this is its value. -/
def prodOvf (w : Nat) (a b : Int) : Bool := (productOverflow w a b).getD true

end Model
end Verif
