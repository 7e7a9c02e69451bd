/-
The sizes of the working arrays of GMRES, in machine integers.
-/
import Verif.Model.Overflow
import Verif.Core.Types

namespace Verif
namespace Model

/-- itsol_functions.hpp:107-120 — the sizes of the Krylov basis and of the Hessenberg matrix for `n` unknowns and `m`
iterations between restarts: the guard, then the products; `m + 1` is evaluated before the guard.  `||` evaluates the
second guard only if the first one is false. -/
def gmresSizes (w : Nat) (m n : Int) : Option (Status × Int × Int) := do
  let a ← chk w (m + 1)
  let g ← productOverflow w a n
  if g then some (.invalidSize, 0, 0)
  else do
    let h ← productOverflow w m m
    if h then some (.invalidSize, 0, 0)
    else do
      let k ← chk w (a * n)
      let h ← chk w (m * m)
      some (.success, k, h)

end Model
end Verif
