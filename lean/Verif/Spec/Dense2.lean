/-
Specification of updates of the upper triangle of a dense matrix.
Nothing here models library code.
-/
import Verif.Spec.Sypr

namespace Verif

variable {R : Type}

/-- in the upper triangle, with the diagonal, of the `K × K` matrix in a dense array with leading
dimension `ld`, every element `c` at `(i, j)` is replaced by `F i j c`; nothing else in the array
changes -/
structure IsUpCells [Zero R] (col : Bool) (K ld : Nat) (F : Nat → Nat → R → R) (C C' : List R) : Prop where
  length : C'.length = C.length
  cells : ∀ i j, i ≤ j → j < K →
    C'[denseOff col ld i j]? = some (F i j (C.getD (denseOff col ld i j) 0))
  rest : ∀ p, (∀ i j, i ≤ j → j < K → p ≠ denseOff col ld i j) → C'[p]? = C[p]?

/-- the Hermitian (symmetric, if the conjugation is trivial) matrix whose upper triangle is that of a
dense array -/
def hermUp [Zero R] [Star R] (col : Bool) (ld : Nat) (B : List R) : Mat R := fun k l =>
  if k ≤ l then B.getD (denseOff col ld k l) 0 else star (B.getD (denseOff col ld l k) 0)

end Verif
