/-
The accumulator registers of the complex kernels
  library/src/include/kernel-templates/kt_l0_avx2.hpp:407-471
  library/src/include/kernel-templates/kt_l0_avx512.hpp:443-490
A register of complex numbers holds interleaved real and imaginary parts; it is modelled as a
list of (real, imaginary) pairs.
-/
import Verif.Model.Csrmv
import Mathlib.Algebra.QuadraticAlgebra.Defs

namespace Verif

/-- complex numbers over `S`: `re + im * i` with `i * i = -1` -/
abbrev Cx (S : Type) [Ring S] := QuadraticAlgebra S (-1) 0

namespace Model

variable {S : Type} [Ring S]

/-- kt_l0_avx2.hpp:420-427 / kt_l0_avx512.hpp:453-462 — kt_fmadd_B for complex data:
`c += a * b` and `d += a * swap(b)` on the real lanes;
kt_l0_avx2.hpp:430-471 / kt_l0_avx512.hpp:465-490 — kt_hsum_B: the real part is the sum of `c`
with the sign of the odd lanes flipped, the imaginary part is the sum of `d`.
Simplification: the order of the additions in the horizontal sum is not modelled. -/
def vecCplx (K : Nat) : Vec (Cx S) where
  σ := List (S × S) × List (S × S)
  zero := (List.replicate K (0, 0), List.replicate K (0, 0))
  fma := fun L s =>
    (List.zipWith (fun ab c => (ab.1.re * ab.2.re + c.1, ab.1.im * ab.2.im + c.2)) L s.1,
     List.zipWith (fun ab d => (ab.1.re * ab.2.im + d.1, ab.1.im * ab.2.re + d.2)) L s.2)
  hsum := fun s => ⟨(s.1.map fun c => c.1 + -c.2).sum, (s.2.map fun d => d.1 + d.2).sum⟩

end Model
end Verif
