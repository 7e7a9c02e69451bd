/-
What the vector primitives have to compute, element by element.
-/
import Verif.Model.KtLanes

namespace Verif
namespace Spec
open Model

/-- how a register or an array holds complex numbers: the real part of an element, then its imaginary part -/
def inter {T : Type} (z : List (T × T)) : List T := z.flatMap fun p => [p.1, p.2]

/-- complex numbers that fit into a register of `w` bits: 1, 2, 4 doubles or 2, 4, 8 floats -/
def elemCount (w : Bsz) (t : LaneTy) : Nat := laneCount w t / 2

/-- the parts of complex numbers -/
def reIm {S : Type} [Ring S] (z : List (Cx S)) : List (S × S) := z.map fun c => (c.re, c.im)

/-- the operations of one complex product in 256 and 512 bits: the second products are rounded, the first
ones are fused with the sum -/
def cmulAvx {T : Type} [Mul T] (F : LaneFpu T) (p q : T × T) : T × T :=
  (F.fms p.1 q.1 (p.2 * q.2), F.fma p.1 q.2 (p.2 * q.1))

/-- the operations of one complex product in 128 bits (no fused operation), double -/
def cmulSseD {T : Type} [Add T] [Sub T] [Mul T] (p q : T × T) : T × T :=
  (p.1 * q.1 - p.2 * q.2, p.1 * q.2 + p.2 * q.1)

/-- … and float -/
def cmulSseF {T : Type} [Add T] [Sub T] [Mul T] (p q : T × T) : T × T :=
  (p.1 * q.1 - p.2 * q.2, p.2 * q.1 + p.1 * q.2)

/-- the operations of one complex product -/
def cmulOps {T : Type} [Add T] [Sub T] [Mul T] (F : LaneFpu T) (w : Bsz) (t : LaneTy) : T × T → T × T → T × T :=
  match w, t with
  | .b128, .dbl => cmulSseD
  | .b128, .flt => cmulSseF
  | _, _ => cmulAvx F

/-- fused operations without rounding -/
def FmaExact {S : Type} [Ring S] (F : LaneFpu S) : Prop :=
  ∀ a b c, F.fma a b c = a * b + c ∧ F.fms a b c = a * b - c

/-- the sum of the lanes, in whatever order the compiler adds them -/
def Sums {S : Type} [Ring S] (red : List S → S) (n : Nat) : Prop := ∀ v : List S, v.length = n → red v = v.sum

end Spec
end Verif
