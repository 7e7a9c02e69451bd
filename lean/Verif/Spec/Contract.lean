/-
Floating-point arithmetic in which the compiler may contract `a * b + c` to one fused operation.
Nothing here models library code.
-/
import Verif.Spec.Rounding

namespace Verif

/-- `R` is an arithmetic with the rounding `ρ`.  `v x` is the real number that `x` is; `fac x` gives the
factors if `x` is a product that has just been computed.  Adding a product rounds its rounded value, or
is fused with the multiplication and rounds once.  Which of the two happens may depend on anything: `R`
can carry, say, the place in the program text where a value was computed. -/
structure Contracts (ρ : Rounding) {R : Type} [Zero R] [Add R] [Mul R] (v : R → ℝ) (fac : R → Option (ℝ × ℝ)) :
    Prop where
  zero : v 0 = 0
  zero_fac : fac 0 = none
  mul : ∀ a b : R, v (a * b) = ρ.fl (v a * v b)
  mul_fac : ∀ (a b : R) (p q : ℝ), fac (a * b) = some (p, q) → p = v a ∧ q = v b
  add : ∀ a b : R, v (a + b) = ρ.fl (v a + v b) ∨
    (∃ p q, fac a = some (p, q) ∧ v (a + b) = ρ.fl (p * q + v b)) ∨
    ∃ p q, fac b = some (p, q) ∧ v (a + b) = ρ.fl (v a + p * q)
  add_fac : ∀ a b : R, fac (a + b) = none

/-- an order in which the lanes of a register are added up -/
inductive LaneTree
  | lane (l : Nat)
  | add (s t : LaneTree)

namespace LaneTree
def lanes : LaneTree → List Nat
  | lane l => [l]
  | add s t => s.lanes ++ t.lanes
def depth : LaneTree → Nat
  | lane _ => 0
  | add s t => max s.depth t.depth + 1
def eval {R : Type} [Zero R] [Add R] (L : List R) : LaneTree → R
  | lane l => L.getD l 0
  | add s t => s.eval L + t.eval L
end LaneTree

/-- `hs` adds up `K` lanes, each once, in some order of `d` levels -/
def AddsLanes {R : Type} [Zero R] [Add R] (K d : Nat) (hs : List R → R) : Prop :=
  ∃ t : LaneTree, t.lanes.Perm (List.range K) ∧ t.depth ≤ d ∧ ∀ L : List R, L.length = K → hs L = t.eval L

end Verif
