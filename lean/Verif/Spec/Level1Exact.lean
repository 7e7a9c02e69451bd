/-
Level-1 results in an arithmetic without algebraic laws: which operations are done, and in which order.
Nothing here models library code.
-/
import Verif.Spec.BsrExact
import Verif.Spec.Contract
import Verif.Model.Level1

namespace Verif
open Model

variable {R : Type}

/-- element `k` of `N` of the packed vector after a rotation: in a full register the product with the
full vector comes first -/
def rotX [Add R] [Mul R] (ker : L1Ker) (N k : Nat) (c s x y : R) : R :=
  match ker with
  | .ref => c * x + s * y
  | .kt T => if k < N / T * T then s * y + c * x else c * x + s * y

/-- products added up by registers of `K` elements; the remaining ones are added one by one to the sum of
the lanes -/
def dotReg [Zero R] [Add R] [Mul R] (V : Vec R) (K : Nat) (L : List (R × R)) : R :=
  dotRight (V.hsum ((List.range (L.length / K)).foldl (fun v t => V.fma ((L.drop (K * t)).take K) v) V.zero))
    (L.drop (K * (L.length / K)))

/-- value of a dot product of the pairs `L`, by kernel -/
def dotVal [Zero R] [Add R] [Mul R] (ker : DotKer R) (L : List (R × R)) : R :=
  match ker with
  | .ref => dotRight 0 L
  | .kt K V => dotReg V K L

/-- the elements of the packed vector, each with the element of the full vector at its position -/
def l1Pairs [Zero R] (cx : R → R) (x : List R) (xi : List Int) (y : List R) (N : Nat) : List (R × R) :=
  (List.range N).map fun k => (cx (x.getD k 0), y.getD ((xi.getD k 0).toNat) 0)

/-- the elements of two dense vectors -/
def densePairs [Zero R] (cx : R → R) (x y : List R) (N : Nat) : List (R × R) :=
  (List.range N).map fun k => (cx (x.getD k 0), y.getD k 0)

/-- a subtraction rounds the rounded value of a product, or is fused with the multiplication -/
def SubContracts (ρ : Rounding) [Sub R] (v : R → ℝ) (fac : R → Option (ℝ × ℝ)) : Prop :=
  ∀ a b : R, v (a - b) = ρ.fl (v a - v b) ∨
    (∃ p q, fac a = some (p, q) ∧ v (a - b) = ρ.fl (p * q - v b)) ∨
    ∃ p q, fac b = some (p, q) ∧ v (a - b) = ρ.fl (v a - p * q)

end Verif
