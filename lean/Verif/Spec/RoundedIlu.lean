/-
Specification of an incomplete factorisation in an arithmetic without algebraic laws.  Nothing here
models library code.
-/
import Verif.Spec.Ilu
import Verif.Spec.RoundedSolve

namespace Verif

variable {R : Type}

/-- the stored value at `(i, j)`, the first if there are several -/
def Csr.stored (A : Csr R) (i j : Nat) : Option R :=
  ((A.row i).find? fun e => e.1 = (j : Int)).map (·.2)

/-- the products `l_ik * u_kj`, `k < i`, `k < j`, of which both factors are stored, in the order in which
row `i` is stored -/
def Csr.iluTerms (A : Csr R) (i j : Nat) : List (R × R) :=
  (A.row i).filterMap fun e =>
    if e.1 < (i : Int) ∧ e.1 < (j : Int) then (A.stored e.1.toNat j).map fun u => (e.2, u) else none

/-- `s` minus the products, one after the other -/
def subAll (F : SolveFpu R) (s : R) (L : List (R × R)) : R := L.foldl (fun s p => F.msub p.1 p.2 s) s

/-- `G` holds what the elimination makes of row `i` of `A`: every stored entry is the entry of `A` minus
the products with the factors before it, divided by the pivot below the diagonal. -/
def ElimRowOk [Div R] (F : SolveFpu R) (A G : Csr R) (i : Nat) : Prop :=
  ∀ j a, A.stored i j = some a →
    if j < i then ∃ d, G.stored j j = some d ∧ G.stored i j = some (subAll F a (G.iluTerms i j) / d)
    else G.stored i j = some (subAll F a (G.iluTerms i j))

/-- `x'` is what the two substitutions with the factors in `G` make of `b`: components one after the
other, products in the order in which the rows are stored.  Nothing after the first `n` elements changed. -/
structure SubstOk [Zero R] [Div R] (F : SolveFpu R) (G : Csr R) (n : Nat) (b x x' : List R) : Prop where
  length : x'.length = x.length
  rest : ∀ k, n ≤ k → x'[k]? = x[k]?
  solve : ∃ y : Nat → R, (∀ i, i < n → y i = subAll F (b.getD i 0)
      (((G.row i).filter fun e => e.1 < (i : Int)).map fun e => (e.2, y e.1.toNat))) ∧
    ∀ i, i < n → ∃ d, G.stored i i = some d ∧ x'[i]? = some (subAll F (y i)
      (((G.row i).filter fun e => (i : Int) < e.1).map fun e => (e.2, x'.getD e.1.toNat 0)) / d)

end Verif
