/-
The elements of a transposed product in an arithmetic without algebraic laws: which operations are done,
and in which order.  Nothing here models library code.
-/
import Verif.Spec.Sparse
import Mathlib.Algebra.BigOperators.Group.Finset.Basic

namespace Verif

variable {R : Type} [Zero R] [Add R] [Mul R]

/-- what the entries stored in a row are multiplied to, with the column each product belongs to; `xi` is
the element of x for the row.  Entries handled in registers of `K` are multiplied by the product
`alpha * xi`, the rest by one factor after the other. -/
def mvtRow (K : Nat) (alpha xi : R) (S : List (Int × R)) : List (Int × R) :=
  ((S.take (K * (S.length / K))).map fun e => (e.1, e.2 * (alpha * xi))) ++
    (S.drop (K * (S.length / K))).map fun e => (e.1, e.2 * alpha * xi)

/-- the products of the rows `lo .. hi-1` -/
def mvtRows (K : Nat) (alpha : R) (A : Csr R) (x : List R) (lo hi : Nat) : List (Int × R) :=
  (List.range (hi - lo)).flatMap fun i => mvtRow K alpha (x.getD (lo + i) 0) (A.row (lo + i))

/-- those of column `c` added to `r`, from left to right -/
def mvtCol (r : R) (L : List (Int × R)) (c : Nat) : R :=
  (L.filter fun e => e.1 = (c : Int)).foldl (fun r e => r + e.2) r

/-- `c` scaled by beta -/
def mvtScale [One R] [DecidableEq R] (beta c : R) : R := if beta = 0 then 0 else if beta = 1 then c else beta * c

/-- element `c` of the result that was `r`: every thread sums up the products of its rows, starting from
zero; these sums are added to the scaled element in the order `ord` of the threads -/
def mvtElt [One R] [DecidableEq R] (K : Nat) (alpha beta : R) (A : Csr R) (x : List R) (T : Nat) (ord : List Nat)
    (c : Nat) (r : R) : R :=
  ord.foldl (fun r t => r + mvtCol 0 (mvtRows K alpha A x (A.m * t / T) (A.m * (t + 1) / T)) c) (mvtScale beta r)

/-- number of entries stored in column `c` -/
def Csr.colCount {R : Type} (A : Csr R) (c : Nat) : Nat :=
  ∑ i ∈ Finset.range A.m, ((A.row i).filter fun e => e.1 = (c : Int)).length

end Verif
