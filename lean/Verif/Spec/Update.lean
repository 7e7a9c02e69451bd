/-
Specification of changes to the stored values and of the order of the stored entries.  Nothing here
models library code.
-/
import Verif.Spec.MatCheck

namespace Verif

/-- `A'` is `A` with the value of the first stored entry of column `j` in row `i` replaced by `v` -/
structure IsSet {R : Type} (A A' : Csr R) (i j : Nat) (v : R) : Prop where
  m : A'.m = A.m
  n : A'.n = A.n
  base : A'.base = A.base
  ptr : A'.ptr = A.ptr
  ind : A'.ind = A.ind
  len : A'.val.length = A.val.length
  other : ∀ k, k < A.m → k ≠ i → A'.row k = A.row k
  here : ∃ (L : List (Int × R)) (u : R) (L' : List (Int × R)), A.row i = L ++ ((j : Int), u) :: L' ∧
    (∀ e ∈ L, e.1 ≠ (j : Int)) ∧ A'.row i = L ++ ((j : Int), v) :: L'

/-- the same for coordinate storage -/
structure IsSetCoo {R : Type} (C C' : Coo R) (i j : Nat) (v : R) : Prop where
  m : C'.m = C.m
  n : C'.n = C.n
  base : C'.base = C.base
  row : C'.row = C.row
  col : C'.col = C.col
  len : C'.val.length = C.val.length
  here : ∃ (L : List (Int × Int × R)) (u : R) (L' : List (Int × Int × R)),
    C.entries = L ++ ((i : Int), (j : Int), u) :: L' ∧
    (∀ e ∈ L, ¬ (e.1 = (i : Int) ∧ e.2.1 = (j : Int))) ∧
    C'.entries = L ++ ((i : Int), (j : Int), v) :: L'

/-- `A'` holds in every row the entries of `A`, ordered by column -/
structure IsOrdered {R : Type} (A A' : Csr R) : Prop where
  m : A'.m = A.m
  n : A'.n = A.n
  base : A'.base = A.base
  ptr : A'.ptr = A.ptr
  rows : ∀ i, i < A.m → (A'.row i).Perm (A.row i)
  sorted : A'.Sorted

end Verif
