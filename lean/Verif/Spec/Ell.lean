/-
Specification of the ELL family of formats.  Nothing here models library code.
-/
import Verif.Spec.Sparse

namespace Verif

/-- `ec`/`ev` are ELL arrays for `m` rows of width `w`: cell `t` of row `i` lives at offset
`off i t`; the first cells of row `i` hold `rows i` (columns shifted by the base), the
remaining cells hold the value 0 and the index `pad i`. -/
structure EllContent {R : Type} [Zero R] (m w : Nat) (off : Nat → Nat → Nat) (base : Int)
    (pad : Nat → Int) (rows : Nat → List (Int × R)) (ec : List Int) (ev : List R) : Prop where
  data : ∀ i t, i < m → (h : t < (rows i).length) →
    ec[off i t]? = some ((rows i)[t].1 + base) ∧ ev[off i t]? = some (rows i)[t].2
  padding : ∀ i t, i < m → (rows i).length ≤ t → t < w →
    ec[off i t]? = some (pad i) ∧ ev[off i t]? = some 0

/-- ELL layout: row by row -/
def ellOff (w i t : Nat) : Nat := i * w + t
/-- ELLT layout: column by column -/
def elltOff (m i t : Nat) : Nat := t * m + i

/-- the rows with more than `w` stored entries, in increasing order -/
def longRows {R : Type} (A : Csr R) (w i : Nat) : List Nat :=
  (List.range i).filter fun k => decide (w < (A.row k).length)

/-- what the ELL part of the hybrid format holds for row `i`: nothing if the row is long -/
def hybRow {R : Type} (A : Csr R) (w i : Nat) : List (Int × R) :=
  if w < (A.row i).length then [] else A.row i

end Verif
