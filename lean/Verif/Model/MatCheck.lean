/-
Model of the matrix checks
  library/src/analysis/aoclsparse_csr_util.cpp
    aoclsparse_mat_check_internal        (lines 124-279)
    aoclsparse_csr_csc_check_sort_diag   (lines 290-364)
    aoclsparse_csr_csc_indices           (lines 389-458)
and of the constructors that call the first one
  library/src/create/aoclsparse_create.cpp: create_csr (lines 34-97)
  library/src/extra/aoclsparse_auxiliary.cpp: aoclsparse_create_csc_t (1030-1089),
    aoclsparse_create_coo_t (1091-1151)

Simplifications: the optional debug callback is dropped (every library caller
passes nullptr); allocation failure is not modelled; integers are unbounded.
-/
import Verif.Core.Mem
import Verif.Core.Types

namespace Verif
namespace Model

variable {R : Type}

/-- aoclsparse_matrix_sort (include/aoclsparse_mat_structures.hpp). -/
inductive MatSort | fully | partially | unsorted | unknown
  deriving DecidableEq, Repr

/-- csr_util.hpp:45-50 — aoclsparse_shape. -/
inductive Shape | general | lower | upper
  deriving DecidableEq, Repr

/-- per-row scan state of mat_check: `sort`, `prev`, `diagonal`, `upper` (lines 205, 224, 225) -/
structure Scan where
  sort : MatSort
  prev : Int
  diagonal : Bool
  upper : Bool
  deriving DecidableEq, Repr

/-- csr_util.cpp:229-269 — loop body for one stored index `c` of row `i`. -/
def scanStep (base i jmin jmax : Int) (c : Int) (s : Scan) : Except Status Scan :=
  let j := c - base
  if j < jmin ∨ j > jmax then .error .invalidIndexValue
  else
    -- 242-252
    let s :=
      if s.sort ≠ .unsorted then
        let s := if s.prev > j then { s with sort := .partially } else { s with prev := j }
        if (j ≤ i ∧ s.upper = true) ∨ (j < i ∧ s.diagonal = true)
        then { s with sort := .unsorted } else s
      else s
    -- 253-269
    if j > i then .ok { s with upper := true }
    else if j = i then
      if s.diagonal then .error .invalidValue
      else .ok { s with diagonal := true }
    else .ok s

/-- csr_util.cpp:124-279 — aoclsparse_mat_check_internal.  Result: `none` = UB,
`error st` = returned status, `ok (mat_sort, mat_fulldiag)` = success.
`val` only matters through its null check. -/
def matCheck (maj min nnz : Int) (ptr ind : Option (List Int)) (val : Option (List R))
    (shape : Shape) (base : Int) (fast : Bool) : Option (Except Status (MatSort × Bool)) :=
  match ptr, ind, val with
  | some ptr, some ind, some _ =>
    if min < 0 ∨ maj < 0 ∨ nnz < 0 then some (.error .invalidSize)
    else do
      let p0 ← rd ptr 0
      if p0 - base ≠ 0 then some (.error .invalidValue)
      else do
        let pm ← rd ptr maj
        if pm - base ≠ nnz then some (.error .invalidValue)
        else if fast then some (.ok (.unknown, false))
        else do
          -- 190-202
          let r ← forE 1 (maj + 1) (fun i (_ : Unit) => do
            let a ← rd ptr (i - 1)
            let b ← rd ptr i
            some (if a > b then .error Status.invalidValue else .ok ())) ()
          match r with
          | .error e => some (.error e)
          | .ok _ =>
            -- 209-273
            forE 0 maj (fun i (st : MatSort × Bool) => do
              let e ← rd ptr (i + 1)
              let b ← rd ptr i
              let jmin := if shape = .upper then i else 0
              let jmax := if shape = .lower then i else min - 1
              let r ← forE (b - base) (e - base) (fun idx (s : Scan) => do
                let c ← rd ind idx
                some (scanStep base i jmin jmax c s)) ⟨st.1, -1, false, false⟩
              match r with
              | .error e => some (.error e)
              | .ok s => some (.ok (s.sort,
                  if s.diagonal = false ∧ i < min then false else st.2))) (.fully, true)
  | _, _, _ => some (.error .invalidPointer)

/-- The fields of a freshly created handle that creation sets
(create.cpp:91-95, auxiliary.cpp:1082-1087, csr constructor). -/
structure Created (R : Type) where
  m : Int
  n : Int
  nnz : Int
  /-- dimensions of the stored compressed arrays -/
  majDim : Int
  minDim : Int
  base : Int
  doid : Nat
  ptr : List Int
  ind : List Int
  val : List R
  sort : MatSort
  fulldiag : Bool
  deriving DecidableEq, Repr

/-- create.cpp:34-97 — create_csr (the handle pointer `mat` is assumed non-null).
Returns the status and the handle (`none` when `*mat` is left null). -/
def createCsr (base M N nnz : Int) (ptr ind : Option (List Int)) (val : Option (List R))
    (fast : Bool) : Option (Status × Option (Created R)) := do
  let r ← matCheck M N nnz ptr ind val .general base fast
  match r with
  | .error e => some (e, none)
  | .ok (sort, fulldiag) =>
    match ptr, ind, val with
    | some p, some i, some v =>
      some (.success, some ⟨M, N, nnz, M, N, base, 0, p, i, v, sort, fulldiag⟩)
    | _, _, _ => none

/-- auxiliary.cpp:1030-1089 — aoclsparse_create_csc_t: same with swapped dimensions, doid gt. -/
def createCsc (base M N nnz : Int) (ptr ind : Option (List Int)) (val : Option (List R)) :
    Option (Status × Option (Created R)) := do
  let r ← matCheck N M nnz ptr ind val .general base false
  match r with
  | .error e => some (e, none)
  | .ok (sort, fulldiag) =>
    match ptr, ind, val with
    | some p, some i, some v =>
      some (.success, some ⟨M, N, nnz, N, M, base, 2, p, i, v, sort, fulldiag⟩)
    | _, _, _ => none

/-- auxiliary.cpp:1091-1151 — aoclsparse_create_coo_t (status only; the handle stores the
three arrays as given). -/
def createCoo (base M N nnz : Int) (row col : Option (List Int)) (val : Option (List R)) :
    Option Status :=
  if M < 0 then some .invalidSize
  else if N < 0 then some .invalidSize
  else if nnz < 0 then some .invalidSize
  else
    match row, col, val with
    | some row, some col, some _ => do
      let r ← forE 0 nnz (fun i (_ : Unit) => do
        let a ← rd row i
        if a < base ∨ a ≥ M + base then some (.error Status.invalidIndexValue)
        else do
          let b ← rd col i
          if b < base ∨ b ≥ N + base then some (.error Status.invalidIndexValue)
          else some (.ok ())) ()
      match r with
      | .error e => some e
      | .ok _ => some .success
    | _, _, _ => some .invalidPointer

/-- state of check_sort_diag (299-311): `sorted`, `fulldiag`, and per row `lower`, `found` -/
structure SortDiag where
  sorted : Bool
  fulldiag : Bool
  lower : Bool
  found : Bool
  deriving DecidableEq, Repr

/-- csr_util.cpp:320-348 — loop body for one stored index.  An early `return success`
is `.error (.success, sorted, fulldiag)`. -/
def sortDiagStep (base i : Int) (c : Int) (s : SortDiag) :
    Except (Status × Bool × Bool) SortDiag :=
  let j := c - base
  if j = i ∧ s.found = true then .error (.invalidValue, s.sorted, s.fulldiag)
  else
    let s :=
      if j = i then { s with found := true, sorted := s.lower, lower := false }
      else if s.lower then { s with lower := decide (j < i) }
      else { s with sorted := s.sorted && decide (j > i) }
    if s.sorted = false then .error (.success, false, false)
    else .ok s

/-- csr_util.cpp:347-356 — end of a row: a missing diagonal inside the matrix clears `fulldiag` -/
def sortDiagEnd (n i : Int) : Except (Status × Bool × Bool) SortDiag →
    Except (Status × Bool × Bool) (Bool × Bool)
  | .error e => .error e
  | .ok s =>
    if s.sorted = false then .error (Status.success, false, false)
    else .ok (s.sorted, if s.found = false ∧ i < n then false else s.fulldiag)

/-- csr_util.cpp:316-357 — one row of the check; state (sorted, fulldiag) -/
def sortDiagRow (n base : Int) (ptr ind : List Int) (i : Int) (st : Bool × Bool) :
    Option (Except (Status × Bool × Bool) (Bool × Bool)) := do
  let e ← rd ptr (i + 1)
  let b ← rd ptr i
  let r ← forE (b - base) (e - base) (fun idx (s : SortDiag) => do
    let c ← rd ind idx
    some (sortDiagStep base i c s)) ⟨st.1, st.2, true, false⟩
  some (sortDiagEnd n i r)

/-- csr_util.cpp:290-364 — aoclsparse_csr_csc_check_sort_diag; result
(status, sorted, fulldiag). -/
def checkSortDiag (m n base : Int) (ptr ind : Option (List Int)) :
    Option (Status × Bool × Bool) :=
  if m < 0 ∨ n < 0 then some (.invalidSize, false, false)
  else
    match ptr, ind with
    | some ptr, some ind => do
      let r ← forE 0 m (sortDiagRow n base ptr ind) (true, true)
      match r with
      | .error e => some e
      | .ok (s, f) => some (.success, s, f)
    | _, _ => some (.invalidPointer, false, false)

end Model
end Verif
