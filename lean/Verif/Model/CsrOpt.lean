/-
Model of the creation of the clean copy of a CSR/CSC matrix
  library/src/analysis/aoclsparse_csr_util.hpp: aoclsparse_sort_idx_val (99-158),
    aoclsparse_csr_csc_fill_diag (163-279), aoclsparse_csr_csc_optimize (765-967)
  library/src/analysis/aoclsparse_csr_util.cpp: aoclsparse_csr_csc_indices (389-458)

Freshly allocated arrays have arbitrary content (`gi`, `gv`); allocation failure is not modelled.
`std::sort` is a parameter `srt` (see `StdSort` in the specification of C15).
Locking is modelled separately (C16).
-/
import Verif.Core.Prefix
import Verif.Model.MatCheck

namespace Verif
namespace Model

variable {R : Type}

/-- csr_util.cpp:425-450 — first position in row `i` whose column is at or past the diagonal:
`.error (idx, isDiag)`; `.ok ()` if the row has none -/
def findGe (base i : Int) (ind : List Int) (lo hi : Int) : Option (Except (Int × Bool) Unit) :=
  forE lo hi (fun idx (_ : Unit) => do
    let c ← rd ind idx
    some (if c - base ≥ i then .error (idx, decide (c - base = i)) else .ok ())) ()

/-- csr_util.cpp:420-452 — one row of aoclsparse_csr_csc_indices: state (idiag, iurow) -/
def indicesRow (base : Int) (ptr ind : List Int) (i : Int) (s : List Int × List Int) :
    Option (List Int × List Int) := do
  let e ← rd ptr (i + 1)
  let b ← rd ptr i
  let r ← findGe base i ind (b - base) (e - base)
  match r with
  | .error (idx, isD) => do
    let d ← wr s.1 i (idx + base)
    let u ← wr s.2 i (if isD then idx + base + 1 else idx + base)
    some (d, u)
  | .ok _ => do
    let d ← wr s.1 i (e - base + base)
    let u ← wr s.2 i (e - base + base)
    some (d, u)

/-- csr_util.cpp:389-458 — aoclsparse_csr_csc_indices (pointers non-null, m ≥ 0):
(idiag, iurow) -/
def csrIndices (gi : Nat → Int) (m : Int) (base : Int) (ptr ind : List Int) :
    Option (List Int × List Int) :=
  forC 0 m (indicesRow base ptr ind) (alloc m.toNat gi, alloc m.toNat gi)

/-- csr_util.hpp:134-138 — `std::sort(perm + idx, perm + idx + k, lt)`: the sorted range must lie
inside `perm` -/
def sortRange (srt : (Int → Int → Bool) → List Int → List Int) (lt : Int → Int → Bool)
    (perm : List Int) (idx k : Int) : Option (List Int) :=
  if 0 ≤ idx ∧ 0 ≤ k ∧ idx + k ≤ perm.length then
    some (perm.take idx.toNat ++ srt lt ((perm.drop idx.toNat).take k.toNat)
      ++ perm.drop (idx.toNat + k.toNat))
  else none

/-- csr_util.hpp:134-138 — the comparator `src_idx[a] <= src_idx[b]` (positions inside the row, so
the reads are in range; outside they yield `false`) -/
def sortCmp (ind : List Int) (a b : Int) : Bool :=
  match rd ind a, rd ind b with
  | some x, some y => decide (x ≤ y)
  | _, _ => false

/-- csr_util.hpp:139-145 — write one entry of the sorted row -/
def sortPut (srcBase destBase : Int) (perm ind : List Int) (val : List R) (j : Int)
    (d : List Int × List R) : Option (List Int × List R) := do
  let q ← rd perm j
  let c ← rd ind q
  let di ← wr d.1 j (c - (if srcBase ≠ destBase then 1 else 0))
  let v ← rd val q
  let dv ← wr d.2 j v
  some (di, dv)

/-- csr_util.hpp:128-146 — sort one row: state (perm, dest_idx, dest_val) -/
def sortRow (srt : (Int → Int → Bool) → List Int → List Int) (srcBase : Int)
    (ptr ind : List Int) (val : List R) (destBase : Int) (i : Int)
    (s : List Int × List Int × List R) : Option (List Int × List Int × List R) := do
  let b ← rd ptr i
  let e ← rd ptr (i + 1)
  let idx := b - srcBase
  let nnzrow := e - srcBase - idx
  let perm ← sortRange srt (sortCmp ind) s.1 idx nnzrow
  let d ← forC idx (idx + nnzrow) (sortPut srcBase destBase perm ind val) s.2
  some (perm, d)

/-- csr_util.hpp:99-158 — aoclsparse_sort_idx_val (pointers non-null): (dest_idx, dest_val) -/
def sortIdxVal (srt : (Int → Int → Bool) → List Int → List Int) (m nnz : Int) (srcBase : Int)
    (ptr ind : List Int) (val : List R) (destBase : Int) (dind : List Int) (dval : List R) :
    Option (List Int × List R) :=
  if m = 0 ∨ nnz = 0 then some (dind, dval)
  else do
    let perm : List Int := (List.range nnz.toNat).map fun (j : Nat) => (j : Int)
    let s ← forC 0 m (sortRow srt srcBase ptr ind val destBase) (perm, dind, dval)
    some s.2

/-- csr_util.hpp:192-206 — scan of row `i` for its diagonal: (diag_found, idx) -/
def scanDiag (base i : Int) (ind : List Int) (lo hi : Int) : Option (Bool × Int) := do
  let r ← forE lo hi (fun idx (_ : Unit) => do
    let c ← rd ind idx
    some (if i = c - base then .error (true, idx)
      else if c - base > i then .error (false, idx) else .ok ())) ()
  match r with
  | .error x => some x
  | .ok _ => some (false, if lo ≤ hi then hi else lo)

/-- csr_util.hpp:187-210 — one row of the search: state (missing_diag, count) -/
def missRow (n base : Int) (ptr ind : List Int) (i : Int) (s : List Int × Int) :
    Option (List Int × Int) := do
  let e ← rd ptr (i + 1)
  let b ← rd ptr i
  let r ← scanDiag base i ind (b - base) (e - base)
  if r.1 = false ∧ i < n then do
    let md ← wr s.1 i (r.2 + s.2)
    some (md, s.2 + 1)
  else some s

/-- csr_util.hpp:185-211 — (missing_diag, count) -/
def fillMissing (m n base : Int) (ptr ind : List Int) : Option (List Int × Int) :=
  forC 0 m (missRow n base ptr ind) (List.replicate m.toNat (-1), 0)

/-- the arrays being filled and the counters `n_added`, `nnz_curr` (csr_util.hpp:236) -/
structure FillSt (R : Type) where
  icol : List Int
  aval : List R
  added : Int
  cur : Int

/-- csr_util.hpp:245-252, 257-264 — add the missing diagonal at the current position -/
def fillIns [Zero R] (i : Int) (s : FillSt R) : Option (FillSt R) := do
  let icol ← wr s.icol s.cur i
  let aval ← wr s.aval s.cur 0
  some ⟨icol, aval, s.added + 1, s.cur + 1⟩

/-- `if(nnz_curr == missing_diag[i]) …` -/
def fillTest [Zero R] (md i : Int) (s : FillSt R) : Option (FillSt R) :=
  if s.cur = md then fillIns i s else some s

/-- csr_util.hpp:253-255 — copy one entry -/
def fillPut (c : Int) (v : R) (s : FillSt R) : Option (FillSt R) := do
  let aval ← wr s.aval s.cur v
  let icol ← wr s.icol s.cur c
  some ⟨icol, aval, s.added, s.cur + 1⟩

/-- csr_util.hpp:240-266 — one row: state (icrow, arrays and counters) -/
def fillRow [Zero R] (base : Int) (ptr ind : List Int) (val : List R) (missing : List Int)
    (i : Int) (s : List Int × FillSt R) : Option (List Int × FillSt R) := do
  let e ← rd ptr (i + 1)
  let b ← rd ptr i
  let icrow ← wr s.1 i (b - base + s.2.added)
  let md ← rd missing i
  let f ← forC (b - base) (e - base) (fun idx f => do
    let f ← fillTest md i f
    let v ← rd val idx
    let c ← rd ind idx
    fillPut (c - base) v f) s.2
  let f ← fillTest md i f
  some (icrow, f)

/-- csr_util.hpp:163-279 — aoclsparse_csr_csc_fill_diag (pointers non-null): the new
(ptr, ind, val); unchanged arrays when nothing is missing -/
def fillDiag [Zero R] (gi : Nat → Int) (gv : Nat → R) (m n nnz base : Int) (ptr ind : List Int)
    (val : List R) : Option (List Int × List Int × List R) := do
  let mc ← fillMissing m n base ptr ind
  if mc.2 ≤ 0 then some (ptr, ind, val)
  else do
    let nnz_new := nnz + mc.2
    let s ← forC 0 m (fillRow base ptr ind val mc.1)
      (alloc (m + 1).toNat gi, ⟨alloc nnz_new.toNat gi, alloc nnz_new.toNat gv, 0, 0⟩)
    let icrow ← wr s.1 m nnz_new
    some (icrow, s.2.icol, s.2.aval)

/-- csr_util.hpp:889-900 — zero-based copy of the three arrays -/
def copyZeroBased (gi : Nat → Int) (gv : Nat → R) (m nnz base : Int) (ptr ind : List Int)
    (val : List R) : Option (List Int × List Int × List R) := do
  let p ← forC 0 (m + 1) (fun i p => do
    let x ← rd ptr i
    wr p i (x - base)) (alloc (m + 1).toNat gi)
  let s ← forC 0 nnz (fun i (s : List Int × List R) => do
    let c ← rd ind i
    let a ← wr s.1 i (c - base)
    let v ← rd val i
    let b ← wr s.2 i v
    some (a, b)) (alloc nnz.toNat gi, alloc nnz.toNat gv)
  some (p, s.1, s.2)

/-- the clean version handed out by csr_csc_optimize: the user's arrays (`inPlace`) or a new copy;
its base, arrays, diagonal/upper indices and the flag `opt_csr_full_diag` -/
structure OptCsr (R : Type) where
  inPlace : Bool
  base : Int
  ptr : List Int
  ind : List Int
  val : List R
  idiag : List Int
  iurow : List Int
  fulldiag : Bool
  deriving DecidableEq

/-- csr_util.hpp:902-924 — sort the copy if needed: (status, ind, val, fulldiag) -/
def optSort (srt : (Int → Int → Bool) → List Int → List Int) (m n nnz base : Int)
    (ptr ind : List Int) (val : List R) (sorted fulldiag : Bool)
    (c : List Int × List Int × List R) : Option (Status × List Int × List R × Bool) :=
  if sorted = false then do
    let d ← sortIdxVal srt m nnz base ptr ind val 0 c.2.1 c.2.2
    let r ← checkSortDiag m n 0 (some c.1) (some d.1)
    some (r.1, d.1, d.2, r.2.2)
  else some (.success, c.2.1, c.2.2, fulldiag)

/-- csr_util.hpp:925-939 — fill the diagonal if needed -/
def optFill [Zero R] (gi : Nat → Int) (gv : Nat → R) (m n nnz : Int) (fulldiag : Bool)
    (ptr ind : List Int) (val : List R) : Option (List Int × List Int × List R) :=
  if fulldiag = false then fillDiag gi gv m n nnz 0 ptr ind val else some (ptr, ind, val)

/-- csr_util.hpp:811-967 — the slow path of aoclsparse_csr_csc_optimize on the source matrix
(arrays non-null, base 0 or 1 — both checked at 804-808) -/
def csrOptimize [Zero R] (srt : (Int → Int → Bool) → List Int → List Int) (gi : Nat → Int)
    (gv : Nat → R) (m n nnz base : Int) (ptr ind : List Int) (val : List R) :
    Option (Except Status (OptCsr R)) := do
  let r ← matCheck m n nnz (some ptr) (some ind) (some val) .general base false
  match r with
  | .error e => some (.error e)
  | .ok _ => do
    let sd ← checkSortDiag m n base (some ptr) (some ind)
    if sd.1 ≠ .success then some (.error .internalError)
    else if sd.2.1 = true ∧ sd.2.2 = true then do
      let x ← csrIndices gi m base ptr ind
      some (.ok ⟨true, base, ptr, ind, val, x.1, x.2, true⟩)
    else do
      let c ← copyZeroBased gi gv m nnz base ptr ind val
      let d ← optSort srt m n nnz base ptr ind val sd.2.1 sd.2.2 c
      if d.1 ≠ .success then some (.error d.1)
      else do
        let f ← optFill gi gv m n nnz d.2.2.2 c.1 d.2.1 d.2.2.1
        let x ← csrIndices gi m 0 f.1 f.2.1
        some (.ok ⟨false, 0, f.1, f.2.1, f.2.2, x.1, x.2, d.2.2.2⟩)

end Model
end Verif
