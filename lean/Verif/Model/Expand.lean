/-
Model of the copies `aoclsparse_optimize` makes of a CSR or CSC matrix for its hints:
transposed copies, and full copies of symmetric and Hermitian matrices
(library/src/analysis/aoclsparse_csr_util.hpp 311-756).
-/
import Verif.Model.Csrmm
import Verif.Core.Prefix

namespace Verif
namespace Model

variable {R : Type}

/-- a[k]++ -/
def incr (a : List Int) (k : Int) : Option (List Int) := do
  let x ← rd a k
  wr a k (x + 1)

/-- csr_util.hpp:350-364 — one source entry in the counting loop; the state is (`ptr`, `nnz_val`). -/
def expCount (upper : Bool) (i col : Int) (s : List Int × List Int) :
    Option (List Int × List Int) :=
  if upper = false ∧ col < i then do
    let p ← incr s.1 (i + 1)
    let z ← incr s.2 col
    some (p, z)
  else if upper = true ∧ i < col then do
    let p ← incr s.1 (col + 1)
    let z ← incr s.2 i
    some (p, z)
  else some s

/-- csr_util.hpp:345-364 — the counting loop. -/
def expCountAll (m base : Int) (ptr ind : List Int) (upper : Bool) (s : List Int × List Int) :
    Option (List Int × List Int) :=
  forC 0 m (fun i s => do
    let b ← rd ptr i
    let e ← rd ptr (i + 1)
    forC (b - base) (e - base) (fun j s => do
      let c ← rd ind j
      expCount upper i (c - base) s) s) s

/-- csr_util.hpp:368-371 — one row of the loop computing diagonal positions and row pointers; the
state is (`ptr`, `idiag`). -/
def expScan (z : List Int) (i : Int) (s : List Int × List Int) : Option (List Int × List Int) := do
  let a ← rd s.1 i
  let b ← rd s.1 (i + 1)
  let dg ← wr s.2 i (a + b)
  let n ← rd z i
  let p ← wr s.1 (i + 1) (b + (a + n + 1))
  some (p, dg)

/-- state of the filling loop over the entries of one row: `current_pos`, `ind`, `val`, `col_pos`,
`diag` -/
structure ExpSt (R : Type) where
  cur : List Int
  ind : List Int
  val : List R
  pos : Int
  diag : R

/-- csr_util.hpp:415-441 — one source entry in the filling loop.  `hc` is the conjugate for the
Hermitian instantiation and the identity otherwise; `re` the real part respectively the identity. -/
def expFill (hc re : R → R) (upper : Bool) (i j : Int) (v : R) (s : ExpSt R) : Option (ExpSt R) :=
  if (upper = false ∧ j < i) ∨ (upper = true ∧ i < j) then do
    let val ← wr s.val s.pos v
    let ind ← wr s.ind s.pos j
    let q ← rd s.cur j
    let val ← wr val q (hc v)
    let ind ← wr ind q i
    let cur ← wr s.cur j (q + 1)
    some ⟨cur, ind, val, s.pos + 1, s.diag⟩
  else if j = i then some { s with diag := re v }
  else some s

/-- csr_util.hpp:409-410 — where the entries of the stored triangle of row `i` start. -/
def expStart (upper : Bool) (ptr idiag : List Int) (i : Int) : Option Int :=
  if upper then (rd idiag i).map (· + 1) else rd ptr i

/-- csr_util.hpp:407-452 — one row of the filling loop; the state is `current_pos`, `ind`, `val` and
`diag_val`. -/
def expRow [Zero R] (hc re : R → R) (base : Int) (sptr sind : List Int) (sval : List R)
    (upper : Bool) (ptr idiag : List Int) (i : Int) (s : List Int × List Int × List R × List R) :
    Option (List Int × List Int × List R × List R) := do
  let p ← expStart upper ptr idiag i
  let b ← rd sptr i
  let e ← rd sptr (i + 1)
  let t ← forC (b - base) (e - base) (fun idx t => do
    let j ← rd sind idx
    let v ← rd sval idx
    expFill hc re upper i (j - base) v t) ⟨s.1, s.2.1, s.2.2.1, p, 0⟩
  let k ← rd idiag i
  let val ← wr t.val k t.diag
  let dv ← wr s.2.2.2 i t.diag
  let ind ← wr t.ind k i
  some (t.cur, ind, val, dv)

/-- the arrays of an expanded copy -/
structure Expanded (R : Type) where
  ptr : List Int
  ind : List Int
  val : List R
  idiag : List Int
  diagVal : List R

/-- csr_util.hpp:337-342 — clearing the row pointers. -/
def expClear (m : Int) (p : List Int) : Option (List Int) := do
  let p ← forC 0 m (fun i p => wr p i 0) p
  wr p m 0

/-- csr_util.hpp:391-405 — where the mirrored entries of each row start. -/
def expCursor (m : Int) (upper : Bool) (ptr idiag cur : List Int) : Option (List Int) :=
  if upper then
    forC 0 m (fun i c => do
      let p ← rd ptr i
      wr c i p) cur
  else
    forC 0 m (fun i c => do
      let p ← rd idiag i
      wr c i (p + 1)) cur

/-- csr_util.hpp:311-457 — aoclsparse_convert_mat_to_general for non-null arrays; memory is obtained
uninitialised (`g`) except for the vectors, which are zero. -/
def convertGeneral [Zero R] (hc re : R → R) (g : Garb R) (m base : Int) (sptr sind : List Int)
    (sval : List R) (upper : Bool) : Option (Expanded R) := do
  let ptr ← expClear m (alloc (m + 1).toNat g.p)
  let idiag ← forC 0 m (fun i d => wr d i 0) (alloc m.toNat g.i)
  let s ← expCountAll m base sptr sind upper (ptr, List.replicate m.toNat 0)
  let q ← forC 0 m (expScan s.2) (s.1, idiag)
  let nnz ← rd q.1 m
  let cur ← expCursor m upper q.1 q.2 (List.replicate m.toNat 0)
  let t ← forC 0 m (expRow hc re base sptr sind sval upper q.1 q.2)
    (cur, alloc nnz.toNat g.i, alloc nnz.toNat g.v, alloc m.toNat g.v)
  some ⟨q.1, t.2.1, t.2.2.1, q.2, t.2.2.2⟩

/-- conjugating the first `n` values of an array in place, if `b` (csr_util.hpp:589-594, 657-665,
723-731) -/
def conjLoop (b : Bool) (cj : R → R) (n : Int) (v : List R) : Option (List R) :=
  if b then
    forC 0 n (fun i v => do
      let x ← rd v i
      wr v i (cj x)) v
  else some v

/-- one element of the list of hints of a handle (include/aoclsparse_mat_structures.hpp,
aoclsparse_optimize_data): the identifier and fill mode of the hint and whether it was acted on -/
structure OptHint where
  doid : Nat
  fill : Nat
  done : Bool

/-- csr_util.hpp:558-615 — a transposed copy, conjugated if `conj`. -/
def makeTrans (g : Garb R) (cj : R → R) (A : RawMat R) (conj : Bool) (doid : Nat) :
    Option (Status × Option (MCopy R)) := do
  let r ← csr2csc A.m A.n A.nnz A.base 0 (some A.ptr) (some A.ind) (some A.val)
    (some (alloc (A.n + 1).toNat g.p)) (some (alloc A.nnz.toNat g.i)) (some (alloc A.nnz.toNat g.v))
  match r with
  | (.success, some p, some i, some v) => do
    let v ← conjLoop conj cj A.nnz v
    some (.success, some ⟨doid, 0, A.n, A.m, 0, p, i, v, none, none⟩)
  | (st, _, _, _) => some (st, none)

/-- csr_util.hpp:616-748 — a full copy of the symmetric (`herm` false) or Hermitian matrix stored in
one triangle, conjugated if `conj`. -/
def makeFull [Zero R] (g : Garb R) (cj re : R → R) (A : RawMat R) (herm conj : Bool) (fill : Nat)
    (doid : Nat) : Option (Status × Option (MCopy R)) :=
  if A.um ≠ A.un then some (.invalidSize, none)
  else do
    let x ← convertGeneral (if herm then cj else id) (if herm then re else id) g A.um A.base A.ptr
      A.ind A.val (decide (fill ≠ 0))
    let nnz ← rd x.ptr A.um
    let val ← conjLoop conj cj nnz x.val
    let dv ← conjLoop conj cj A.um x.diagVal
    some (.success, some ⟨doid, 0, A.um, A.un, 0, x.ptr, x.ind, val, some x.idiag, some dv⟩)

/-- csr_util.hpp:554-753 — the switch: which copy is made for identifier `d` (already transposed for a
CSC matrix); `doid` is the identifier of the hint, given to the copy.  No copy for the other kinds. -/
def makeCopy [Zero R] (g : Garb R) (cj re : R → R) (A : RawMat R) (d fill doid : Nat) :
    Option (Status × Option (MCopy R)) :=
  if d = 2 ∨ d = 3 then makeTrans g cj A (decide (d = 3)) doid
  else if 4 ≤ d ∧ d ≤ 7 then makeFull g cj re A false (decide (d = 5 ∨ d = 7)) fill doid
  else if 8 ≤ d ∧ d ≤ 11 then makeFull g cj re A true (decide (d = 9 ∨ d = 10)) fill doid
  else some (.success, none)

/-- csr_util.hpp:530-752 — one hint: the status, the hint and the copies afterwards. -/
def transformHint [Zero R] (g : Garb R) (cj re : R → R) (A : RawMat R) (h : OptHint)
    (copies : List (MCopy R)) : Option (Status × OptHint × List (MCopy R)) :=
  if h.done then some (.success, h, copies)
  else if (A.copy0 :: copies).any (fun c => decide (c.doid = h.doid)) then some (.success, h, copies)
  else do
    let r ← makeCopy g cj re A (if A.doid = gt then transDoid h.doid else h.doid)
      (if A.doid = gt then (if h.fill = 0 then 1 else 0) else h.fill) h.doid
    match r with
    | (.success, some c) => some (.success, { h with done := true }, copies ++ [c])
    | (st, _) => some (st, h, copies)

/-- csr_util.hpp:513-757 — aoclsparse_matrix_transform for a handle created from CSR or CSC arrays
(non-null): the list of hints is walked from its head; a failure stops the walk.  Simplification: the
copies in formats other than CSR, made by a later step of aoclsparse_optimize and all of identifier
`gn`, which the user's arrays of a CSR matrix have too, are left out of the search for an existing
copy. -/
def matrixTransform [Zero R] (g : Garb R) (cj re : R → R) (A : RawMat R) :
    List OptHint → List (MCopy R) → Option (Status × List OptHint × List (MCopy R))
  | [], copies => some (.success, [], copies)
  | h :: hs, copies => do
    let r ← transformHint g cj re A h copies
    if r.1 = .success then do
      let q ← matrixTransform g cj re A hs r.2.2
      some (q.1, r.2.1 :: q.2.1, q.2.2)
    else some (r.1, r.2.1 :: hs, r.2.2)

end Model
end Verif
