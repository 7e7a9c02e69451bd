/-
Model of the products with a matrix transposed on the fly
  library/src/level3/aoclsparse_sypr.hpp:34-525
(class oftrans, add_sprow, aoclsparse_sp2m_online_symab, aoclsparse_sp2m_online_atb).
Memory allocation is assumed to succeed.  The pointers passed by the callers are not null.
-/
import Verif.Model.Sp2m

namespace Verif
namespace Model

variable {R σ : Type}

/-! ### on the fly transposition -/

/-- sypr.hpp:119-146 — the mutable members of class oftrans: `irstart`, `col_head`, `row_next` -/
structure Oft where
  start : List Int
  head : List Int
  next : List Int
  deriving DecidableEq

/-- sypr.hpp:127-137 — the constant members: `irend`, `e_offset`, `icol`, `base` -/
structure OftCfg where
  irend : List Int
  eOff : Int
  icol : List Int
  base : Int

/-- sypr.hpp:197-205 and 229-236 — if position `idx` is still in row `row`, push the row to the head
of the list of the column of that position -/
def oftPush (c : OftCfg) (row idx : Int) (o : Oft) : Option Oft := do
  let e ← rd c.irend row
  if idx < e - c.eOff then do
    let col ← rd c.icol idx
    let h ← rd o.head (col - c.base)
    let next ← wr o.next row h
    let head ← wr o.head (col - c.base) row
    some { o with next := next, head := head }
  else some o

/-- sypr.hpp:190-206 — one row of the initialization -/
def oftInitRow (c : OftCfg) (irstart : List Int) (sOff : Int) (i : Int) (o : Oft) : Option Oft := do
  let s ← rd irstart i
  let start ← wr o.start i (s - sOff)
  oftPush c i (s - sOff) { o with start := start }

/-- sypr.hpp:155-208 — oftrans::init of an `m × n` matrix -/
def oftInit (c : OftCfg) (m n : Int) (irstart : List Int) (sOff : Int) : Option Oft :=
  forC 0 m (oftInitRow c irstart sOff)
    ⟨List.replicate m.toNat 0, List.replicate n.toNat (-1), List.replicate m.toNat (-1)⟩

/-- sypr.hpp:222-240 — oftrans::rnext -/
def oftNext (c : OftCfg) (row : Int) (o : Oft) : Option (Int × Oft) := do
  let nx ← rd o.next row
  let st ← rd o.start row
  let start ← wr o.start row (st + 1)
  let o ← oftPush c row (st + 1) { o with start := start }
  some (nx, o)

/-- sypr.hpp:354-376 and 473-496 — `while(row >= 0)`: `body` is given the row and the position of its
element in the current column.  The last argument but two bounds the number of steps; running out of
it is a loop that does not end. -/
def oftWalk (c : OftCfg) (body : Int → Int → σ → Option σ) : Nat → Int → Oft × σ → Option (Oft × σ)
  | 0, row, s => if row ≥ 0 then none else some s
  | f + 1, row, s =>
    if row ≥ 0 then do
      let idx ← rd s.1.start row
      let t ← body row idx s.2
      let r ← oftNext c row s.1
      oftWalk c body f r.1 (r.2, t)
    else some s

/-- sypr.hpp:210-214, 353-376 — all elements of column `j` -/
def oftCol (c : OftCfg) (body : Int → Int → σ → Option σ) (fuel : Nat) (j : Int) (s : Oft × σ) :
    Option (Oft × σ) := do
  let row ← rd s.1.head j
  oftWalk c body fuel row s

/-! ### adding a sparse row -/

/-- sypr.hpp:66-82 — one element, counting stage -/
def spCnt (onlyU : Bool) (W : Arrs R) (i : Int) (k : Int) (s : List Int × Int) :
    Option (List Int × Int) := do
  let col ← rd W.ind k
  if onlyU = true ∧ col - W.base < i then some s else addCntB i (col - W.base) s

variable [Zero R] [Add R] [Mul R]

/-- sypr.hpp:66-104 — one element, with values -/
def spAdd (onlyU : Bool) (cjW : R → R) (W : Arrs R) (i : Int) (alpha : R) (k : Int) (s : MmSt R) :
    Option (MmSt R) := do
  let col ← rd W.ind k
  if onlyU = true ∧ col - W.base < i then some s
  else do
    let v ← rd W.val k
    mmStep i (col - W.base) (alpha * cjW v) s

/-- sypr.hpp:52-107 — add_sprow for row `row` of W, counting stage; the number of elements so far
(`*nnzC == *total_nnz`) is part of the state -/
def spRowCnt (onlyU : Bool) (W : Arrs R) (i : Int) (_alpha : R) (row : Int) (s : List Int × Int) :
    Option (List Int × Int) := do
  let b ← rd W.ptr row
  let e ← rd W.ptr (row + 1)
  forC (b - W.base) (e - W.base) (spCnt onlyU W i) s

/-- sypr.hpp:52-107 — add_sprow for row `row` of W, with values -/
def spRowAdd (onlyU : Bool) (cjW : R → R) (W : Arrs R) (i : Int) (alpha : R) (row : Int)
    (s : MmSt R) : Option (MmSt R) := do
  let b ← rd W.ptr row
  let e ← rd W.ptr (row + 1)
  forC (b - W.base) (e - W.base) (spAdd onlyU cjW W i alpha) s

/-! ### the rows of the result -/

/-- state of the counting stage: the transposition, the flags with the count, the row pointers -/
structure SpCntSt where
  oft : Oft
  cnt : List Int × Int
  ptr : List Int

/-- sypr.hpp:470-507 (334-389) — row `i` of the counting stage; `visit` adds all contributions -/
def countRow (visit : Int → Oft × (List Int × Int) → Option (Oft × (List Int × Int))) (i : Int)
    (s : SpCntSt) : Option SpCntSt := do
  let r ← visit i (s.oft, s.cnt)
  let ptr ← wr s.ptr (i + 1) r.2.2
  some ⟨r.1, r.2, ptr⟩

/-- sypr.hpp:466-514 (329-395) — the counting stage for `k` rows of a result with `n` columns: status,
row pointers and number of elements.  Simplification: the stored pointers are not truncated to `w`
bits (they are discarded if they do not fit). -/
def countRows (w : Nat) (k n : Int)
    (visit : Int → Oft × (List Int × Int) → Option (Oft × (List Int × Int))) (o : Oft)
    (ptr : List Int) : Option (Status × List Int × Int) := do
  let ptr ← wr ptr 0 0
  let s ← forC 0 k (countRow visit) ⟨o, (List.replicate n.toNat (-1), 0), ptr⟩
  if sumOverflow 64 w s.cnt.2 then some (.invalidSize, s.ptr, s.cnt.2)
  else some (.success, s.ptr, s.cnt.2)

/-- state of the stage with values -/
structure SpFill (R : Type) where
  oft : Oft
  st : MmSt R
  ptr : List Int
  val : List R

/-- sypr.hpp:503-507 (384-388) — copy one value out of the dense row and clear it -/
def copyOut (ind : List Int) (k : Int) (s : List R × List R) : Option (List R × List R) := do
  let c ← rd ind k
  let x ← rd s.1 c
  let val ← wr s.2 k x
  let sum ← wr s.1 c 0
  some (sum, val)

/-- sypr.hpp:470-509 (334-390) — row `i` with values -/
def spFillRow (visit : Int → Oft × MmSt R → Option (Oft × MmSt R)) (i : Int) (s : SpFill R) :
    Option (SpFill R) := do
  let r ← visit i (s.oft, s.st)
  let ptr ← wr s.ptr (i + 1) r.2.pos
  let b ← rd ptr i
  let e ← rd ptr (i + 1)
  let c ← forC b e (copyOut r.2.ind) (r.2.sum, s.val)
  some ⟨r.1, { r.2 with sum := c.1 }, ptr, c.2⟩

/-- sypr.hpp:466-509 (329-390) — `k` rows of a result with `n` columns, into the given arrays; the
number of elements is the last component -/
def fillRows (k n : Int) (visit : Int → Oft × MmSt R → Option (Oft × MmSt R)) (o : Oft)
    (ptr ind : List Int) (val : List R) : Option (List Int × List Int × List R × Int) := do
  let ptr ← wr ptr 0 0
  let s ← forC 0 k (spFillRow visit)
    ⟨o, ⟨List.replicate n.toNat (-1), List.replicate n.toNat 0, 0, ind⟩, ptr, val⟩
  some (s.ptr, s.st.ind, s.val, s.st.pos)

/-- `a[i]++` -/
def incAt (i : Int) (a : List Int) : Option (List Int) := do
  let x ← rd a i
  wr a i (x + 1)

/-- sypr.hpp:517-523 — correct the base of the result -/
def fixBase (baseC k : Int) (c : List Int × List Int × List R × Int) :
    Option (List Int × List Int × List R × Int) :=
  if baseC = 1 then do
    let ptr ← forC 0 (k + 1) incAt c.1
    let ind ← forC 0 c.2.2.2 incAt c.2.1
    some (ptr, ind, c.2.2.1, c.2.2.2)
  else some c

/-! ### Aᴴ·B -/

/-- sypr.hpp:462 — the transposition of all of A -/
def atbCfg (A : Arrs R) : OftCfg := ⟨A.ptr.drop 1, A.base, A.ind, A.base⟩

/-- sypr.hpp:473-496 — the contributions to row `i`: `step alpha row` adds a multiple of a row -/
def atbVisit (cjA : R → R) (A : Arrs R) (fuel : Nat) (step : Int → R → Int → σ → Option σ) (i : Int)
    (s : Oft × σ) : Option (Oft × σ) :=
  oftCol (atbCfg A) (fun row idx t => do
    let v ← rd A.val idx
    step i (cjA v) row t) fuel i s

/-- sypr.hpp:408-525 — aoclsparse_sp2m_online_atb, counting stage with zero-based result (the only use);
`cjA` is irrelevant -/
def atbCount (w : Nat) (onlyU : Bool) (m k n : Int) (A B : Arrs R) (ptr : List Int) :
    Option (Status × List Int × Int) := do
  let o ← oftInit (atbCfg A) m k A.ptr A.base
  countRows w k n (atbVisit id A m.toNat (spRowCnt onlyU B)) o ptr

/-- sypr.hpp:408-525 — aoclsparse_sp2m_online_atb with values, into arrays large enough (it returns
success) -/
def atbFill (onlyU : Bool) (cjA cjB : R → R) (m k n : Int) (A B : Arrs R) (baseC : Int)
    (ptr ind : List Int) (val : List R) : Option (List Int × List Int × List R × Int) := do
  let o ← oftInit (atbCfg A) m k A.ptr A.base
  let c ← fillRows k n (atbVisit cjA A m.toNat (spRowAdd onlyU cjB B)) o ptr ind val
  fixBase baseC k c

/-! ### (A + Aᴴ)·B -/

/-- sypr.hpp:299-320 — `irstart` -/
def symStart (lower : Bool) (A : Arrs R) (idiag : List Int) : List Int :=
  if lower then A.ptr else idiag
/-- sypr.hpp:299-320 — `irend` -/
def symEnd (lower : Bool) (A : Arrs R) (idiag : List Int) : List Int :=
  if lower then idiag else A.ptr.drop 1
/-- sypr.hpp:299-320 — `s_offsetT` -/
def symOffT (lower : Bool) (A : Arrs R) : Int := if lower then A.base else A.base - 1
/-- sypr.hpp:299-320 — `e_offset` -/
def symOffE (lower : Bool) (A : Arrs R) : Int := if lower then A.base - 1 else A.base

/-- sypr.hpp:323 — the transposition of the strict triangle -/
def symCfg (lower : Bool) (A : Arrs R) (idiag : List Int) : OftCfg :=
  ⟨symEnd lower A idiag, A.base, A.ind, A.base⟩

/-- sypr.hpp:334-376 — the contributions to row `i` -/
def symVisit (lower : Bool) (cj : R → R) (A : Arrs R) (idiag : List Int) (fuel : Nat)
    (step : Int → R → Int → σ → Option σ) (i : Int) (s : Oft × σ) : Option (Oft × σ) := do
  let b ← rd (symStart lower A idiag) i
  let e ← rd (symEnd lower A idiag) i
  let t ← forC (b - A.base) (e - symOffE lower A) (fun idx t => do
    let col ← rd A.ind idx
    let v ← rd A.val idx
    step i v (col - A.base) t) s.2
  oftCol (symCfg lower A idiag) (fun row idx t => do
    let v ← rd A.val idx
    step i (cj v) row t) fuel i (s.1, t)

/-- sypr.hpp:250-395 — aoclsparse_sp2m_online_symab, counting stage -/
def symCount (w : Nat) (lower : Bool) (cj : R → R) (m k n : Int) (A : Arrs R) (idiag : List Int)
    (B : Arrs R) (ptr : List Int) : Option (Status × List Int × Int) := do
  let o ← oftInit (symCfg lower A idiag) m k (symStart lower A idiag) (symOffT lower A)
  countRows w k n (symVisit lower cj A idiag m.toNat (spRowCnt false B)) o ptr

/-- sypr.hpp:250-395 — aoclsparse_sp2m_online_symab with values -/
def symFill (lower : Bool) (cj cjB : R → R) (m k n : Int) (A : Arrs R) (idiag : List Int)
    (B : Arrs R) (ptr ind : List Int) (val : List R) :
    Option (List Int × List Int × List R × Int) := do
  let o ← oftInit (symCfg lower A idiag) m k (symStart lower A idiag) (symOffT lower A)
  fillRows k n (symVisit lower cj A idiag m.toNat (spRowAdd false cjB B)) o ptr ind val

end Model
end Verif
