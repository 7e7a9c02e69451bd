/-
Model of the masked block CSR conversion and product
  library/src/conversion/aoclsparse_convert.cpp (36-147 aoclsparse_opt_blksize,
  149-309 aoclsparse_csr2blkcsr)
  library/src/level2/aoclsparse_blkcsrmv.hpp (30-148)
  library/src/level2/aoclsparse_blkcsrmv_avx512.cpp (29-365)

The `while` loops carry fuel; running out of it is `none`, so a theorem saying `= some _` includes
termination.  Local `std::vector`s that are only appended to are lists.  C `int` locals are unbounded
integers.  The percentages computed in double precision by aoclsparse_opt_blksize only steer which
block height is picked: they are replaced by arbitrary booleans.
-/
import Verif.Model.VecOps
import Verif.Model.Dense
import Verif.Core.Types
import Verif.Core.Step

namespace Verif
namespace Model

variable {R : Type}

/-- `(unsigned)x << k`: undefined for a negative amount or one of at least 32 bits -/
def shl (x : Nat) (k : Int) : Option Nat :=
  if 0 ≤ k ∧ k < 32 then some ((x <<< k.toNat) % 2 ^ 32) else none

/-- INT_MAX, the initial value of iCol (convert.cpp:227) -/
def blkNoCol : Int := 2147483647

/-- number of rows of the group starting at `iRow`: the condition
`(iSubRow < nRowsblk) && (iRow + iSubRow < m)` of the sub-row loops -/
def subRows (nR m iRow : Int) : Int := min nR (m - iRow)

/-- convert.cpp:216-222 (and 71-76) — first entry of each row of the group -/
def blkInit (nR m base : Int) (ptr : List Int) (iRow : Int) : Option (List Int) :=
  forC 0 (subRows nR m iRow) (fun s iVal => do
    let p ← rd ptr (iRow + s)
    wr iVal s (p - base)) (List.replicate nR.toNat 0)

/-- convert.cpp:229-239 (and 84-92) — body of the scan for the leftmost remaining column -/
def blkScanBody (base : Int) (rp ind : List Int) (iVal : List Int) (iRow s : Int)
    (st : Bool × Int) : Option (Bool × Int) := do
  let i ← rd iVal s
  let e ← rd rp (iRow + s + 1)
  if i < e - base then do
    let c ← rd ind i
    some (false, min st.2 (c - base))
  else some st

/-- convert.cpp:226-239 — `(blockComplete, iCol)` -/
def blkScan (nR m base : Int) (rp ind : List Int) (iVal : List Int) (iRow : Int) :
    Option (Bool × Int) :=
  forC 0 (subRows nR m iRow) (blkScanBody base rp ind iVal iRow) (true, blkNoCol)

/-- convert.cpp:258-261 — the mask moved to the block that ends at the last column -/
def blkNewMask (n iCol : Int) (mk nm : Nat) : Option Nat :=
  if iCol + 8 > n then (shl mk (8 - (n - iCol))).map (· % 256) else some nm

/-- convert.cpp:250-263 — the inner `while`: entries of one row falling into the block; state:
position, values so far, mask, newmask -/
def blkTake (n base : Int) (ind : List Int) (val : List R) (iCol e : Int) :
    Nat → Int → List R → Nat → Nat → Option (Int × List R × Nat × Nat)
  | 0, _, _, _, _ => none
  | fuel + 1, i, vs, mk, nm =>
    if i < e then do
      let c ← rd ind i
      if c - base < iCol + 8 then do
        let v ← rd val i
        let b ← shl 1 (c - base - iCol)
        let mk' := (mk ||| b) % 256
        let nm' ← blkNewMask n iCol mk' nm
        blkTake n base ind val iCol e fuel (i + 1) (vs ++ [v]) mk' nm'
      else some (i, vs, mk, nm)
    else some (i, vs, mk, nm)

/-- convert.cpp:248-264 — one sub-row of a block; state: iVal, values, mask[], newmask[] -/
def blkSub (n base : Int) (rp ind : List Int) (val : List R) (iCol iRow s : Int)
    (st : List Int × List R × List Nat × List Nat) :
    Option (List Int × List R × List Nat × List Nat) := do
  let i ← rd st.1 s
  let e ← rd rp (iRow + s + 1)
  let mk ← rd st.2.2.1 s
  let nm ← rd st.2.2.2 s
  let r ← blkTake n base ind val iCol (e - base) ((e - base - i).toNat + 1) i st.2.1 mk nm
  let iVal ← wr st.1 s r.1
  let mks ← wr st.2.2.1 s r.2.2.1
  let nms ← wr st.2.2.2 s r.2.2.2
  some (iVal, r.2.1, mks, nms)

/-- the growing vectors: blk_col_ind_local, masks_local, blk_csr_val_local, num_cur_blks -/
structure BlkOut (R : Type) where
  cols : List Int
  masks : List Nat
  vals : List R
  num : Int

/-- convert.cpp:243-281 — one block starting at column `iCol` -/
def blkOne (nR m n base : Int) (rp ind : List Int) (val : List R) (iRow iCol : Int)
    (iVal : List Int) (o : BlkOut R) : Option (List Int × BlkOut R) := do
  let st ← forC 0 (subRows nR m iRow) (blkSub n base rp ind val iCol iRow)
    (iVal, o.vals, List.replicate nR.toNat 0, List.replicate nR.toNat 0)
  if iCol + 8 > n then
    some (st.1, { cols := o.cols ++ [n - 8], masks := o.masks ++ st.2.2.2, vals := st.2.1,
                  num := o.num + 1 })
  else
    some (st.1, { cols := o.cols ++ [iCol], masks := o.masks ++ st.2.2.1, vals := st.2.1,
                  num := o.num + 1 })

/-- convert.cpp:224-282 — `while(true)` over the blocks of one group of rows -/
def blkLoop (nR m n base : Int) (rp ind : List Int) (val : List R) (iRow : Int) :
    Nat → List Int → BlkOut R → Option (BlkOut R)
  | 0, _, _ => none
  | fuel + 1, iVal, o => do
    let sc ← blkScan nR m base rp ind iVal iRow
    if sc.1 then some o
    else do
      let r ← blkOne nR m n base rp ind val iRow sc.2 iVal o
      blkLoop nR m n base rp ind val iRow fuel r.1 r.2

/-- convert.cpp:213-291 — one group of rows; state: blk_row_ptr_local, total_num_blks, vectors -/
def blkGroup (nR m n base : Int) (ptr ind : List Int) (val : List R) (fuel : Nat) (iRow : Int)
    (st : List Int × Int × BlkOut R) : Option (List Int × Int × BlkOut R) := do
  let iVal ← blkInit nR m base ptr iRow
  let o ← blkLoop nR m n base st.1 ind val iRow fuel iVal { st.2.2 with num := 0 }
  let rp ← wr st.1 iRow st.2.1
  let total := st.2.1 + o.num
  let rp ← forC 1 (subRows nR m iRow) (fun s rp => wr rp (iRow + s) total) rp
  some (rp, total, o)

/-- `std::copy` / `std::transform` of a vector into a user buffer; too small a buffer is undefined -/
def copyTo {α : Type} (src dst : List α) : Option (List α) :=
  if src.length ≤ dst.length then some (src ++ dst.drop src.length) else none

/-- convert.cpp:194-308 — aoclsparse_csr2blkcsr behind its checks; returns blk_row_ptr, blk_col_ind,
blk_csr_val, masks.  `fuel` bounds the blocks of a group. -/
def csr2blkcsrCore (nR m n base : Int) (ptr ind : List Int) (val : List R) (fuel : Nat)
    (bptr bind : List Int) (bval : List R) (masks : List Nat) :
    Option (List Int × List Int × List R × List Nat) := do
  let st ← forS 0 m nR (blkGroup nR m n base ptr ind val fuel)
    (ptr.take (m + 1).toNat, 0, { cols := [], masks := [], vals := [], num := 0 })
  let rp ← wr st.1 m st.2.1
  let bptr ← copyTo (rp.map (· + base)) bptr
  let bind ← copyTo (st.2.2.cols.map (· + base)) bind
  let bval ← copyTo st.2.2.vals bval
  let masks ← copyTo st.2.2.masks masks
  some (bptr, bind, bval, masks)

/-- the output buffers of aoclsparse_csr2blkcsr -/
structure BlkBufs (R : Type) where
  ptr : Option (List Int)
  ind : Option (List Int)
  val : Option (List R)
  masks : Option (List Nat)
  deriving DecidableEq

/-- convert.cpp:149-309 — aoclsparse_csr2blkcsr.  Reading `csr_row_ptr[0 .. m]` past the end of a
short array is undefined. -/
def csr2blkcsr (m n nnz : Int) (ptr ind : Option (List Int)) (val : Option (List R))
    (o : BlkBufs R) (nR base : Int) : Option (Status × BlkBufs R) :=
  if m < 0 ∨ n < 8 ∨ nnz < 0 then some (.invalidSize, o)
  else match ptr, ind, val, o.ptr, o.ind, o.val, o.masks with
    | some ptr, some ind, some val, some bptr, some bind, some bval, some masks =>
      if nR ≠ 1 ∧ nR ≠ 2 ∧ nR ≠ 4 then some (.invalidSize, o)
      else if (ptr.length : Int) < m + 1 then none
      else do
        let r ← csr2blkcsrCore nR m n base ptr ind val (ind.length + 1) bptr bind bval masks
        some (.success, ⟨some r.1, some r.2.1, some r.2.2.1, some r.2.2.2⟩)
    | _, _, _, _, _, _, _ => some (.invalidPointer, o)

/-! ### opt_blksize -/

/-- convert.cpp:97-100 — the counting version of the inner `while` -/
def cntTake (base : Int) (ind : List Int) (iCol e : Int) : Nat → Int → Option Int
  | 0, _ => none
  | fuel + 1, i =>
    if i < e then do
      let c ← rd ind i
      if c - base < iCol + 8 then cntTake base ind iCol e fuel (i + 1) else some i
    else some i

/-- convert.cpp:96-100 -/
def cntSub (base : Int) (ptr ind : List Int) (iCol iRow s : Int) (iVal : List Int) :
    Option (List Int) := do
  let i ← rd iVal s
  let e ← rd ptr (iRow + s + 1)
  let r ← cntTake base ind iCol (e - base) ((e - base - i).toNat + 1) i
  wr iVal s r

/-- convert.cpp:79-103 — blocks of one group of rows -/
def cntLoop (nR m base : Int) (ptr ind : List Int) (iRow : Int) :
    Nat → List Int → Int → Option Int
  | 0, _, _ => none
  | fuel + 1, iVal, num => do
    let sc ← blkScan nR m base ptr ind iVal iRow
    if sc.1 then some num
    else do
      let iVal ← forC 0 (subRows nR m iRow) (cntSub base ptr ind sc.2 iRow) iVal
      cntLoop nR m base ptr ind iRow fuel iVal (num + 1)

/-- convert.cpp:67-106 -/
def cntGroup (nR m base : Int) (ptr ind : List Int) (fuel : Nat) (iRow total : Int) : Option Int := do
  let iVal ← blkInit nR m base ptr iRow
  let num ← cntLoop nR m base ptr ind iRow fuel iVal 0
  some (total + num)

/-- convert.cpp:65-106 — number of blocks for one block height -/
def cntBlocks (nR m base : Int) (ptr ind : List Int) (fuel : Nat) : Option Int :=
  forS 0 m nR (cntGroup nR m base ptr ind fuel) 0

/-- convert.cpp:36-147 — aoclsparse_opt_blksize: `(return value, *total_blks)`.  `early i`, `pick4`
and `pick2` stand for the comparisons of percentages on lines 117, 130-131 and 138. -/
def optBlksize (m nnz base : Int) (ptr ind : Option (List Int)) (total : Option Int)
    (early : Nat → Bool) (pick4 pick2 : Bool) : Option (Int × Option Int) :=
  if m ≤ 0 ∨ nnz ≤ 0 then some (0, total)
  else match ptr, ind, total with
    | some ptr, some ind, some _ => do
      let t1 ← cntBlocks 1 m base ptr ind (ind.length + 1)
      if t1 = 0 ∨ early 0 then some (0, total)
      else do
        let t2 ← cntBlocks 2 m base ptr ind (ind.length + 1)
        if t2 = 0 ∨ early 1 then some (0, total)
        else do
          let t4 ← cntBlocks 4 m base ptr ind (ind.length + 1)
          if t4 = 0 ∨ early 2 then some (0, total)
          else if pick4 then some (4, some t4)
          else if pick2 then some (2, some t2)
          else some (0, total)
    | _, _, _ => some (0, total)

/-! ### Product -/

/-- blkcsrmv_avx512.cpp:31-38 — number of set bits of a byte -/
def bitsSet (x : Nat) : Nat := ((List.range 8).filter x.testBit).length

/-- `_mm512_mask_expandloadu_pd(zero, msk, p)`: consecutive values go to the lanes whose bit is set;
memory is only read for those -/
def expandload [Zero R] (msk : Nat) (val : List R) (p : Int) : Option (List R) :=
  (List.range 8).mapM fun b =>
    if msk.testBit b then rd val (p + (((List.range b).filter msk.testBit).length : Nat)) else some 0

/-- the horizontal sum: halves added, `hadd`, halves added (avx512.cpp:83-99 and repeats) -/
def hsum8 [Add R] [Zero R] (v : List R) : R :=
  let l := fun k => v.getD k 0
  ((l 0 + l 4) + (l 1 + l 5)) + ((l 2 + l 6) + (l 3 + l 7))

/-- avx512.cpp:146-156 — row `r` of a block; state: iVal and the accumulators, one list of 8 lanes
per row.  (The code issues the fused multiply-adds after all loads; they touch distinct registers.) -/
def blkmvRow [Zero R] [Add R] [Mul R] (nR : Int) (masks : List Nat) (val xv : List R) (iBlk : Int)
    (r : Int) (st : Int × List (List R)) : Option (Int × List (List R)) := do
  let msk ← rd masks (iBlk * nR + r)
  let vv ← expandload msk val st.1
  let a ← rd st.2 r
  let acc ← wr st.2 r (List.zipWith (· + ·) (List.zipWith (· * ·) vv xv) a)
  some (st.1 + bitsSet msk, acc)

/-- avx512.cpp:139-162 — one block -/
def blkmvBlk [Zero R] [Add R] [Mul R] (nR base : Int) (masks : List Nat) (val : List R)
    (ind : List Int) (x : List R) (iBlk : Int) (st : Int × List (List R)) :
    Option (Int × List (List R)) := do
  let c ← rd ind iBlk
  let xv ← vload x (c - base) 8
  forC 0 nR (blkmvRow nR masks val xv iBlk) st

/-- avx512.cpp:166-213 — scale, add beta * y, store.  Rows past the last one are neither read nor
written (the `break`s leave the last group only). -/
def blkmvStore [Zero R] [One R] [Add R] [Mul R] [DecidableEq R] (alpha beta : R)
    (acc : List (List R)) (iRow r : Int) (y : List R) : Option (List R) := do
  let v ← rd acc r
  let s := if alpha ≠ 1 then alpha * hsum8 v else hsum8 v
  if beta ≠ 0 then do
    let w ← rd y (iRow + r)
    wr y (iRow + r) (s + beta * w)
  else wr y (iRow + r) s

/-- avx512.cpp:130-213 — one group of rows; state: iVal and y -/
def blkmvGroup [Zero R] [One R] [Add R] [Mul R] [DecidableEq R] (nR base m : Int) (alpha beta : R)
    (masks : List Nat) (val : List R) (ind ptr : List Int) (x : List R) (iRow : Int)
    (st : Int × List R) : Option (Int × List R) := do
  let lo ← rd ptr iRow
  let hi ← rd ptr (iRow + 1)
  let r ← forC (lo - base) (hi - base) (blkmvBlk nR base masks val ind x)
    (st.1, List.replicate nR.toNat (List.replicate 8 0))
  let y ← forC 0 (subRows nR m iRow) (blkmvStore alpha beta r.2 iRow) st.2
  some (r.1, y)

/-- avx512.cpp:40-365 — the three kernels, `nR` = 1, 2, 4 -/
def blkmvKernel [Zero R] [One R] [Add R] [Mul R] [DecidableEq R] (nR base m : Int) (alpha beta : R)
    (masks : List Nat) (val : List R) (ind ptr : List Int) (x y : List R) : Option (List R) :=
  (forS 0 m nR (blkmvGroup nR base m alpha beta masks val ind ptr x) (0, y)).map Prod.snd

/-- blkcsrmv.hpp:33-146 — aoclsparse_blkcsrmv_t; `canExec` = AVX512F and AVX512VL available.
Dereferencing a null alpha or beta is undefined. -/
def blkcsrmv [Zero R] [One R] [Add R] [Mul R] [DecidableEq R] (canExec : Bool) (op : Nat)
    (alpha : Option R) (m n nnz : Int) (masks : Option (List Nat)) (val : Option (List R))
    (ind ptr : Option (List Int)) (descr : Option Descr) (x : Option (List R)) (beta : Option R)
    (y : Option (List R)) (nR : Int) : Option (Status × Option (List R)) :=
  if canExec = false then some (.notImplemented, y)
  else match descr with
    | none => some (.invalidPointer, y)
    | some d =>
      if d.base ≠ 0 ∧ d.base ≠ 1 then some (.invalidValue, y)
      else if d.type ≠ 0 ∧ d.type ≠ 1 then some (.notImplemented, y)
      else if op ≠ 111 then some (.notImplemented, y)
      else if m < 0 then some (.invalidSize, y)
      else if n < 8 then some (.invalidSize, y)
      else if nnz < 0 then some (.invalidSize, y)
      else if m = 0 ∨ n = 0 ∨ nnz = 0 then some (.success, y)
      else match val, ptr, ind, masks, x, y with
        | some val, some ptr, some ind, some masks, some x, some y0 =>
          if nR = 1 ∨ nR = 2 ∨ nR = 4 then do
            let a ← alpha
            let b ← beta
            let y' ← blkmvKernel nR d.base m a b masks val ind ptr x y0
            some (.success, some y')
          else some (.invalidSize, y)
        | _, _, _, _, _, _ => some (.invalidPointer, y)

end Model
end Verif
