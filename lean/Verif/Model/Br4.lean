/-
Model of the blocked CSR copy that mv optimisation may create, and of its kernel
  library/src/analysis/aoclsparse_analysis.cpp        271-375
  library/src/level2/aoclsparse_csrmv_kr.hpp          1044-1164

Rows are grouped by four; every row of a group is padded with zeros to the longest one and the group
is stored entry by entry (four consecutive cells hold the same entry of the four rows).
-/
import Verif.Core.Prefix
import Verif.Model.EllMv

namespace Verif
namespace Model

variable {R : Type}

/-- arrays of the blocked copy (mat_structures.hpp:147-251 with mat_type csr_mat_br4) -/
structure Br4 (R : Type) where
  ptr : List Int
  ind : List Int
  val : List R

/-- analysis.cpp:296-300 — longest of the rows `i … i+3` -/
def br4Max (ptr : List Int) (i : Int) : Option Int := do
  let p0 ← rd ptr i
  let p1 ← rd ptr (i + 1)
  let p2 ← rd ptr (i + 2)
  let p3 ← rd ptr (i + 3)
  let p4 ← rd ptr (i + 4)
  some (max (max (p1 - p0) (p2 - p1)) (max (p3 - p2) (p4 - p3)))

/-- analysis.cpp:301, 313 and 302-305, 314 — one row of the padded pointer: state
`(row_ptr, br4->ptr)` -/
def br4PtrRow (nnz i : Int) (s : List Int × List Int) : Option (List Int × List Int) := do
  let wd ← wr s.1 i nnz
  let p ← rd s.2 i
  let ptr ← wr s.2 (i + 1) (p + nnz)
  some (wd, ptr)

/-- analysis.cpp:291-307 — a group of four rows (the loop runs for `i = 4g`, `4g + 4 ≤ m`) -/
def br4PtrGroup (ptr : List Int) (g : Int) (s : List Int × List Int) :
    Option (List Int × List Int) := do
  let nnz ← br4Max ptr (4 * g)
  let s ← br4PtrRow nnz (4 * g) s
  let s ← br4PtrRow nnz (4 * g + 1) s
  let s ← br4PtrRow nnz (4 * g + 2) s
  br4PtrRow nnz (4 * g + 3) s

/-- analysis.cpp:308-315 — a row of the remainder -/
def br4PtrRest (ptr : List Int) (j : Int) (s : List Int × List Int) :
    Option (List Int × List Int) := do
  let p0 ← rd ptr j
  let p1 ← rd ptr (j + 1)
  br4PtrRow (p1 - p0) j s

/-- analysis.cpp:290-315 — widths of the rows and pointer of the padded copy.  `tnnz` of the code is
the sum of the widths, i.e. the distance between the last and the first pointer. -/
def br4Ptr (m base : Int) (ptr : List Int) (gw gp : Nat → Int) : Option (List Int × List Int) := do
  let p ← wr (alloc (m + 1).toNat gp) 0 base
  let s ← forC 0 (m.tdiv 4) (br4PtrGroup ptr) (alloc m.toNat gw, p)
  forC (m.tdiv 4 * 4) m (br4PtrRest ptr) s

/-- state of the copying loop: arrays, count of cells, last column seen -/
structure Br4St (R : Type) where
  ind : List Int
  val : List R
  tc : Int
  last : Int

/-- analysis.cpp:327-333 -/
def br4CopyOne (ind : List Int) (val : List R) (pos : Int) (s : Br4St R) : Option (Br4St R) := do
  let v ← rd val pos
  let vs ← wr s.val s.tc v
  let c ← rd ind pos
  let cs ← wr s.ind s.tc c
  some ⟨cs, vs, s.tc + 1, c⟩

/-- analysis.cpp:338-342 -/
def br4PadOne [Zero R] (s : Br4St R) : Option (Br4St R) := do
  let cs ← wr s.ind s.tc s.last
  let vs ← wr s.val s.tc 0
  some ⟨cs, vs, s.tc + 1, s.last⟩

/-- analysis.cpp:323-344 — one row: its entries, then zeros up to its width -/
def br4Row [Zero R] (base : Int) (ptr ind : List Int) (val : List R) (wd : List Int) (i : Int)
    (s : Br4St R) : Option (Br4St R) := do
  let p0 ← rd ptr i
  let p1 ← rd ptr (i + 1)
  let nz := p1 - p0
  let s ← forC 0 nz (fun j s => br4CopyOne ind val (p0 - base + j) s) s
  let w ← rd wd i
  if nz < w then forC nz w (fun _ s => br4PadOne s) s else some s

/-- analysis.cpp:360-367 — cell `(ii, jj)` of the transposed chunk -/
def br4TrOne (nnz tc : Int) (src : List R) (ii jj : Int) (buf : List R) : Option (List R) := do
  let v ← rd src (tc + (ii + jj * nnz))
  wr buf (jj + ii * 4) v

/-- analysis.cpp:356-367 — the auxiliary buffer (`std::vector` is zero initialised) -/
def br4Buf (z : R) (nnz tc : Int) (src : List R) : Option (List R) :=
  forC 0 nnz (fun ii buf => forC 0 4 (fun jj buf => br4TrOne nnz tc src ii jj buf) buf)
    (List.replicate (nnz * 4).toNat z)

/-- analysis.cpp:368-369 — `memcpy` of the buffer over the chunk -/
def br4Back (nnz tc : Int) (buf dst : List R) : Option (List R) :=
  forC 0 (nnz * 4) (fun k dst => do
    let v ← rd buf k
    wr dst (tc + k) v) dst

/-- analysis.cpp:349-371 — transpose one chunk of four rows; state `(tc, ind, val)` -/
def br4Chunk [Zero R] (wd : List Int) (g : Int) (s : Int × List Int × List R) :
    Option (Int × List Int × List R) := do
  let nnz ← rd wd (4 * g)
  let bufv ← br4Buf 0 nnz s.1 s.2.2
  let bufi ← br4Buf 0 nnz s.1 s.2.1
  let val ← br4Back nnz s.1 bufv s.2.2
  let ind ← br4Back nnz s.1 bufi s.2.1
  some (s.1 + nnz * 4, ind, val)

/-- analysis.cpp:271-375 — build the blocked copy of a CSR matrix.  `gw gp gi gv` is the content of
the freshly allocated arrays.  Allocation failures are not modelled. -/
def br4Build [Zero R] (m base : Int) (ptr ind : List Int) (val : List R) (gw gp gi : Nat → Int)
    (gv : Nat → R) : Option (Br4 R) := do
  let (wd, p) ← br4Ptr m base ptr gw gp
  let last ← rd p m
  let tnnz := (last - base).toNat
  let s ← forC 0 m (br4Row base ptr ind val wd) ⟨alloc tnnz gi, alloc tnnz gv, 0, 0⟩
  let t ← forC 0 (m.tdiv 4) (br4Chunk wd) (0, s.ind, s.val)
  some ⟨p, t.2.1, t.2.2⟩

variable [Zero R] [One R] [Add R] [Mul R] [DecidableEq R]

/-- csrmv_kr.hpp:1091-1128 — a group of four rows (iterations are independent: each writes its own
four cells of `y`) -/
def br4Group (alpha beta : R) (base : Int) (B : Br4 R) (x : List R) (i : Int) (y : List R) :
    Option (List R) := do
  let r ← rd B.ptr (i * 4)
  let r1 ← rd B.ptr (i * 4 + 1)
  let res ← forC 0 (r1 - r) (fun j v => fma4 B.ind B.val x base (r - base + j * 4) v) (0, 0, 0, 0)
  storeRow4 alpha beta res (i * 4) y

/-- csrmv_kr.hpp:1133-1160 — a row of the remainder -/
def br4Rest (alpha beta : R) (base : Int) (B : Br4 R) (x : List R) (k : Int) (y : List R) :
    Option (List R) := do
  let p0 ← rd B.ptr k
  let p1 ← rd B.ptr (k + 1)
  let r ← forC (p0 - base) (p1 - base) (fun j r => do
    let t ← term B.ind B.val x base j
    some (r + t)) 0
  storeRow alpha beta r k y

/-- csrmv_kr.hpp:1044-1164 — aoclsparse_dcsr_mat_br4 -/
def br4Mv (alpha : R) (m base : Int) (B : Br4 R) (x : List R) (beta : R) (y : List R) :
    Option (List R) := do
  let y ← forC 0 (m.tdiv 4) (br4Group alpha beta base B x) y
  forC (m.tdiv 4 * 4) m (br4Rest alpha beta base B x) y

end Model
end Verif
