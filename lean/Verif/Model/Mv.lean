/-
Model of the matrix-vector product on handles that hold internal copies:
  library/src/level2/aoclsparse_mv.cpp                     41-349 (mv)
  library/src/level2/aoclsparse_csrmv.hpp                  33-452 (selection of a CSR kernel)
  library/src/include/aoclsparse_magic_box.hpp             76-286 (choice of a copy)
  library/src/analysis/aoclsparse_csr_util.hpp             765-967 (clean copy on demand)
  library/src/analysis/aoclsparse_analysis.cpp             35-385, 426-566 (optimize)
for handles created from CSR or CSC arrays.
-/
import Verif.Model.Expand
import Verif.Model.CsrmvSym
import Verif.Model.CsrOpt
import Verif.Model.BlkCsr
import Verif.Model.EllMv512
import Verif.Model.Ell
import Verif.Model.Br4
import Verif.Model.Doid

namespace Verif
namespace Model

variable {R : Type}

/-- What the processor and the build offer (context.hpp, cntx_dispatcher.hpp:71-99): AVX2, AVX512F in
an AVX512 build, AVX512VL.  The generic kernels are always there. -/
structure Isa where
  avx2 : Bool
  avx512 : Bool
  vl : Bool

/-- The value type of the handle and the kernels selected for it: `none` is the null pointer that
Oracle returns for an unknown kernel identifier (reported as invalid_kid).  Simplification: the
selection itself (cntx_dispatcher.hpp:302-395) is left open; `gt` is the register width of csrmvt_kt,
run by `nth` threads that finish in the order `ord`. -/
structure MvSel (R : Type) where
  real : Bool
  dbl : Bool
  cj : R → R
  gn : Option (GnKernel R)
  gt : Option Nat
  nth : Nat
  ord : List Nat
  sym : Option (Nat × Vec R)

/-- An element of the list `mats` of a handle (mat_structures.hpp): an `aoclsparse::csr` object, a
masked block copy, an ELL-CSR hybrid copy (its CSR part is `mats[0]`) or a copy in groups of four
rows.  The last three kinds have doid gn. -/
inductive Stored (R : Type) where
  | csr (c : MCopy R) (opt : Bool) (iurow : Option (List Int))
  | blk (base nR : Int) (ptr ind : List Int) (masks : List Nat) (val : List R)
  | hyb (base w em : Int) (ec : List Int) (ev : List R) (map : List Int)
  | br4 (base : Int) (B : Br4 R)

/-- base_mtx::doid -/
def Stored.doid : Stored R → Nat
  | .csr c _ _ => c.doid
  | _ => Model.gn

/-- base_mtx::mat_type -/
def Stored.fmt : Stored R → Nat
  | .csr _ _ _ => 0
  | .blk _ _ _ _ _ _ => 9
  | .hyb _ _ _ _ _ _ => 3
  | .br4 _ _ => 6

/-- base_mtx::base -/
def Stored.base : Stored R → Int
  | .csr c _ _ => c.base
  | .blk b _ _ _ _ _ => b
  | .hyb b _ _ _ _ _ => b
  | .br4 b _ => b

/-- aoclsparse::csr::is_optimized (false for other objects) -/
def Stored.opt : Stored R → Bool
  | .csr _ o _ => o
  | _ => false

/-- A handle created from CSR or CSC arrays: the user's matrix, the list `mats`, `sort ==
aoclsparse_fully_sorted`, `optimized`, `blk_optimized`, `mat_type == aoclsparse_csr_mat`,
`opt_csr_full_diag`, and the number of null pointers that updates of the values leave in `mats`
(auxiliary.hpp:255-270).  The null pointers are not part of the list `mats` of the model: all loops
over the list skip them, except that of get_best_matrix. -/
structure MvHandle (R : Type) where
  raw : RawMat R
  mats : List (Stored R)
  sorted : Bool
  optimized : Bool
  blkOpt : Bool
  plain : Bool
  fulldiag : Bool
  nulls : Nat := 0

/-- create.cpp:34-97 — the handle after creation -/
def MvHandle.fresh (A : RawMat R) (sorted : Bool) : MvHandle R :=
  ⟨A, [.csr A.copy0 false none], sorted, false, false, true, false, 0⟩

/-! ### choice of a copy -/

/-- cntx_dispatcher.hpp:71-99 — get_supported on a list of instruction sets (GENERIC 1, AVX2 2,
AVX512F 3): the largest supported one, 0 if there is none -/
def getSupported (isa : Isa) (l : List Nat) : Nat :=
  l.foldl (fun best k =>
    if (k = 1 ∨ (k = 2 ∧ isa.avx2) ∨ (k = 3 ∧ isa.avx512)) ∧ best ≤ k then k else best) 0

/-- magic_box.hpp:76-142 — get_arch_score for the formats a CSR/CSC handle can hold -/
def archScore (isa : Isa) (real dbl : Bool) (fmt e : Nat) : Nat :=
  if fmt = 0 then
    if e = gn ∨ e = gt then getSupported isa [3, 2, 1]
    else if e = gh ∧ real = false then getSupported isa [1]
    else if 4 ≤ e ∧ e < 12 then getSupported isa [3, 2, 1]
    else if e = 12 ∨ e = 16 then getSupported isa [2, 1]
    else if e = 14 ∨ e = 18 then getSupported isa [1]
    else if (e = 15 ∨ e = 19) ∧ real = false then getSupported isa [1]
    else 0
  else if fmt = 9 then if e = gn ∧ dbl then getSupported isa [3] else 0
  else if fmt = 3 then if e = gn ∧ dbl then getSupported isa [3, 2] else 0
  else if fmt = 6 then if e = gn ∧ dbl then getSupported isa [2] else 0
  else 0

/-- magic_box.hpp:160-199 — get_doid_score -/
def doidScore (e : Nat) : Nat :=
  if e ≥ doidLen then 0
  else
    let grp := e >>> 2
    let op := e &&& 3
    if grp = 0 then (if op = 0 then 100 else if op = 1 then 80 else if op = 2 then 70 else 60)
    else if grp ≥ 3 then (if op = 0 then 40 else if op = 1 then 35 else if op = 2 then 32 else 30)
    else
      let conj := if grp = 1 then op &&& 1 else (op &&& 1) ^^^ (op >>> 1)
      if conj ≠ 0 then 35 else 40

/-- magic_box.hpp:207-227 — get_matrix_score -/
def matrixScore (s : Stored R) : Nat := if s.fmt = 0 then (if s.opt then 10 else 0) else 11

/-- magic_box.hpp:255-277 — the score of one object; 0 stands for the two `continue`s -/
def mvScore (isa : Isa) (real dbl : Bool) (req : Nat) (s : Stored R) : Nat :=
  let e := effDoid s.doid req
  if doidScore e = 0 ∨ archScore isa real dbl s.fmt e = 0 then 0
  else doidScore e + matrixScore s + archScore isa real dbl s.fmt e

/-- magic_box.hpp:253-284 — the loop of get_best_matrix; `i` the position, `mx` and `best` the best
score so far and its position -/
def bestFrom (score : Stored R → Nat) : List (Stored R) → Nat → Nat → Option Nat → Option Nat
  | [], _, _, best => best
  | s :: l, i, mx, best =>
    if score s > mx then bestFrom score l (i + 1) (score s) (some i)
    else bestFrom score l (i + 1) mx best

/-- magic_box.hpp:245-286 — get_best_matrix: the position in `mats` -/
def getBest (isa : Isa) (k : MvSel R) (req : Nat) (mats : List (Stored R)) : Option Nat :=
  bestFrom (mvScore isa k.real k.dbl req) mats 0 0 none

/-! ### clean copy -/

/-- csr_util.hpp:780-800 and 812-822 — position of the first object with is_optimized -/
def optIdx : List (Stored R) → Option Nat
  | [] => none
  | s :: l => if s.opt then some 0 else (optIdx l).map (· + 1)

/-- csr_util.hpp:765-967 — aoclsparse_csr_csc_optimize: the position of the clean copy and the handle
afterwards.  The source is `mats[0]`. -/
def csrCscOptimize [Zero R] (srt : (Int → Int → Bool) → List Int → List Int) (gi : Nat → Int)
    (gv : Nat → R) (H : MvHandle R) : Option (Except Status (Nat × MvHandle R)) :=
  match optIdx H.mats with
  | some i => some (.ok (i, H))
  | none =>
    match H.mats with
    | .csr c _ _ :: rest => do
      let r ← csrOptimize srt gi gv c.m c.n H.raw.nnz c.base c.ptr c.ind c.val
      match r with
      | .error e => some (.error e)
      | .ok o =>
        if o.inPlace then
          some (.ok (0, { H with
            mats := .csr { c with idiag := some o.idiag } true (some o.iurow) :: rest
            optimized := true, fulldiag := o.fulldiag }))
        else
          some (.ok (H.mats.length, { H with
            mats := H.mats ++ [.csr ⟨c.doid, 0, c.m, c.n, o.base, o.ptr, o.ind, o.val, some o.idiag, none⟩
              true (some o.iurow)]
            optimized := true, fulldiag := o.fulldiag }))
    | _ => some (.error .notImplemented)

/-! ### product -/

section mv
variable [Zero R] [One R] [Add R] [Mul R] [DecidableEq R]

/-- mv_helpers.hpp:30-50 — vscale -/
def vscale (c : R) (sz : Int) (y : List R) : Option (List R) :=
  if c ≠ 0 then forC 0 sz (fun i y => do
    let v ← rd y i
    wr y i (c * v)) y
  else forC 0 sz (fun i y => wr y i 0) y

/-- the status of a kernel that ran -/
def done (r : Option (List R)) : Option (Status × List R) := r.map fun y => (.success, y)

/-- csrmv.hpp:189-291, 355-406 — the symmetric and Hermitian cases of aoclsparse_csrmv_t.
Dereferencing a null `idiag` or `iurow` is undefined. -/
def csrmvSymD (k : MvSel R) (e : Nat) (alpha : R) (c : MCopy R) (diag fill : Nat)
    (iurow : Option (List Int)) (x : List R) (beta : R) (y : List R) : Option (Status × List R) :=
  if k.real = true ∨ e = 4 ∨ e = 6 ∨ e = 8 ∨ e = 11 then
    match k.sym with
    | none => some (.invalidKid, y)
    | some (K, V) => do
      let idiag ← c.idiag
      let iurow ← iurow
      done (csrmvSymmKt V K (if k.real = false ∧ e < 8 then id else k.cj) c.base alpha c.m diag fill
        c.val c.ind c.ptr idiag iurow x beta y)
  else do
    let idiag ← c.idiag
    if e < 8 then
      done (csrmvSymmScalar k.cj k.cj k.cj c.base alpha c.m diag fill c.val c.ind c.ptr idiag x beta y)
    else done (csrmvHermt k.cj c.base alpha c.m diag fill c.val c.ind c.ptr idiag x beta y)

/-- csrmv.hpp:111-125, 292-306, 407-431 — the triangular cases.  The row bounds depend on the triangle
named by the doid in the code and on `fill` in the model; the two agree in all calls
(`effFill_agrees`). -/
def csrmvTriD (k : MvSel R) (e : Nat) (alpha : R) (c : MCopy R) (diag fill : Nat)
    (iurow : Option (List Int)) (x : List R) (beta : R) (y : List R) : Option (Status × List R) :=
  if e = 13 ∨ e = 17 ∨ ((e = 15 ∨ e = 19) ∧ k.real = true) then some (.notImplemented, y)
  else do
    let idiag ← c.idiag
    let iurow ← iurow
    if e = 12 ∨ e = 16 then
      if k.dbl then
        done (csrmvTriAvx2 c.base alpha c.m diag fill c.val c.ind c.ptr idiag iurow x beta y)
      else done (csrmvTri c.base alpha c.m diag fill c.val c.ind c.ptr idiag iurow x beta y)
    else
      done (csrmvTriTh (if e = 14 ∨ e = 18 then id else k.cj) c.base alpha c.m c.n diag fill c.val c.ind
        c.ptr idiag iurow x beta y)

/-- csrmv.hpp:33-452 — aoclsparse_csrmv_t<T, false> on a CSR object for the doid `e` -/
def csrmvD (k : MvSel R) (e : Nat) (alpha : R) (c : MCopy R) (diag fill : Nat)
    (iurow : Option (List Int)) (x : List R) (beta : R) (y : List R) : Option (Status × List R) :=
  if e = gn then
    match k.gn with
    | none => some (.invalidKid, y)
    | some g => done (csrmvGn g c.base alpha c.m c.val c.ind c.ptr x beta y)
  else if e = gt then
    match k.gt with
    | none => some (.invalidKid, y)
    | some K => done (csrmvtKt K c.base alpha c.m c.n c.val c.ind c.ptr x beta y k.nth k.ord)
  else if e = gh ∧ k.real = false then
    done (csrmvTh k.cj c.base alpha c.m c.n c.val c.ind c.ptr x beta y)
  else if e < 4 then some (.notImplemented, y)
  else if e < 12 then csrmvSymD k e alpha c diag fill iurow x beta y
  else if e < 20 then csrmvTriD k e alpha c diag fill iurow x beta y
  else some (if k.real then .notImplemented else .internalError, y)

/-- mv.cpp:197-239 — product with the CSR object at position `i` -/
def mvCsr (k : MvSel R) (req : Nat) (alpha : R) (H : MvHandle R) (d : Descr) (i : Nat) (c : MCopy R)
    (opt : Bool) (iurow : Option (List Int)) (x : List R) (beta : R) (y : List R) :
    Option (Status × List R × MvHandle R) :=
  if c.doid = req then
    if d.diag ≠ c.mtxDiag then do
      let r ← setMatDiag H.raw.um d.diag c
      if r.1 ≠ .success then some (r.1, y, H)
      else do
        let q ← csrmvD k gn alpha r.2 0 0 iurow x beta y
        some (q.1, q.2, { H with mats := H.mats.set i (.csr r.2 opt iurow) })
    else do
      let q ← csrmvD k gn alpha c 0 0 iurow x beta y
      some (q.1, q.2, H)
  else do
    let q ← csrmvD k (effDoid c.doid req) alpha c d.diag
      (if c.doid = gt ∨ c.doid = gh then (if d.fill = 1 then 0 else if d.fill = 0 then 1 else d.fill)
        else d.fill) iurow x beta y
    some (q.1, q.2, H)

/-- the first hybrid copy in the list (mv.cpp:273-275) -/
def findHyb : List (Stored R) → Option (Int × Int × List Int × List R × List Int)
  | [] => none
  | .hyb _ w em ec ev map :: _ => some (w, em, ec, ev, map)
  | _ :: l => findHyb l

/-- the first four-row copy in the list (csrmv_kr.hpp:1063-1075) -/
def findBr4 : List (Stored R) → Option (Int × Br4 R)
  | [] => none
  | .br4 b B :: _ => some (b, B)
  | _ :: l => findBr4 l

/-- mv.cpp:265-299 and ellmv.hpp:763-832 — product with the hybrid copy; the descriptor's base is
`base`.  The CSR arrays are those of `mats[0]`, also aliased by `csr_val`. -/
def mvHyb (isa : Isa) (alpha : R) (H : MvHandle R) (base : Int) (x : List R) (beta : R) (y : List R) :
    Option (Status × List R × MvHandle R) :=
  match H.mats with
  | .csr c _ _ :: _ =>
    match findHyb H.mats with
    | none => some (.invalidPointer, y, H)
    | some h => do
      let q ← done ((if isa.avx512 then ellthybmvAvx512 else ellthybmvAvx2) alpha H.raw.um h.2.2.2.1
        h.2.2.1 h.1 h.2.1 c.val c.ptr c.ind h.2.2.2.2 base x beta y)
      some (q.1, q.2, H)
  | _ => some (.notImplemented, y, H)

/-- mv.cpp:300-308 — product with the four-row copy -/
def mvBr4 (alpha : R) (H : MvHandle R) (x : List R) (beta : R) (y : List R) :
    Option (Status × List R × MvHandle R) :=
  match findBr4 H.mats with
  | none => some (.invalidPointer, y, H)
  | some b => do
    let q ← done (br4Mv alpha H.raw.um b.1 b.2 x beta y)
    some (q.1, q.2, H)

/-- mv.cpp:240-264 — product with a block copy -/
def mvBlk (isa : Isa) (k : MvSel R) (req op : Nat) (alpha : R) (H : MvHandle R) (d : Descr)
    (base nR : Int) (ptr ind : List Int) (masks : List Nat) (val : List R) (x : List R) (beta : R)
    (y : List R) : Option (Status × List R × MvHandle R) :=
  if k.dbl = false then some (.notImplemented, y, H)
  else do
    let q ← blkcsrmv isa.vl (if req = gn then 111 else op) (some alpha) H.raw.um H.raw.un H.raw.nnz
      (some masks) (some val) (some ind) (some ptr)
      (some ⟨if req = gn then 0 else d.type, d.fill, d.diag, base⟩) (some x) (some beta) (some y) nR
    some (q.1, q.2.getD y, H)

/-- mv.cpp:195-349 — the switch on the format of the object at position `i` -/
def mvOn (isa : Isa) (k : MvSel R) (req op : Nat) (alpha : R) (H : MvHandle R) (d : Descr) (i : Nat)
    (x : List R) (beta : R) (y : List R) : Option (Status × List R × MvHandle R) :=
  match H.mats[i]? with
  | none => none
  | some (.csr c opt iurow) => mvCsr k req alpha H d i c opt iurow x beta y
  | some (.blk base nR ptr ind masks val) =>
    mvBlk isa k req op alpha H d base nR ptr ind masks val x beta y
  | some (.hyb base _ _ _ _ _) => mvHyb isa alpha H base x beta y
  | some (.br4 _ _) => mvBr4 alpha H x beta y

/-- mv.cpp:135-141 — the chosen object is a CSR object (the four-row copy is one, too) that is neither
clean nor of the requested kind -/
def needsClean (req : Nat) : Stored R → Bool
  | .csr c opt _ => !opt && decide (c.doid ≠ req)
  | .br4 _ _ => decide (gn ≠ req)
  | _ => false

/-- mv.cpp:131-151 — make a clean copy if the chosen one does not do -/
def mvReady (srt : (Int → Int → Bool) → List Int → List Int) (g : Garb R) (req : Nat) (H : MvHandle R)
    (d : Descr) (i : Nat) : Option (Except Status (Nat × MvHandle R)) :=
  match H.mats[i]? with
  | none => none
  | some s =>
    if d.type ≠ 0 ∧ needsClean req s then csrCscOptimize srt g.i g.v H else some (.ok (i, H))

/-- mv.cpp:118-349 — after the checks and the early return.  The loop of get_best_matrix
(magic_box.hpp:253-284) dereferences every pointer of the list. -/
def mvRun (isa : Isa) (k : MvSel R) (srt : (Int → Int → Bool) → List Int → List Int) (g : Garb R)
    (op : Int) (alpha : R) (H : MvHandle R) (d : Descr) (x : List R) (beta : R) (y : List R) :
    Option (Status × List R × MvHandle R) :=
  if H.nulls ≠ 0 then none
  else match getBest isa k (getDoid k.real d.type d.fill op) H.mats with
  | none => some (.notImplemented, y, H)
  | some i => do
    let r ← mvReady srt g (getDoid k.real d.type d.fill op) H d i
    match r with
    | .error e => some (e, y, H)
    | .ok q => mvOn isa k (getDoid k.real d.type d.fill op) op.toNat alpha q.2 d q.1 x beta y

/-- mv.cpp:41-116 — aoclsparse::mv: argument checks and early return.  `sameType`: the handle holds
values of the type of the call. -/
def mv (isa : Isa) (k : MvSel R) (srt : (Int → Int → Bool) → List Int → List Int) (g : Garb R)
    (sameType : Bool) (op : Int) (alpha : Option R) (A : Option (MvHandle R)) (d : Option Descr)
    (x : Option (List R)) (beta : Option R) (y : Option (List R)) :
    Option (Status × Option (List R) × Option (MvHandle R)) :=
  match alpha, beta, A, d, x, y with
  | some alpha, some beta, some H, some d, some x, some y =>
    if H.raw.base ≠ d.base then some (.invalidValue, some y, some H)
    else if op ≠ 111 ∧ op ≠ 112 ∧ op ≠ 113 then some (.invalidValue, some y, some H)
    else if sameType = false then some (.wrongType, some y, some H)
    else if d.type ≠ 0 ∧ d.type ≠ 1 ∧ d.type ≠ 2 ∧ d.type ≠ 3 then some (.invalidValue, some y, some H)
    else if (d.type = 1 ∨ d.type = 2) ∧ H.raw.um ≠ H.raw.un then some (.invalidSize, some y, some H)
    else if k.real = true ∧ d.type = 2 then some (.notImplemented, some y, some H)
    else if H.raw.um = 0 ∨ H.raw.un = 0 ∨ (H.raw.nnz = 0 ∧ d.type = 0) then do
      let y ← vscale beta (if op = 111 then H.raw.um else H.raw.un) y
      some (.success, some y, some H)
    else do
      let r ← mvRun isa k srt g (if k.real = true ∧ op = 113 then 112 else op) alpha H d x beta y
      some (r.1, some r.2.1, some r.2.2)
  | _, _, A, _, _, y => some (.invalidPointer, y, A)

end mv

/-! ### optimize -/

/-- A hint as stored in the handle: the part used for copies, and the action, operation, matrix type
and expected number of calls. -/
structure MvHint where
  h : OptHint
  act : Nat
  op : Nat
  type : Nat
  nop : Int

/-- The outcome of the comparisons of floating point ratios in optimize_mv (analysis.cpp:71-128,
199-222) and opt_blksize: left open.  `fmt`: 0 keep CSR, 1 four-row copy, 2 hybrid. -/
structure MvChoice where
  early : Nat → Bool
  pick4 : Bool
  pick2 : Bool
  fmt : Nat

/-- uninitialised arrays of the copies in other formats -/
structure MvGarb (R : Type) where
  g1 : Nat → Int
  g2 : Nat → Int
  g3 : Nat → Int
  gm : Nat → Nat
  gv : Nat → R

section opt
variable [Zero R]

/-- analysis.cpp:141-198 — the block copy, when AVX512 is there and the rows are sorted and long: the
copies and blk_optimized.  The status of the conversion is ignored.  `(double)nnz / m >= 10` is
compared exactly. -/
def optBlk (isa : Isa) (ch : MvChoice) (g : MvGarb R) (H : MvHandle R) (c : MCopy R) :
    Option (MvHandle R) :=
  if isa.avx512 = true ∧ H.sorted = true ∧ 10 * H.raw.um ≤ H.raw.nnz then do
    let b ← optBlksize H.raw.um H.raw.nnz c.base (some c.ptr) (some c.ind) (some 0) ch.early ch.pick4
      ch.pick2
    if b.1 ≠ 0 then do
      let tot ← b.2
      let r ← csr2blkcsr H.raw.um H.raw.un H.raw.nnz (some c.ptr) (some c.ind) (some c.val)
        ⟨some (alloc (H.raw.um + 1).toNat g.g1), some (alloc H.raw.nnz.toNat g.g2),
          some (alloc (H.raw.nnz + b.1 * 8).toNat g.gv), some (alloc (tot * b.1).toNat g.gm)⟩ b.1 c.base
      let ptr ← r.2.ptr
      let ind ← r.2.ind
      let val ← r.2.val
      let masks ← r.2.masks
      some { H with mats := H.mats ++ [.blk c.base b.1 ptr ind masks val], blkOpt := true, plain := true }
    else some H
  else some H

/-- analysis.cpp:223-276 — the hybrid copy; a zero width leaves the handle as it was, not marked as
optimized -/
def optHyb (g : MvGarb R) (H : MvHandle R) (c : MCopy R) : Option (MvHandle R) := do
  let w ← csr2ellthybWidth H.raw.um H.raw.nnz (some c.ptr) 0 0
  if w.2.2 = 0 then some H
  else do
    let r ← csr2ellthybrid H.raw.um c.base w.2.1 (some c.ptr) (some c.ind) (some c.val)
      (some (alloc (H.raw.um - w.2.1).toNat g.g1)) (some (alloc (w.2.2 * H.raw.um).toNat g.g2))
      (some (alloc (w.2.2 * H.raw.um).toNat g.gv)) w.2.2
    let map ← r.2.2.1
    let ec ← r.2.2.2.1
    let ev ← r.2.2.2.2
    some { H with
      mats := H.mats ++ [.hyb c.base w.2.2 w.2.1 ec ev map], optimized := true, plain := false }

/-- analysis.cpp:277-383 — the four-row copy -/
def optBr4 (g : MvGarb R) (H : MvHandle R) (c : MCopy R) : Option (MvHandle R) := do
  let B ← br4Build H.raw.um c.base c.ptr c.ind c.val g.g1 g.g2 g.g3 g.gv
  some { H with mats := H.mats ++ [.br4 c.base B], optimized := true, plain := false }

/-- analysis.cpp:199-385 — the choice between the formats -/
def optFmt (ch : MvChoice) (g : MvGarb R) (H : MvHandle R) (c : MCopy R) : Option (MvHandle R) :=
  if H.blkOpt = false ∧ ch.fmt = 1 then optBr4 g H c
  else if H.blkOpt = false ∧ ch.fmt = 2 then optHyb g H c
  else some { H with optimized := true }

/-- analysis.cpp:35-385 — aoclsparse_optimize_mv -/
def optimizeMv (isa : Isa) (dbl : Bool) (ch : MvChoice) (g : MvGarb R) (H : MvHandle R) :
    Option (Status × MvHandle R) :=
  if dbl = false ∨ H.plain = false ∨ H.raw.um ≤ 1 ∨ H.raw.un ≤ 1 then
    some (.success, { H with optimized := true })
  else match H.mats with
    | .csr c _ _ :: _ =>
      if H.optimized then some (.success, H)
      else do
        let H ← optBlk isa ch g H c
        let H ← optFmt ch g H c
        some (.success, H)
    | _ => some (.notImplemented, H)

/-- analysis.cpp:492-499 — hints counted as products with the general matrix (mat_structures.hpp:32-48:
action mv is 1, dotmv 8, ilu0 5, symgs 9) -/
def isMvHint (dbl : Bool) (doid0 : Nat) (x : MvHint) : Bool :=
  decide ((x.act = 1 ∨ x.act = 8) ∧ x.op = 111 ∧ x.type = 0 ∧ dbl = true ∧ x.nop > 0 ∧ doid0 ≠ gt)

/-- the copies held after the user's arrays that are `aoclsparse::csr` objects of CSR format -/
def csrCopies : List (Stored R) → List (MCopy R)
  | [] => []
  | .csr c _ _ :: l => c :: csrCopies l
  | _ :: l => csrCopies l

/-- analysis.cpp:439-468 — aoclsparse_matrix_transform on the handle (unless the memory policy is
restrictive): new copies are appended to `mats` -/
def optTransform (unrestricted : Bool) (g : Garb R) (cj re : R → R) (H : MvHandle R) (hs : List MvHint) :
    Option (Status × MvHandle R × List MvHint) :=
  if unrestricted then do
    let r ← matrixTransform g cj re H.raw (hs.map (·.h)) (csrCopies H.mats.tail)
    some (r.1, { H with
      mats := H.mats ++ (r.2.2.drop (csrCopies H.mats.tail).length).map fun c => .csr c false none },
      List.zipWith (fun (x : MvHint) o => { x with h := o }) hs r.2.1)
  else some (.success, H, hs)

/-- analysis.cpp:516-565 — what is done for the hints not acted on yet.  ILU hints allocate buffers of
their own (optimize_ilu); they do not change `mats`. -/
def optAct (isa : Isa) (dbl : Bool) (srt : (Int → Int → Bool) → List Int → List Int) (ch : MvChoice)
    (g : Garb R) (g' : MvGarb R) (H : MvHandle R) (todo : List MvHint) (doid0 : Nat) :
    Option (Status × MvHandle R) :=
  if todo = [] then some (.success, H)
  else if todo.any (fun x => !isMvHint dbl doid0 x && !decide ((x.act = 5 ∨ x.act = 9) ∧ x.nop > 0)) then
    match csrCscOptimize srt g.i g.v H with
    | none => none
    | some (.error e) => some (e, H)
    | some (.ok q) => some (.success, q.2)
  else if todo.all (isMvHint dbl doid0) then optimizeMv isa dbl ch g' H
  else some (.success, H)

/-- analysis.cpp:426-566 — aoclsparse_optimize on a CSR/CSC handle with the list of hints `hs` -/
def optimize (isa : Isa) (dbl unrestricted : Bool) (srt : (Int → Int → Bool) → List Int → List Int)
    (ch : MvChoice) (g : Garb R) (g' : MvGarb R) (cj re : R → R) (H : MvHandle R) (hs : List MvHint) :
    Option (Status × MvHandle R × List MvHint) :=
  if H.raw.um < 0 ∨ H.raw.un < 0 ∨ H.raw.nnz < 0 then some (.invalidSize, H, hs)
  else do
    let t ← optTransform unrestricted g cj re H hs
    if t.1 ≠ .success then some t
    else do
      let r ← optAct isa dbl srt ch g g' t.2.1 (t.2.2.filter fun x => !x.h.done) H.raw.doid
      some (r.1, r.2, t.2.2.map fun x => { x with h := { x.h with done := true } })

end opt
end Model
end Verif
