/-
Calls on a matrix handle when memory runs out inside them: the same functions as in Model/CsrOpt.lean, Model/Csrmv.lean,
Model/Mv.lean, Model/Dotmv.lean, Model/Symgs.lean, Model/Trsm.lean, Model/Expand.lean, Model/Update.lean, Model/Csrmm.lean
and Model/Life.lean, with the allocations they make.  Which of them fail in a call is given by an `Oom`.
-/
import Verif.Model.Dotmv
import Verif.Model.Symgs
import Verif.Model.Trsm
import Verif.Model.Update
import Verif.Model.Life

namespace Verif
namespace Model
variable {R : Type}

/-- Which allocations fail during a call (`true`: fails).  An allocation made several times in a call fails every time
or never, except the buffers of the threads and the copies asked for by the hints, which fail one by one. -/
structure Oom where
  /-- the clean copy (csr_util.hpp:876-889) -/
  copy : Bool
  /-- the permutation for sorting the rows (csr_util.hpp:120-128) -/
  sort : Bool
  /-- the arrays for filling in the diagonal (csr_util.hpp:180-250) -/
  fill : Bool
  /-- the positions of the diagonal (csr_util.cpp:389-458) -/
  idx : Bool
  /-- the list of copies, when the clean copy is put into it (csr_util.hpp:946-961) -/
  push : Bool
  /-- the copy for the hint at a position of the list of hints, or its place in the list of copies
  (csr_util.hpp:564-579, 604-613, 632-646, 674-683, 697-711, 733-742) -/
  hint : Nat → Bool
  /-- the block copy or its place in the list of copies (analysis.cpp:157-165, 181-189) -/
  blk : Bool
  /-- the row pointers used while blocks are formed (convert.cpp:195-202) -/
  blkTmp : Bool
  /-- the hybrid copy or its place in the list of copies (analysis.cpp:226-234, 263-271) -/
  hyb : Bool
  /-- the four-row copy, its temporary array or its place in the list of copies (analysis.cpp:280-383) -/
  br4 : Bool
  /-- the buffer of a thread in a transposed product (csrmv_kt.cpp:143-153) -/
  buf : Nat → Bool
  /-- the copy of `y` in a product with the hybrid copy (ellmv.hpp:580-604, ellmv_avx512.cpp:250-275) -/
  ytmp : Bool
  /-- the other work arrays of a call (auxiliary.cpp:1258-1297, csrmm.hpp:738-749, symgs.hpp:105-114) -/
  work : Bool

/-- no allocation fails -/
def Oom.plenty : Oom := ⟨false, false, false, false, false, fun _ => false, false, false, false, false, fun _ => false,
  false, false⟩

/-! ### the clean copy -/

/-- csr_util.hpp:112-128 — aoclsparse_sort_idx_val; without memory for the permutation it returns before writing
anything, and its caller (csr_util.hpp:905) ignores the status -/
def sortIdxValM (fail : Bool) (srt : (Int → Int → Bool) → List Int → List Int) (m nnz base : Int) (ptr ind : List Int)
    (val : List R) (c : List Int × List Int × List R) : Option (List Int × List R) :=
  if fail then some (c.2.1, c.2.2) else sortIdxVal srt m nnz base ptr ind val 0 c.2.1 c.2.2

/-- csr_util.hpp:902-924 -/
def optSortM (fail : Bool) (srt : (Int → Int → Bool) → List Int → List Int) (m n nnz base : Int)
    (ptr ind : List Int) (val : List R) (sorted fulldiag : Bool)
    (c : List Int × List Int × List R) : Option (Status × List Int × List R × Bool) :=
  if sorted = false then do
    let d ← sortIdxValM fail srt m nnz base ptr ind val c
    let r ← checkSortDiag m n 0 (some c.1) (some d.1)
    some (r.1, d.1, d.2, r.2.2)
  else some (.success, c.2.1, c.2.2, fulldiag)

/-- csr_util.hpp:925-961 — after the sort: the diagonal, its positions and the list of copies.  An error comes with the
mark that the positions kept with the user's arrays were cleared (never here). -/
def optTailM [Zero R] (o : Oom) (gi : Nat → Int) (gv : Nat → R) (m n nnz : Int) (fulldiag : Bool)
    (ptr ind : List Int) (val : List R) : Option (Except (Status × Bool) (OptCsr R)) :=
  if fulldiag = false ∧ o.fill = true then some (.error (.memoryError, false))
  else do
    let f ← optFill gi gv m n nnz fulldiag ptr ind val
    if o.idx then some (.error (.memoryError, false))
    else do
      let x ← csrIndices gi m 0 f.1 f.2.1
      if o.push then some (.error (.memoryError, false))
      else some (.ok ⟨false, 0, f.1, f.2.1, f.2.2, x.1, x.2, fulldiag⟩)

/-- csr_util.hpp:811-967 — the slow path of aoclsparse_csr_csc_optimize.  If the positions of the diagonal of the user's
arrays cannot be stored, they are cleared (csr_util.cpp:405-412). -/
def csrOptimizeM [Zero R] (o : Oom) (srt : (Int → Int → Bool) → List Int → List Int) (gi : Nat → Int)
    (gv : Nat → R) (m n nnz base : Int) (ptr ind : List Int) (val : List R) :
    Option (Except (Status × Bool) (OptCsr R)) := do
  let r ← matCheck m n nnz (some ptr) (some ind) (some val) .general base false
  match r with
  | .error e => some (.error (e, false))
  | .ok _ => do
    let sd ← checkSortDiag m n base (some ptr) (some ind)
    if sd.1 ≠ .success then some (.error (.internalError, false))
    else if sd.2.1 = true ∧ sd.2.2 = true then
      if o.idx then some (.error (.memoryError, true))
      else do
        let x ← csrIndices gi m base ptr ind
        some (.ok ⟨true, base, ptr, ind, val, x.1, x.2, true⟩)
    else if o.copy then some (.error (.memoryError, false))
    else do
      let c ← copyZeroBased gi gv m nnz base ptr ind val
      let d ← optSortM o.sort srt m n nnz base ptr ind val sd.2.1 sd.2.2 c
      if d.1 ≠ .success then some (.error (d.1, false))
      else optTailM o gi gv m n nnz d.2.2.2 c.1 d.2.1 d.2.2.1

/-- csr_util.hpp:765-967 — aoclsparse_csr_csc_optimize: an error comes with the handle afterwards -/
def csrCscOptimizeM [Zero R] (o : Oom) (srt : (Int → Int → Bool) → List Int → List Int) (gi : Nat → Int)
    (gv : Nat → R) (H : MvHandle R) : Option (Except (Status × MvHandle R) (Nat × MvHandle R)) :=
  match optIdx H.mats with
  | some i => some (.ok (i, H))
  | none =>
    match H.mats with
    | .csr c opt iu :: rest => do
      let r ← csrOptimizeM o srt gi gv c.m c.n H.raw.nnz c.base c.ptr c.ind c.val
      match r with
      | .error (e, false) => some (.error (e, H))
      | .error (e, true) =>
        some (.error (e, { H with mats := .csr { c with idiag := none } opt none :: rest }))
      | .ok p =>
        if p.inPlace then
          some (.ok (0, { H with
            mats := .csr { c with idiag := some p.idiag } true (some p.iurow) :: rest
            optimized := true, fulldiag := p.fulldiag }))
        else
          some (.ok (H.mats.length, { H with
            mats := H.mats ++ [.csr ⟨c.doid, 0, c.m, c.n, p.base, p.ptr, p.ind, p.val, some p.idiag, none⟩
              true (some p.iurow)]
            optimized := true, fulldiag := p.fulldiag }))
    | _ => some (.error (.notImplemented, H))

/-! ### products -/

section mv
variable [Zero R] [One R] [Add R] [Mul R] [DecidableEq R]

/-- csrmv_kt.cpp:133-203 — what thread `tid` does to `y`: without a buffer, nothing -/
def csrmvtStepM (fail : Nat → Bool) (K : Nat) (base : Int) (alpha : R) (m n : Int) (val : List R) (ind ptr : List Int)
    (x : List R) (nthreads : Nat) (y : List R) (tid : Nat) : Option (List R) :=
  if fail tid then some y
  else do
    let b ← csrmvtBuf K base alpha m n val ind ptr x nthreads tid
    mergeBuf n y b

/-- csrmv_kt.cpp:96-207 — csrmvt_kt: `y` is scaled first, threads without a buffer contribute nothing, and the status
is the largest of the threads -/
def csrmvtKtM (fail : Nat → Bool) (K : Nat) (base : Int) (alpha : R) (m n : Int) (val : List R) (ind ptr : List Int)
    (x : List R) (beta : R) (y : List R) (nthreads : Nat) (order : List Nat) : Option (Status × List R) := do
  let y ← scaleY beta n y
  let y ← order.foldlM (csrmvtStepM fail K base alpha m n val ind ptr x nthreads) y
  some (if order.any fail then .memoryError else .success, y)

/-- csrmv.hpp:33-452 — aoclsparse_csrmv_t<T, false>: only the transposed kernel allocates -/
def csrmvDM (o : Oom) (k : MvSel R) (e : Nat) (alpha : R) (c : MCopy R) (diag fill : Nat)
    (iurow : Option (List Int)) (x : List R) (beta : R) (y : List R) : Option (Status × List R) :=
  if e = gt then
    match k.gt with
    | none => some (.invalidKid, y)
    | some K => csrmvtKtM o.buf K c.base alpha c.m c.n c.val c.ind c.ptr x beta y k.nth k.ord
  else csrmvD k e alpha c diag fill iurow x beta y

/-- mv.cpp:197-239 — product with the CSR object at position `i` -/
def mvCsrM (o : Oom) (k : MvSel R) (req : Nat) (alpha : R) (H : MvHandle R) (d : Descr) (i : Nat) (c : MCopy R)
    (opt : Bool) (iurow : Option (List Int)) (x : List R) (beta : R) (y : List R) :
    Option (Status × List R × MvHandle R) :=
  if c.doid = req then
    if d.diag ≠ c.mtxDiag then do
      let r ← setMatDiag H.raw.um d.diag c
      if r.1 ≠ .success then some (r.1, y, H)
      else do
        let q ← csrmvDM o k gn alpha r.2 0 0 iurow x beta y
        some (q.1, q.2, { H with mats := H.mats.set i (.csr r.2 opt iurow) })
    else do
      let q ← csrmvDM o k gn alpha c 0 0 iurow x beta y
      some (q.1, q.2, H)
  else do
    let q ← csrmvDM o k (effDoid c.doid req) alpha c d.diag
      (if c.doid = gt ∨ c.doid = gh then (if d.fill = 1 then 0 else if d.fill = 0 then 1 else d.fill)
        else d.fill) iurow x beta y
    some (q.1, q.2, H)

/-- mv.cpp:265-299, ellmv.hpp:580-604, ellmv_avx512.cpp:250-275 — product with the hybrid copy: `y` is saved first if
some rows are not in the ELL part and `beta` is not zero -/
def mvHybM (o : Oom) (isa : Isa) (alpha : R) (H : MvHandle R) (base : Int) (x : List R) (beta : R) (y : List R) :
    Option (Status × List R × MvHandle R) :=
  match H.mats, findHyb H.mats with
  | .csr _ _ _ :: _, some h =>
    if o.ytmp = true ∧ h.2.1 ≠ H.raw.um ∧ beta ≠ 0 then some (.memoryError, y, H)
    else mvHyb isa alpha H base x beta y
  | _, _ => mvHyb isa alpha H base x beta y

/-- mv.cpp:195-349 -/
def mvOnM (o : Oom) (isa : Isa) (k : MvSel R) (req op : Nat) (alpha : R) (H : MvHandle R) (d : Descr) (i : Nat)
    (x : List R) (beta : R) (y : List R) : Option (Status × List R × MvHandle R) :=
  match H.mats[i]? with
  | none => none
  | some (.csr c opt iurow) => mvCsrM o k req alpha H d i c opt iurow x beta y
  | some (.blk base nR ptr ind masks val) =>
    mvBlk isa k req op alpha H d base nR ptr ind masks val x beta y
  | some (.hyb base _ _ _ _ _) => mvHybM o isa alpha H base x beta y
  | some (.br4 _ _) => mvBr4 alpha H x beta y

/-- mv.cpp:131-151 -/
def mvReadyM (o : Oom) (srt : (Int → Int → Bool) → List Int → List Int) (g : Garb R) (req : Nat) (H : MvHandle R)
    (d : Descr) (i : Nat) : Option (Except (Status × MvHandle R) (Nat × MvHandle R)) :=
  match H.mats[i]? with
  | none => none
  | some s =>
    if d.type ≠ 0 ∧ needsClean req s then csrCscOptimizeM o srt g.i g.v H else some (.ok (i, H))

/-- mv.cpp:118-349 -/
def mvRunM (o : Oom) (isa : Isa) (k : MvSel R) (srt : (Int → Int → Bool) → List Int → List Int) (g : Garb R)
    (op : Int) (alpha : R) (H : MvHandle R) (d : Descr) (x : List R) (beta : R) (y : List R) :
    Option (Status × List R × MvHandle R) :=
  if H.nulls ≠ 0 then none
  else match getBest isa k (getDoid k.real d.type d.fill op) H.mats with
  | none => some (.notImplemented, y, H)
  | some i => do
    let r ← mvReadyM o srt g (getDoid k.real d.type d.fill op) H d i
    match r with
    | .error e => some (e.1, y, e.2)
    | .ok q => mvOnM o isa k (getDoid k.real d.type d.fill op) op.toNat alpha q.2 d q.1 x beta y

/-- mv.cpp:41-116 — aoclsparse::mv -/
def mvM (o : Oom) (isa : Isa) (k : MvSel R) (srt : (Int → Int → Bool) → List Int → List Int) (g : Garb R)
    (sameType : Bool) (op : Int) (alpha : Option R) (A : Option (MvHandle R)) (d : Option Descr)
    (x : Option (List R)) (beta : Option R) (y : Option (List R)) :
    Option (Status × Option (List R) × Option (MvHandle R)) :=
  match alpha, beta, A, d, x, y with
  | some alpha, some beta, some H, some d, some x, some y =>
    if H.raw.base ≠ d.base then some (.invalidValue, some y, some H)
    else if op ≠ 111 ∧ op ≠ 112 ∧ op ≠ 113 then some (.invalidValue, some y, some H)
    else if sameType = false then some (.wrongType, some y, some H)
    else if d.type ≠ 0 ∧ d.type ≠ 1 ∧ d.type ≠ 2 ∧ d.type ≠ 3 then some (.invalidValue, some y, some H)
    else if (d.type = 1 ∨ d.type = 2) ∧ H.raw.um ≠ H.raw.un then some (.invalidSize, some y, some H)
    else if k.real = true ∧ d.type = 2 then some (.notImplemented, some y, some H)
    else if H.raw.um = 0 ∨ H.raw.un = 0 ∨ (H.raw.nnz = 0 ∧ d.type = 0) then do
      let y ← vscale beta (if op = 111 then H.raw.um else H.raw.un) y
      some (.success, some y, some H)
    else do
      let r ← mvRunM o isa k srt g (if k.real = true ∧ op = 113 then 112 else op) alpha H d x beta y
      some (r.1, some r.2.1, some r.2.2)
  | _, _, A, _, _, y => some (.invalidPointer, y, A)

/-- dotmv.hpp:30-60 — aoclsparse_dotmv_t -/
def dotmvM (o : Oom) (isa : Isa) (k : MvSel R) (dot : Option (DotKer R))
    (srt : (Int → Int → Bool) → List Int → List Int) (g : Garb R) (sameType : Bool) (op : Int) (alpha : R)
    (A : Option (MvHandle R)) (d : Option Descr) (x : Option (List R)) (beta : R) (y : Option (List R))
    (out : Option R) : Option (Status × Option (List R) × Option R × Option (MvHandle R)) :=
  match out, A with
  | some _, some _ => do
    let r ← mvM o isa k srt g sameType op (some alpha) A d x (some beta) y
    if r.1 ≠ .success then some (r.1, r.2.1, out, r.2.2)
    else
      match dot with
      | none => some (.invalidKid, r.2.1, out, r.2.2)
      | some ker => do
        let H ← r.2.2
        let xs ← x
        let ys ← r.2.1
        let v ← denseDot ker k.cj (min H.raw.um H.raw.un) xs ys
        some (.success, r.2.1, some v, r.2.2)
  | _, _ => some (.invalidPointer, y, out, A)

/-- csrmm.hpp:527-774 — products with a dense matrix: the arrays of the transposed matrix, when no copy serves -/
def mmRunM (o : Oom) (w : Nat) (isReal : Bool) (tm : MmTeam) (ker : MmKernel R) (g : Garb R) (c : MmCall R)
    (op : Int) (A : RawMat R) (copies : List (MCopy R)) (d : Descr) (C : List R) :
    Option (Status × List R × List (MCopy R)) :=
  let m := A.um
  let k := A.un
  let req := getDoid isReal d.type d.fill op
  let eff := if A.isT then transDoid req else req
  let chkB := if op = 111 then (if c.col then k else c.n) else (if c.col then m else c.n)
  let chkC := if op = 111 then (if c.col then m else c.n) else (if c.col then k else c.n)
  let mc := if op = 111 then m else k
  let bRows := if op = 111 then k else m
  if c.ldb < (if 1 ≥ chkB then 1 else chkB) then some (.invalidSize, C, copies)
  else if c.ldc < (if 1 ≥ chkC then 1 else chkC) then some (.invalidSize, C, copies)
  else if prodOvf w (if c.col then c.n else mc) c.ldc ∨ prodOvf w (if c.col then c.n else bRows) c.ldb
  then some (.invalidSize, C, copies)
  else if c.alpha = 0 then
    (scaleDense c.col mc c.n c.ldc c.beta C).bind fun C => some (.success, C, copies)
  else
    match findCopy req (A.copy0 :: copies) with
    | some (pre, x, post) =>
      (mmUseCopy w tm ker c A d pre x post C).bind fun r => some (r.1, r.2.1, r.2.2.tail)
    | none =>
      if o.work = true ∧ (eff = gt ∨ eff = gh) then some (.memoryError, C, copies)
      else (mmDirect w tm ker g c A d op eff C).bind fun r => some (r.1, r.2, copies)

/-- csrmm.hpp:429-838 — aoclsparse_csrmm_t on the arrays and the copies of a handle -/
def csrmmM (o : Oom) (w : Nat) (isReal : Bool) (tm : MmTeam) (ker : MmKernel R) (g : Garb R) (cj : R → R)
    (op : Int) (alpha : R) (A : Option (RawMat R)) (copies : List (MCopy R)) (d : Option Descr)
    (order : Int) (B : Option (List R)) (n ldb : Int) (beta : R) (C : Option (List R)) (ldc : Int) :
    Option (Status × Option (List R) × List (MCopy R)) :=
  match A, d, B, C with
  | some A, some d, some B, some C =>
    if A.fmt ≠ 0 then some (.notImplemented, some C, copies)
    else if isOp op = false then some (.invalidValue, some C, copies)
    else if d.type ≠ 0 ∧ d.type ≠ 1 ∧ d.type ≠ 2 then some (.notImplemented, some C, copies)
    else if (d.type = 1 ∨ d.type = 2) ∧ A.um ≠ A.un then some (.invalidSize, some C, copies)
    else if order ≠ 0 ∧ order ≠ 1 then some (.invalidValue, some C, copies)
    else if A.base ≠ d.base then some (.invalidValue, some C, copies)
    else if A.um < 0 ∨ n < 0 ∨ A.un < 0 then some (.invalidSize, some C, copies)
    else if A.um = 0 ∨ n = 0 ∨ A.un = 0 then some (.success, some C, copies)
    else if alpha = 0 ∧ beta = 1 then some (.success, some C, copies)
    else
      (mmRunM o w isReal tm ker g ⟨cj, alpha, beta, B, n, ldb, ldc, decide (order = 1)⟩ op A copies d
        C).bind fun r => some (r.1, some r.2.1, r.2.2)
  | _, _, _, C => some (.invalidPointer, C, copies)

/-- csrmm.hpp:429-838 — aoclsparse_csrmm_t on a handle -/
def csrmmHM (o : Oom) (w : Nat) (isReal : Bool) (tm : MmTeam) (ker : MmKernel R) (g : Garb R) (cj : R → R)
    (sameType : Bool) (op : Int) (alpha : R) (A : Option (MvHandle R)) (d : Option Descr) (order : Int)
    (B : Option (List R)) (n ldb : Int) (beta : R) (C : Option (List R)) (ldc : Int) :
    Option (Status × Option (List R) × Option (MvHandle R)) :=
  match A with
  | none => some (.invalidPointer, C, none)
  | some H =>
    if sameType = false then some (mmBadType H.raw op d order B C, C, some H)
    else
      match H.mats with
      | [] => some (.notImplemented, C, some H)
      | s :: rest => do
        let r ← csrmmM o w isReal tm ker g cj op alpha (some H.raw) (rest.filterMap Stored.csr?) d order B n ldb beta C
          ldc
        some (r.1, r.2.1, some { H with mats := s :: putCopies rest r.2.2 })

end mv

/-! ### triangular solves -/

section solve
variable [Zero R] [One R] [Add R] [Sub R] [Neg R] [Mul R] [Div R] [DecidableEq R]

/-- trsv.cpp:48-417 — aoclsparse::trsv on a CSR or CSC handle -/
def trsvHM (o : Oom) (isReal : Bool) (w : Nat) (cjg : R → R) (srt : (Int → Int → Bool) → List Int → List Int)
    (g : Garb R) (im : TrsvImpl R) (sameType : Bool) (op : Int) (alpha : R) (A : Option (MvHandle R))
    (d : Option Descr) (b : Option (List R)) (incb : Int) (x : Option (List R)) (incx : Int) :
    Option (Status × Option (List R) × Option (MvHandle R)) :=
  match A, x, b, d with
  | some H, some x, some b, some d =>
    if H.raw.fmt ≠ 0 then some (.notImplemented, some x, some H)
    else if H.raw.um ≤ 0 ∨ H.raw.nnz ≤ 0 then some (.invalidSize, some x, some H)
    else if H.raw.um ≠ H.raw.un ∨ incb ≤ 0 ∨ incx ≤ 0 then some (.invalidValue, some x, some H)
    else if H.raw.base ≠ d.base then some (.invalidValue, some x, some H)
    else if d.base ≠ 0 ∧ d.base ≠ 1 then some (.invalidValue, some x, some H)
    else if op ≠ 111 ∧ op ≠ 112 ∧ op ≠ 113 then some (.notImplemented, some x, some H)
    else if d.type ≠ 1 ∧ d.type ≠ 3 then some (.invalidValue, some x, some H)
    else if d.diag = 2 then some (.invalidValue, some x, some H)
    else if d.fill ≠ 0 ∧ d.fill ≠ 1 then some (.notImplemented, some x, some H)
    else if sameType = false then some (.wrongType, some x, some H)
    else do
      let r ← csrCscOptimizeM o srt g.i g.v H
      match r with
      | .error e => some (e.1, some x, some e.2)
      | .ok q => do
        let s ← trsvCopy isReal w cjg im op alpha q.2 d q.1 b incb x incx
        some (s.1, some s.2.1, some s.2.2)
  | A, x, _, _ => some (.invalidPointer, x, A)

/-- trsm.hpp:36-159 — aoclsparse_trsm on a CSR or CSC handle -/
def trsmHM (o : Oom) (isReal : Bool) (w : Nat) (cjg : R → R) (srt : (Int → Int → Bool) → List Int → List Int)
    (g : Garb R) (im : TrsvImpl R) (sameType : Bool) (sched : List Nat) (op : Int) (alpha : R)
    (A : Option (MvHandle R)) (d : Option Descr) (order : Int) (B : Option (List R)) (n ldb : Int)
    (X : Option (List R)) (ldx : Int) : Option (Status × Option (List R) × Option (MvHandle R)) :=
  match A, X, B, d with
  | some H, some X, some B, some d =>
    match trsmCheck H.raw.fmt H.raw.um H.raw.un H.raw.nnz H.raw.base d op n ldb ldx with
    | some st => some (st, some X, some H)
    | none =>
      if sameType = false then some (.wrongType, some X, some H)
      else do
        let r ← csrCscOptimizeM o srt g.i g.v H
        match r with
        | .error e => some (e.1, some X, some e.2)
        | .ok q =>
          match trsmLayout w order n ldb ldx with
          | .error e => some (e, some X, some q.2)
          | .ok (ib, ix, ob, ox) => do
            let s ← trsmLoop (fun H b x => (trsvHM o isReal w cjg srt g im true op alpha (some H) (some d) (some b)
              ib (some x) ix).bind trsvOut) ob ox B X q.2 sched
            some (s.1, some s.2.1, some s.2.2)
  | A, X, _, _ => some (.invalidPointer, X, A)

/-! ### symmetric Gauss-Seidel -/

/-- symgs.hpp:143, 201, 231, 251 — a product inside symgs -/
def gsMvM (o : Oom) (E : GsEnv R) (op : Int) (alpha : R) (H : MvHandle R) (d : Descr) (x y : List R) :
    Option (Status × List R × MvHandle R) := do
  let r ← mvM o E.isa E.k E.srt E.g true op (some alpha) (some H) (some d) (some x) (some 0) (some y)
  let y ← r.2.1
  let H ← r.2.2
  some (r.1, y, H)

/-- symgs.hpp:132, 214, 241 — a triangular solve inside symgs -/
def gsTrsvM (o : Oom) (E : GsEnv R) (op : Int) (H : MvHandle R) (d : Descr) (b x : List R) :
    Option (Status × List R × MvHandle R) := do
  let r ← trsvHM o E.k.real E.w E.k.cj E.srt E.g E.im true op 1 (some H) (some d) (some b) 1 (some x) 1
  let x ← r.2.1
  let H ← r.2.2
  some (r.1, x, H)

/-- symgs.hpp:137-146, 245-257 — the fused product and the final status -/
def gsFuseM (o : Oom) (E : GsEnv R) (op : Int) (H : MvHandle R) (d : Descr) (x : List R) (y : Option (List R))
    (fuse : Bool) : Option (Status × List R × Option (List R) × MvHandle R) :=
  if fuse then do
    let yl ← y
    let r ← gsMvM o E op 1 H d x yl
    some (r.1, x, some r.2.1, r.2.2)
  else some (.success, x, y, H)

/-- symgs.hpp:125-146 — a triangular matrix: one solve -/
def gsTriM (o : Oom) (E : GsEnv R) (op : Int) (H : MvHandle R) (d : Descr) (b x : List R) (y : Option (List R))
    (fuse : Bool) : Option (Status × List R × Option (List R) × MvHandle R) := do
  let r ← gsTrsvM o E op H d b x
  if r.1 ≠ .success then some (r.1, r.2.1, y, r.2.2)
  else gsFuseM o E op r.2.2 d r.2.1 y fuse

/-- symgs.hpp:217-257 — second sweep and the product; the status of the product is overwritten by that of the solve -/
def gsBackM (o : Oom) (E : GsEnv R) (md : GsModes) (op : Int) (H : MvHandle R) (d : Descr) (b x q z : List R)
    (y : Option (List R)) (fuse : Bool) :
    Option (Status × List R × Option (List R) × MvHandle R) := do
  let r ← gsMvM o E md.lt 1 H ⟨3, md.lf, 2, d.base⟩ q z
  let q ← gsSub r.2.2.raw.um b r.2.1 q
  let s ← gsTrsvM o E md.ut r.2.2 ⟨3, md.uf, 0, d.base⟩ q x
  if s.1 ≠ .success then some (s.1, s.2.1, y, s.2.2)
  else gsFuseM o E op s.2.2 d s.2.1 y fuse

/-- symgs.hpp:191-216 — first sweep, followed by the second -/
def gsSweepsM (o : Oom) (E : GsEnv R) (md : GsModes) (op : Int) (alpha : R) (H : MvHandle R) (d : Descr)
    (b x : List R) (y : Option (List R)) (fuse : Bool) :
    Option (Status × List R × Option (List R) × MvHandle R) := do
  let r ← gsMvM o E md.ut alpha H ⟨3, md.uf, 2, d.base⟩ x (List.replicate H.raw.um.toNat 0)
  let z ← gsSub r.2.2.raw.um b r.2.1 (List.replicate H.raw.um.toNat 0)
  let s ← gsTrsvM o E md.lt r.2.2 ⟨3, md.lf, 0, d.base⟩ z r.2.1
  if s.1 ≠ .success then some (s.1, x, y, s.2.2)
  else gsBackM o E md op s.2.2 d b x s.2.1 z y fuse

/-- symgs.hpp:85-258 — symgs_ref; the two buffers come first -/
def symgsRefM (o : Oom) (E : GsEnv R) (op : Int) (alpha : R) (H : MvHandle R) (d : Descr) (b x : List R)
    (y : Option (List R)) (fuse : Bool) : Option (Status × List R × Option (List R) × MvHandle R) :=
  if o.work then some (.memoryError, x, y, H)
  else if d.type = 3 then gsTriM o E op H d b x y fuse
  else gsSweepsM o E (gsModes d.type d.fill op) op alpha H d b x y fuse

/-- symgs.hpp:263-395 — aoclsparse_symgs -/
def symgsM (o : Oom) (E : GsEnv R) (sameType : Bool) (op : Int) (A : Option (MvHandle R)) (d : Option Descr)
    (alpha : R) (b x y : Option (List R)) (fuse : Bool) :
    Option (Status × Option (List R) × Option (List R) × Option (MvHandle R)) :=
  match x, b, A, d with
  | some xl, some b, some H, some d =>
    if fuse = true ∧ y = none then some (.invalidPointer, x, y, A)
    else if H.raw.base ≠ d.base then some (.invalidValue, x, y, A)
    else if H.raw.fmt ≠ 0 then some (.notImplemented, x, y, A)
    else if d.base ≠ 0 ∧ d.base ≠ 1 then some (.invalidValue, x, y, A)
    else if op ≠ 111 ∧ op ≠ 112 ∧ op ≠ 113 then some (.invalidValue, x, y, A)
    else if d.fill ≠ 0 ∧ d.fill ≠ 1 then some (.invalidValue, x, y, A)
    else if d.diag = 1 then some (.notImplemented, x, y, A)
    else if d.type = 0 ∧ op = 113 then some (.notImplemented, x, y, A)
    else if d.type ≠ 1 ∧ d.type ≠ 3 ∧ d.type ≠ 0 ∧ d.type ≠ 2 then some (.invalidValue, x, y, A)
    else if H.raw.um < 0 ∨ H.raw.nnz < 0 ∨ H.raw.un < 0 then some (.invalidSize, x, y, A)
    else if H.raw.um = 0 ∨ H.raw.un = 0 ∨ H.raw.nnz = 0 then some (.success, x, y, A)
    else if H.raw.um ≠ H.raw.un then some (.invalidSize, x, y, A)
    else if sameType = false then some (.wrongType, x, y, A)
    else do
      let r ← csrCscOptimizeM o E.srt E.g.i E.g.v H
      match r with
      | .error e => some (e.1, x, y, some e.2)
      | .ok q =>
        if q.2.fulldiag = false then some (.invalidValue, x, y, some q.2)
        else do
          let s ← symgsRefM o E op alpha q.2 d b xl y fuse
          some (s.1, some s.2.1, s.2.2.1, some s.2.2.2)
  | _, _, _, _ => some (.invalidPointer, x, y, A)

end solve

/-! ### optimize -/

section opt
variable [Zero R]

/-- csr_util.hpp:554-753 — the copy for a hint: the size is checked before memory is asked for -/
def makeCopyM (fail : Bool) (g : Garb R) (cj re : R → R) (A : RawMat R) (d fill doid : Nat) :
    Option (Status × Option (MCopy R)) :=
  if fail = true ∧ (d = 2 ∨ d = 3) then some (.memoryError, none)
  else if fail = true ∧ 4 ≤ d ∧ d ≤ 11 ∧ A.um = A.un then some (.memoryError, none)
  else makeCopy g cj re A d fill doid

/-- csr_util.hpp:530-752 — one hint -/
def transformHintM (fail : Bool) (g : Garb R) (cj re : R → R) (A : RawMat R) (h : OptHint)
    (copies : List (MCopy R)) : Option (Status × OptHint × List (MCopy R)) :=
  if h.done then some (.success, h, copies)
  else if (A.copy0 :: copies).any (fun c => decide (c.doid = h.doid)) then some (.success, h, copies)
  else do
    let r ← makeCopyM fail g cj re A (if A.doid = gt then transDoid h.doid else h.doid)
      (if A.doid = gt then (if h.fill = 0 then 1 else 0) else h.fill) h.doid
    match r with
    | (.success, some c) => some (.success, { h with done := true }, copies ++ [c])
    | (st, _) => some (st, h, copies)

/-- csr_util.hpp:513-757 — aoclsparse_matrix_transform: a failure stops the walk over the hints -/
def matrixTransformM (g : Garb R) (cj re : R → R) (A : RawMat R) :
    (Nat → Bool) → List OptHint → List (MCopy R) → Option (Status × List OptHint × List (MCopy R))
  | _, [], copies => some (.success, [], copies)
  | f, h :: hs, copies => do
    let r ← transformHintM (f 0) g cj re A h copies
    if r.1 = .success then do
      let q ← matrixTransformM g cj re A (fun i => f (i + 1)) hs r.2.2
      some (q.1, r.2.1 :: q.2.1, q.2.2)
    else some (r.1, r.2.1 :: hs, r.2.2)

/-- analysis.cpp:439-468 -/
def optTransformM (o : Oom) (unrestricted : Bool) (g : Garb R) (cj re : R → R) (H : MvHandle R) (hs : List MvHint) :
    Option (Status × MvHandle R × List MvHint) :=
  if unrestricted then do
    let r ← matrixTransformM g cj re H.raw o.hint (hs.map (·.h)) (csrCopies H.mats.tail)
    some (r.1, { H with
      mats := H.mats ++ (r.2.2.drop (csrCopies H.mats.tail).length).map fun c => .csr c false none },
      List.zipWith (fun (x : MvHint) o => { x with h := o }) hs r.2.1)
  else some (.success, H, hs)

/-- analysis.cpp:168-179 — forming the blocks: without memory for the row pointers nothing is written, and the status
is ignored -/
def csr2blkcsrM (fail : Bool) (m n nnz : Int) (ptr ind : List Int) (val : List R) (B : BlkBufs R) (nR base : Int) :
    Option (BlkBufs R) :=
  if fail then some B
  else do
    let r ← csr2blkcsr m n nnz (some ptr) (some ind) (some val) B nR base
    some r.2

/-- analysis.cpp:141-198 — the block copy -/
def optBlkM (o : Oom) (isa : Isa) (ch : MvChoice) (g : MvGarb R) (H : MvHandle R) (c : MCopy R) :
    Option (Status × MvHandle R) :=
  if isa.avx512 = true ∧ H.sorted = true ∧ 10 * H.raw.um ≤ H.raw.nnz then do
    let b ← optBlksize H.raw.um H.raw.nnz c.base (some c.ptr) (some c.ind) (some 0) ch.early ch.pick4
      ch.pick2
    if b.1 ≠ 0 then
      if o.blk then some (.memoryError, H)
      else do
        let tot ← b.2
        let r ← csr2blkcsrM o.blkTmp H.raw.um H.raw.un H.raw.nnz c.ptr c.ind c.val
          ⟨some (alloc (H.raw.um + 1).toNat g.g1), some (alloc H.raw.nnz.toNat g.g2),
            some (alloc (H.raw.nnz + b.1 * 8).toNat g.gv), some (alloc (tot * b.1).toNat g.gm)⟩ b.1 c.base
        let ptr ← r.ptr
        let ind ← r.ind
        let val ← r.val
        let masks ← r.masks
        some (.success,
          { H with mats := H.mats ++ [.blk c.base b.1 ptr ind masks val], blkOpt := true, plain := true })
    else some (.success, H)
  else some (.success, H)

/-- analysis.cpp:215-276 — the hybrid copy.  The matrix type is changed before memory is asked for and stays changed;
the width of zero (analysis.cpp:218-224) is found before. -/
def optHybM (o : Oom) (g : MvGarb R) (H : MvHandle R) (c : MCopy R) : Option (Status × MvHandle R) :=
  if o.hyb then do
    let w ← csr2ellthybWidth H.raw.um H.raw.nnz (some c.ptr) 0 0
    if w.2.2 = 0 then some (.success, H) else some (.memoryError, { H with plain := false })
  else do
    let H ← optHyb g H c
    some (.success, H)

/-- analysis.cpp:277-383 — the four-row copy -/
def optBr4M (o : Oom) (g : MvGarb R) (H : MvHandle R) (c : MCopy R) : Option (Status × MvHandle R) :=
  if o.br4 then some (.memoryError, { H with plain := false })
  else do
    let H ← optBr4 g H c
    some (.success, H)

/-- analysis.cpp:199-385 -/
def optFmtM (o : Oom) (ch : MvChoice) (g : MvGarb R) (H : MvHandle R) (c : MCopy R) : Option (Status × MvHandle R) :=
  if H.blkOpt = false ∧ ch.fmt = 1 then optBr4M o g H c
  else if H.blkOpt = false ∧ ch.fmt = 2 then optHybM o g H c
  else some (.success, { H with optimized := true })

/-- analysis.cpp:35-385 — aoclsparse_optimize_mv -/
def optimizeMvM (o : Oom) (isa : Isa) (dbl : Bool) (ch : MvChoice) (g : MvGarb R) (H : MvHandle R) :
    Option (Status × MvHandle R) :=
  if dbl = false ∨ H.plain = false ∨ H.raw.um ≤ 1 ∨ H.raw.un ≤ 1 then
    some (.success, { H with optimized := true })
  else match H.mats with
    | .csr c _ _ :: _ =>
      if H.optimized then some (.success, H)
      else do
        let r ← optBlkM o isa ch g H c
        if r.1 ≠ .success then some r
        else optFmtM o ch g r.2 c
    | _ => some (.notImplemented, H)

/-- analysis.cpp:516-565 -/
def optActM (o : Oom) (isa : Isa) (dbl : Bool) (srt : (Int → Int → Bool) → List Int → List Int) (ch : MvChoice)
    (g : Garb R) (g' : MvGarb R) (H : MvHandle R) (todo : List MvHint) (doid0 : Nat) :
    Option (Status × MvHandle R) :=
  if todo = [] then some (.success, H)
  else if todo.any (fun x => !isMvHint dbl doid0 x && !decide ((x.act = 5 ∨ x.act = 9) ∧ x.nop > 0)) then
    match csrCscOptimizeM o srt g.i g.v H with
    | none => none
    | some (.error e) => some (e.1, e.2)
    | some (.ok q) => some (.success, q.2)
  else if todo.all (isMvHint dbl doid0) then optimizeMvM o isa dbl ch g' H
  else some (.success, H)

/-- analysis.cpp:426-566 — aoclsparse_optimize.  The hints count as done also when the last step fails. -/
def optimizeM (o : Oom) (isa : Isa) (dbl unrestricted : Bool) (srt : (Int → Int → Bool) → List Int → List Int)
    (ch : MvChoice) (g : Garb R) (g' : MvGarb R) (cj re : R → R) (H : MvHandle R) (hs : List MvHint) :
    Option (Status × MvHandle R × List MvHint) :=
  if H.raw.um < 0 ∨ H.raw.un < 0 ∨ H.raw.nnz < 0 then some (.invalidSize, H, hs)
  else do
    let t ← optTransformM o unrestricted g cj re H hs
    if t.1 ≠ .success then some t
    else do
      let r ← optActM o isa dbl srt ch g g' t.2.1 (t.2.2.filter fun x => !x.h.done) H.raw.doid
      some (r.1, r.2, t.2.2.map fun x => { x with h := { x.h with done := true } })

end opt

/-! ### order_mat -/

/-- auxiliary.cpp:840-878, 1258-1297 — aoclsparse_order_mat: the copies of the arrays and the permutation are asked for
before anything is written -/
def orderMatM (o : Oom) (srt : (Int → Int → Bool) → List Int → List Int) (A : Option (MvHandle R)) :
    Option (Status × Option (MvHandle R)) :=
  match A with
  | none => some (.invalidPointer, none)
  | some H =>
    if H.raw.um < 0 ∨ H.raw.un < 0 ∨ H.raw.nnz < 0 then some (.invalidValue, some H)
    else if H.raw.fmt ≠ 0 then some (.notImplemented, some H)
    else if H.raw.um = 0 ∨ H.raw.un = 0 ∨ H.raw.nnz = 0 then some (.success, some H)
    else match H.mats with
      | .csr c opt iu :: rest =>
        if o.work = true ∨ o.sort = true then some (.memoryError, some H)
        else do
          let r ← sortMat srt H.raw.um H.raw.nnz c.base c.ptr c.ind c.val
          some (.success, some { H with
            raw := { H.raw with ind := r.1, val := r.2 }
            mats := .csr { c with ind := r.1, val := r.2 } opt iu :: rest })
      | _ => some (.notImplemented, some H)

end Model
end Verif
