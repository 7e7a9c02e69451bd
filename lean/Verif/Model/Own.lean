/-
Model of the memory a handle holds: which arrays and objects each call allocates, who owns them, and
when they are released.  Every allocation may fail (std::bad_alloc).
  library/src/include/aoclsparse_mat_structures.hpp 90-859 (constructors and destructors)
  library/src/create/aoclsparse_create.cpp 34-97, 116-190, extra/aoclsparse_auxiliary.hpp 54-193,
  extra/aoclsparse_auxiliary.cpp 437-475, 657-670, 775-834, 977-1006, 1030-1151, 1156-1256
  analysis/aoclsparse_csr_util.{hpp,cpp}, analysis/aoclsparse_analysis.cpp 35-425
  conversion/aoclsparse_convert.cpp 1018-1428, level3/aoclsparse_csradd.hpp, aoclsparse_csr2m.cpp,
  aoclsparse_syrk.hpp, aoclsparse_sypr.hpp, aoclsparse_sp2md.hpp 325-385,
  solvers/aoclsparse_itsol_functions.{hpp,cpp}
Simplifications: outcomes of the numerical code (statuses, which copy is wanted, whether a matrix is
sorted) are arguments of the calls, so theorems range over all of them; the buffers of `std::vector`
release themselves, so only the fact that they may fail to be allocated is modelled (`vec`); the contents
the library computes for a fresh array are an arbitrary function of its address (`gen`).
-/
import Verif.Core.Types

namespace Verif
namespace Model
namespace Own

/-- a pointer to an array: supplied by the caller, or the address of something the library allocated -/
inductive Ptr
  | user (k : Nat)
  | heap (a : Nat)
  deriving DecidableEq, Repr

/-- the memory.  Addresses are never reused, so a pointer that was released stays recognisable.
`fails` says which of the coming allocations of this call throw (`true`); when it is used up they
succeed. -/
structure Mem (V : Type) where
  next : Nat
  live : List Nat
  fails : List Bool
  data : Ptr → V
  gen : Nat → V

/-- computations on the memory; `none` is undefined behaviour (releasing memory of the caller, releasing
memory twice, reading or writing released memory) -/
abbrev OM (V : Type) := StateT (Mem V) Option

variable {V : Type}

/-- does the next allocation succeed? -/
def mayFail : OM V Bool := fun s =>
  match s.fails with
  | [] => some (true, s)
  | b :: bs => some (!b, { s with fails := bs })

/-- `new`: `none` is std::bad_alloc -/
def new : OM V (Option Nat) := do
  if ← mayFail then
    (fun s => some (some s.next,
      { s with next := s.next + 1, live := s.next :: s.live,
               data := fun p => if p = .heap s.next then s.gen s.next else s.data p }) : OM V (Option Nat))
  else pure none

/-- the buffer of a `std::vector` (including the list of copies of a handle): it may fail to be
allocated, and is released by its destructor -/
def vec : OM V Bool := mayFail

/-- release one address -/
def free (a : Nat) : OM V Unit := fun s =>
  if a ∈ s.live then some ((), { s with live := s.live.erase a }) else none

/-- `delete p` / `delete[] p` / `::operator delete(p)` -/
def delete : Option Ptr → OM V Unit
  | none => pure ()
  | some (.user _) => fun _ => none
  | some (.heap a) => free a

/-- the releases of a list of pointers, in order -/
def deleteAll : List (Option Ptr) → OM V Unit
  | [] => pure ()
  | p :: ps => do delete p; deleteAll ps

/-- reading an array -/
def readP : Option Ptr → OM V (Option V)
  | none => pure none
  | some (.user k) => fun s => some (some (s.data (.user k)), s)
  | some (.heap a) => fun s => if a ∈ s.live then some (some (s.data (.heap a)), s) else none

/-- writing an array (`none`: a null pointer is not written) -/
def writeP : Option Ptr → V → OM V Unit
  | none, _ => pure ()
  | some (.user k), v => fun s =>
      some ((), { s with data := fun p => if p = .user k then v else s.data p })
  | some (.heap a), v => fun s =>
      if a ∈ s.live then some ((), { s with data := fun p => if p = .heap a then v else s.data p })
      else none

/-- the body of `try { p₁ = new …; …; pₖ = new …; }`: whether it ran to the end, and the pointers, those
not reached being null -/
def tryNew : Nat → OM V (Bool × List (Option Ptr))
  | 0 => pure (true, [])
  | k + 1 => do
    match ← new with
    | none => pure (false, List.replicate (k + 1) none)
    | some a => do
      let r ← tryNew k
      pure (r.1, some (.heap a) :: r.2)

/-! ### Objects (aoclsparse_mat_structures.hpp) -/

inductive Kind
  | csr | bsr | blk | tcsr | hyb | coo
  deriving DecidableEq, Repr

/-- mat_structures.hpp:90-751 — an object of one of the matrix classes: `arrs` are the arrays released
by the destructor when `internal`, the last three are released always.  The columns and values that the
hybrid format borrows from the first object (hpp:668-680) are never released by it and are left out. -/
structure Obj where
  self : Nat
  kind : Kind
  internal : Bool
  opt : Bool := false
  arrs : List (Option Ptr)
  idiag : Option Ptr := none
  iurow : Option Ptr := none
  diagVal : Option Ptr := none
  deriving DecidableEq, Repr

/-- mat_structures.hpp:169-212 (csr), 352-383 (blk_csr), 622-654 (ell_csr_hyb), 699-727 (coo) — `new` of
an object with `k` arrays of its own and `extra` pointers left null; when an array cannot be allocated
the constructor releases the others and rethrows, and the storage of the object is released -/
def newObj (kind : Kind) (k extra : Nat) : OM V (Option Obj) := do
  match ← new with
  | none => pure none
  | some a => do
    let r ← tryNew k
    if r.1 then
      pure (some { self := a, kind := kind, internal := true, arrs := r.2 ++ List.replicate extra none })
    else do
      deleteAll r.2
      free a
      pure none

/-- mat_structures.hpp:169-212 — csr(m, n, nnz): with nnz < 0 only `ptr` is allocated -/
def newCsr (full : Bool) : OM V (Option Obj) :=
  if full then newObj .csr 3 0 else newObj .csr 1 2

/-- mat_structures.hpp:213-236 (csr), 280-310 (bsr), 656-682 (hyb), 728-741 (coo) — an object around
arrays of the caller -/
def newUser (kind : Kind) (us : List Nat) : OM V (Option Obj) := do
  match ← new with
  | none => pure none
  | some a =>
    pure (some { self := a, kind := kind, internal := false, arrs := us.map (fun k => some (.user k)) })

/-- mat_structures.hpp:500-540 — tcsr around arrays of the caller: `idiag`, `iurow` are allocated -/
def newTcsr (us : List Nat) : OM V (Option Obj) := do
  match ← new with
  | none => pure none
  | some a => do
    let r ← tryNew 2
    if r.1 then
      pure (some { self := a, kind := .tcsr, internal := false,
                   arrs := us.map (fun k => some (.user k)),
                   idiag := r.2.getD 0 none, iurow := r.2.getD 1 none })
    else do
      deleteAll r.2
      free a
      pure none

/-- mat_structures.hpp:237-250, 312-324, 385-409, 541-552, 675-681, 743-750 — `delete obj` -/
def delObj (o : Obj) : OM V Unit := do
  if o.internal then deleteAll o.arrs else pure ()
  deleteAll [o.idiag, o.iurow, o.diagVal]
  free o.self

/-! ### Handles -/

/-- mat_structures.hpp:774-859 — what a handle holds: the list of objects (null where one was deleted),
the nodes of the list of hints, the working arrays of the incomplete factorisation -/
structure Handle where
  self : Nat
  mats : List (Option Obj) := []
  hints : List Nat := []
  iluReady : Bool := false
  iluDiag : Option Ptr := none
  iluVal : Option Ptr := none
  deriving DecidableEq, Repr

def newHandle : OM V (Option Handle) := do
  match ← new with
  | none => pure none
  | some a => pure (some { self := a })

/-- auxiliary.cpp:996-1006 — aoclsparse_destroy_mats -/
def delMats : List (Option Obj) → OM V Unit
  | [] => pure ()
  | none :: ms => delMats ms
  | some o :: ms => do delObj o; delMats ms

/-- csr_util.cpp:30-42 — aoclsparse_optimize_destroy -/
def delHints : List Nat → OM V Unit
  | [] => pure ()
  | a :: as => do free a; delHints as

/-- auxiliary.cpp:657-670, 977-993 — aoclsparse_destroy of a handle -/
def destroyH (h : Handle) : OM V Unit := do
  delHints h.hints
  delete h.iluDiag
  delete h.iluVal
  delMats h.mats
  free h.self

/-- the first object of the handle, if there is one -/
def Handle.first (h : Handle) : Option Obj := h.mats.head?.join

/-- create.cpp:34-97, 116-190; auxiliary.cpp:1030-1151; auxiliary.hpp:54-193 — create a handle around
arrays of the caller.  `st` is the outcome of the argument checks, `mk` the `new` of the object. -/
def createWith (st : Status) (mk : OM V (Option Obj)) : OM V (Status × Option Handle) :=
  if st ≠ .success then pure (st, none)
  else do
    match ← newHandle with
    | none => pure (.memoryError, none)
    | some h => do
      match ← mk with
      | none => do free h.self; pure (.memoryError, none)
      | some o => do
        if ← vec then pure (.success, some { h with mats := [some o] })
        else do delObj o; free h.self; pure (.memoryError, none)

/-- create_csr, create_csc (kind csr), create_coo, create_bsr, create_tcsr -/
def create (st : Status) (kind : Kind) (us : List Nat) : OM V (Status × Option Handle) :=
  createWith st (if kind = .tcsr then newTcsr us else newUser kind us)

/-- auxiliary.cpp:437-475 — aoclsparse_create_ell_csr_hyb: a hybrid object around arrays of the caller is
added to the handle -/
def addHyb (st : Status) (us : List Nat) (h : Handle) : OM V (Status × Handle) :=
  if st ≠ .success then pure (st, h)
  else if h.first.map (·.kind) ≠ some .csr then pure (.notImplemented, h)
  else do
    match ← newUser .hyb us with
    | none => pure (.memoryError, h)
    | some o => do
      if ← vec then pure (.success, { h with mats := h.mats ++ [some o] })
      else do delObj o; pure (.memoryError, h)

/-- analysis.cpp:568-625, csr_util.cpp:47-100 — set_…_hint: a node in front of the list of hints -/
def hint (st : Status) (h : Handle) : OM V (Status × Handle) :=
  if st ≠ .success then pure (st, h)
  else do
    match ← new with
    | none => pure (.memoryError, h)
    | some a => pure (.success, { h with hints := a :: h.hints })

/-! ### Internal copies -/

/-- what a computation reads: the arrays of an object must still be there -/
def touch (ps : List (Option Ptr)) : OM V Unit :=
  match ps with
  | [] => pure ()
  | p :: ps => do let _ ← readP p; touch ps

/-- push an object to the list of copies; on failure delete it (the pattern of csr_util.hpp:595-603,
analysis.cpp:182-190, 262-270) -/
def push (o : Obj) (h : Handle) : OM V (Status × Handle) := do
  if ← vec then pure (.success, { h with mats := h.mats ++ [some o] })
  else do delObj o; pure (.memoryError, h)

/-- csr_util.hpp:562-610 — the transposed copy (doid gt, gh); `st` is the outcome of csr2csc -/
def addCsc (st : Status) (src : Obj) (h : Handle) : OM V (Status × Handle) := do
  match ← newCsr true with
  | none => pure (.memoryError, h)
  | some o => do
    touch src.arrs
    if st ≠ .success then do delObj o; pure (st, h)
    else push o h

/-- csr_util.hpp:311-455 — convert_mat_to_general: it deletes the object itself when it fails.  `ok` is
the check of the source's arrays. -/
def toGeneral (ok : Bool) (o : Obj) : OM V (Status × Option Obj) :=
  if !ok then do delObj o; pure (.invalidPointer, none)
  else do
    if !(← vec) then do delObj o; pure (.memoryError, none)
    else do
      let r ← tryNew 2
      let o := { o with idiag := r.2.getD 0 none, diagVal := r.2.getD 1 none }
      if !r.1 then do delObj o; pure (.memoryError, none)
      else if !(← vec) then do delObj o; pure (.memoryError, none)
      else do
        let q ← tryNew 2
        let o := { o with arrs := [o.arrs.getD 0 none, q.2.getD 1 none, q.2.getD 0 none] }
        if !q.1 then do delObj o; pure (.memoryError, none)
        else pure (.success, some o)

/-- csr_util.hpp:616-742 — the expanded copy of a symmetric or Hermitian matrix -/
def addExpanded (square ok : Bool) (src : Obj) (h : Handle) : OM V (Status × Handle) :=
  if !square then pure (.invalidSize, h)
  else do
    match ← newCsr false with
    | none => pure (.memoryError, h)
    | some o => do
      touch src.arrs
      match ← toGeneral ok o with
      | (st, none) => pure (st, h)
      | (_, some o) => push o h

/-- csr_util.cpp:389-458 — csr_csc_indices: `idiag` and `iurow` of an object -/
def indices (o : Obj) : OM V (Status × Obj) := do
  let r ← tryNew 2
  let o := { o with idiag := r.2.getD 0 none, iurow := r.2.getD 1 none }
  if r.1 then pure (.success, o)
  else do
    deleteAll r.2
    pure (.memoryError, { o with idiag := none, iurow := none })

/-- csr_util.hpp:163-275 — csr_csc_fill_diag; `missing`: is there a missing diagonal entry? -/
def fillDiag (missing : Bool) (o : Obj) : OM V (Status × Obj) := do
  if !(← vec) then pure (.memoryError, o)
  else if !missing then pure (.success, o)
  else do
    let r ← tryNew 3
    if !r.1 then do deleteAll r.2; pure (.memoryError, o)
    else do
      touch o.arrs
      deleteAll [o.arrs.getD 1 none, o.arrs.getD 0 none, o.arrs.getD 2 none]
      pure (.success, { o with arrs := r.2 })

/-- what the clean copy finds in the matrix -/
structure CleanArgs where
  /-- outcome of the checks of the source (csr_util.hpp:815-855) -/
  st : Status
  sorted : Bool
  fulldiag : Bool
  /-- outcome of the second check, after sorting (csr_util.hpp:908-915) -/
  st2 : Status
  fulldiag2 : Bool
  missing : Bool
  deriving DecidableEq, Repr

/-- csr_util.hpp:918-934 — fill_diag unless the diagonal is full -/
def fillUnless (full missing : Bool) (o : Obj) : OM V (Status × Obj) :=
  if full then pure (.success, o) else fillDiag missing o

/-- csr_util.hpp:873-960 — the clean copy, made from `src` -/
def cleanNew (a : CleanArgs) (src : Obj) (h : Handle) : OM V (Status × Handle) := do
  match ← newCsr true with
  | none => pure (.memoryError, h)
  | some o => do
    touch src.arrs
    if !a.sorted ∧ a.st2 ≠ .success then do delObj o; pure (a.st2, h)
    else do
      let r ← fillUnless (if a.sorted then a.fulldiag else a.fulldiag2) a.missing o
      if r.1 ≠ .success then do delObj r.2; pure (r.1, h)
      else do
        let q ← indices r.2
        if q.1 ≠ .success then do delObj q.2; pure (q.1, h)
        else push { q.2 with opt := true } h

/-- replace the first object of the kind csr that is not optimised -/
def setFirstCsr (o : Obj) : List (Option Obj) → List (Option Obj)
  | [] => []
  | none :: ms => none :: setFirstCsr o ms
  | some p :: ms => if p.kind = .csr then some o :: ms else some p :: setFirstCsr o ms

/-- csr_util.hpp:783-797 — the first object of the kind csr -/
def firstCsr : List (Option Obj) → Option Obj
  | [] => none
  | none :: ms => firstCsr ms
  | some p :: ms => if p.kind = .csr then some p else firstCsr ms

/-- is there an optimised object already? -/
def hasOpt (ms : List (Option Obj)) : Bool :=
  ms.any (fun m => match m with | none => false | some p => p.kind = .csr && p.opt)

/-- csr_util.hpp:765-967 — csr_csc_optimize -/
def csrCscOptimize (a : CleanArgs) (h : Handle) : OM V (Status × Handle) :=
  if h.first.isNone then pure (.invalidPointer, h)
  else if hasOpt h.mats then pure (.success, h)
  else
    match firstCsr h.mats with
    | none => pure (.notImplemented, h)
    | some src => do
      touch src.arrs
      if a.st ≠ .success then pure (a.st, h)
      else if a.sorted ∧ a.fulldiag then do
        let q ← indices src
        if q.1 ≠ .success then pure (q.1, { h with mats := setFirstCsr q.2 h.mats })
        else pure (.success, { h with mats := setFirstCsr { q.2 with opt := true } h.mats })
      else cleanNew a src h

/-- analysis.cpp:150-195 — the blocked copy -/
def addBlk (src : Obj) (h : Handle) : OM V (Status × Handle) := do
  match ← newObj .blk 4 0 with
  | none => pure (.memoryError, h)
  | some o => do touch src.arrs; push o h

/-- analysis.cpp:215-275 — the hybrid copy -/
def addEllHyb (src : Obj) (h : Handle) : OM V (Status × Handle) := do
  match ← newObj .hyb 3 0 with
  | none => pure (.memoryError, h)
  | some o => do touch src.arrs; push o h

/-- analysis.cpp:277-382 — the copy in rows blocked by four: one `try` block around everything -/
def addBr4 (src : Obj) (h : Handle) : OM V (Status × Handle) := do
  if !(← vec) then pure (.memoryError, h)
  else do
    match ← newCsr false with
    | none => pure (.memoryError, h)
    | some o => do
      let r ← tryNew 2
      let o := { o with arrs := [o.arrs.getD 0 none, r.2.getD 0 none, r.2.getD 1 none] }
      if !r.1 then do delObj o; pure (.memoryError, h)
      else do
        touch src.arrs
        if !(← vec) then do delObj o; pure (.memoryError, h)
        else push o h

/-- analysis.cpp:390-425 — optimize_ilu.  When the second allocation fails the first is released but the
handle keeps the pointer (analysis.cpp:414-419). -/
def optIlu (st : Status) (h : Handle) : OM V (Status × Handle) :=
  match h.first with
  | none => pure (.invalidPointer, h)
  | some o =>
    if st ≠ .success then pure (st, h)
    else if h.iluReady then pure (.success, h)
    else do
      match ← new with
      | none => do
        -- the assignment did not happen: what the field held before is released
        delete h.iluDiag
        pure (.memoryError, h)
      | some a => do
        match ← new with
        | none => do
          free a
          pure (.memoryError, { h with iluDiag := some (.heap a) })
        | some b => do
          touch o.arrs
          pure (.success, { h with iluDiag := some (.heap a), iluVal := some (.heap b), iluReady := true })

/-- one step of preparing a handle for use; all but the clean copy want a first object of the kind csr
(csr_util.hpp:525-529, analysis.cpp:48-52, 396-398, 470-473) -/
inductive Step
  | csc (st : Status)
  | expanded (square ok : Bool)
  | clean (a : CleanArgs)
  | blk
  | hyb
  | br4
  | ilu (st : Status)
  deriving DecidableEq, Repr

def runStep (st : Step) (h : Handle) : OM V (Status × Handle) :=
  match h.first with
  | none => pure (.invalidPointer, h)
  | some src =>
    match st with
    | .clean a => csrCscOptimize a h
    | .csc s => if src.kind ≠ .csr then pure (.notImplemented, h) else addCsc s src h
    | .expanded sq ok =>
      if src.kind ≠ .csr then pure (.notImplemented, h) else addExpanded sq ok src h
    | .blk => if src.kind ≠ .csr then pure (.notImplemented, h) else addBlk src h
    | .hyb => if src.kind ≠ .csr then pure (.notImplemented, h) else addEllHyb src h
    | .br4 => if src.kind ≠ .csr then pure (.notImplemented, h) else addBr4 src h
    | .ilu s => if src.kind ≠ .csr then pure (.notImplemented, h) else optIlu s h

/-- optimize, and every execution routine that prepares its handle (mv, trsv, symgs, sorv, dotmv,
ilu_smoother, …): some sequence of the steps above, stopping at the first that fails -/
def prepare : List Step → Handle → OM V (Status × Handle)
  | [], h => pure (.success, h)
  | s :: ss, h => do
    let r ← runStep s h
    if r.1 ≠ .success then pure r else prepare ss r.2

/-! ### Changes of values -/

/-- auxiliary.hpp:258-268, 462-471 — the copies are deleted and their places set to null -/
def dropCopies : List (Option Obj) → OM V (List (Option Obj))
  | [] => pure []
  | none :: ms => do let r ← dropCopies ms; pure (none :: r)
  | some o :: ms => do delObj o; let r ← dropCopies ms; pure (none :: r)

/-- auxiliary.hpp:215-270, 415-473 — update_values, set_value: the last array of the first object is
written, then the copies are deleted -/
def update (st : Status) (v : V) (h : Handle) : OM V (Status × Handle) :=
  match h.mats with
  | some o :: ms =>
    if st ≠ .success then pure (st, h)
    else do
      writeP (o.arrs.getD 2 none) v
      let ms ← dropCopies ms
      pure (.success, { h with mats := some o :: ms })
  | _ => pure (.invalidPointer, h)

/-- auxiliary.cpp:840-878, 1258-1297 — order_mat: indices and values of the first object are rewritten -/
def order (st : Status) (i v : V) (h : Handle) : OM V (Status × Handle) :=
  match h.first with
  | none => pure (.notImplemented, h)
  | some o =>
    if st ≠ .success then pure (st, h)
    else do
      if !(← vec) then pure (.memoryError, h)
      else do
        writeP (o.arrs.getD 1 none) i
        writeP (o.arrs.getD 2 none) v
        pure (.success, h)

/-! ### Calls that make a new handle -/

/-- memcpy of whole arrays -/
def copyArrs : List (Option Ptr) → List (Option Ptr) → OM V Unit
  | d :: ds, s :: ss => do
    match ← readP s with
    | none => copyArrs ds ss
    | some v => do writeP d v; copyArrs ds ss
  | _, _ => pure ()

/-- auxiliary.cpp:775-834, 1156-1256 — aoclsparse_copy; `st` is the outcome of the checks before
anything is allocated, `st2` of those of copy_mat (auxiliary.cpp:1158-1164, 1188-1193, 1238) -/
def copy (st st2 : Status) (src : Handle) : OM V (Status × Option Handle) :=
  if st ≠ .success then pure (st, none)
  else do
    match ← newHandle with
    | none => pure (.memoryError, none)
    | some h => do
      match src.first with
      | none => do destroyH h; pure (.invalidPointer, none)
      | some o =>
        if o.kind ≠ .csr ∧ o.kind ≠ .coo then do destroyH h; pure (.invalidValue, none)
        else if st2 ≠ .success then do destroyH h; pure (st2, none)
        else do
          match ← newObj o.kind 3 0 with
          | none => do destroyH h; pure (.memoryError, none)
          | some d => do
            copyArrs d.arrs o.arrs
            if ← vec then pure (.success, some { h with mats := [some d] })
            else do delObj d; destroyH h; pure (.memoryError, none)

/-- convert.cpp:1049-1064, csr2m.cpp:710-730, syrk.hpp:189-206, sypr.hpp:699-722, 926-944 — a new handle
with one new object of the kind csr; on failure everything is released -/
def newWithCsr (full : Bool) : OM V (Option Handle) := do
  match ← newHandle with
  | none => pure none
  | some h => do
    match ← newCsr full with
    | none => do destroyH h; pure none
    | some o => do
      if ← vec then pure (some { h with mats := [some o] })
      else do delObj o; destroyH h; pure none

/-- convert.cpp:1018-1165 — convert_csr; `st2` is the outcome of the conversion -/
def convertCsr (st st2 : Status) (src : Handle) : OM V (Status × Option Handle) :=
  match src.first with
  | none => pure (.invalidPointer, none)
  | some o =>
    if st ≠ .success then pure (st, none)
    else do
      match ← newWithCsr true with
      | none => pure (.memoryError, none)
      | some h => do
        touch o.arrs
        if st2 ≠ .success then do destroyH h; pure (st2, none)
        else pure (.success, some h)

/-- a `std::vector` that is only needed in some cases -/
def vecIf (b : Bool) : OM V Bool := if b then vec else pure true

/-- syrk.hpp:186-330 — syrk; `st2` is the outcome of the computation, `trans`: is a transposed copy in
vectors needed? -/
def syrk (st st2 : Status) (trans : Bool) (src : Handle) : OM V (Status × Option Handle) :=
  match src.first with
  | none => pure (.invalidPointer, none)
  | some o =>
    if st ≠ .success then pure (st, none)
    else do
      match ← newWithCsr true with
      | none => pure (.memoryError, none)
      | some h => do
        touch o.arrs
        if !(← vecIf trans) then do destroyH h; pure (.memoryError, none)
        else if st2 ≠ .success then do destroyH h; pure (st2, none)
        else pure (.success, some h)

/-- the first object of a handle with one object, given the arrays of indices and values -/
def withIndVal (h : Handle) (i v : Option Ptr) : Handle :=
  match h.mats with
  | some o :: ms => { h with mats := some { o with arrs := [o.arrs.getD 0 none, i, v] } :: ms }
  | _ => h

/-- sypr.hpp:924-1056 — the second part of sypr (stages nnz_count and full), after B was prepared: `st1`
outcome of the count, `st2` of the computation, `full`: is the computation part of the stage? -/
def syprOut (st1 st2 : Status) (full : Bool) : OM V (Status × Option Handle) := do
  match ← newWithCsr false with
  | none => pure (.memoryError, none)
  | some h => do
    if st1 ≠ .success then do destroyH h; pure (st1, none)
    else do
      let r ← tryNew 2
      let h := withIndVal h (r.2.getD 0 none) (r.2.getD 1 none)
      if !r.1 then do destroyH h; pure (.memoryError, none)
      else if full ∧ st2 ≠ .success then do destroyH h; pure (st2, none)
      else pure (.success, some h)

/-- csradd.hpp:130-330 — the sum: `how` = none: the empty case; some true: entries counted first; some
false: allocated for the sum of the counts -/
def addCsr (how : Option Bool) (stc st2 : Status) : OM V (Status × Option Obj) :=
  match how with
  | none => do
    match ← newCsr true with
    | none => pure (.memoryError, none)
    | some o => pure (.success, some o)
  | some true => do
    match ← newCsr false with
    | none => pure (.memoryError, none)
    | some o =>
      if stc ≠ .success then do delObj o; pure (.internalError, none)
      else do
        let r ← tryNew 2
        let o := { o with arrs := [o.arrs.getD 0 none, r.2.getD 0 none, r.2.getD 1 none] }
        if !r.1 then do delObj o; pure (.memoryError, none)
        else if st2 ≠ .success then do delObj o; pure (st2, none)
        else pure (.success, some o)
  | some false => do
    match ← newCsr true with
    | none => pure (.memoryError, none)
    | some o =>
      if st2 ≠ .success then do delObj o; pure (st2, none)
      else pure (.success, some o)

/-- csradd.hpp:500-530 — the handle of the sum.  `old` is what the caller's variable held before the
call: when the handle cannot be allocated it is deleted (csradd.hpp:512-516). -/
def addOut (old : Option Ptr) (o : Obj) : OM V (Status × Option Handle) := do
  match ← newHandle with
  | none => do delObj o; delete old; pure (.memoryError, none)
  | some h => do
    if ← vec then pure (.success, some { h with mats := [some o] })
    else do delObj o; free h.self; pure (.memoryError, none)

/-- csradd.hpp:332-530 — add -/
def add (st : Status) (how : Option Bool) (stc st2 : Status) (old : Option Ptr) (a b : Handle) :
    OM V (Status × Option Handle) :=
  match a.first, b.first with
  | some oa, some ob =>
    if st ≠ .success then pure (st, none)
    else do
      touch oa.arrs
      touch ob.arrs
      match ← addCsr how stc st2 with
      | (st, none) => pure (st, none)
      | (_, some o) => addOut old o
  | _, _ => pure (.notImplemented, none)

/-- csr2m.cpp:760-795 — a transposed operand -/
def makeTransposed (st : Status) (src : Obj) : OM V (Status × Option Obj) := do
  match ← newCsr true with
  | none => pure (.memoryError, none)
  | some o => do
    touch src.arrs
    if st ≠ .success then do delObj o; pure (st, none)
    else pure (.success, some o)

/-- csr2m.cpp:798-835 — an operand that is transposed only in some cases -/
def operand (t : Bool) (st : Status) (src : Obj) : OM V (Status × Option Obj) :=
  if t then makeTransposed st src else pure (.success, none)

/-- csr2m.cpp:264-290 — the second object when both operands are transposed: the result is computed
transposed first -/
def sp2mSecond (h : Handle) : OM V (Status × Option Handle) := do
  match ← newCsr true with
  | none => do destroyH h; pure (.memoryError, none)
  | some q => do
    if ← vec then pure (.success, some { h with mats := h.mats ++ [some q] })
    else do delObj q; destroyH h; pure (.memoryError, none)

/-- csr2m.cpp:225-300 — the counts are known: allocate the handle, indices and values -/
def sp2mAlloc (both : Bool) (o : Obj) : OM V (Status × Option Handle) := do
  match ← newHandle with
  | none => do delObj o; pure (.memoryError, none)
  | some h => do
    let r ← tryNew 2
    let o := { o with arrs := [o.arrs.getD 0 none, r.2.getD 0 none, r.2.getD 1 none] }
    if !r.1 then do delObj o; destroyH h; pure (.memoryError, none)
    else if !(← vec) then do delObj o; destroyH h; pure (.memoryError, none)
    else
      let h := { h with mats := [some o] }
      if both then sp2mSecond h else pure (.success, some h)

/-- csr2m.cpp:46-302 — nnz_count: `st1` outcome of the threads, `ovf` the count overflows, `both` both
operands transposed -/
def sp2mCount (st1 : Status) (ovf both : Bool) : OM V (Status × Option Handle) := do
  match ← newCsr false with
  | none => pure (.memoryError, none)
  | some o =>
    if st1 ≠ .success then do delObj o; pure (st1, none)
    else if ovf then do delObj o; pure (.invalidSize, none)
    else sp2mAlloc both o

/-- csr2m.cpp:550-592 — stages nnz_count and full: `st2` outcome of the computation; the handle stays
with the caller when the computation fails -/
def sp2mDispatch (st1 st2 : Status) (ovf both full : Bool) : OM V (Status × Option Handle) := do
  match ← sp2mCount st1 ovf both with
  | (st, none) => pure (st, none)
  | (_, some h) => if full then pure (st2, some h) else pure (.success, some h)

/-- release the transposed operands -/
def dropOperand : Option Obj → OM V Unit
  | none => pure ()
  | some o => delObj o

/-- csr2m.cpp:800-860 — the operands, then the stages, then the release of the operands -/
def sp2mRun (stA stB st1 st2 : Status) (tA tB ovf full : Bool) (a b : Obj) :
    OM V (Status × Option Handle) := do
  let ra ← operand (tA && !tB) stA a
  if ra.1 ≠ .success then pure (ra.1, none)
  else do
    let rb ← operand (tB && !tA) stB b
    if rb.1 ≠ .success then do dropOperand ra.2; pure (rb.1, none)
    else do
      touch a.arrs
      touch b.arrs
      let r ← sp2mDispatch st1 st2 ovf (tA && tB) full
      dropOperand ra.2
      dropOperand rb.2
      pure r

/-- csr2m.cpp:594-862 — sp2m, stages nnz_count and full (`*C` is set to null first); `empty`: the quick
return for empty operands -/
def sp2m (st stA stB st1 st2 : Status) (empty tA tB ovf full : Bool) (a b : Handle) :
    OM V (Status × Option Handle) :=
  match a.first, b.first with
  | some oa, some ob =>
    if st ≠ .success then pure (st, none)
    else if empty then do
      match ← newWithCsr true with
      | none => pure (.memoryError, none)
      | some h => pure (.success, some h)
    else sp2mRun stA stB st1 st2 tA tB ovf full oa ob
  | _, _ => pure (.invalidPointer, none)

/-- sp2md.hpp:325-385 — a product with a dense result: the temporary operand is released at the end -/
def sp2md (st stB : Status) (temp : Bool) (b : Handle) : OM V Status :=
  match b.first with
  | none => pure .invalidPointer
  | some o =>
    if st ≠ .success then pure st
    else if temp then do
      let r ← makeTransposed stB o
      if r.1 ≠ .success then pure r.1
      else do dropOperand r.2; pure .success
    else do touch o.arrs; pure .success

/-- convert.cpp:1388-1413 — the handle of a converted BSR matrix.  On failure the three arrays are
released and then the object, which owns them too, is deleted; the handle is not. -/
def bsrOut (arrs : List (Option Ptr)) : OM V (Status × Option Handle) := do
  match ← newHandle with
  | none => do deleteAll arrs; pure (.memoryError, none)
  | some h => do
    match ← new with
    | none => do deleteAll arrs; pure (.memoryError, some h)
    | some a => do
      let o : Obj := { self := a, kind := .bsr, internal := true, arrs := arrs }
      if ← vec then pure (.success, some { h with mats := [some o] })
      else do deleteAll arrs; delObj o; pure (.memoryError, some h)

/-- convert.cpp:1302-1385 — the arrays of the BSR matrix, from `src` -/
def bsrArrays (st1 st2 : Status) (src : Obj) : OM V (Status × List (Option Ptr)) := do
  let r ← tryNew 1
  if !r.1 then pure (.memoryError, [])
  else if st1 ≠ .success then do deleteAll r.2; pure (st1, [])
  else do
    let q ← tryNew 2
    if !q.1 then do deleteAll (r.2 ++ q.2); pure (.memoryError, [])
    else do
      touch src.arrs
      if st2 ≠ .success then do deleteAll (r.2 ++ q.2); pure (st2, [])
      else pure (.success, r.2 ++ q.2)

/-- convert.cpp:1265-1300 — the transposed matrix, when the operation asks for it -/
def convertIf (trans : Bool) (st : Status) (src : Handle) : OM V (Status × Option Handle) :=
  if trans then convertCsr .success st src else pure (.success, none)

/-- convert.cpp:1256-1299 — the arrays converted: of the transposed matrix or of the source -/
def bsrSource (o : Obj) : Option Handle → Obj
  | some h => h.first.getD o
  | none => o

/-- convert.cpp:1374-1376 — the transposed matrix is destroyed -/
def dropHandle : Option Handle → OM V Unit
  | none => pure ()
  | some h => destroyH h

/-- convert.cpp:1218-1428 — convert_bsr.  The status of creating the descriptor is not looked at
(convert.cpp:1249-1250), so a failure there is undefined behaviour. -/
def convertBsr (st stt st1 st2 : Status) (trans : Bool) (src : Handle) :
    OM V (Status × Option Handle) :=
  match src.first with
  | none => pure (.invalidPointer, none)
  | some o =>
    if st ≠ .success then pure (st, none)
    else do
      match ← new with
      | none => fun _ => none
      | some d => do
        let t ← convertIf trans stt src
        if t.1 ≠ .success then do free d; pure (t.1, none)
        else do
          let r ← bsrArrays st1 st2 (bsrSource o t.2)
          dropHandle t.2
          if r.1 ≠ .success then do free d; pure (r.1, none)
          else do
            let q ← bsrOut r.2
            free d
            pure q

/-! ### Iterative solvers (aoclsparse_itsol_functions.hpp) -/

/-- cg_data / gmres_data: the object and its arrays -/
structure Work where
  self : Nat
  arrs : List (Option Ptr)
  deriving DecidableEq, Repr

/-- itsol_functions.hpp:150-222 — aoclsparse_cg_data_free, aoclsparse_gmres_data_free -/
def freeWork : Option Work → OM V Unit
  | none => pure ()
  | some w => do deleteAll w.arrs; free w.self

/-- itsol_functions.hpp:40-76 (k = 4, sizes always accepted), 82-147 (k = 6) -/
def newWork (k : Nat) (sizeOk : Bool) : OM V (Status × Option Work) := do
  match ← new with
  | none => pure (.memoryError, none)
  | some a =>
    if !sizeOk then do freeWork (some ⟨a, List.replicate k none⟩); pure (.invalidSize, none)
    else do
      let r ← tryNew k
      if r.1 then pure (.success, some ⟨a, r.2⟩)
      else do freeWork (some ⟨a, r.2⟩); pure (.memoryError, none)

/-- a solver handle: `_aoclsparse_itsol_handle` and the `aoclsparse_itsol_data` of its type -/
structure Solver where
  self : Nat
  data : Nat
  b : Option Ptr := none
  cg : Option Work := none
  gmres : Option Work := none
  deriving DecidableEq, Repr

/-- itsol_functions.hpp:258-282 — aoclsparse_itsol_data_free with keep_itsol -/
def clearSolver (h : Solver) : OM V Solver := do
  delete h.b
  freeWork h.cg
  freeWork h.gmres
  pure { h with b := none, cg := none, gmres := none }

/-- itsol_functions.cpp:95-109 — aoclsparse_itsol_destroy -/
def destroySolver (h : Solver) : OM V Unit := do
  let h ← clearSolver h
  free h.data
  free h.self

/-- itsol_functions.cpp:114-240, hpp:285-310 — aoclsparse_itsol_?_init; `opts`: were the options
registered? -/
def initSolver (opts : Bool) : OM V (Status × Option Solver) := do
  match ← new with
  | none => pure (.memoryError, none)
  | some a => do
    match ← new with
    | none => do free a; pure (.memoryError, none)
    | some d =>
      if opts then pure (.success, some { self := a, data := d })
      else do free d; free a; pure (.internalError, none)

/-- itsol_functions.hpp:312-350 — rci_input: everything of the last problem is released, then the right
hand side is copied -/
def rciInput (st : Status) (h : Solver) : OM V (Status × Solver) :=
  if st ≠ .success then pure (st, h)
  else do
    let h ← clearSolver h
    match ← new with
    | none => pure (.memoryError, h)
    | some a => pure (.success, { h with b := some (.heap a) })

/-- itsol_functions.hpp:353-400 — solver_init: the working arrays of the chosen method -/
def solverInit (cg : Bool) (sizeOk : Bool) (stOpt : Status) (h : Solver) : OM V (Status × Solver) :=
  if cg then
    match h.cg with
    | some _ => pure (stOpt, h)
    | none => do
      let r ← newWork 4 true
      if r.1 ≠ .success then pure (r.1, h) else pure (stOpt, { h with cg := r.2 })
  else
    match h.gmres with
    | some _ => pure (stOpt, h)
    | none => do
      let r ← newWork 6 sizeOk
      if r.1 ≠ .success then pure (r.1, h) else pure (stOpt, { h with gmres := r.2 })

/-! ### Histories -/

/-- what the program of the caller holds: handles in numbered variables (null after a destroy or a failed
call), solver handles likewise -/
structure World (V : Type) where
  mem : Mem V
  slots : List (Option Handle) := []
  solvers : List (Option Solver) := []

/-- the calls -/
inductive Op (V : Type)
  | create (st : Status) (kind : Kind) (us : List Nat)
  | addHyb (i : Nat) (st : Status) (us : List Nat)
  | hint (i : Nat) (st : Status)
  /-- optimize, mv, trsv, … -/
  | prepare (i : Nat) (ss : List Step)
  | update (i : Nat) (st : Status) (v : V)
  | order (i : Nat) (st : Status) (ind v : V)
  | copy (i : Nat) (st st2 : Status)
  | convertCsr (i : Nat) (st st2 : Status)
  | convertBsr (i : Nat) (st stt st1 st2 : Status) (trans : Bool)
  | syrk (i : Nat) (st st2 : Status) (trans : Bool)
  /-- sypr: the second operand is prepared, then the result is made -/
  | sypr (i : Nat) (a : CleanArgs) (st1 st2 : Status) (full : Bool)
  | add (i j : Nat) (st : Status) (how : Option Bool) (stc st2 : Status)
  | sp2m (i j : Nat) (st stA stB st1 st2 : Status) (empty tA tB ovf full : Bool)
  | sp2md (i : Nat) (st stB : Status) (temp : Bool)
  | destroy (i : Nat)
  | solverNew (opts : Bool)
  | solverInput (i : Nat) (st : Status)
  | solverRun (i : Nat) (cg sizeOk : Bool) (stOpt : Status)
  | solverDestroy (i : Nat)
  /-- not a call: the caller writes to an array of their own -/
  | userWrite (k : Nat) (v : V)

/-- run a computation on the memory of the world -/
def World.run {α : Type} (w : World V) (f : OM V α) : Option (α × World V) := do
  let r ← f w.mem
  some (r.1, { w with mem := r.2 })

/-- a call that changes the handle in variable `i`; a null handle is rejected -/
def World.onSlot (w : World V) (i : Nat) (f : Handle → OM V (Status × Handle)) :
    Option (Status × World V) :=
  match w.slots[i]?.join with
  | none => some (.invalidPointer, w)
  | some h => do
    let r ← f h w.mem
    some (r.1.1, { w with mem := r.2, slots := w.slots.set i (some r.1.2) })

/-- a call that stores a new handle in a new variable -/
def World.out (w : World V) (f : OM V (Status × Option Handle)) : Option (Status × World V) := do
  let r ← f w.mem
  some (r.1.1, { w with mem := r.2, slots := w.slots ++ [r.1.2] })

/-- a call with one handle that stores a new one -/
def World.out1 (w : World V) (i : Nat) (f : Handle → OM V (Status × Option Handle)) :
    Option (Status × World V) :=
  match w.slots[i]?.join with
  | none => some (.invalidPointer, w)
  | some h => w.out (f h)

/-- a call with two handles that stores a new one -/
def World.out2 (w : World V) (i j : Nat) (f : Handle → Handle → OM V (Status × Option Handle)) :
    Option (Status × World V) :=
  match w.slots[i]?.join, w.slots[j]?.join with
  | some a, some b => w.out (f a b)
  | _, _ => some (.invalidPointer, w)

/-- one call; `none` is undefined behaviour -/
def Op.step (op : Op V) (w : World V) : Option (Status × World V) :=
  match op with
  | .create st k us => w.out (Own.create st k us)
  | .addHyb i st us => w.onSlot i (Own.addHyb st us)
  | .hint i st => w.onSlot i (Own.hint st)
  | .prepare i ss => w.onSlot i (Own.prepare ss)
  | .update i st v => w.onSlot i (Own.update st v)
  | .order i st ind v => w.onSlot i (Own.order st ind v)
  | .copy i st st2 => w.out1 i (Own.copy st st2)
  | .convertCsr i st st2 => w.out1 i (Own.convertCsr st st2)
  | .convertBsr i st stt st1 st2 tr => w.out1 i (Own.convertBsr st stt st1 st2 tr)
  | .syrk i st st2 tr => w.out1 i (Own.syrk st st2 tr)
  | .sypr i a st1 st2 full =>
    match w.onSlot i (csrCscOptimize a) with
    | none => none
    | some (st, w) => if st ≠ .success then some (st, w) else w.out (syprOut st1 st2 full)
  | .add i j st how stc st2 => w.out2 i j (Own.add st how stc st2 none)
  | .sp2m i j st stA stB st1 st2 e tA tB ovf full =>
    w.out2 i j (Own.sp2m st stA stB st1 st2 e tA tB ovf full)
  | .sp2md i st stB temp =>
    match w.slots[i]?.join with
    | none => some (.invalidPointer, w)
    | some h => w.run (Own.sp2md st stB temp h)
  | .destroy i =>
    match w.slots[i]?.join with
    | none => some (.success, w)
    | some h => do
      let r ← destroyH h w.mem
      some (.success, { w with mem := r.2, slots := w.slots.set i none })
  | .solverNew opts => do
    let r ← initSolver opts w.mem
    some (r.1.1, { w with mem := r.2, solvers := w.solvers ++ [r.1.2] })
  | .solverInput i st =>
    match w.solvers[i]?.join with
    | none => some (.invalidPointer, w)
    | some h => do
      let r ← rciInput st h w.mem
      some (r.1.1, { w with mem := r.2, solvers := w.solvers.set i (some r.1.2) })
  | .solverRun i cg sizeOk stOpt =>
    match w.solvers[i]?.join with
    | none => some (.invalidPointer, w)
    | some h => do
      let r ← solverInit cg sizeOk stOpt h w.mem
      some (r.1.1, { w with mem := r.2, solvers := w.solvers.set i (some r.1.2) })
  | .solverDestroy i =>
    match w.solvers[i]?.join with
    | none => some (.success, w)
    | some h => do
      let r ← destroySolver h w.mem
      some (.success, { w with mem := r.2, solvers := w.solvers.set i none })
  | .userWrite k v =>
    some (.success, { w with mem := { w.mem with
      data := fun p => if p = .user k then v else w.mem.data p } })

/-- a call together with the allocations that fail during it -/
structure Call (V : Type) where
  op : Op V
  fails : List Bool := []

def Call.step (c : Call V) (w : World V) : Option (Status × World V) :=
  c.op.step { w with mem := { w.mem with fails := c.fails } }

/-- a history of calls: the statuses and the world at the end -/
def runCalls : List (Call V) → World V → Option (List Status × World V)
  | [], w => some ([], w)
  | c :: cs, w => do
    let r ← c.step w
    let q ← runCalls cs r.2
    some (r.1 :: q.1, q.2)

/-- nothing allocated yet -/
def World.init (data : Ptr → V) (gen : Nat → V) : World V :=
  { mem := { next := 0, live := [], fails := [], data := data, gen := gen } }

end Own
end Model
end Verif
