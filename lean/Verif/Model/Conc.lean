/-
Model of concurrent calls on one handle: the threads run aoclsparse_csr_csc_optimize
(library/src/analysis/aoclsparse_csr_util.hpp:765-967, double-checked locking on `mats_guard`) and the
parts of its callers that touch shared fields of the handle, one access to shared memory per step, in
any interleaving.

Shared state: the handle and the lock `mats_guard` (a std::shared_mutex: any number of readers or one
writer; a waiting writer may or may not hold back new readers, here it does not, which allows more
interleavings).  The user's arrays are read only.  Accesses are sequentially consistent; that the code
is free of data races, so that this is enough by the C++ memory model, is one of the theorems (for the
callers for which it holds).  A scan step reads the vector and one object in one step (the lock is held
around the whole scan).
-/
import Verif.Model.Mv

namespace Verif
namespace Model
variable {R : Type}

/-- which function a thread runs -/
inductive Kind where
  /-- trsv (level2/aoclsparse_trsv.cpp:118-137), symgs and the other callers that go straight to
  csr_csc_optimize and then use the copy and opt_csr_full_diag -/
  | solve
  /-- mv with a symmetric, Hermitian or triangular descriptor (level2/aoclsparse_mv.cpp:130-151) -/
  | mv
  /-- sorv (solvers/aoclsparse_sorv.hpp:196-210) -/
  | sorv
deriving DecidableEq

/-- places in shared memory: the vector `mats`, fields of its objects, flags of the handle -/
inductive Loc where
  | mats
  | isOpt (i : Nat)
  | idiag (i : Nat)
  | iurow (i : Nat)
  | fullDiag
  | optimized
  | sort
deriving DecidableEq

/-- where a thread is; the comment gives what its next step does -/
inductive PC (R : Type) where
  /-- mv: take the lock for get_best_matrix (magic_box.hpp:250) -/
  | mvStart
  /-- mv: look through `mats`, holding the lock (magic_box.hpp:252-283) -/
  | mvBest
  /-- mv: release -/
  | mvRel (i : Nat)
  /-- mv: read `best_csr->is_optimized` without the lock (mv.cpp:136-138) -/
  | mvTest (i : Nat)
  /-- mv: use the object chosen (mv.cpp:199-220) -/
  | mvUse (i : Nat)
  /-- sorv: read opt_csr_full_diag (sorv.hpp:197) -/
  | sorRead
  /-- sorv: set it, the diagonal was found complete (sorv.hpp:209) -/
  | sorWrite
  /-- take the lock for get_first_mtx_if_valid (mat_structures.hpp:823) -/
  | start
  /-- read `mats[0]` (mat_structures.hpp:824-826) -/
  | first
  /-- release after get_first_mtx_if_valid; `ok`: there was an object -/
  | firstRel (ok : Bool)
  /-- take the lock for the fast path (csr_util.hpp:785) -/
  | fastAcq
  /-- fast path: look at object `j` (787-800); `src`: the first CSR object seen -/
  | fast (j : Nat) (src : Option Nat)
  /-- fast path found object `i`: release and return it (793-794) -/
  | gotFast (i : Nat)
  /-- fast path found nothing: release (801) -/
  | noFast (src : Option Nat)
  /-- checks of the source (804-810) -/
  | validate (src : Option Nat)
  /-- take the lock for writing (813) -/
  | slowAcq (src : Nat)
  /-- look again at object `j` (817-825) -/
  | slow (j : Nat) (src : Nat)
  /-- found: release and return it (823) -/
  | gotSlow (i : Nat)
  /-- check the source and prepare the clean copy (833-856, 871-939): writes `sort` -/
  | build (src : Nat)
  /-- in place: `*idiag = new …` (csr_util.cpp:404) -/
  | setDiag (src : Nat) (o : OptCsr R)
  /-- in place: `*iurow = new …` (csr_util.cpp:405) -/
  | setUrow (src : Nat) (o : OptCsr R)
  /-- in place: fill both arrays (csr_util.cpp:419-457) -/
  | fillIdx (src : Nat) (o : OptCsr R)
  /-- in place: is_optimized (csr_util.hpp:868) -/
  | setOpt (src : Nat) (o : OptCsr R)
  /-- new object: push_back (949-957) -/
  | push (src : Nat) (o : OptCsr R)
  /-- opt_csr_full_diag (963) -/
  | flagD (i : Nat) (fd : Bool)
  /-- optimized (964) -/
  | flagO (i : Nat)
  /-- release the lock for writing and return an error -/
  | failW (st : Status)
  /-- csr_csc_optimize returned object `i` -/
  | got (i : Nat)
  /-- the caller uses object `i` and opt_csr_full_diag (trsv.cpp:133-137, 176-196) -/
  | use (i : Nat)
  /-- returned -/
  | done (r : Except Status Nat)
  /-- mv or sorv returned without having called csr_csc_optimize -/
  | fin
  /-- undefined behaviour -/
  | crash

/-- where a thread of a kind starts -/
def Kind.start : Kind → PC R
  | .solve => .start
  | .mv => .mvStart
  | .sorv => .sorRead

/-- the handle and `mats_guard` -/
structure Shared (R : Type) where
  H : MvHandle R
  readers : List Nat
  writer : Option Nat

/-- what a thread cannot know: whether an allocation fails, contents of fresh memory, which object the
scores of get_best_matrix single out (past the end: none), whether its identifier is the requested one, and whether the
diagonal check of sorv succeeds -/
structure Choice (R : Type) where
  fail : Bool
  gi : Nat → Int
  gv : Nat → R
  best : Nat
  exact : Bool
  diagOk : Bool

/-- std::shared_lock: blocked while there is a writer -/
def lockR (t : Nat) (s : Shared R) : Option (Shared R) :=
  if s.writer = none then some { s with readers := t :: s.readers } else none

/-- destructor of std::shared_lock -/
def unlockR (t : Nat) (s : Shared R) : Shared R := { s with readers := s.readers.erase t }

/-- std::unique_lock: blocked while there is a reader or writer -/
def lockW (t : Nat) (s : Shared R) : Option (Shared R) :=
  if s.writer = none ∧ s.readers = [] then some { s with writer := some t } else none

/-- destructor of std::unique_lock -/
def unlockW (s : Shared R) : Shared R := { s with writer := none }

/-- change object `i` of `mats`, a CSR object -/
def Shared.onCsr (s : Shared R) (i : Nat) (f : MCopy R → Bool → Option (List Int) → Stored R) : Shared R :=
  { s with H := { s.H with mats := s.H.mats.modify i fun
    | .csr c o u => f c o u
    | x => x } }

/-- csr_util.hpp:871-891 — the new object -/
def newObj (c : MCopy R) (o : OptCsr R) : Stored R :=
  .csr ⟨c.doid, 0, c.m, c.n, o.base, o.ptr, o.ind, o.val, some o.idiag, none⟩ true (some o.iurow)

/-- one step of thread `t` at `pc`; `none`: it has to wait, or has returned -/
def concStep [Zero R] (srt : (Int → Int → Bool) → List Int → List Int) (t : Nat) (x : Choice R) (pc : PC R)
    (s : Shared R) : Option (PC R × Shared R) :=
  match pc with
  | .mvStart => (lockR t s).map fun s => (.mvBest, s)
  | .mvBest => some (.mvRel x.best, s)
  | .mvRel i => some (.mvTest i, unlockR t s)
  | .mvTest i =>
    match s.H.mats[i]? with
    | some (.csr _ o _) => if o = false ∧ x.exact = false then some (.start, s) else some (.mvUse i, s)
    | some _ => some (.mvUse i, s)
    | none => some (.fin, s)
  | .mvUse _ => some (.fin, s)
  | .sorRead => if s.H.fulldiag = false ∧ x.diagOk = true then some (.sorWrite, s) else some (.fin, s)
  | .sorWrite => some (.fin, { s with H := { s.H with fulldiag := true } })
  | .start => (lockR t s).map fun s => (.first, s)
  | .first => some (.firstRel (decide (s.H.mats ≠ [])), s)
  | .firstRel ok => some (if ok then .fastAcq else .done (.error .invalidPointer), unlockR t s)
  | .fastAcq => (lockR t s).map fun s => (.fast 0 none, s)
  | .fast j src =>
    match s.H.mats[j]? with
    | none => some (.noFast src, s)
    | some (.csr _ o _) =>
      if o then some (.gotFast j, s)
      else some (.fast (j + 1) (if src = none then some j else src), s)
    | some _ => some (.fast (j + 1) src, s)
  | .gotFast i => some (.got i, unlockR t s)
  | .noFast src => some (.validate src, unlockR t s)
  | .validate src =>
    match src with
    | none => some (.done (.error .notImplemented), s)
    | some k => some (.slowAcq k, s)
  | .slowAcq k => (lockW t s).map fun s => (.slow 0 k, s)
  | .slow j k =>
    match s.H.mats[j]? with
    | none => some (.build k, s)
    | some (.csr _ o _) => if o then some (.gotSlow j, s) else some (.slow (j + 1) k, s)
    | some _ => some (.slow (j + 1) k, s)
  | .gotSlow i => some (.got i, unlockW s)
  | .build k =>
    match s.H.mats[k]? with
    | some (.csr c _ _) =>
      match csrOptimize srt x.gi x.gv c.m c.n s.H.raw.nnz c.base c.ptr c.ind c.val with
      | none => some (.crash, s)
      | some (.error e) => some (.failW e, s)
      | some (.ok o) =>
        if o.inPlace then some (.setDiag k o, s)
        else if x.fail then some (.failW .memoryError, s)
        else some (.push k o, s)
    | _ => some (.crash, s)
  | .setDiag k o =>
    if x.fail then some (.failW .memoryError, s)
    else some (.setUrow k o, s.onCsr k fun c p u => .csr { c with idiag := some (alloc c.m.toNat x.gi) } p u)
  | .setUrow k o =>
    if x.fail then some (.failW .memoryError, s.onCsr k fun c p _ => .csr { c with idiag := none } p none)
    else some (.fillIdx k o, s.onCsr k fun c p _ => .csr c p (some (alloc c.m.toNat x.gi)))
  | .fillIdx k o =>
    some (.setOpt k o, s.onCsr k fun c p _ => .csr { c with idiag := some o.idiag } p (some o.iurow))
  | .setOpt k o => some (.flagD k o.fulldiag, s.onCsr k fun c _ u => .csr c true u)
  | .push k o =>
    match s.H.mats[k]? with
    | some (.csr c _ _) =>
      if x.fail then some (.failW .memoryError, s)
      else some (.flagD s.H.mats.length o.fulldiag, { s with H := { s.H with mats := s.H.mats ++ [newObj c o] } })
    | _ => some (.crash, s)
  | .flagD i fd => some (.flagO i, { s with H := { s.H with fulldiag := fd } })
  | .flagO i => some (.gotSlow i, { s with H := { s.H with optimized := true } })
  | .failW st => some (.done (.error st), unlockW s)
  | .got i => some (.use i, s)
  | .use i => some (.done (.ok i), s)
  | .done _ => none
  | .fin => none
  | .crash => none

/-- the accesses to shared memory of the next step: place and whether it is written.  Fields that no
thread writes are left out. -/
def PC.accesses : PC R → List (Loc × Bool)
  | .mvBest => [(.mats, false)]
  | .mvTest i => [(.isOpt i, false)]
  | .mvUse i => [(.idiag i, false), (.iurow i, false)]
  | .sorRead => [(.fullDiag, false)]
  | .sorWrite => [(.fullDiag, true)]
  | .first => [(.mats, false)]
  | .fast j _ => [(.mats, false), (.isOpt j, false)]
  | .slow j _ => [(.mats, false), (.isOpt j, false)]
  | .build _ => [(.sort, true)]
  | .setDiag k _ => [(.idiag k, true)]
  | .setUrow k _ => [(.iurow k, true), (.idiag k, true)]
  | .fillIdx k _ => [(.idiag k, true), (.iurow k, true)]
  | .setOpt k _ => [(.isOpt k, true)]
  | .push _ _ => [(.mats, true)]
  | .flagD _ _ => [(.fullDiag, true)]
  | .flagO _ => [(.optimized, true)]
  | .use i => [(.idiag i, false), (.iurow i, false), (.fullDiag, false)]
  | _ => []

/-- all threads and what they share -/
structure Sys (R : Type) where
  sh : Shared R
  th : Nat → PC R

/-- thread `t` makes a step -/
def Sys.Step [Zero R] (srt : (Int → Int → Bool) → List Int → List Int) (S S' : Sys R) : Prop :=
  ∃ (t : Nat) (x : Choice R) (r : PC R × Shared R), concStep srt t x (S.th t) S.sh = some r ∧
    S' = ⟨r.2, Function.update S.th t r.1⟩

end Model
end Verif
