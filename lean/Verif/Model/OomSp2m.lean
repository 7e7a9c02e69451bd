/-
Sparse matrix product and addition whose allocations may fail: csr2m.cpp and csradd.hpp with the
`catch(std::bad_alloc &)` clauses.
Simplification: the objects allocated in one `try` block are one allocation.
-/
import Verif.Model.Sp2m

namespace Verif
namespace Model
variable {R : Type} [Zero R] [Add R] [Mul R]

/-- the allocations of a call that fail, in the order of the code; those of the threads by the number of
the thread -/
structure MmOom where
  /-- csr2m.cpp:712-720 — the empty result of the quick return -/
  quick : Bool
  /-- csr2m.cpp:767-768 — the transpose of A -/
  trA : Bool
  /-- the same for B -/
  trB : Bool
  /-- csr2m.cpp:72-73 — the row pointers of C -/
  ptr : Bool
  /-- csr2m.cpp:100 — the marks of a thread of the counting stage -/
  cnt : Nat → Bool
  /-- csr2m.cpp:247-250 — the handle C and its arrays -/
  out : Bool
  /-- csr2m.cpp:272-278 — the CSR copy of a transposed result -/
  back : Bool
  /-- csr2m.cpp:427 — the accumulator of a thread of the value stage -/
  acc : Nat → Bool

/-- enough memory -/
def MmOom.plenty : MmOom := ⟨false, false, false, false, fun _ => false, false, false, fun _ => false⟩

/-- csr2m.cpp:82-107, 405-439 — the rows of one thread; without its buffer it computes only its
range -/
def threadRowsM {lam σ : Type} (fail : Nat → Bool) (w : Nat) (T : Nat) (m : Int) (loc : lam)
    (body : Int → lam × σ → Option (lam × σ)) (t : Nat) (s : σ) : Option σ :=
  if fail t then do
    let _ ← chk w (m * t)
    let _ ← chk w (m * (t + 1))
    some s
  else threadRows w T m loc body t s

/-- the whole team; the other threads go on -/
def inTeamM {lam σ : Type} (fail : Nat → Bool) (w : Nat) (order : List Nat) (T : Nat) (m : Int) (loc : lam)
    (body : Int → lam × σ → Option (lam × σ)) (s : σ) : Option σ :=
  order.foldlM (fun s t => threadRowsM fail w T m loc body t s) s

/-- csr2m.cpp:220-300 — the part of nnz_count after the parallel region; the statuses of the threads
are combined with max, and memory_error is the largest that occurs -/
def mmCountTailM (o : MmOom) (w : Nat) (g : Nat → Garb R) (m n : Int) (opflag : Int) (ptr : List Int) :
    Option (Except Status (Sp2mH R)) := do
  let s ← prefixSum m 0 ptr
  if sumOverflow 64 w s.1 then some (.error .invalidSize)
  else if o.out then some (.error .memoryError)
  else do
    let nnz ← rd s.2 m
    let c : Arrs R := ⟨0, s.2, alloc nnz.toNat (g 2).i, alloc nnz.toNat (g 2).v⟩
    if opflag = 3 then
      if o.back then some (.error .memoryError)
      else
      some (.ok ⟨n, m, nnz, some c,
        ⟨0, if nnz = 0 then List.replicate (n + 1).toNat 0 else alloc (n + 1).toNat (g 3).p,
          alloc nnz.toNat (g 3).i, alloc nnz.toNat (g 3).v⟩⟩)
    else some (.ok ⟨m, n, nnz, none, c⟩)

/-- csr2m.cpp:46-302 — aoclsparse_csr2m_nnz_count.  On an error C is null: it was before, or
aoclsparse_destroy (lines 256, 284) made it so. -/
def mmCountM (o : MmOom) (w : Nat) (tm : Teams) (g : Nat → Garb R) (m n : Int) (A B : Arrs R)
    (opflag : Int) : Option (Except Status (Sp2mH R)) :=
  if o.ptr then some (.error .memoryError)
  else do
    let ptr ← wr (alloc (m + 1).toNat (g 2).p) 0 0
    let ptr ← inTeamM o.cnt w tm.ord1 tm.t1 m (List.replicate n.toNat (-1)) (mmCntRow A B) ptr
    if tm.ord1.any o.cnt then some (.error .memoryError)
    else mmCountTailM o w g m n opflag ptr

/-- csr2m.cpp:389-518 — the computation into the arrays `c` -/
def mmFillM (o : MmOom) (w : Nat) (tm : Teams) (cjA cjB : R → R) (m n : Int) (A B c : Arrs R) :
    Option (Arrs R × Bool) := do
  let r ← inTeamM o.acc w tm.ord2 tm.t2 m
    (List.replicate (n + B.base).toNat (-1), List.replicate (n + B.base).toNat (0 : R))
    (mmRow cjA cjB A B c.ptr) ((c.ind, c.val), false)
  some ({ c with ind := r.1.1, val := r.1.2 }, r.2)

/-- csr2m.cpp:312-534 — aoclsparse_csr2m_finalize -/
def mmFinalizeM (o : MmOom) (w : Nat) (tm : Teams) (cjA cjB : R → R) (mA nB : Int) (A B : Arrs R)
    (C : Option (Sp2mH R)) (opflag : Int) : Option (Status × Option (Sp2mH R)) :=
  match C with
  | none => some (.invalidPointer, none)
  | some H =>
    if opflag = 3 then
      match H.csc with
      | none => some (.invalidPointer, some H)
      | some c =>
        if H.n ≠ mA ∨ H.m ≠ nB then some (.invalidSize, some H)
        else (mmFillM o w tm cjA cjB H.n H.m A B c).bind fun r =>
          if tm.ord2.any o.acc then some (.memoryError, some { H with csc := some r.1 })
          else if r.2 then some (.internalError, some { H with csc := some r.1 })
          else (mmBack H.n H.m H.nnz r.1 H.csr).bind fun b =>
            some (b.1, some { H with csc := some r.1, csr := b.2 })
    else if H.m ≠ mA ∨ H.n ≠ nB then some (.invalidSize, some H)
    else (mmFillM o w tm cjA cjB H.m H.n A B H.csr).bind fun r =>
      some (if tm.ord2.any o.acc then .memoryError else if r.2 then .internalError else .success,
        some { H with csr := r.1 })

/-- csr2m.cpp:538-592 — sp2m_dispatch -/
def mmDispatchM (o : MmOom) (w : Nat) (tm : Teams) (g : Nat → Garb R) (cjA cjB : R → R) (mA nB : Int)
    (A B : Arrs R) (C : Option (Sp2mH R)) (opflag : Int) (req : Int) :
    Option (Status × Option (Sp2mH R)) :=
  if req = 0 then
    (mmCountM o w tm g mA nB A B opflag).bind fun c =>
      match c with
      | .error e => some (e, C)
      | .ok H => some (.success, some H)
  else if req = 1 then mmFinalizeM o w tm cjA cjB mA nB A B C opflag
  else if req = 2 then
    (mmCountM o w tm g mA nB A B opflag).bind fun c =>
      match c with
      | .error e => some (e, C)
      | .ok H => mmFinalizeM o w tm cjA cjB mA nB A B (some H) opflag
  else some (.invalidValue, C)

/-- csr2m.cpp:759-793 — make_transposed -/
def orientGM (fail tr : Bool) (g : Garb R) (A : RawMat R) : Option (Except Status (Arrs R)) :=
  if tr = true ∧ fail = true then some (.error .memoryError) else orientG tr g A

/-- csr2m.cpp:737-861 — the part of sp2m after the quick return -/
def sp2mRunM (o : MmOom) (w : Nat) (isReal : Bool) (tm : Teams) (g : Nat → Garb R) (cj : R → R)
    (opA : Int) (dA : Descr) (A : RawMat R) (opB : Int) (dB : Descr) (B : RawMat R) (req : Int)
    (C : Option (Sp2mH R)) : Option (Status × Option (Sp2mH R)) :=
  let effA := effDoid A.doid (getDoid isReal dA.type dA.fill opA)
  let effB := effDoid B.doid (getDoid isReal dB.type dB.fill opB)
  let trA := decide (effA &&& 2 ≠ 0)
  let trB := decide (effB &&& 2 ≠ 0)
  let cjA := if effA &&& 1 ≠ 0 then cj else id
  let cjB := if effB &&& 1 ≠ 0 then cj else id
  if trA ∧ trB then
    mmDispatchM o w tm g cjB cjA B.m A.n ⟨B.base, B.ptr, B.ind, B.val⟩ ⟨A.base, A.ptr, A.ind, A.val⟩
      C 3 req
  else
    (orientGM o.trA trA (g 0) A).bind fun a =>
      match a with
      | .error e => some (e, C)
      | .ok a => (orientGM o.trB trB (g 1) B).bind fun b =>
        match b with
        | .error e => some (e, C)
        | .ok b => mmDispatchM o w tm g cjA cjB (if trA then A.n else A.m)
            (if trB then B.m else B.n) a b C ((if trA then 1 else 0) + (if trB then 2 else 0)) req

/-- csr2m.cpp:594-861 — aoclsparse::sp2m; `C` as in `sp2m` -/
def sp2mM (o : MmOom) (w : Nat) (isReal : Bool) (tm : Teams) (g : Nat → Garb R) (cj : R → R) (opA : Int)
    (dA : Option Descr) (A : Option (RawMat R)) (opB : Int) (dB : Option Descr)
    (B : Option (RawMat R)) (req : Int) (C : Option (Sp2mH R)) :
    Option (Status × Option (Sp2mH R)) :=
  match dA, dB, A, B with
  | some dA, some dB, some A, some B =>
    let C := if req ≠ 1 then none else C
    if A.fmt ≠ 0 ∨ B.fmt ≠ 0 then some (.notImplemented, C)
    else if ¬ (dA.base = 0 ∨ dA.base = 1) ∨ ¬ (dB.base = 0 ∨ dB.base = 1) then
      some (.invalidValue, C)
    else if A.base ≠ dA.base ∨ B.base ≠ dB.base then some (.invalidValue, C)
    else if dA.type ≠ 0 ∨ dB.type ≠ 0 then some (.notImplemented, C)
    else if ¬ isOp opA ∨ ¬ isOp opB then some (.invalidValue, C)
    else
      let mA := if opA = 111 then A.um else A.un
      let nA := if opA = 111 then A.un else A.um
      let mB := if opB = 111 then B.um else B.un
      let nB := if opB = 111 then B.un else B.um
      if nA ≠ mB then some (.invalidSize, C)
      else if mA = 0 ∨ nA = 0 ∨ nB = 0 ∨ A.nnz = 0 ∨ B.nnz = 0 then
        match C with
        | some H => some (.success, some H)
        | none => if o.quick then some (.memoryError, none) else
            some (.success, some ⟨mA, nB, 0, none, ⟨0, List.replicate (mA + 1).toNat 0, [], []⟩⟩)
      else sp2mRunM o w isReal tm g cj opA dA A opB dB B req C
  | _, _, _, _ => some (.invalidPointer, C)

/-! ### addition -/

/-- the allocations of an addition that fail -/
structure AddOom where
  /-- csradd.hpp:403-405 — the transpose of A -/
  trA : Bool
  /-- csradd.hpp:439-441 — the transpose of B -/
  trB : Bool
  /-- csradd.hpp:165 — an empty result -/
  empty : Bool
  /-- csradd.hpp:194 — the row pointers of C -/
  ptr : Bool
  /-- csradd.hpp:67 — the marks of a thread of the counting stage -/
  cnt : Nat → Bool
  /-- csradd.hpp:214-215 — the arrays of C, of exact size -/
  arrs : Bool
  /-- csradd.hpp:231 — C, of estimated size -/
  over : Bool
  /-- csradd.hpp:264-265 — the buffers of a thread of the main region -/
  loc : Nat → Bool
  /-- csradd.hpp:505 — the handle -/
  handle : Bool
  /-- csradd.hpp:506 — the list of matrices of the handle -/
  push : Bool

/-- enough memory, except perhaps for the handle (`h`) and its list of matrices (`p`) -/
def AddOom.upTo (h p : Bool) : AddOom :=
  ⟨false, false, false, false, fun _ => false, false, false, fun _ => false, h, p⟩

/-- enough memory -/
def AddOom.plenty : AddOom := AddOom.upTo false false

/-- csradd.hpp:32-119 — aoclsparse_add_csr_count_nnz -/
def addCountM (o : AddOom) (w : Nat) (th : Threads) (M N : Int) (A B : Arrs R) (ptr : List Int) :
    Option (Except Status (List Int)) := do
  let ptr ← wr ptr 0 A.base
  let ptr ← inTeamM o.cnt w th.ord1 th.team M (List.replicate (N + 1).toNat (-1)) (addCntRow A B) ptr
  if th.ord1.any o.cnt then some (.error .memoryError)
  else do
    let s ← prefixSum M A.base ptr
    if sumOverflow 64 w s.1 then some (.error .invalidSize)
    else some (.ok s.2)

/-- csradd.hpp:211-300 — the part of aoclsparse_add_csr_ref after the counting stage -/
def addPreM (o : AddOom) (w : Nat) (th : Threads) (gi : Nat → Int) (gv : Nat → R) (cj : R → R) (M N : Int)
    (A : Arrs R) (alpha : R) (B : Arrs R) (ptr : List Int) : Option (Except Status (Arrs R)) :=
  if o.arrs then some (.error .memoryError)
  else do
    let e ← rd ptr M
    let nnz := (e - A.base).toNat
    let r ← inTeamM o.loc w th.ord2 th.req M (addLoc0 N) (addRowPre cj alpha A B ptr)
      (alloc nnz gi, alloc nnz gv)
    if th.ord2.any o.loc then some (.error .memoryError)
    else some (.ok ⟨A.base, ptr, r.1, r.2⟩)

/-- csradd.hpp:225-325 — the same with row pointers built on the fly -/
def addSeqM (o : AddOom) (w : Nat) (th : Threads) (gp gi : Nat → Int) (gv : Nat → R) (cj : R → R) (M N : Int)
    (Annz Bnnz : Int) (A : Arrs R) (alpha : R) (B : Arrs R) : Option (Except Status (Arrs R)) :=
  if o.over then some (.error .memoryError)
  else do
    let n0 := (Annz + Bnnz).toNat
    let ptr ← wr (alloc (M + 1).toNat gp) 0 A.base
    let r ← inTeamM o.loc w th.ord2 th.req M (addLoc0 N) (addRowSeq cj alpha A B)
      (ptr, alloc n0 gi, alloc n0 gv)
    if th.ord2.any o.loc then some (.error .memoryError)
    else do
      let e ← rd r.1 M
      let nnz := (e - A.base).toNat
      some (.ok ⟨A.base, r.1, r.2.1.take nnz, r.2.2.take nnz⟩)

/-- csradd.hpp:122-329 — aoclsparse_add_csr_ref; every failure of the counting stage becomes
internal_error (line 208) -/
def addCsrM (o : AddOom) (w : Nat) (th : Threads) (gp gi : Nat → Int) (gv : Nat → R) (cj : R → R) (M N : Int)
    (Annz Bnnz : Int) (A : Arrs R) (alpha : R) (B : Arrs R) :
    Option (Except Status (Arrs R)) :=
  if M = 0 ∨ N = 0 ∨ (Annz = 0 ∧ Bnnz = 0) then
    if o.empty then some (.error .memoryError)
    else some (.ok ⟨A.base, List.replicate (M + 1).toNat A.base, [], []⟩)
  else if th.req ≠ 1 ∨ Annz + Bnnz > intMax w then
    if o.ptr then some (.error .memoryError)
    else (addCountM o w th M N A B (alloc (M + 1).toNat gp)).bind fun c =>
      match c with
      | .error _ => some (.error .internalError)
      | .ok ptr => addPreM o w th gi gv cj M N A alpha B ptr
  else addSeqM o w th gp gi gv cj M N Annz Bnnz A alpha B

/-- csradd.hpp:399-427 (436-463) — the arrays of the matrix or of its transpose -/
def orientM (fail tr : Bool) (A : RawMat R) : Option (Except Status (Arrs R)) :=
  if tr = true ∧ fail = true then some (.error .memoryError) else orient tr A

/-- csradd.hpp:384-500 — the part of aoclsparse_add_t between the checks and the allocation of the
handle -/
def addRunM (o : AddOom) (w : Nat) (th : Threads) (gp gi : Nat → Int) (gv : Nat → R) (cjg : R → R) (op : Int)
    (A : RawMat R) (alpha : R) (B : RawMat R) : Option (Except Status (OutMat R)) :=
  let needsT := (A.isT == decide (op = 111))
  let M := if needsT then A.n else A.m
  let N := if needsT then A.m else A.n
  (orientM o.trA needsT A).bind fun a =>
    match a with
    | .error e => some (.error e)
    | .ok a =>
      (orientM o.trB B.isT B).bind fun b =>
        match b with
        | .error e => some (.error e)
        | .ok b =>
          (addCsrM o w th gp gi gv (if op = 113 then cjg else id) M N A.nnz B.nnz a alpha b).bind
            fun c =>
              match c with
              | .error e => some (.error e)
              | .ok c => some (.ok ⟨M, N, c⟩)

/-- csradd.hpp:501-529 — the handle.  The second component says whether the matrix that `*C` pointed to
before the call is deleted: if line 505 throws, `*C` still has its old value, and line 516 deletes it. -/
def addHandleM (o : AddOom) (old : Bool) (r : Except Status (OutMat R)) : Except Status (OutMat R) × Bool :=
  match r with
  | .error e => (.error e, false)
  | .ok c =>
    if o.handle then (.error .memoryError, old)
    else if o.push then (.error .memoryError, false)
    else (.ok c, false)

/-- csradd.hpp:332-530 — aoclsparse_add_t; `old` says that `*C` is not null before the call -/
def addM (o : AddOom) (w : Nat) (th : Threads) (gp gi : Nat → Int) (gv : Nat → R) (cjg : R → R) (op : Int)
    (A : Option (RawMat R)) (alpha : R) (B : Option (RawMat R)) (old : Bool) :
    Option (Except Status (OutMat R) × Bool) :=
  match A, B with
  | some A, some B =>
    if A.fmt ≠ 0 ∨ B.fmt ≠ 0 then some (.error .notImplemented, false)
    else if (op = 111 ∧ (A.um ≠ B.um ∨ A.un ≠ B.un)) ∨
        (op ≠ 111 ∧ (A.um ≠ B.un ∨ A.un ≠ B.um)) then some (.error .invalidSize, false)
    else (addRunM o w th gp gi gv cjg op A alpha B).map (addHandleM o old)
  | _, _ => some (.error .invalidPointer, false)

end Model
end Verif
