/-
Model of the sparse matrix product
  library/src/level3/aoclsparse_csr2m.cpp
Parallel regions: see Core/Team.  Memory allocation is assumed to succeed.
-/
import Verif.Core.Step
import Verif.Model.CsrAdd
import Verif.Model.Dense
import Verif.Model.Doid

namespace Verif
namespace Model

/-- threads delivered in the counting and in the finalize region, and the orders in which they
run -/
structure Teams where
  t1 : Nat
  ord1 : List Nat
  t2 : Nat
  ord2 : List Nat

/-- contents of freshly allocated arrays -/
structure Garb (R : Type) where
  p : Nat → Int
  i : Nat → Int
  v : Nat → R

/-- the result handle: dimensions, number of entries, the arrays of the transposed result
(`mats[0]` with doid gt, only for products of two transposes) and the CSR arrays -/
structure Sp2mH (R : Type) where
  m : Int
  n : Int
  nnz : Int
  csc : Option (Arrs R)
  csr : Arrs R

variable {R : Type} [Zero R] [Add R] [Mul R]

/-! ### counting -/

/-- csr2m.cpp:134-145 (and its repetitions up to 203) — one entry of a row of B -/
def mmCntK (B : Arrs R) (i : Int) (k : Int) (s : List Int × Int) : Option (List Int × Int) := do
  let col ← rd B.ind k
  addCntB i (col - B.base) s

/-- csr2m.cpp:131-186 — four entries -/
def mmCnt4 (B : Arrs R) (i : Int) (k : Int) (s : List Int × Int) : Option (List Int × Int) := do
  let s ← mmCntK B i k s
  let s ← mmCntK B i (k + 1) s
  let s ← mmCntK B i (k + 2) s
  mmCntK B i (k + 3) s

/-- csr2m.cpp:121-204 — row `colA` of B -/
def mmCntInner (B : Arrs R) (i colA : Int) (s : List Int × Int) : Option (List Int × Int) := do
  let e ← rd B.ptr (colA + 1)
  let b ← rd B.ptr colA
  let kIter := (e - b).tdiv 4
  let kRem := (e - b).tmod 4
  let rowB := b - B.base
  let s ← forS 0 (kIter * 4) 4 (fun k s => mmCnt4 B i (rowB + k) s) s
  forC 0 kRem (fun k s => mmCntK B i (rowB + kIter * 4 + k) s) s

/-- csr2m.cpp:99-206 — count row `i` -/
def mmCntRow (A B : Arrs R) (i : Int) (s : List Int × List Int) :
    Option (List Int × List Int) := do
  let b ← rd A.ptr i
  let e ← rd A.ptr (i + 1)
  let c ← forC (b - A.base) (e - A.base) (fun j c => do
    let col ← rd A.ind j
    mmCntInner B i (col - A.base) c) (s.1, 0)
  let ptr ← wr s.2 (i + 1) c.2
  some (c.1, ptr)

/-- csr2m.cpp:46-302 — aoclsparse_csr2m_nnz_count; the input arrays are not null.
`g 2` are the arrays of C, `g 3` those of the CSR copy of a transposed result. -/
def mmCount (w : Nat) (tm : Teams) (g : Nat → Garb R) (m n : Int) (A B : Arrs R) (opflag : Int) :
    Option (Except Status (Sp2mH R)) := do
  let ptr ← wr (alloc (m + 1).toNat (g 2).p) 0 0
  let ptr ← inTeam w tm.ord1 tm.t1 m (List.replicate n.toNat (-1)) (mmCntRow A B) ptr
  let s ← prefixSum m 0 ptr
  if sumOverflow 64 w s.1 then some (.error .invalidSize)
  else do
    let nnz ← rd s.2 m
    let c : Arrs R := ⟨0, s.2, alloc nnz.toNat (g 2).i, alloc nnz.toNat (g 2).v⟩
    if opflag = 3 then
      some (.ok ⟨n, m, nnz, some c,
        ⟨0, if nnz = 0 then List.replicate (n + 1).toNat 0 else alloc (n + 1).toNat (g 3).p,
          alloc nnz.toNat (g 3).i, alloc nnz.toNat (g 3).v⟩⟩)
    else some (.ok ⟨m, n, nnz, none, c⟩)

/-! ### values -/

/-- locals of a thread and the index array while a row is accumulated (the array of structs `acc`
is kept as two arrays) -/
structure MmSt (R : Type) where
  idx : List Int
  sum : List R
  pos : Int
  ind : List Int

/-- csr2m.cpp:460-483 — add one product to the accumulator of column `col` -/
def mmStep (i col : Int) (v : R) (s : MmSt R) : Option (MmSt R) := do
  let t ← rd s.idx col
  if t ≠ i then do
    let ind ← wr s.ind s.pos col
    let idx ← wr s.idx col i
    let sum ← wr s.sum col v
    some ⟨idx, sum, s.pos + 1, ind⟩
  else do
    let x ← rd s.sum col
    let sum ← wr s.sum col (x + v)
    some ⟨s.idx, sum, s.pos, s.ind⟩

/-- csr2m.cpp:449-484 — the products of one entry of A with row `colA` of B -/
def mmInner (cjB : R → R) (B : Arrs R) (i colA : Int) (vA : R) (s : MmSt R) :
    Option (MmSt R) := do
  let b ← rd B.ptr colA
  let e ← rd B.ptr (colA + 1)
  forC (b - B.base) (e - B.base) (fun k s => do
    let col ← rd B.ind k
    let v ← rd B.val k
    mmStep i col (vA * cjB v) s) s

/-- csr2m.cpp:435-485 — accumulate row `i` -/
def mmAcc (cjA cjB : R → R) (A B : Arrs R) (i : Int) (s : MmSt R) : Option (MmSt R) := do
  let b ← rd A.ptr i
  let e ← rd A.ptr (i + 1)
  forC (b - A.base) (e - A.base) (fun j s => do
    let col ← rd A.ind j
    let v ← rd A.val j
    mmInner cjB B i (col - A.base) (cjA v) s) s

/-- csr2m.cpp:493-500 — store the sum of one entry and rebase its column (for a zero-based B the
column is stored unchanged) -/
def mmCopy (baseB : Int) (sum : List R) (k : Int) (c : List Int × List R) :
    Option (List Int × List R) := do
  let col ← rd c.1 k
  let x ← rd sum col
  let val ← wr c.2 k x
  let ind ← wr c.1 k (col - baseB)
  some (ind, val)

/-- csr2m.cpp:424-503 — row `i`; the last component of the state is the error flag -/
def mmRow (cjA cjB : R → R) (A B : Arrs R) (ptr : List Int) (i : Int)
    (s : (List Int × List R) × (List Int × List R) × Bool) :
    Option ((List Int × List R) × (List Int × List R) × Bool) := do
  let p ← rd ptr i
  let r ← mmAcc cjA cjB A B i ⟨s.1.1, s.1.2, p, s.2.1.1⟩
  let e ← rd ptr (i + 1)
  if r.pos ≠ e then some ((r.idx, r.sum), (r.ind, s.2.1.2), true)
  else do
    let c ← forC p e (mmCopy B.base r.sum) (r.ind, s.2.1.2)
    some ((r.idx, r.sum), c, s.2.2)

/-- csr2m.cpp:389-534 — the computation into the arrays `c` -/
def mmFill (w : Nat) (tm : Teams) (cjA cjB : R → R) (m n : Int) (A B c : Arrs R) :
    Option (Arrs R × Bool) := do
  let r ← inTeam w tm.ord2 tm.t2 m
    (List.replicate (n + B.base).toNat (-1), List.replicate (n + B.base).toNat (0 : R))
    (mmRow cjA cjB A B c.ptr) ((c.ind, c.val), false)
  some ({ c with ind := r.1.1, val := r.1.2 }, r.2)

/-- csr2m.cpp:510-533 — transpose the result -/
def mmBack (m n nnz : Int) (c r : Arrs R) : Option (Status × Arrs R) := do
  let t ← csr2csc m n nnz c.base c.base (some c.ptr) (some c.ind) (some c.val) (some r.ptr)
    (some r.ind) (some r.val)
  match t with
  | (.success, some cp, some ri, some cv) => some (.success, { r with ptr := cp, ind := ri, val := cv })
  | _ => some (.internalError, r)

/-- csr2m.cpp:312-534 — aoclsparse_csr2m_finalize on a handle made by the counting stage; the input
arrays are not null.  `csc_mat == nullptr` is the missing `csc`. -/
def mmFinalize (w : Nat) (tm : Teams) (cjA cjB : R → R) (mA nB : Int) (A B : Arrs R)
    (C : Option (Sp2mH R)) (opflag : Int) : Option (Status × Option (Sp2mH R)) :=
  match C with
  | none => some (.invalidPointer, none)
  | some H =>
    if opflag = 3 then
      match H.csc with
      | none => some (.invalidPointer, some H)
      | some c =>
        if H.n ≠ mA ∨ H.m ≠ nB then some (.invalidSize, some H)
        else (mmFill w tm cjA cjB H.n H.m A B c).bind fun r =>
          if r.2 then some (.internalError, some { H with csc := some r.1 })
          else (mmBack H.n H.m H.nnz r.1 H.csr).bind fun b =>
            some (b.1, some { H with csc := some r.1, csr := b.2 })
    else if H.m ≠ mA ∨ H.n ≠ nB then some (.invalidSize, some H)
    else (mmFill w tm cjA cjB H.m H.n A B H.csr).bind fun r =>
      some (if r.2 then .internalError else .success, some { H with csr := r.1 })

/-- csr2m.cpp:538-592 — sp2m_dispatch -/
def mmDispatch (w : Nat) (tm : Teams) (g : Nat → Garb R) (cjA cjB : R → R) (mA nB : Int)
    (A B : Arrs R) (C : Option (Sp2mH R)) (opflag : Int) (req : Int) :
    Option (Status × Option (Sp2mH R)) :=
  if req = 0 then
    (mmCount w tm g mA nB A B opflag).bind fun c =>
      match c with
      | .error e => some (e, C)
      | .ok H => some (.success, some H)
  else if req = 1 then mmFinalize w tm cjA cjB mA nB A B C opflag
  else if req = 2 then
    (mmCount w tm g mA nB A B opflag).bind fun c =>
      match c with
      | .error e => some (e, C)
      | .ok H => mmFinalize w tm cjA cjB mA nB A B (some H) opflag
  else some (.invalidValue, C)

/-! ### the API function -/

/-- csr2m.cpp:748-786 — the arrays of a matrix or of its transpose, in fresh memory -/
def orientG (tr : Bool) (g : Garb R) (A : RawMat R) : Option (Except Status (Arrs R)) :=
  if tr then do
    let r ← csr2csc A.m A.n A.nnz A.base A.base (some A.ptr) (some A.ind) (some A.val)
      (some (alloc (A.n + 1).toNat g.p)) (some (alloc A.nnz.toNat g.i))
      (some (alloc A.nnz.toNat g.v))
    match r with
    | (.success, some cp, some ri, some cv) => some (.ok ⟨A.base, cp, ri, cv⟩)
    | (st, _, _, _) => some (.error st)
  else some (.ok ⟨A.base, A.ptr, A.ind, A.val⟩)

/-- the doid of the stored arrays -/
def RawMat.doid (A : RawMat R) : Nat := if A.isT then gt else gn

/-- csr2m.cpp:727-847 — the part of sp2m after the quick return -/
def sp2mRun (w : Nat) (isReal : Bool) (tm : Teams) (g : Nat → Garb R) (cj : R → R) (opA : Int)
    (dA : Descr) (A : RawMat R) (opB : Int) (dB : Descr) (B : RawMat R) (req : Int)
    (C : Option (Sp2mH R)) : Option (Status × Option (Sp2mH R)) :=
  let effA := effDoid A.doid (getDoid isReal dA.type dA.fill opA)
  let effB := effDoid B.doid (getDoid isReal dB.type dB.fill opB)
  let trA := decide (effA &&& 2 ≠ 0)
  let trB := decide (effB &&& 2 ≠ 0)
  let cjA := if effA &&& 1 ≠ 0 then cj else id
  let cjB := if effB &&& 1 ≠ 0 then cj else id
  if trA ∧ trB then
    mmDispatch w tm g cjB cjA B.m A.n ⟨B.base, B.ptr, B.ind, B.val⟩ ⟨A.base, A.ptr, A.ind, A.val⟩
      C 3 req
  else
    (orientG trA (g 0) A).bind fun a =>
      match a with
      | .error e => some (e, C)
      | .ok a => (orientG trB (g 1) B).bind fun b =>
        match b with
        | .error e => some (e, C)
        | .ok b => mmDispatch w tm g cjA cjB (if trA then A.n else A.m) (if trB then B.m else B.n)
            a b C ((if trA then 1 else 0) + (if trB then 2 else 0)) req

/-- the operation codes of the API -/
def isOp (op : Int) : Bool := decide (op = 111 ∨ op = 112 ∨ op = 113)

/-- csr2m.cpp:594-851 — aoclsparse::sp2m for handles holding values of the type of the call; `C` is
the content of the (non-null) output pointer before the call, and in the result after it. -/
def sp2m (w : Nat) (isReal : Bool) (tm : Teams) (g : Nat → Garb R) (cj : R → R) (opA : Int)
    (dA : Option Descr) (A : Option (RawMat R)) (opB : Int) (dB : Option Descr)
    (B : Option (RawMat R)) (req : Int) (C : Option (Sp2mH R)) :
    Option (Status × Option (Sp2mH R)) :=
  match dA, dB, A, B with
  | some dA, some dB, some A, some B =>
    let C := if req ≠ 1 then none else C
    if A.fmt ≠ 0 ∨ B.fmt ≠ 0 then some (.notImplemented, C)
    else if ¬ (dA.base = 0 ∨ dA.base = 1) ∨ ¬ (dB.base = 0 ∨ dB.base = 1) then
      some (.invalidValue, C)
    else if A.base ≠ dA.base ∨ B.base ≠ dB.base then some (.invalidValue, C)
    else if dA.type ≠ 0 ∨ dB.type ≠ 0 then some (.notImplemented, C)
    else if ¬ isOp opA ∨ ¬ isOp opB then some (.invalidValue, C)
    else
      let mA := if opA = 111 then A.um else A.un
      let nA := if opA = 111 then A.un else A.um
      let mB := if opB = 111 then B.um else B.un
      let nB := if opB = 111 then B.un else B.um
      if nA ≠ mB then some (.invalidSize, C)
      else if mA = 0 ∨ nA = 0 ∨ nB = 0 ∨ A.nnz = 0 ∨ B.nnz = 0 then
        match C with
        | some H => some (.success, some H)
        | none => some (.success, some ⟨mA, nB, 0, none,
            ⟨0, List.replicate (mA + 1).toNat 0, [], []⟩⟩)
      else sp2mRun w isReal tm g cj opA dA A opB dB B req C
  | _, _, _, _ => some (.invalidPointer, C)

end Model
end Verif
