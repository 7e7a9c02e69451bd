/-
Model of the sparse times dense product
  library/src/level3/aoclsparse_csrmm.hpp (reference kernels, scaling, aoclsparse_csrmm_t)
  library/src/level3/aoclsparse_csrmm_kt.cpp (vectorised kernels)
  library/src/analysis/aoclsparse_csr_util.hpp: aoclsparse_set_mat_diag (473-509)

Pointer shifts `csr_val_fix = csr_val - base` are written as `val[k - base]`.  The parallel regions
are `inTeam` regions (Core/Team).  Simplification: offsets `i * ld + j` are unbounded integers; the
overflow guard on `dim * ld` of aoclsparse_csrmm_t is modelled.
-/
import Verif.Core.Team
import Verif.Model.Csrmv
import Verif.Model.VecOps
import Verif.Model.Doid
import Verif.Model.Sp2m

namespace Verif
namespace Model

variable {R : Type} [Zero R] [One R] [Add R] [Mul R] [DecidableEq R]

/-- the arguments shared by the kernels; `cj` is the identity or the conjugation (template
parameter CONJ_VAL) -/
structure MmIn (R : Type) where
  cj : R → R
  alpha : R
  beta : R
  m : Int
  n : Int
  base : Int
  ptr : List Int
  ind : List Int
  val : List R
  B : List R
  ldb : Int
  ldc : Int

/-- size of the team of a parallel region and the order in which its threads run -/
structure MmTeam where
  T : Nat
  ord : List Nat

/-- `aval * B[off + csr_col_ind[p]]`, csrmm.hpp:78-81 -/
def mmTerm (cj : R → R) (ind : List Int) (val B : List R) (off p : Int) : Option R := do
  let c ← rd ind p
  let v ← rd val p
  let b ← rd B (off + c)
  some (cj v * b)

/-- csrmm.hpp:75-82, csrmm_kt.cpp:160-170 — scalar accumulation over positions `lo .. hi-1` -/
def mmDotSeq (a : MmIn R) (off lo hi : Int) (init : R) : Option R :=
  forC lo hi (fun k r => do
    let t ← mmTerm a.cj a.ind a.val a.B off (k - a.base)
    some (t + r)) init

/-- csrmm.hpp:70-84 — one element of C, column-major -/
def mmColCell (a : MmIn R) (j i : Int) (C : List R) : Option (List R) := do
  let lo ← rd a.ptr i
  let hi ← rd a.ptr (i + 1)
  let s ← mmDotSeq a (j * a.ldb - a.base) lo hi 0
  let c ← rd C (i + j * a.ldc)
  wr C (i + j * a.ldc) (a.beta * c + a.alpha * s)

/-- csrmm.hpp:37-88 — aoclsparse_csrmm_col_major_ref -/
def mmColRef (w : Nat) (tm : MmTeam) (a : MmIn R) (C : List R) : Option (List R) :=
  inTeam w tm.ord tm.T a.n () (fun j s => do
    let C ← forC 0 a.m (mmColCell a j) s.2
    some ((), C)) C

/-- csrmm.hpp:127-130, csrmm_kt.cpp:243-247 — scale one row of C -/
def mmScaleRow (a : MmIn R) (idxC : Int) (C : List R) : Option (List R) :=
  forC 0 a.n (fun k C => do
    let c ← rd C (idxC + k)
    wr C (idxC + k) (c * a.beta)) C

/-- csrmm.hpp:131-140 — add a multiple of one row of B to one row of C -/
def mmAxpyRow (a : MmIn R) (idxC : Int) (p : Int) (C : List R) : Option (List R) := do
  let c ← rd a.ind p
  let v ← rd a.val p
  forC 0 a.n (fun k C => do
    let b ← rd a.B (c * a.ldb - a.base * a.ldb + k)
    addAt C (idxC + k) (a.cj v * b * a.alpha)) C

/-- csrmm.hpp:121-141 — one row of C, row-major -/
def mmRowOne (a : MmIn R) (i : Int) (C : List R) : Option (List R) := do
  let lo ← rd a.ptr i
  let hi ← rd a.ptr (i + 1)
  let C ← mmScaleRow a (i * a.ldc) C
  forC lo hi (fun j C => mmAxpyRow a (i * a.ldc) (j - a.base) C) C

/-- csrmm.hpp:89-147 — aoclsparse_csrmm_row_major_ref -/
def mmRowRef (w : Nat) (tm : MmTeam) (a : MmIn R) (C : List R) : Option (List R) :=
  inTeam w tm.ord tm.T a.m () (fun i s => do
    let C ← mmRowOne a i s.2
    some ((), C)) C

/-- the `K` lane pairs `(val, B)` of a group, csrmm_kt.cpp:137-148 -/
def mmLanes (K : Nat) (a : MmIn R) (off p : Int) : Option (List (R × R)) :=
  (List.range K).mapM fun (l : Nat) => do
    let c ← rd a.ind (p + (l : Int))
    let v ← rd a.val (p + (l : Int))
    let b ← rd a.B (off + c)
    some (a.cj v, b)

/-- csrmm_kt.cpp:121-171 — dot product of one row with one column of B.  Simplification: the code
interleaves the (independent) accumulations for four columns. -/
def mmDotK (V : Vec R) (K : Nat) (a : MmIn R) (off lo hi : Int) : Option R := do
  let mul := (hi - lo).tdiv K
  let rem := (hi - lo) - K * mul
  let v ← forS lo (hi - rem) K (fun idx v => do
    let L ← mmLanes K a off (idx - a.base)
    some (V.fma L v)) V.zero
  mmDotSeq a off (hi - rem) hi (if mul ≠ 0 then 0 + V.hsum v else 0)

/-- csrmm_kt.cpp:172-192 — store the element of column `j + q` if `q < blkr` -/
def mmPut (a : MmIn R) (blkr j q i : Int) (d : R) (C : List R) : Option (List R) :=
  if q < blkr then do
    let c ← rd C ((j + q) * a.ldc + i)
    wr C ((j + q) * a.ldc + i) (d * a.alpha + a.beta * c)
  else some C

/-- csrmm_kt.cpp:85-117 — number of columns in the block starting at `j`; `blkr` is the value left
by the previous block of the thread -/
def mmBlkCols (n j blkr : Int) : Int :=
  if j = n - 1 then 1 else if j = n - 2 then 2 else if j = n - 3 then 3 else blkr

/-- csrmm_kt.cpp:85-117 — the column of B used for column `q` of the block -/
def mmBlkCol (n j q : Int) : Int :=
  if j = n - 1 ∧ 1 ≤ q then j else if j = n - 2 ∧ 2 ≤ q then j else if j = n - 3 ∧ 3 ≤ q then j
  else j + q

/-- csrmm_kt.cpp:119-193 — row `i` of a block of columns -/
def mmColBlkRow (V : Vec R) (K : Nat) (a : MmIn R) (blkr j i : Int) (C : List R) :
    Option (List R) := do
  let lo ← rd a.ptr i
  let hi ← rd a.ptr (i + 1)
  let d0 ← mmDotK V K a (mmBlkCol a.n j 0 * a.ldb - a.base) lo hi
  let d1 ← mmDotK V K a (mmBlkCol a.n j 1 * a.ldb - a.base) lo hi
  let d2 ← mmDotK V K a (mmBlkCol a.n j 2 * a.ldb - a.base) lo hi
  let d3 ← mmDotK V K a (mmBlkCol a.n j 3 * a.ldb - a.base) lo hi
  let C ← mmPut a blkr j 3 i d3 C
  let C ← mmPut a blkr j 2 i d2 C
  let C ← mmPut a blkr j 1 i d1 C
  mmPut a blkr j 0 i d0 C

/-- csrmm_kt.cpp:83-194 — one block of columns; the state carries `blkr` -/
def mmColBlk (V : Vec R) (K : Nat) (a : MmIn R) (j : Int) (s : Int × List R) :
    Option (Int × List R) := do
  let blkr := mmBlkCols a.n j s.1
  let C ← forC 0 a.m (mmColBlkRow V K a blkr j) s.2
  some (blkr, C)

/-- csrmm_kt.cpp:72-77 — a chunk boundary rounded up to a multiple of 4, at most `n` -/
def roundUp4 (n x : Int) : Int :=
  min (if x.tmod 4 = 0 then x else x + 4 - x.tmod 4) n

/-- csrmm_kt.cpp:31-197 — csrmm_col_kt -/
def mmColKt (w : Nat) (tm : MmTeam) (V : Vec R) (K : Nat) (a : MmIn R) (C : List R) :
    Option (List R) :=
  tm.ord.foldlM (fun C (t : Nat) => do
    let s ← chk w (a.n * t)
    let e ← chk w (a.n * (t + 1))
    let r ← forS (roundUp4 a.n (s.tdiv tm.T)) (roundUp4 a.n (e.tdiv tm.T)) 4 (mmColBlk V K a) (4, C)
    some r.2) C

/-- csrmm_kt.cpp:250-282 — number of entries in the group starting at `idx` of a row ending at
`e` -/
def mmBlkEnts (e idx : Int) : Nat :=
  if idx = e - 1 then 1 else if idx = e - 2 then 2 else if idx = e - 3 then 3 else 4

/-- csrmm_kt.cpp:283-292 — row of B and value of the entry at `idx` -/
def mmEnt (a : MmIn R) (idx : Int) : Option (Int × R) := do
  let c ← rd a.ind (idx - a.base)
  let v ← rd a.val (idx - a.base)
  some (c, a.cj v)

/-- csrmm_kt.cpp:293-330 — a vector of `K` elements of the row: load, fused multiply-adds, store -/
def mmRowVec (K : Nat) (a : MmIn R) (idxC : Int) (blkr : Nat) (es : List (Int × R)) (j : Int)
    (C : List R) : Option (List R) := do
  let c ← vload C (idxC + j) K
  let bs ← es.mapM (fun e => do
    let b ← vload a.B (j + (e.1 * a.ldb - a.base * a.ldb)) K
    some (a.alpha * e.2, b))
  vstore C (idxC + j)
    ((bs.take blkr).foldl (fun c ab => List.zipWith (fun b c => ab.1 * b + c) ab.2 c) c)

/-- csrmm_kt.cpp:332-356 — one element of the remainder -/
def mmRowRem (a : MmIn R) (idxC : Int) (blkr : Nat) (es : List (Int × R)) (j : Int)
    (C : List R) : Option (List R) :=
  (es.take blkr).foldlM (fun C e => do
    let b ← rd a.B (e.1 * a.ldb - a.base * a.ldb + j)
    addAt C (idxC + j) (e.2 * b * a.alpha)) C

/-- csrmm_kt.cpp:248-358 — a group of at most four entries of the row -/
def mmRowBlk (K : Nat) (a : MmIn R) (idxC e idx : Int) (C : List R) : Option (List R) := do
  let blkr := mmBlkEnts e idx
  let es ← (List.range 4).mapM (fun (q : Nat) => mmEnt a (if q < blkr then idx + q else idx))
  let mul := a.n.tdiv K
  let rem := a.n - K * mul
  let C ← forS 0 (a.n - rem) K (mmRowVec K a idxC blkr es) C
  forC (a.n - rem) a.n (mmRowRem a idxC blkr es) C

/-- csrmm_kt.cpp:241-359 — one row of C -/
def mmRowKtOne (K : Nat) (a : MmIn R) (i : Int) (C : List R) : Option (List R) := do
  let C ← mmScaleRow a (i * a.ldc) C
  let lo ← rd a.ptr i
  let hi ← rd a.ptr (i + 1)
  forS lo hi 4 (mmRowBlk K a (i * a.ldc) hi) C

/-- csrmm_kt.cpp:199-363 — csrmm_row_kt -/
def mmRowKt (w : Nat) (tm : MmTeam) (K : Nat) (a : MmIn R) (C : List R) : Option (List R) :=
  inTeam w tm.ord tm.T a.m () (fun i s => do
    let C ← mmRowKtOne K a i s.2
    some ((), C)) C

/-- the kernels of the dispatch tables, csrmm.hpp:775-837 -/
inductive MmKernel (R : Type) where
  | ref
  /-- csrmm_col_kt / csrmm_row_kt with registers `V` of `K` elements -/
  | kt (K : Nat) (V : Vec R)

/-- csrmm.hpp:775-837 — invoke the selected kernel -/
def mmKernel (w : Nat) (tm : MmTeam) (ker : MmKernel R) (col : Bool) (a : MmIn R) (C : List R) :
    Option (List R) :=
  match ker, col with
  | .ref, true => mmColRef w tm a C
  | .ref, false => mmRowRef w tm a C
  | .kt K V, true => mmColKt w tm V K a C
  | .kt K _, false => mmRowKt w tm K a C

/-- offset of element (i, j) of a dense matrix, csrmm.hpp:174-175, 281-282 -/
def mmIx (col : Bool) (ld i j : Int) : Int := if col then i + j * ld else i * ld + j

/-- csrmm.hpp:362-425 — scale_dense_matrix.  Simplification: the `parallel for` runs in index
order (its iterations write disjoint cells). -/
def scaleDense (col : Bool) (m n ld : Int) (beta : R) (C : List R) : Option (List R) :=
  let cell := fun (i j : Int) (C : List R) =>
    if beta = 0 then wr C (mmIx col ld i j) 0
    else do
      let c ← rd C (mmIx col ld i j)
      wr C (mmIx col ld i j) (beta * c)
  if col then forC 0 n (fun j C => forC 0 m (fun i C => cell i j C) C) C
  else forC 0 m (fun i C => forC 0 n (fun j C => cell i j C) C) C

/-- csrmm.hpp:170-178, 184-192 (row), 277-285, 291-299 (column) — add `v` times row `c` of B to
row `i` of C -/
def mmSymDiag (col : Bool) (a : MmIn R) (i c : Int) (v : R) (C : List R) : Option (List R) :=
  forC 0 a.n (fun j C => do
    let b ← rd a.B (mmIx col a.ldb c j)
    addAt C (mmIx col a.ldc i j) (v * b * a.alpha)) C

/-- csrmm.hpp:197-246 (row), 304-353 (column) — an off-diagonal entry: it is used
for its own position and, as `hc v`, for the mirrored one -/
def mmSymOff (col : Bool) (hc : R → R) (lower : Bool) (a : MmIn R) (i c : Int) (v : R)
    (C : List R) : Option (List R) :=
  forC 0 a.n (fun j C =>
    if (if lower then i > c else i < c) then do
      let b ← rd a.B (mmIx col a.ldb c j)
      let C ← addAt C (mmIx col a.ldc i j) (v * b * a.alpha)
      let b' ← rd a.B (mmIx col a.ldb i j)
      addAt C (mmIx col a.ldc c j) (hc v * b' * a.alpha)
    else some C) C

/-- csrmm.hpp:179-248, 286-355 — one stored entry -/
def mmSymEnt (col : Bool) (hc : R → R) (lower : Bool) (diag : Nat) (a : MmIn R) (i k : Int)
    (C : List R) : Option (List R) := do
  let v0 ← rd a.val k
  let c0 ← rd a.ind k
  let v := a.cj v0
  let c := c0 - a.base
  if i = c ∧ diag = 0 then mmSymDiag col a i c v C
  else mmSymOff col hc lower a i c v C

/-- csrmm.hpp:166-249, 273-356 — one row of A -/
def mmSymRow (col : Bool) (hc : R → R) (lower : Bool) (diag : Nat) (a : MmIn R) (i : Int)
    (C : List R) : Option (List R) := do
  let lo ← rd a.ptr i
  let hi ← rd a.ptr (i + 1)
  let C ← if diag = 1 then mmSymDiag col a i i 1 C else some C
  forC (lo - a.base) (hi - a.base) (fun k C => mmSymEnt col hc lower diag a i k C) C

/-- csrmm.hpp:148-251 — aoclsparse_csrmm_sym_row_ref, 255-358 — aoclsparse_csrmm_sym_col_ref; `hc` is
the conjugation for HERM, the identity otherwise -/
def mmSym (col : Bool) (hc : R → R) (lower : Bool) (diag : Nat) (a : MmIn R) (C : List R) :
    Option (List R) :=
  forC 0 a.m (mmSymRow col hc lower diag a) C

/-- an `aoclsparse::csr` object in the list of copies of a handle (include/aoclsparse_mat_structures.hpp
147-251): its doid, the diagonal type its values were last set for, dimensions and arrays; `idiag`
and `diagVal` exist only in expanded symmetric/Hermitian copies -/
structure MCopy (R : Type) where
  doid : Nat
  mtxDiag : Nat
  m : Int
  n : Int
  base : Int
  ptr : List Int
  ind : List Int
  val : List R
  idiag : Option (List Int)
  diagVal : Option (List R)

/-- csr_util.hpp:473-509 — aoclsparse_set_mat_diag.  Simplification: for a diagonal type outside the
enumeration the code writes an uninitialised value; the model reports undefined behaviour. -/
def setMatDiag (m : Int) (diag : Nat) (c : MCopy R) : Option (Status × MCopy R) :=
  match c.idiag, c.diagVal with
  | some idiag, some dv =>
    if diag = 0 then do
      let val ← forC 0 m (fun i val => do
        let p ← rd idiag i
        let d ← rd dv i
        wr val p d) c.val
      some (.success, { c with val := val, mtxDiag := diag })
    else do
      let d ← if diag = 1 then some 1 else if diag = 2 then some 0 else none
      let val ← forC 0 m (fun i val => do
        let p ← rd idiag i
        wr val p d) c.val
      some (.success, { c with val := val, mtxDiag := diag })
  | _, _ => some (.invalidPointer, c)

/-- csrmm.hpp:624-655 — look for a copy of kind `req`: the copies before it, the copy and the
copies after it -/
def findCopy (req : Nat) : List (MCopy R) → Option (List (MCopy R) × MCopy R × List (MCopy R))
  | [] => none
  | c :: cs =>
    if c.doid = req then some ([], c, cs)
    else (findCopy req cs).map fun r => (c :: r.1, r.2.1, r.2.2)

/-- the first element of the list of copies: the user's arrays -/
def RawMat.copy0 (A : RawMat R) : MCopy R :=
  ⟨A.doid, 0, A.m, A.n, A.base, A.ptr, A.ind, A.val, none, none⟩

/-- the arguments that do not change during a call -/
structure MmCall (R : Type) where
  cj : R → R
  alpha : R
  beta : R
  B : List R
  n : Int
  ldb : Int
  ldc : Int
  col : Bool

/-- kernel arguments for the arrays `s` of a matrix with `m` rows -/
def MmCall.args (c : MmCall R) (conj : Bool) (m : Int) (s : Arrs R) : MmIn R :=
  ⟨if conj then c.cj else id, c.alpha, c.beta, m, c.n, s.base, s.ptr, s.ind, s.val, c.B, c.ldb, c.ldc⟩

/-- csrmm.hpp:627-653, 730-731, 775-837 — the copy is used instead of the user's arrays; the user's
arrays themselves are the first candidate, and their diagonal is only adjusted for types that they
are never a candidate for -/
def mmUseCopy (w : Nat) (tm : MmTeam) (ker : MmKernel R) (c : MmCall R) (A : RawMat R) (d : Descr)
    (pre : List (MCopy R)) (x : MCopy R) (post : List (MCopy R)) (C : List R) :
    Option (Status × List R × List (MCopy R)) :=
  let go := fun (x : MCopy R) =>
    (mmKernel w tm ker c.col (c.args false x.m ⟨x.base, x.ptr, x.ind, x.val⟩) C).bind fun C =>
      some (Status.success, C, pre ++ x :: post)
  if d.diag ≠ x.mtxDiag ∧ d.type ≠ 0 then
    (setMatDiag A.um d.diag x).bind fun r =>
      if r.1 ≠ .success then some (r.1, C, pre ++ r.2 :: post) else go r.2
  else go x

/-- csrmm.hpp:656-774 — no copy was found: dispatch on the effective identifier -/
def mmDirect (w : Nat) (tm : MmTeam) (ker : MmKernel R) (g : Garb R) (c : MmCall R) (A : RawMat R)
    (d : Descr) (op : Int) (eff : Nat) (C : List R) : Option (Status × List R) :=
  let lower : Bool := if A.isT && decide (d.type ≠ 0) then decide (d.fill ≠ 0) else decide (d.fill = 0)
  let conjSym : Bool := decide (eff = 5 ∨ eff = 7 ∨ eff = 9 ∨ eff = 10)
  let mc := if op = 111 then A.um else A.un
  let arrs : Arrs R := ⟨A.base, A.ptr, A.ind, A.val⟩
  if 4 ≤ eff ∧ eff ≤ 7 then
    (scaleDense c.col mc c.n c.ldc c.beta C).bind fun C =>
      (mmSym c.col id lower d.diag (c.args conjSym A.un { arrs with base := d.base }) C).bind fun C =>
        some (.success, C)
  else if 8 ≤ eff ∧ eff ≤ 11 then
    (scaleDense c.col mc c.n c.ldc c.beta C).bind fun C =>
      (mmSym c.col c.cj lower d.diag (c.args conjSym A.un { arrs with base := d.base }) C).bind fun C =>
        some (.success, C)
  else if eff ≤ 3 then
    if eff = gt ∨ eff = gh then
      (orientG true g { A with base := d.base }).bind fun r =>
        match r with
        | .error _ => some (.internalError, C)
        | .ok s => (mmKernel w tm ker c.col (c.args (decide (eff = gh)) A.n s) C).bind fun C =>
            some (.success, C)
    else
      (mmKernel w tm ker c.col (c.args (decide (eff = gc)) A.m { arrs with base := d.base }) C).bind
        fun C => some (.success, C)
  else some (.notImplemented, C)

/-- csrmm.hpp:527-655 — after the argument checks: leading dimensions, overflow guard, `alpha = 0`,
lookup, dispatch -/
def mmRun (w : Nat) (isReal : Bool) (tm : MmTeam) (ker : MmKernel R) (g : Garb R) (c : MmCall R)
    (op : Int) (A : RawMat R) (copies : List (MCopy R)) (d : Descr) (C : List R) :
    Option (Status × List R × List (MCopy R)) :=
  let m := A.um
  let k := A.un
  let req := getDoid isReal d.type d.fill op
  let eff := if A.isT then transDoid req else req
  let chkB := if op = 111 then (if c.col then k else c.n) else (if c.col then m else c.n)
  let chkC := if op = 111 then (if c.col then m else c.n) else (if c.col then k else c.n)
  let mc := if op = 111 then m else k
  let bRows := if op = 111 then k else m
  if c.ldb < (if 1 ≥ chkB then 1 else chkB) then some (.invalidSize, C, copies)
  else if c.ldc < (if 1 ≥ chkC then 1 else chkC) then some (.invalidSize, C, copies)
  else if prodOvf w (if c.col then c.n else mc) c.ldc ∨ prodOvf w (if c.col then c.n else bRows) c.ldb
  then some (.invalidSize, C, copies)
  else if c.alpha = 0 then
    (scaleDense c.col mc c.n c.ldc c.beta C).bind fun C => some (.success, C, copies)
  else
    match findCopy req (A.copy0 :: copies) with
    | some (pre, x, post) =>
      (mmUseCopy w tm ker c A d pre x post C).bind fun r => some (r.1, r.2.1, r.2.2.tail)
    | none => (mmDirect w tm ker g c A d op eff C).bind fun r => some (r.1, r.2, copies)

/-- csrmm.hpp:429-838 — aoclsparse_csrmm_t for a handle holding values of the type of the call and
non-null arrays.  `copies` are the `aoclsparse::csr` objects of the handle after the user's arrays
(copies in other formats are skipped by the lookup).  The result is the status, the contents of C
and the copies after the call. -/
def csrmm (w : Nat) (isReal : Bool) (tm : MmTeam) (ker : MmKernel R) (g : Garb R) (cj : R → R)
    (op : Int) (alpha : R) (A : Option (RawMat R)) (copies : List (MCopy R)) (d : Option Descr)
    (order : Int) (B : Option (List R)) (n ldb : Int) (beta : R) (C : Option (List R)) (ldc : Int) :
    Option (Status × Option (List R) × List (MCopy R)) :=
  match A, d, B, C with
  | some A, some d, some B, some C =>
    if A.fmt ≠ 0 then some (.notImplemented, some C, copies)
    else if isOp op = false then some (.invalidValue, some C, copies)
    else if d.type ≠ 0 ∧ d.type ≠ 1 ∧ d.type ≠ 2 then some (.notImplemented, some C, copies)
    else if (d.type = 1 ∨ d.type = 2) ∧ A.um ≠ A.un then some (.invalidSize, some C, copies)
    else if order ≠ 0 ∧ order ≠ 1 then some (.invalidValue, some C, copies)
    else if A.base ≠ d.base then some (.invalidValue, some C, copies)
    else if A.um < 0 ∨ n < 0 ∨ A.un < 0 then some (.invalidSize, some C, copies)
    else if A.um = 0 ∨ n = 0 ∨ A.un = 0 then some (.success, some C, copies)
    else if alpha = 0 ∧ beta = 1 then some (.success, some C, copies)
    else
      (mmRun w isReal tm ker g ⟨cj, alpha, beta, B, n, ldb, ldc, decide (order = 1)⟩ op A copies d
        C).bind fun r => some (r.1, some r.2.1, r.2.2)
  | _, _, _, C => some (.invalidPointer, C, copies)

end Model
end Verif
