/-
Model of the level-1 functions
  library/src/level1/aoclsparse_gthr.hpp, aoclsparse_gthr_kt.cpp
  library/src/level1/aoclsparse_sctr.hpp, aoclsparse_sctr_kt.cpp
  library/src/level1/aoclsparse_axpyi.hpp, aoclsparse_axpyi_kt.cpp
  library/src/level1/aoclsparse_roti.hpp, aoclsparse_roti_kt.cpp
  library/src/level1/aoclsparse_dot.hpp, aoclsparse_dot_kt.cpp
  library/src/level1/aoclsparse_dense_dot.hpp, aoclsparse_dense_dot_kt.cpp

Every function has a reference kernel and kernels on vector registers of `T` elements (the template
parameter `tsz`, positive); which one runs is decided by the dispatcher and is a parameter here.
-/
import Verif.Model.Csrmv
import Verif.Model.VecOps
import Verif.Core.Types

namespace Verif
namespace Model

variable {R : Type}

/-- extra/aoclsparse_utils.hpp (Index::type, Index::index_t) — how element `i` is located: at a
stride, or through an array of positions (which may be null) -/
inductive Idx where
  | strided (s : Int)
  | indexed (xi : Option (List Int))

/-- the kernel picked by the dispatcher; `kt T`: registers of `T` elements -/
inductive L1Ker where
  | ref
  | kt (T : Nat)

/-- position of element `i`: `xi * i` or `xi[i]` -/
def Idx.pos : Idx → Int → Option Int
  | .strided s, i => some (s * i)
  | .indexed xi, i => xi.bind fun xi => rd xi i

/-- position of lane `l` of block `i` of a vector kernel: `(i * xi) * tsz + l * xi`
(gthr_kt.cpp:44-51) or `xi[i * tsz + l]` -/
def Idx.lane (ix : Idx) (T : Nat) (i : Int) (l : Nat) : Option Int :=
  match ix with
  | .strided s => some (i * s * T + (l : Int) * s)
  | .indexed xi => xi.bind fun xi => rd xi (i * T + (l : Int))

/-- the positions of the lanes of block `i` -/
def Idx.lanes (ix : Idx) (T : Nat) (i : Int) : Option (List Int) :=
  (List.range T).mapM (ix.lane T i)

/-- gthr_ref:53-57 and sctr_ref:49-51 — only positions from an index array are checked to be
non-negative -/
def Idx.bad (ix : Idx) (p : Int) : Bool :=
  match ix with
  | .strided _ => false
  | .indexed _ => decide (p < 0)

/-- kt_set_p / kt_maskz_set_p — lane `l` is `v[b[l]]` -/
def vgather (v : List R) (b : List Int) : Option (List R) := b.mapM (rd v)

/-- kt_l0.hpp:37-48 — kt_scatter_p without a fused operation: `for k: v[b[k]] = a[k]` -/
def vscatter (a : List R) (v : List R) (b : List Int) : Option (List R) :=
  (b.zip a).foldlM (fun v pa => wr v pa.1 pa.2) v

/-- `for(i = 0; i < nnz / tsz; ++i) blk; for(i = nnz - nnz % tsz; i < nnz; ++i) one;` — the shape of
all vector kernels -/
def blocked {σ : Type} (T : Nat) (nnz : Int) (blk one : Int → σ → Option σ) (s : σ) : Option σ := do
  let s ← forC 0 (nnz.tdiv T) blk s
  forC (nnz - nnz.tmod T) nnz one s

/-! ### gather -/

/-- gthr.hpp:58-61, gthr_kt.cpp:85-88 — `if constexpr(OP == gatherz) *yp = 0` -/
def zeroAt [Zero R] (z : Bool) (y : List R) (p : Int) : Option (List R) :=
  if z then wr y p 0 else some y

/-- gthr_kt.cpp:64-67 — `if constexpr(OP == gatherz) kt_scatter_p(0, …)`; only in the branch for
indexed access (the strided gather is instantiated without zeroing) -/
def zeroBlk [Zero R] (z : Bool) (ix : Idx) (T : Nat) (y : List R) (b : List Int) : Option (List R) :=
  match ix with
  | .strided _ => some y
  | .indexed _ => if z then vscatter (List.replicate T 0) y b else some y

/-- gthr.hpp:39-62 — body of gthr_ref; the state is (x, y) -/
def gthrRefBody [Zero R] (z : Bool) (ix : Idx) (i : Int) (s : List R × List R) :
    Option (Except (Status × List R × List R) (List R × List R)) := do
  let p ← ix.pos i
  if ix.bad p then some (.error (.invalidIndexValue, s))
  else do
    let v ← rd s.2 p
    let x ← wr s.1 i v
    let y ← zeroAt z s.2 p
    some (.ok (x, y))

/-- gthr_kt.cpp:49-69 — one block -/
def gthrBlk [Zero R] (z : Bool) (ix : Idx) (T : Nat) (i : Int) (s : List R × List R) :
    Option (List R × List R) := do
  let b ← ix.lanes T i
  let v ← vgather s.2 b
  let x ← vstore s.1 (i * T) v
  let y ← zeroBlk z ix T s.2 b
  some (x, y)

/-- gthr_kt.cpp:71-89 — one element of the remainder -/
def gthrOne [Zero R] (z : Bool) (ix : Idx) (i : Int) (s : List R × List R) :
    Option (List R × List R) := do
  let p ← ix.pos i
  let v ← rd s.2 p
  let x ← wr s.1 i v
  let y ← zeroAt z s.2 p
  some (x, y)

/-- gthr.hpp:33-66 (gthr_ref) and gthr_kt.cpp:29-92 (gthr_kt): status, x, y -/
def gthrKernel [Zero R] (ker : L1Ker) (z : Bool) (nnz : Int) (y x : List R) (ix : Idx) :
    Option (Status × List R × List R) :=
  match ker with
  | .ref => (forE 0 nnz (gthrRefBody z ix) (x, y)).map fun
    | .ok s => (.success, s)
    | .error e => e
  | .kt T => (blocked T nnz (gthrBlk z ix T) (gthrOne z ix) (x, y)).map fun s => (.success, s)

/-- gthr.hpp:73-136 — aoclsparse_gthr_t: gather (`z` false) and gather with zeroing.  `ker = none`: the
kernel id is not valid.  Result: status, x, y. -/
def gthr [Zero R] (ker : Option L1Ker) (z : Bool) (nnz : Int) (y x : Option (List R)) (ix : Idx) :
    Option (Status × Option (List R) × Option (List R)) :=
  if nnz < 0 then some (.invalidSize, x, y)
  else if nnz = 0 then some (.success, x, y)
  else match y, x with
    | some y', some x' =>
      match ix with
      | .strided s => if s < 0 then some (.invalidSize, x, y) else run y' x'
      | .indexed none => some (.invalidPointer, x, y)
      | .indexed (some _) => run y' x'
    | _, _ => some (.invalidPointer, x, y)
where
  /-- gthr.hpp:112-134 -/
  run (y' x' : List R) : Option (Status × Option (List R) × Option (List R)) :=
    match ker with
    | none => some (.invalidKid, x, y)
    | some k => (gthrKernel k z nnz y' x' ix).map fun r => (r.1, some r.2.1, some r.2.2)

/-! ### scatter -/

/-- sctr.hpp:40-55 — body of sctr_ref; the state is y -/
def sctrRefBody (x : List R) (ix : Idx) (i : Int) (y : List R) :
    Option (Except (Status × List R) (List R)) := do
  let p ← ix.pos i
  if ix.bad p then some (.error (.invalidIndexValue, y))
  else do
    let v ← rd x i
    let y ← wr y p v
    some (.ok y)

/-- sctr_kt.cpp:55-70 — one block -/
def sctrBlk (x : List R) (ix : Idx) (T : Nat) (i : Int) (y : List R) : Option (List R) := do
  let v ← vload x (i * T) T
  let b ← ix.lanes T i
  vscatter v y b

/-- sctr_kt.cpp:74-86 — one element of the remainder -/
def sctrOne (x : List R) (ix : Idx) (i : Int) (y : List R) : Option (List R) := do
  let p ← ix.pos i
  let v ← rd x i
  wr y p v

/-- sctr.hpp:34-57 (sctr_ref) and sctr_kt.cpp:34-88 (sctr_kt) -/
def sctrKernel (ker : L1Ker) (nnz : Int) (x : List R) (ix : Idx) (y : List R) :
    Option (Status × List R) :=
  match ker with
  | .ref => (forE 0 nnz (sctrRefBody x ix) y).map fun
    | .ok y => (.success, y)
    | .error e => e
  | .kt T => (blocked T nnz (sctrBlk x ix T) (sctrOne x ix) y).map fun y => (.success, y)

/-- sctr.hpp:63-125 — aoclsparse_scatter: status and y -/
def sctr (ker : Option L1Ker) (nnz : Int) (x : Option (List R)) (ix : Idx) (y : Option (List R)) :
    Option (Status × Option (List R)) :=
  match x, y with
  | some x', some y' =>
    if nnz = 0 then some (.success, y)
    else if nnz < 0 then some (.invalidSize, y)
    else match ix with
      | .strided s => if s ≤ 0 then some (.invalidSize, y) else run x' y'
      | .indexed none => some (.invalidPointer, y)
      | .indexed (some _) => run x' y'
  | _, _ => some (.invalidPointer, y)
where
  /-- sctr.hpp:100-123 -/
  run (x' y' : List R) : Option (Status × Option (List R)) :=
    match ker with
    | none => some (.invalidKid, y)
    | some k => (sctrKernel k nnz x' ix y').map fun r => (r.1, some r.2)

/-! ### y[indx[i]] += a * x[i] -/

/-- axpyi.hpp:42-48 and axpyi_kt.cpp:51-54 — one element -/
def axpyiOne [Add R] [Mul R] (a : R) (x : List R) (ix : Idx) (i : Int) (y : List R) :
    Option (List R) := do
  let p ← ix.pos i
  let v ← rd x i
  let w ← rd y p
  wr y p (a * v + w)

/-- axpyi.hpp:41-48 — body of axpyi_ref -/
def axpyiRefBody [Add R] [Mul R] (a : R) (x : List R) (ix : Idx) (i : Int) (y : List R) :
    Option (Except (Status × List R) (List R)) := do
  let p ← ix.pos i
  if p < 0 then some (.error (.invalidIndexValue, y))
  else do
    let y ← axpyiOne a x ix i y
    some (.ok y)

/-- axpyi_kt.cpp:40-49 — one block -/
def axpyiBlk [Add R] [Mul R] (a : R) (x : List R) (ix : Idx) (T : Nat) (i : Int) (y : List R) :
    Option (List R) := do
  let v ← vload x (i * T) T
  let b ← ix.lanes T i
  let w ← vgather y b
  vscatter (List.zipWith (fun v w => a * v + w) v w) y b

/-- axpyi.hpp:33-50 (axpyi_ref) and axpyi_kt.cpp:28-57 (axpyi_kt).  Simplification: the loop counter of
axpyi_kt advances by `tsz`; here blocks are numbered. -/
def axpyiKernel [Add R] [Mul R] (ker : L1Ker) (nnz : Int) (a : R) (x : List R) (ix : Idx) (y : List R) :
    Option (Status × List R) :=
  match ker with
  | .ref => (forE 0 nnz (axpyiRefBody a x ix) y).map fun
    | .ok y => (.success, y)
    | .error e => e
  | .kt T => (blocked T nnz (axpyiBlk a x ix T) (axpyiOne a x ix) y).map fun y => (.success, y)

/-- axpyi.hpp:56-104 — aoclsparse_axpyi_t (and the wrappers of axpyi.cpp; for complex data the scalar
is passed by address, `none` = null): status and y -/
def axpyi [Add R] [Mul R] (ker : Option L1Ker) (nnz : Int) (a : Option R) (x : Option (List R))
    (indx : Option (List Int)) (y : Option (List R)) : Option (Status × Option (List R)) :=
  match a, x, indx, y with
  | some a, some x', some _, some y' =>
    if nnz = 0 then some (.success, y)
    else if nnz < 0 then some (.invalidSize, y)
    else match ker with
      | none => some (.invalidKid, y)
      | some k => (axpyiKernel k nnz a x' (.indexed indx) y').map fun r => (r.1, some r.2)
  | _, _, _, _ => some (.invalidPointer, y)

/-! ### Givens rotation -/

/-- roti.hpp:50-52 and roti_kt.cpp:81-83 — one element; the state is (x, y) -/
def rotiOne [Add R] [Mul R] [Sub R] (c s : R) (ix : Idx) (i : Int) (st : List R × List R) :
    Option (List R × List R) := do
  let p ← ix.pos i
  let temp ← rd st.1 i
  let yv ← rd st.2 p
  let x ← wr st.1 i (c * temp + s * yv)
  let y ← wr st.2 p (c * yv - s * temp)
  some (x, y)

/-- roti.hpp:45-53 — body of roti_ref -/
def rotiRefBody [Add R] [Mul R] [Sub R] (c s : R) (ix : Idx) (i : Int) (st : List R × List R) :
    Option (Except (Status × List R × List R) (List R × List R)) := do
  let p ← ix.pos i
  if p < 0 then some (.error (.invalidIndexValue, st))
  else do
    let st ← rotiOne c s ix i st
    some (.ok st)

/-- roti_kt.cpp:54-75 — one block -/
def rotiBlk [Add R] [Mul R] [Sub R] (c s : R) (ix : Idx) (T : Nat) (i : Int) (st : List R × List R) :
    Option (List R × List R) := do
  let xv ← vload st.1 (i * T) T
  let b ← ix.lanes T i
  let yv ← vgather st.2 b
  let t0 := xv.map fun x => c * x
  let t1 := xv.map fun x => s * x
  let t0 := List.zipWith (fun y t => s * y + t) yv t0
  let t1 := List.zipWith (fun y t => c * y - t) yv t1
  let x ← vstore st.1 (i * T) t0
  let y ← vscatter t1 st.2 b
  some (x, y)

/-- roti.hpp:36-55 (roti_ref) and roti_kt.cpp:33-87 (roti_kt) -/
def rotiKernel [Add R] [Mul R] [Sub R] (ker : L1Ker) (nnz : Int) (x : List R) (ix : Idx) (y : List R)
    (c s : R) : Option (Status × List R × List R) :=
  match ker with
  | .ref => (forE 0 nnz (rotiRefBody c s ix) (x, y)).map fun
    | .ok st => (.success, st)
    | .error e => e
  | .kt T => (blocked T nnz (rotiBlk c s ix T) (rotiOne c s ix) (x, y)).map fun st => (.success, st)

/-- roti.hpp:61-111 — aoclsparse_rot: status, x, y -/
def roti [Add R] [Mul R] [Sub R] (ker : Option L1Ker) (nnz : Int) (x : Option (List R))
    (indx : Option (List Int)) (y : Option (List R)) (c s : R) :
    Option (Status × Option (List R) × Option (List R)) :=
  match x, indx, y with
  | some x', some _, some y' =>
    if nnz = 0 then some (.success, x, y)
    else if nnz < 0 then some (.invalidSize, x, y)
    else match ker with
      | none => some (.invalidKid, x, y)
      | some k => (rotiKernel k nnz x' (.indexed indx) y' c s).map fun r => (r.1, some r.2.1, some r.2.2)
  | _, _, _ => some (.invalidPointer, x, y)

/-! ### dot products -/

/-- the kernel of a dot product; registers `V` of `T` elements -/
inductive DotKer (R : Type) where
  | ref
  | kt (T : Nat) (V : Vec R)

/-- dot.hpp:47-58 and dot_kt.cpp:77-104 — one element; `cx` is the conjugate or the identity -/
def dotiOne [Add R] [Mul R] (cx : R → R) (x : List R) (ix : Idx) (y : List R) (i : Int) (d : R) :
    Option R := do
  let p ← ix.pos i
  let v ← rd x i
  let w ← rd y p
  some (d + cx v * w)

/-- dot_kt.cpp:56-71, 86-96 — one block -/
def dotiBlk (V : Vec R) (T : Nat) (cx : R → R) (x : List R) (ix : Idx) (y : List R) (i : Int)
    (acc : V.σ) : Option V.σ := do
  let v ← vload x (i * T) T
  let b ← ix.lanes T i
  let w ← vgather y b
  some (V.fma ((v.map cx).zip w) acc)

/-- dot.hpp:32-61 (dotp_ref) and dot_kt.cpp:31-107 (dotp_kt) -/
def dotiKernel [Zero R] [Add R] [Mul R] (ker : DotKer R) (cx : R → R) (nnz : Int) (x : List R) (ix : Idx)
    (y : List R) : Option R :=
  match ker with
  | .ref => forC 0 nnz (dotiOne cx x ix y) 0
  | .kt T V => do
    let acc ← forC 0 (nnz.tdiv T) (dotiBlk V T cx x ix y) V.zero
    forC (nnz - nnz.tmod T) nnz (dotiOne cx x ix y) (V.hsum acc)

/-- dot.hpp:64-114 — aoclsparse_dotp: status and the value pointed to by `dot` (`none` = null pointer,
`some g` = its old value) -/
def dotp [Zero R] [Add R] [Mul R] (ker : Option (DotKer R)) (cj : R → R) (nnz : Int)
    (x : Option (List R)) (indx : Option (List Int)) (y : Option (List R)) (dot : Option R) (conj : Bool) :
    Option (Status × Option R) :=
  match dot with
  | none => some (.invalidPointer, none)
  | some g =>
    if nnz ≤ 0 then some (.invalidSize, some 0)
    else match x, indx, y with
      | some x', some _, some y' =>
        match ker with
        | none => some (.invalidKid, some g)
        | some k => (dotiKernel k (if conj then cj else id) nnz x' (.indexed indx) y').map
            fun d => (.success, some d)
      | _, _, _ => some (.invalidPointer, some g)

/-- dot.cpp:116-126, 131-141 — aoclsparse_sdoti and aoclsparse_ddoti return the variable `dot`, which
is not initialised (`g`: its arbitrary value), whatever the status -/
def doti [Zero R] [Add R] [Mul R] (ker : Option (DotKer R)) (g : R) (nnz : Int) (x : Option (List R))
    (indx : Option (List Int)) (y : Option (List R)) : Option R :=
  (dotp ker id nnz x indx y (some g) false).bind fun r => r.2

/-- dense_dot.hpp:35-49 and dense_dot_kt.cpp:62-65 — one element -/
def ddotOne [Add R] [Mul R] (cj : R → R) (x y : List R) (i : Int) (d : R) : Option R := do
  let v ← rd x i
  let w ← rd y i
  some (d + cj v * w)

/-- dense_dot_kt.cpp:48-58 — one block -/
def ddotBlk (V : Vec R) (T : Nat) (cj : R → R) (x y : List R) (i : Int) (acc : V.σ) : Option V.σ := do
  let v ← vload x (i * T) T
  let w ← vload y (i * T) T
  some (V.fma ((v.map cj).zip w) acc)

/-- dense_dot.hpp:35-90 and dense_dot_kt.cpp:29-67 — dot product of two dense vectors -/
def denseDot [Zero R] [Add R] [Mul R] (ker : DotKer R) (cj : R → R) (size : Int) (x y : List R) :
    Option R :=
  match ker with
  | .ref => forC 0 size (ddotOne cj x y) 0
  | .kt T V => do
    let acc ← forC 0 (size.tdiv T) (ddotBlk V T cj x y) V.zero
    forC (size - size.tmod T) size (ddotOne cj x y) (V.hsum acc)

end Model
end Verif
