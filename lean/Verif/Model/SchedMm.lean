/-
The parallel regions of the sparse times dense product, one memory access at a time.

The only array that is written is C.  Everything else (the sparse matrix and the dense matrix B, which must
not overlap C) is read only, and reading it is not a step.  A vector load or store of C is one step per
lane.
-/
import Verif.Core.SchedRows
import Verif.Model.Csrmm

namespace Verif
namespace Model

variable {R : Type} [Zero R] [Add R] [Mul R]

/-- `C[k] = f(C[k])` -/
def updP (k : Int) (f : R → R) : ThP Int R Unit := .read k fun c => .write k (f c) (.ret ())

/-- one after the other -/
def seqP {α : Type} (f : α → ThP Int R Unit) : List α → ThP Int R Unit
  | [] => .ret ()
  | x :: l => (f x).bind fun _ => seqP f l

/-- the contents of cells -/
def readsP : List Int → ThP Int R (List R)
  | [] => .ret []
  | k :: l => .read k fun v => (readsP l).bind fun vs => .ret (v :: vs)

/-! ### column-major reference kernel -/

/-- csrmm.hpp:70-84 — `mmColCell` -/
def mmColCellP (a : MmIn R) (j i : Int) : ThP Int R Unit :=
  (ThP.lift (rd a.ptr i)).bind fun lo =>
  (ThP.lift (rd a.ptr (i + 1))).bind fun hi =>
  (ThP.lift (mmDotSeq a (j * a.ldb - a.base) lo hi 0)).bind fun s =>
  updP (i + j * a.ldc) fun c => a.beta * c + a.alpha * s

/-- csrmm.hpp:68-84 — column `j` of C -/
def mmColP (a : MmIn R) (j : Int) : ThP Int R Unit :=
  ThP.forP 0 a.m (fun i _ => mmColCellP a j i) ()

/-- csrmm.hpp:56-88 — the threads of aoclsparse_csrmm_col_major_ref -/
def mmColRefTeamP (w T : Nat) (a : MmIn R) : Nat → ThP Int R Unit :=
  teamP w T a.n () (fun j _ => mmColP a j)

/-! ### row-major reference kernel -/

/-- csrmm.hpp:127-130, csrmm_kt.cpp:243-247 — `mmScaleRow` -/
def mmScaleRowP (a : MmIn R) (idxC : Int) : ThP Int R Unit :=
  ThP.forP 0 a.n (fun k _ => updP (idxC + k) fun c => c * a.beta) ()

/-- csrmm.hpp:131-140 — `mmAxpyRow` -/
def mmAxpyRowP (a : MmIn R) (idxC p : Int) : ThP Int R Unit :=
  (ThP.lift (rd a.ind p)).bind fun c =>
  (ThP.lift (rd a.val p)).bind fun v =>
  ThP.forP 0 a.n (fun k _ =>
    (ThP.lift (rd a.B (c * a.ldb - a.base * a.ldb + k))).bind fun b =>
    updP (idxC + k) fun x => x + a.cj v * b * a.alpha) ()

/-- csrmm.hpp:121-141 — `mmRowOne` -/
def mmRowOneP (a : MmIn R) (i : Int) : ThP Int R Unit :=
  (ThP.lift (rd a.ptr i)).bind fun lo =>
  (ThP.lift (rd a.ptr (i + 1))).bind fun hi =>
  (mmScaleRowP a (i * a.ldc)).bind fun _ =>
  ThP.forP lo hi (fun j _ => mmAxpyRowP a (i * a.ldc) (j - a.base)) ()

/-- csrmm.hpp:110-147 — the threads of aoclsparse_csrmm_row_major_ref -/
def mmRowRefTeamP (w T : Nat) (a : MmIn R) : Nat → ThP Int R Unit :=
  teamP w T a.m () (fun i _ => mmRowOneP a i)

/-! ### row-major vector kernel -/

/-- csrmm_kt.cpp:293-330 — `mmRowVec`: the lanes are loaded, updated and stored -/
def mmRowVecP (K : Nat) (a : MmIn R) (idxC : Int) (blkr : Nat) (es : List (Int × R)) (j : Int) : ThP Int R Unit :=
  (readsP ((List.range K).map fun (l : Nat) => idxC + j + (l : Int))).bind fun c =>
  (ThP.lift (es.mapM fun e => do
    let b ← vload a.B (j + (e.1 * a.ldb - a.base * a.ldb)) K
    some (a.alpha * e.2, b))).bind fun bs =>
  let v := (bs.take blkr).foldl (fun c ab => List.zipWith (fun b c => ab.1 * b + c) ab.2 c) c
  ThP.forP 0 (v.length : Int) (fun l _ =>
    (ThP.lift (rd v l)).bind fun x => .write (idxC + j + l) x (.ret ())) ()

/-- csrmm_kt.cpp:332-356 — `mmRowRem` -/
def mmRowRemP (a : MmIn R) (idxC : Int) (blkr : Nat) (es : List (Int × R)) (j : Int) : ThP Int R Unit :=
  seqP (fun e =>
    (ThP.lift (rd a.B (e.1 * a.ldb - a.base * a.ldb + j))).bind fun b =>
    updP (idxC + j) fun x => x + e.2 * b * a.alpha) (es.take blkr)

/-- csrmm_kt.cpp:248-358 — `mmRowBlk` -/
def mmRowBlkP (K : Nat) (a : MmIn R) (idxC e idx : Int) : ThP Int R Unit :=
  (ThP.lift ((List.range 4).mapM fun (q : Nat) =>
    mmEnt a (if q < mmBlkEnts e idx then idx + q else idx))).bind fun es =>
  (ThP.forSP 0 (a.n - (a.n - K * a.n.tdiv K)) K (fun j _ => mmRowVecP K a idxC (mmBlkEnts e idx) es j) ()).bind fun _ =>
  ThP.forP (a.n - (a.n - K * a.n.tdiv K)) a.n (fun j _ => mmRowRemP a idxC (mmBlkEnts e idx) es j) ()

/-- csrmm_kt.cpp:241-359 — `mmRowKtOne` -/
def mmRowKtOneP (K : Nat) (a : MmIn R) (i : Int) : ThP Int R Unit :=
  (mmScaleRowP a (i * a.ldc)).bind fun _ =>
  (ThP.lift (rd a.ptr i)).bind fun lo =>
  (ThP.lift (rd a.ptr (i + 1))).bind fun hi =>
  ThP.forSP lo hi 4 (fun idx _ => mmRowBlkP K a (i * a.ldc) hi idx) ()

/-- csrmm_kt.cpp:224-363 — the threads of csrmm_row_kt -/
def mmRowKtTeamP (w T K : Nat) (a : MmIn R) : Nat → ThP Int R Unit :=
  teamP w T a.m () (fun i _ => mmRowKtOneP K a i)

/-! ### column-major vector kernel -/

/-- csrmm_kt.cpp:172-192 — `mmPut` -/
def mmPutP (a : MmIn R) (blkr j q i : Int) (d : R) : ThP Int R Unit :=
  if q < blkr then updP ((j + q) * a.ldc + i) fun c => d * a.alpha + a.beta * c else .ret ()

/-- csrmm_kt.cpp:119-193 — `mmColBlkRow` -/
def mmColBlkRowP (V : Vec R) (K : Nat) (a : MmIn R) (blkr j i : Int) : ThP Int R Unit :=
  (ThP.lift (rd a.ptr i)).bind fun lo =>
  (ThP.lift (rd a.ptr (i + 1))).bind fun hi =>
  (ThP.lift (mmDotK V K a (mmBlkCol a.n j 0 * a.ldb - a.base) lo hi)).bind fun d0 =>
  (ThP.lift (mmDotK V K a (mmBlkCol a.n j 1 * a.ldb - a.base) lo hi)).bind fun d1 =>
  (ThP.lift (mmDotK V K a (mmBlkCol a.n j 2 * a.ldb - a.base) lo hi)).bind fun d2 =>
  (ThP.lift (mmDotK V K a (mmBlkCol a.n j 3 * a.ldb - a.base) lo hi)).bind fun d3 =>
  (mmPutP a blkr j 3 i d3).bind fun _ =>
  (mmPutP a blkr j 2 i d2).bind fun _ =>
  (mmPutP a blkr j 1 i d1).bind fun _ =>
  mmPutP a blkr j 0 i d0

/-- csrmm_kt.cpp:83-194 — `mmColBlk`; `blkr` is local to the thread -/
def mmColBlkP (V : Vec R) (K : Nat) (a : MmIn R) (j blkr : Int) : ThP Int R Int :=
  (ThP.forP 0 a.m (fun i _ => mmColBlkRowP V K a (mmBlkCols a.n j blkr) j i) ()).bind fun _ =>
  .ret (mmBlkCols a.n j blkr)

/-- csrmm_kt.cpp:60-197 — thread `t` of csrmm_col_kt -/
def mmColKtThreadP (w T : Nat) (V : Vec R) (K : Nat) (a : MmIn R) (t : Nat) : ThP Int R Unit :=
  (ThP.lift (chk w (a.n * t))).bind fun s =>
  (ThP.lift (chk w (a.n * (t + 1)))).bind fun e =>
  (ThP.forSP (roundUp4 a.n (s.tdiv T)) (roundUp4 a.n (e.tdiv T)) 4 (mmColBlkP V K a) 4).bind fun _ => .ret ()

/-- the team -/
def mmColKtTeamP (w T : Nat) (V : Vec R) (K : Nat) (a : MmIn R) (t : Nat) : ThP Int R Unit :=
  if t < T then mmColKtThreadP w T V K a t else .ret ()

/-- csrmm.hpp:775-837 — the threads of the selected kernel -/
def mmTeamP (w T : Nat) (ker : MmKernel R) (col : Bool) (a : MmIn R) : Nat → ThP Int R Unit :=
  match ker, col with
  | .ref, true => mmColRefTeamP w T a
  | .ref, false => mmRowRefTeamP w T a
  | .kt K V, true => mmColKtTeamP w T V K a
  | .kt K _, false => mmRowKtTeamP w T K a

/-! ### scaling of C -/

/-- csrmm.hpp:362-425 — one element of scale_dense_matrix -/
def scaleCellP [DecidableEq R] (col : Bool) (ld : Int) (beta : R) (i j : Int) : ThP Int R Unit :=
  if beta = 0 then .write (mmIx col ld i j) 0 (.ret ()) else updP (mmIx col ld i j) fun c => beta * c

/-- csrmm.hpp:362-425 — one iteration of the `parallel for` of scale_dense_matrix: a column if the order
is column-major, else a row -/
def scaleLineP [DecidableEq R] (col : Bool) (m n ld : Int) (beta : R) (k : Int) : ThP Int R Unit :=
  if col then ThP.forP 0 m (fun i _ => scaleCellP col ld beta i k) ()
  else ThP.forP 0 n (fun j _ => scaleCellP col ld beta k j) ()

end Model
end Verif
