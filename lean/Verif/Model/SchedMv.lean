/-
The parallel loops of the matrix-vector products, as threads that read and write the cells of `y`
  level2/aoclsparse_csrmv_kr.hpp   484-511, 754-830, 872-946, 969-1039, 1087-1130, 1132-1161
  level2/aoclsparse_csrmv_kt.cpp   53-93, level2/aoclsparse_csrmv_avx512.cpp 54-133
  level2/aoclsparse_ellmv.hpp      51-86, 107-208, 337-359, 387-419, 421-443, 609-650, 683-757
  level2/aoclsparse_tcsrmv.cpp     58-145
and the shared status variable of level3/aoclsparse_trsm.hpp 148-157.

An iteration computes its dot product from arrays that no thread writes (the matrix and `x`); this is a local
computation.  The accesses to `y` are single steps.  Vectors and scalars that the code declares before the loop
are named in a `private` clause or set inside the body, so they are local.
Simplification: a vector load or store of four elements is four steps.
-/
import Verif.Core.SchedRows
import Verif.Model.Csrmv
import Verif.Model.CsrmvSym
import Verif.Model.EllMv
import Verif.Model.Br4
import Verif.Model.Tcsr

namespace Verif
namespace Model

variable {R : Type}

/-- an iteration: the local computation `o i`, then the accesses `S` with its result -/
def smvRow {β : Type} (o : Int → Option β) (S : β → Int → ThP Int R Unit) (i : Int) : ThP Int R Unit :=
  (ThP.lift (o i)).bind fun b => S b i

variable [Zero R] [One R] [Add R] [Mul R] [DecidableEq R]

/-- ellmv.hpp:72-84, 191-207, 345-357, 429-441, csrmv_kr.hpp:496-510, 814-829, 1147-1160 — the accesses of
`if(alpha != 1) r = alpha * r; if(beta != 0) r += beta * y[i]; y[i] = r` -/
def smvStore (alpha beta r : R) (i : Int) : ThP Int R Unit :=
  if beta ≠ 0 then .read i fun yi => .write i ((if alpha ≠ 1 then alpha * r else r) + beta * yi) (.ret ())
  else .write i (if alpha ≠ 1 then alpha * r else r) (.ret ())

/-- csrmv_kr.hpp:933-942, tcsrmv.cpp:131-143 — the same, always multiplying by alpha -/
def smvStoreA (alpha beta r : R) (i : Int) : ThP Int R Unit :=
  if beta ≠ 0 then .read i fun yi => .write i (alpha * r + beta * yi) (.ret ())
  else .write i (alpha * r) (.ret ())

/-- csrmv_kt.cpp:82-91 -/
def smvStoreKt (alpha beta r : R) (i : Int) : ThP Int R Unit :=
  if beta = 0 then .write i (r * alpha) (.ret ())
  else .read i fun yi => .write i (if beta = 1 then yi + r * alpha else yi * beta + r * alpha) (.ret ())

/-- four cells from `j` are written -/
def smvPut4 (q : R × R × R × R) (j : Int) : ThP Int R Unit :=
  .write j q.1 (.write (j + 1) q.2.1 (.write (j + 2) q.2.2.1 (.write (j + 3) q.2.2.2 (.ret ()))))

/-- `alpha` times the four results, unless it is one -/
def smvScale4 (alpha : R) (r : R × R × R × R) : R × R × R × R :=
  if alpha ≠ 1 then (alpha * r.1, alpha * r.2.1, alpha * r.2.2.1, alpha * r.2.2.2) else r

/-- ellmv.hpp:404-417, 628-641, csrmv_kr.hpp:1113-1128 — the accesses of a block of four rows -/
def smvStore4 (alpha beta : R) (r : R × R × R × R) (j : Int) : ThP Int R Unit :=
  if beta ≠ 0 then
    .read j fun y0 => .read (j + 1) fun y1 => .read (j + 2) fun y2 => .read (j + 3) fun y3 =>
      smvPut4 (beta * y0 + (smvScale4 alpha r).1, beta * y1 + (smvScale4 alpha r).2.1,
        beta * y2 + (smvScale4 alpha r).2.2.1, beta * y3 + (smvScale4 alpha r).2.2.2) j
  else smvPut4 (smvScale4 alpha r) j

/-- csrmv_kr.hpp:484-511, 754-830, 969-1039, csrmv_kt.cpp:53-93, csrmv_avx512.cpp:54-133 -/
def smvGn (k : GnKernel R) (base : Int) (alpha : R) (val : List R) (ind ptr : List Int) (x : List R) (beta : R) :
    Int → ThP Int R Unit :=
  smvRow (fun i => (rd ptr i).bind fun lo => (rd ptr (i + 1)).bind fun hi => k.dot ind val x base lo hi)
    (match k with
      | .kt _ _ => smvStoreKt alpha beta
      | _ => smvStore alpha beta)

/-- csrmv_kr.hpp:872-946 -/
def smvTri (base : Int) (alpha : R) (diag fill : Nat) (val : List R) (ind ptr idiag iurow : List Int) (x : List R)
    (beta : R) : Int → ThP Int R Unit :=
  smvRow (triAvx2Row base diag fill val ind ptr idiag iurow x) (smvStoreA alpha beta)

/-- tcsrmv.cpp:58-145 -/
def smvTcsr (base : Int) (alpha : R) (T : Tcsr R) (x : List R) (beta : R) : Int → ThP Int R Unit :=
  smvRow (tcsrRow (vecLanes 4 hsum4l) 4 base T x) (smvStoreA alpha beta)

/-- ellmv.hpp:51-86 -/
def smvEll (alpha : R) (ev : List R) (ec : List Int) (w base : Int) (x : List R) (beta : R) : Int → ThP Int R Unit :=
  smvRow (ellRowRef w base ec ev x) (smvStore alpha beta)

/-- ellmv.hpp:107-208 -/
def smvEllAvx2 (alpha : R) (ev : List R) (ec : List Int) (w base : Int) (x : List R) (beta : R) :
    Int → ThP Int R Unit :=
  smvRow (ellRowAvx2 w base ec ev x) (smvStore alpha beta)

/-- ellmv.hpp:337-359; with `m` rows -/
def smvEllt (alpha : R) (m : Int) (ev : List R) (ec : List Int) (w base : Int) (x : List R) (beta : R) :
    Int → ThP Int R Unit :=
  smvRow (elltRow m w base ec ev x) (smvStore alpha beta)

/-- ellmv.hpp:387-419, 609-642 — the loop over blocks of four rows: the accesses start at cell `4 * j` -/
def smvEllt4 (alpha : R) (m : Int) (ev : List R) (ec : List Int) (w base : Int) (x : List R) (beta : R) :
    Int → ThP Int R Unit :=
  smvRow (fun j => forC 0 w (fun i v => fma4 ec ev x base (j * 4 + i * m) v) (0, 0, 0, 0))
    (fun r j => smvStore4 alpha beta r (j * 4))

/-- ellmv.hpp:421-443, 644-650 — the loop over the remaining rows, counted from the first of them -/
def smvElltRest (alpha : R) (m : Int) (ev : List R) (ec : List Int) (w base : Int) (x : List R) (beta : R) (j : Int) :
    ThP Int R Unit :=
  smvEllt alpha m ev ec w base x beta (m.tdiv 4 * 4 + j)

/-- ellmv.hpp:683-757 — the loop over the rows of the CSR part: row `map[i]` of `y` -/
def smvHyb (dot : Int → Int → Option R) (alpha : R) (cptr map : List Int) (beta : R) : Int → ThP Int R Unit :=
  smvRow (fun i => (rd map i).bind fun off => (rd cptr off).bind fun rs => (rd cptr (off + 1)).bind fun re =>
    (dot rs re).bind fun r => some (r, off)) (fun q _ => smvStore alpha beta q.1 q.2)

/-- csrmv_kr.hpp:1087-1130 -/
def smvBr4 (alpha beta : R) (base : Int) (B : Br4 R) (x : List R) : Int → ThP Int R Unit :=
  smvRow (fun i => (rd B.ptr (i * 4)).bind fun r => (rd B.ptr (i * 4 + 1)).bind fun r1 =>
      forC 0 (r1 - r) (fun j v => fma4 B.ind B.val x base (r - base + j * 4) v) (0, 0, 0, 0))
    (fun r i => smvStore4 alpha beta r (i * 4))

/-- csrmv_kr.hpp:1132-1161 — the loop over the remaining rows, counted from the first of them -/
def smvBr4Rest (alpha beta : R) (m base : Int) (B : Br4 R) (x : List R) (i : Int) : ThP Int R Unit :=
  smvRow (fun k => (rd B.ptr k).bind fun p0 => (rd B.ptr (k + 1)).bind fun p1 =>
      forC (p0 - base) (p1 - base) (fun j r => do
        let t ← term B.ind B.val x base j
        some (r + t)) 0) (smvStore alpha beta) (m.tdiv 4 * 4 + i)

omit [Zero R] [One R] [Add R] [Mul R] [DecidableEq R] in
/-- trsm.hpp:148-157 — a thread of the loop over the columns: it solves for its columns one after the other, each
followed by the assignment to the variable `status` that all threads share.  Cells: `some c` of X and of the arrays
of the solver, `none` is `status`; `solve j` is the call for column `j`, which returns its status. -/
def smvTrsm {V : Type} (solve : Nat → ThP (Option Int) V V) : List Nat → ThP (Option Int) V Unit
  | [] => .ret ()
  | j :: l => (solve j).bind fun st => .write none st (smvTrsm solve l)

end Model
end Verif
