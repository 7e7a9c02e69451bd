/-
Model of
  library/src/level2/aoclsparse_trsv.cpp     48-417 (trsv on a handle that may hold copies)
  library/src/solvers/aoclsparse_symgs.hpp   85-395 (symmetric Gauss-Seidel)
  library/src/solvers/aoclsparse_sorv.hpp    31-227 (successive over-relaxation)
  library/src/extra/aoclsparse_auxiliary.cpp 1420-1430 (set_symgs_matrix_properties)
for handles created from CSR or CSC arrays.
-/
import Verif.Model.Mv
import Verif.Model.Trsv

namespace Verif
namespace Model

variable {R : Type} [Zero R] [One R] [Add R] [Sub R] [Neg R] [Mul R] [Div R] [DecidableEq R]

/-! ### triangular solve on a handle -/

/-- trsv.cpp:172-192, 362-416 — the solve with the clean copy at position `i` of the handle -/
def trsvCopy (isReal : Bool) (w : Nat) (cjg : R → R) (im : TrsvImpl R) (op : Int) (alpha : R)
    (H : MvHandle R) (d : Descr) (i : Nat) (b : List R) (incb : Int) (x : List R) (incx : Int) :
    Option (Status × List R × MvHandle R) :=
  match H.mats[i]? with
  | some (.csr c _ (some iurow)) => do
    let idiag ← c.idiag
    let r ← trsvRun isReal w cjg im d op alpha H.raw.um (decide (c.doid = gt))
      ⟨false, c.base, c.ptr, c.ind, c.val, idiag, iurow, H.fulldiag⟩ b incb x incx
    match r with
    | .error e => some (e, x, H)
    | .ok x => some (.success, x, H)
  | _ => none

/-- trsv.cpp:48-417 — aoclsparse::trsv on a CSR or CSC handle: the status, `x` and the handle.
`sameType`: the handle holds values of the type of the call; `im` is the kernel picked by the
dispatcher. -/
def trsvH (isReal : Bool) (w : Nat) (cjg : R → R) (srt : (Int → Int → Bool) → List Int → List Int)
    (g : Garb R) (im : TrsvImpl R) (sameType : Bool) (op : Int) (alpha : R) (A : Option (MvHandle R))
    (d : Option Descr) (b : Option (List R)) (incb : Int) (x : Option (List R)) (incx : Int) :
    Option (Status × Option (List R) × Option (MvHandle R)) :=
  match A, x, b, d with
  | some H, some x, some b, some d =>
    if H.raw.fmt ≠ 0 then some (.notImplemented, some x, some H)
    else if H.raw.um ≤ 0 ∨ H.raw.nnz ≤ 0 then some (.invalidSize, some x, some H)
    else if H.raw.um ≠ H.raw.un ∨ incb ≤ 0 ∨ incx ≤ 0 then some (.invalidValue, some x, some H)
    else if H.raw.base ≠ d.base then some (.invalidValue, some x, some H)
    else if d.base ≠ 0 ∧ d.base ≠ 1 then some (.invalidValue, some x, some H)
    else if op ≠ 111 ∧ op ≠ 112 ∧ op ≠ 113 then some (.notImplemented, some x, some H)
    else if d.type ≠ 1 ∧ d.type ≠ 3 then some (.invalidValue, some x, some H)
    else if d.diag = 2 then some (.invalidValue, some x, some H)
    else if d.fill ≠ 0 ∧ d.fill ≠ 1 then some (.notImplemented, some x, some H)
    else if sameType = false then some (.wrongType, some x, some H)
    else do
      let r ← csrCscOptimize srt g.i g.v H
      match r with
      | .error e => some (e, some x, some H)
      | .ok q => do
        let s ← trsvCopy isReal w cjg im op alpha q.2 d q.1 b incb x incx
        some (s.1, some s.2.1, some s.2.2)
  | A, x, _, _ => some (.invalidPointer, x, A)

/-! ### symmetric Gauss-Seidel -/

/-- the processor, the kernels and the arrays left uninitialised, the same for all steps of a call -/
structure GsEnv (R : Type) where
  isa : Isa
  k : MvSel R
  srt : (Int → Int → Bool) → List Int → List Int
  g : Garb R
  im : TrsvImpl R
  w : Nat

/-- symgs.hpp:143, 201, 231, 251 — a product inside symgs -/
def gsMv (E : GsEnv R) (op : Int) (alpha : R) (H : MvHandle R) (d : Descr) (x y : List R) :
    Option (Status × List R × MvHandle R) := do
  let r ← mv E.isa E.k E.srt E.g true op (some alpha) (some H) (some d) (some x) (some 0) (some y)
  let y ← r.2.1
  let H ← r.2.2
  some (r.1, y, H)

/-- symgs.hpp:132, 214, 241 — a triangular solve inside symgs, strides 1 and alpha 1 -/
def gsTrsv (E : GsEnv R) (op : Int) (H : MvHandle R) (d : Descr) (b x : List R) :
    Option (Status × List R × MvHandle R) := do
  let r ← trsvH E.k.real E.w E.k.cj E.srt E.g E.im true op 1 (some H) (some d) (some b) 1 (some x) 1
  let x ← r.2.1
  let H ← r.2.2
  some (r.1, x, H)

/-- symgs.hpp:204-207, 234-237 — `r[i] = b[i] - q[i]` -/
def gsSub (m : Int) (b q r : List R) : Option (List R) :=
  forC 0 m (fun i r => do
    let bi ← rd b i
    let qi ← rd q i
    wr r i (bi - qi)) r

/-- operations and triangles standing for U and L: (u_trans, l_trans, u_fmode, l_fmode) -/
structure GsModes where
  ut : Int
  lt : Int
  uf : Nat
  lf : Nat

/-- symgs.hpp:148-190 — how the two triangles of the operator are obtained from the stored matrix -/
def gsModes (type fill : Nat) (op : Int) : GsModes :=
  if type = 1 ∧ fill = 1 then ⟨111, 112, 1, 1⟩
  else if type = 0 ∧ op = 111 then ⟨111, 111, 1, 0⟩
  else if type = 0 ∧ op = 112 then ⟨112, 112, 0, 1⟩
  else if type = 2 ∧ fill = 1 then ⟨111, 113, 1, 1⟩
  else ⟨if type = 2 then 113 else 112, 111, 0, 0⟩

/-- symgs.hpp:137-146, 245-257 — the fused product and the final status -/
def gsFuse (E : GsEnv R) (op : Int) (H : MvHandle R) (d : Descr) (x : List R) (y : Option (List R))
    (fuse : Bool) : Option (Status × List R × Option (List R) × MvHandle R) :=
  if fuse then do
    let yl ← y
    let r ← gsMv E op 1 H d x yl
    some (r.1, x, some r.2.1, r.2.2)
  else some (.success, x, y, H)

/-- symgs.hpp:125-146 — a triangular matrix: one solve -/
def gsTri (E : GsEnv R) (op : Int) (H : MvHandle R) (d : Descr) (b x : List R) (y : Option (List R))
    (fuse : Bool) : Option (Status × List R × Option (List R) × MvHandle R) := do
  let r ← gsTrsv E op H d b x
  if r.1 ≠ .success then some (r.1, r.2.1, y, r.2.2)
  else gsFuse E op r.2.2 d r.2.1 y fuse

/-- symgs.hpp:217-257 — second sweep, `(U + D) x = b - L q`, and the product.  `z` is the buffer `r`;
the status of the product is overwritten by that of the solve. -/
def gsBack (E : GsEnv R) (md : GsModes) (op : Int) (H : MvHandle R) (d : Descr) (b x q z : List R)
    (y : Option (List R)) (fuse : Bool) :
    Option (Status × List R × Option (List R) × MvHandle R) := do
  let r ← gsMv E md.lt 1 H ⟨3, md.lf, 2, d.base⟩ q z
  let q ← gsSub r.2.2.raw.um b r.2.1 q
  let s ← gsTrsv E md.ut r.2.2 ⟨3, md.uf, 0, d.base⟩ q x
  if s.1 ≠ .success then some (s.1, s.2.1, y, s.2.2)
  else gsFuse E op s.2.2 d s.2.1 y fuse

/-- symgs.hpp:191-216 — first sweep, `(L + D) q = b - alpha U x`, followed by the second -/
def gsSweeps (E : GsEnv R) (md : GsModes) (op : Int) (alpha : R) (H : MvHandle R) (d : Descr)
    (b x : List R) (y : Option (List R)) (fuse : Bool) :
    Option (Status × List R × Option (List R) × MvHandle R) := do
  let r ← gsMv E md.ut alpha H ⟨3, md.uf, 2, d.base⟩ x (List.replicate H.raw.um.toNat 0)
  let z ← gsSub r.2.2.raw.um b r.2.1 (List.replicate H.raw.um.toNat 0)
  let s ← gsTrsv E md.lt r.2.2 ⟨3, md.lf, 0, d.base⟩ z r.2.1
  if s.1 ≠ .success then some (s.1, x, y, s.2.2)
  else gsBack E md op s.2.2 d b x s.2.1 z y fuse

/-- symgs.hpp:85-258 — symgs_ref.  The buffers are zero (std::vector::resize). -/
def symgsRef (E : GsEnv R) (op : Int) (alpha : R) (H : MvHandle R) (d : Descr) (b x : List R)
    (y : Option (List R)) (fuse : Bool) : Option (Status × List R × Option (List R) × MvHandle R) :=
  if d.type = 3 then gsTri E op H d b x y fuse
  else gsSweeps E (gsModes d.type d.fill op) op alpha H d b x y fuse

/-- symgs.hpp:263-395 — aoclsparse_symgs (every value of `kid` runs symgs_ref) -/
def symgs (E : GsEnv R) (sameType : Bool) (op : Int) (A : Option (MvHandle R)) (d : Option Descr)
    (alpha : R) (b x y : Option (List R)) (fuse : Bool) :
    Option (Status × Option (List R) × Option (List R) × Option (MvHandle R)) :=
  match x, b, A, d with
  | some xl, some b, some H, some d =>
    if fuse = true ∧ y = none then some (.invalidPointer, x, y, A)
    else if H.raw.base ≠ d.base then some (.invalidValue, x, y, A)
    else if H.raw.fmt ≠ 0 then some (.notImplemented, x, y, A)
    else if d.base ≠ 0 ∧ d.base ≠ 1 then some (.invalidValue, x, y, A)
    else if op ≠ 111 ∧ op ≠ 112 ∧ op ≠ 113 then some (.invalidValue, x, y, A)
    else if d.fill ≠ 0 ∧ d.fill ≠ 1 then some (.invalidValue, x, y, A)
    else if d.diag = 1 then some (.notImplemented, x, y, A)
    else if d.type = 0 ∧ op = 113 then some (.notImplemented, x, y, A)
    else if d.type ≠ 1 ∧ d.type ≠ 3 ∧ d.type ≠ 0 ∧ d.type ≠ 2 then some (.invalidValue, x, y, A)
    else if H.raw.um < 0 ∨ H.raw.nnz < 0 ∨ H.raw.un < 0 then some (.invalidSize, x, y, A)
    else if H.raw.um = 0 ∨ H.raw.un = 0 ∨ H.raw.nnz = 0 then some (.success, x, y, A)
    else if H.raw.um ≠ H.raw.un then some (.invalidSize, x, y, A)
    else if sameType = false then some (.wrongType, x, y, A)
    else do
      let r ← csrCscOptimize E.srt E.g.i E.g.v H
      match r with
      | .error e => some (e, x, y, A)
      | .ok q =>
        if q.2.fulldiag = false then some (.invalidValue, x, y, some q.2)
        else do
          let s ← symgsRef E op alpha q.2 d b xl y fuse
          some (s.1, some s.2.1, s.2.2.1, some s.2.2.2)
  | _, _, _, _ => some (.invalidPointer, x, y, A)

/-! ### successive over-relaxation -/

/-- sorv.hpp:49-69 — the entries of a row until `break`: `error` is the flag at the `break`, `ok` the
flag at the end -/
def sorDiagRow (base : Int) (ind : List Int) (val : List R) (i lo hi : Int) :
    Option (Except Bool Bool) :=
  forE lo hi (fun j full => do
    let c ← rd ind (j - base)
    if i = c - base then
      if full then some (.error false)
      else do
        let v ← rd val (j - base)
        if v ≠ 0 then some (.ok true) else some (.error full)
    else some (.ok full)) false

/-- sorv.hpp:44-72 — one row of the check: `error` is the `break` of the outer loop -/
def sorDiagStep (base : Int) (ptr ind : List Int) (val : List R) (i : Int) (_ : Bool) :
    Option (Except Bool Bool) := do
  let lo ← rd ptr i
  let hi ← rd ptr (i + 1)
  let r ← sorDiagRow base ind val i lo hi
  let full := match r with | .error f => f | .ok f => f
  if full then some (.ok true) else some (.error false)

/-- sorv.hpp:31-74 — aoclsparse_csr_check_full_diag: every row has exactly one diagonal entry and it
is not zero -/
def sorCheck (m base : Int) (ptr ind : List Int) (val : List R) : Option Bool := do
  let r ← forE 0 m (sorDiagStep base ptr ind val) false
  match r with
  | .error f => some f
  | .ok f => some f

/-- sorv.hpp:98-110 — the entries of a row: (axi, diag_ele) -/
def sorRowStep (base : Int) (ind : List Int) (val : List R) (x : List R) (i j : Int) (s : R × R) :
    Option (R × R) := do
  let c ← rd ind (j - base)
  let v ← rd val (j - base)
  if i ≠ c - base then do
    let xc ← rd x (c - base)
    some (s.1 + v * xc, s.2)
  else some (s.1, v)

/-- sorv.hpp:92-112 — one row -/
def sorRow (base : Int) (ptr ind : List Int) (val : List R) (omega : R) (b : List R) (i : Int)
    (x : List R) : Option (List R) := do
  let lo ← rd ptr i
  let hi ← rd ptr (i + 1)
  let s ← forC lo hi (sorRowStep base ind val x i) (0, 1)
  let xi ← rd x i
  let bi ← rd b i
  wr x i (xi + omega * ((bi - s.1) / s.2 - xi))

/-- sorv.hpp:76-115 — aoclsparse_sor_forward_sol -/
def sorForward (n base : Int) (ptr ind : List Int) (val : List R) (omega : R) (x b : List R) :
    Option (List R) :=
  forC 0 n (sorRow base ptr ind val omega b) x

/-- sorv.hpp:213-222 — `x = alpha * x` or `x = 0` -/
def sorScale (n : Int) (alpha : R) (x : List R) : Option (List R) :=
  if alpha ≠ 0 then forC 0 n (fun i x => do
    let xi ← rd x i
    wr x i (alpha * xi)) x
  else forC 0 n (fun i x => wr x i alpha) x

/-- sorv.hpp:213-226 — after the checks -/
def sorRun (c : MCopy R) (H : MvHandle R) (base : Int) (omega alpha : R) (x b : List R) :
    Option (Status × List R × MvHandle R) := do
  let x ← sorScale H.raw.un alpha x
  let x ← sorForward H.raw.un base c.ptr c.ind c.val omega x b
  some (.success, x, H)

/-- sorv.hpp:195-226 — the check of the diagonal, unless the flag of the handle says it is there -/
def sorOn (H : MvHandle R) (base : Int) (omega alpha : R) (x b : List R) :
    Option (Status × List R × MvHandle R) :=
  match H.mats with
  | .csr c _ _ :: _ =>
    if H.fulldiag = false then do
      let ok ← sorCheck H.raw.um base c.ptr c.ind c.val
      if ok = false then some (.invalidValue, x, H)
      else sorRun c { H with fulldiag := true } base omega alpha x b
    else sorRun c H base omega alpha x b
  | _ => some (.notImplemented, x, H)

/-- sorv.hpp:117-227 — aoclsparse_sorv_t (`sorType`: forward 0, backward 1, symmetric 2) -/
def sorv (isReal sameType : Bool) (sorType : Nat) (d : Option Descr) (A : Option (MvHandle R))
    (omega alpha : R) (x b : Option (List R)) :
    Option (Status × Option (List R) × Option (MvHandle R)) :=
  if isReal = false then some (.notImplemented, x, A)
  else match A, d, x, b with
  | some H, some d, some xl, some bl =>
    if H.raw.base ≠ d.base then some (.invalidValue, x, A)
    else if H.raw.um ≠ H.raw.un then some (.invalidSize, x, A)
    else if H.raw.um = 0 then some (.success, x, A)
    else if H.raw.um < 0 ∨ H.raw.un < 0 ∨ H.raw.nnz < 0 then some (.invalidValue, x, A)
    else if H.raw.fmt ≠ 0 then some (.notImplemented, x, A)
    else if d.type ≠ 0 then some (.notImplemented, x, A)
    else if sameType = false then some (.wrongType, x, A)
    else if sorType ≠ 0 then
      if sorType = 1 ∨ sorType = 2 then some (.notImplemented, x, A)
      else some (.invalidValue, x, A)
    else do
      let r ← sorOn H d.base omega alpha xl bl
      some (r.1, some r.2.1, some r.2.2)
  | _, _, _, _ => some (.invalidPointer, x, A)

end Model
end Verif
