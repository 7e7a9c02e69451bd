/-
Model of the triple product of sparse matrices op(A)·B·op(A)ᴴ with symmetric or Hermitian B
  library/src/level3/aoclsparse_sypr.cpp, aoclsparse_sypr.hpp:529-1058
Memory allocation is assumed to succeed.
-/
import Verif.Model.Syrk
import Verif.Model.CsrOpt
import Verif.Model.Dense

namespace Verif
namespace Model

variable {R : Type}

/-- the arrays of a clean copy -/
def OptCsr.arrs (o : OptCsr R) : Arrs R := ⟨o.base, o.ptr, o.ind, o.val⟩

/-- sypr.hpp:745-790 — the arrays of the right factor: those of A as they are, or transposed, and
conjugated for CSR.  `eff` is the operation on the stored arrays (111: none). -/
def syprFactor [Zero R] (cj : R → R) (eff : Int) (A : RawMat R) : Option (Except Status (Arrs R)) :=
  if eff = 111 then
    (orient true A).bind fun a =>
      match a with
      | .error _ => some (.error .memoryError)
      | .ok t => (conjLoop (!A.isT) cj A.nnz t.val).bind fun v => some (.ok { t with val := v })
  else some (.ok A.arrs)

/-- sypr.hpp:600-620 — `conj_flip`: the conjugation moves to the other kernel -/
def syprFlip (isT : Bool) (vt : Nat) (op : Int) : Bool :=
  isT && decide (op = 111) && decide (vt = 2 ∨ vt = 3)

variable [Zero R] [Add R] [Mul R]

/-- sypr.hpp:802-918 — T = sym(B)·M: both stages of aoclsparse_sp2m_online_symab.  `cjB` is applied to the
values of M.  An empty `std::vector` has no data pointer, which the second stage refuses (265-267). -/
def syprT (w : Nat) (lower : Bool) (cj cjB : R → R) (m n : Int) (B : OptCsr R) (M : Arrs R) :
    Option (Except Status (Arrs R)) := do
  let c ← symCount w lower cj m m n B.arrs B.idiag M (List.replicate (m + 1).toNat 0)
  if c.1 ≠ .success then some (.error c.1)
  else if c.2.2 = 0 then some (.error .invalidPointer)
  else do
    let t ← symFill lower cj cjB m m n B.arrs B.idiag M c.2.1 (List.replicate c.2.2.toNat 0)
      (List.replicate c.2.2.toNat 0)
    some (.ok ⟨0, t.1, t.2.1, t.2.2.1⟩)

/-- sypr.hpp:921-1000 — count the elements of Mᴴ·T and make the handle of the result -/
def syprCount (w : Nat) (g : Garb R) (m n : Int) (M T : Arrs R) :
    Option (Except Status (SyOut R)) := do
  let c ← atbCount w true m n n M T (newPtr g n (-1) 0)
  if c.1 ≠ .success then some (.error c.1)
  else some (.ok ⟨n, n, c.2.2, -1, 0, c.2.1, alloc c.2.2.toNat g.i, alloc c.2.2.toNat g.v⟩)

/-- sypr.hpp:1002-1056 — compute Mᴴ·T into the arrays of the handle -/
def syprFill (cjA : R → R) (m n : Int) (M T : Arrs R) (o : SyOut R) : Option (SyOut R) := do
  let c ← atbFill true cjA id m n n M T 0 o.ptr o.ind o.val
  some { o with ptr := c.1, ind := c.2.1, val := c.2.2.1 }

/-- sypr.hpp:921-1058 — the last part for the stages 0 (count), 1 (finalize), 2 (full); `old` is the
handle the output pointer holds -/
def syprStage (w : Nat) (g : Garb R) (cjA : R → R) (req : Int) (m n : Int) (M T : Arrs R)
    (old : Option (SyOut R)) : Option (Status × Option (SyOut R)) :=
  if req = 1 then
    match old with
    | none => none
    | some o => (syprFill cjA m n M T o).bind fun o => some (.success, some o)
  else (syprCount w g m n M T).bind fun c =>
    match c with
    | .error st => some (st, none)
    | .ok o =>
      if req = 2 then (syprFill cjA m n M T o).bind fun o => some (.success, some o)
      else some (.success, some o)

/-- sypr.hpp:745-1058 — the computation.  `srt` is `std::sort`.  Simplification: the clean copy of B is
made here; a copy made by an earlier call is the same (C15, C16). -/
def syprRun (w : Nat) (g : Garb R) (srt : (Int → Int → Bool) → List Int → List Int) (cj : R → R)
    (op : Int) (A B : SyMat R) (lower : Bool) (req : Int) (m n : Int) (old : Option (SyOut R)) :
    Option (Status × Option (SyOut R)) :=
  let flip := syprFlip A.raw.isT A.vt op
  (syprFactor cj (syEff A.raw.isT op) A.raw).bind fun a =>
    match a with
    | .error st => some (st, old)
    | .ok M =>
      (csrOptimize srt g.i g.v B.raw.m B.raw.n B.raw.nnz B.raw.base B.raw.ptr B.raw.ind B.raw.val).bind
        fun b =>
          match b with
          | .error st => some (st, old)
          | .ok o =>
            (syprT w lower cj (if flip then cj else id) m n o M).bind fun t =>
              match t with
              | .error st => some (st, old)
              | .ok T => syprStage w g (if flip then id else cj) req m n M T old

/-- sypr.hpp:694-698 — the checks of the handle passed to the second stage.  Simplification: the handle
holds a CSR object whose arrays are not null. -/
def syprBad (req n : Int) (C : Option (SyOut R)) : Bool :=
  decide (req = 1) &&
    match C with
    | none => true
    | some o => decide (o.m ≠ n ∨ o.n ≠ n)

/-- sypr.hpp:703-730 — size zero or no elements: an empty matrix unless there is a matrix already -/
def syprEmpty (g : Garb R) (n : Int) (C : Option (SyOut R)) : SyOut R :=
  match C with
  | some o => o
  | none => ⟨n, n, 0, 0, 0, newPtr g n 0 0, [], []⟩

/-- sypr.hpp:682-1058 — from the checks of the dimensions on; `C` is the content of the output pointer -/
def syprDims (w : Nat) (g : Garb R) (srt : (Int → Int → Bool) → List Int → List Int) (cj : R → R)
    (op : Int) (A B : SyMat R) (lower : Bool) (req : Int) (C : Option (SyOut R)) :
    Option (Status × Option (SyOut R)) :=
  let m := B.raw.um
  let n := if op = 111 then A.raw.um else A.raw.un
  if B.raw.um ≠ B.raw.un then some (.invalidSize, C)
  else if m ≠ (if op = 111 then A.raw.un else A.raw.um) then some (.invalidSize, C)
  else if A.raw.base ≠ 0 ∧ A.raw.base ≠ 1 then some (.invalidValue, C)
  else if syprBad req n C then some (.invalidValue, C)
  else if m = 0 ∨ n = 0 ∨ A.raw.nnz = 0 ∨ B.raw.nnz = 0 then some (.success, some (syprEmpty g n C))
  else if (A.sorted = false ∧ syEff A.raw.isT op ≠ 111) ∨ B.sorted = false then
    some (.unsortedInput, C)
  else syprRun w g srt cj op A B lower req m n C

/-- sypr.hpp:543-645 — the checks before; `C` is the content of the output pointer -/
def syprChecks (w : Nat) (g : Garb R) (srt : (Int → Int → Bool) → List Int → List Int) (cj : R → R)
    (op : Int) (A B : SyMat R) (descr : Descr) (req : Int) (C : Option (SyOut R)) :
    Option (Status × Option (SyOut R)) :=
  if A.raw.fmt ≠ 0 ∨ B.raw.fmt ≠ 0 then some (.notImplemented, C)
  else if B.raw.isT = true then some (.notImplemented, C)
  else if (A.vt = 2 ∨ A.vt = 3) ∧ op = 112 then some (.notImplemented, C)
  else if B.raw.base ≠ descr.base then some (.invalidValue, C)
  else if descr.type ≠ (if A.vt = 2 ∨ A.vt = 3 then 2 else 1) then some (.invalidValue, C)
  else if descr.diag ≠ 0 then some (.notImplemented, C)
  else syprDims w g srt cj op A B (decide (descr.fill = 0)) req C

/-- sypr.cpp:27-48, sypr.hpp:529-580 — aoclsparse_sypr.  `dest`: the output pointer is not null; `old` is
its content before the call.  Handles of input format CSR hold a CSR object with doid gn or gt. -/
def syprApi (w : Nat) (g : Garb R) (srt : (Int → Int → Bool) → List Int → List Int) (cj : R → R)
    (op : Int) (A B : Option (SyMat R)) (descr : Option Descr) (dest : Bool) (old : Option (SyOut R))
    (req : Int) : Option (Status × Option (SyOut R)) :=
  match A, B, dest with
  | some A, some B, true =>
    if A.vt = B.vt ∧ A.vt < 4 then
      if ¬ (req = 0 ∨ req = 1 ∨ req = 2) then some (.invalidValue, old)
      else if ¬ isOp op then some (.invalidValue, old)
      else
        match descr with
        | none => some (.invalidPointer, old)
        | some d => syprChecks w g srt cj op A B d req (if req = 1 then old else none)
    else some (.wrongType, old)
  | _, _, _ => some (.invalidPointer, old)

end Model
end Verif
