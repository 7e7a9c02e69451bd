/-
Specification: what operator a (matrix type, fill mode, diagonal type, operation)
request denotes.  Nothing here models library code.
-/
import Mathlib.Algebra.Star.Basic

namespace Verif

inductive MType | general | symmetric | hermitian | triangular
  deriving DecidableEq, Repr
inductive Fill | lower | upper
  deriving DecidableEq, Repr
inductive Diag | nonUnit | unit | zero
  deriving DecidableEq, Repr
inductive Op | none | trans | conjTrans
  deriving DecidableEq, Repr

/-- The integer code of a matrix type in the API (types.h:186-198). -/
def MType.code : MType → Nat
  | .general => 0 | .symmetric => 1 | .hermitian => 2 | .triangular => 3
/-- types.h:280-284 -/
def Fill.code : Fill → Nat
  | .lower => 0 | .upper => 1
/-- types.h:151-156 -/
def Op.code : Op → Int
  | .none => 111 | .trans => 112 | .conjTrans => 113
/-- types.h diag_type codes -/
def Diag.code : Diag → Nat
  | .nonUnit => 0 | .unit => 1 | .zero => 2

/-- A matrix by its entries (only the entries inside its dimensions matter). -/
abbrev Mat (R : Type) := Nat → Nat → R

/-- The diagonal a diagonal type prescribes: stored, all ones, or all zeros. -/
def diagVal {R : Type} [Zero R] [One R] (D : Diag) (M : Mat R) (i : Nat) : R :=
  match D with
  | .nonUnit => M i i
  | .unit => 1
  | .zero => 0

/-- strictly inside the triangle `f` -/
def strictTri (f : Fill) (i j : Nat) : Prop :=
  match f with
  | .lower => j < i
  | .upper => i < j

instance (f i j) : Decidable (strictTri f i j) := by unfold strictTri; cases f <;> infer_instance

/-- The matrix described by stored data `M` under a descriptor. -/
def structured {R : Type} [Zero R] [One R] [Star R] (t : MType) (f : Fill) (D : Diag)
    (M : Mat R) : Mat R := fun i j =>
  match t with
  | .general => M i j
  | .symmetric => if i = j then diagVal D M i else if strictTri f i j then M i j else M j i
  | .hermitian => if i = j then diagVal D M i else if strictTri f i j then M i j else star (M j i)
  | .triangular => if i = j then diagVal D M i else if strictTri f i j then M i j else 0

/-- op(M) -/
def applyOp {R : Type} [Star R] (op : Op) (M : Mat R) : Mat R := fun i j =>
  match op with
  | .none => M i j
  | .trans => M j i
  | .conjTrans => star (M j i)

/-- entrywise conjugate -/
def conjM {R : Type} [Star R] (M : Mat R) : Mat R := fun i j => star (M i j)

/-- transpose -/
def transM {R : Type} (M : Mat R) : Mat R := fun i j => M j i

/-- The operator requested by (type, fill, diagonal, op) on stored data `M`. -/
def operator {R : Type} [Zero R] [One R] [Star R] (t : MType) (f : Fill) (D : Diag) (op : Op)
    (M : Mat R) : Mat R := applyOp op (structured t f D M)

/-- A diagonal fit for a Hermitian matrix. -/
def RealDiag {R : Type} [Star R] (M : Mat R) : Prop := ∀ i, star (M i i) = M i i

/-- Meaning of the library's documented descriptor+operation identifiers
(the comments of the enum in aoclsparse_mtx_dispatcher.hpp:41-74):
matrix type, triangle, conjugated?, transposed?. -/
def doidMeaning : Nat → Option (MType × Fill × Bool × Bool)
  | 0 => some (.general, .lower, false, false)       -- gn
  | 1 => some (.general, .lower, true, false)        -- gc
  | 2 => some (.general, .lower, false, true)        -- gt
  | 3 => some (.general, .lower, true, true)         -- gh
  | 4 => some (.symmetric, .lower, false, false)     -- sl
  | 5 => some (.symmetric, .lower, true, false)      -- slc
  | 6 => some (.symmetric, .upper, false, false)     -- su
  | 7 => some (.symmetric, .upper, true, false)      -- suc
  | 8 => some (.hermitian, .lower, false, false)     -- hl
  | 9 => some (.hermitian, .lower, true, false)      -- hlc
  | 10 => some (.hermitian, .upper, true, false)     -- huc
  | 11 => some (.hermitian, .upper, false, false)    -- hu
  | 12 => some (.triangular, .lower, false, false)   -- tln
  | 13 => some (.triangular, .lower, true, false)    -- tlc
  | 14 => some (.triangular, .lower, false, true)    -- tlt
  | 15 => some (.triangular, .lower, true, true)     -- tlh
  | 16 => some (.triangular, .upper, false, false)   -- tun
  | 17 => some (.triangular, .upper, true, false)    -- tuc
  | 18 => some (.triangular, .upper, false, true)    -- tut
  | 19 => some (.triangular, .upper, true, true)     -- tuh
  | _ => none

/-- The operator a descriptor+operation identifier denotes on stored data `M`
(the zero matrix for identifiers without a meaning; theorems exclude them). -/
def doidOp {R : Type} [Zero R] [One R] [Star R] (D : Diag) (d : Nat) (M : Mat R) : Mat R :=
  match doidMeaning d with
  | some (t, f, c, tr) =>
    let S := structured t f D M
    let S := if tr then transM S else S
    if c then conjM S else S
  | none => fun _ _ => 0

end Verif
