import Verif.Model.Csrmm
import Mathlib.Logic.Function.Basic

/-!
Concurrent calls on one full (symmetric or Hermitian) copy of a matrix: the adjustment of its diagonal
followed by the product kernel, one access to shared memory per step.

Modelled code: level2/aoclsparse_mv.cpp:213-244 (check of the mark, aoclsparse_set_mat_diag, kernel),
level3/aoclsparse_csrmm.hpp:624-655 (the same under the shared lock, which excludes no other caller)
and analysis/aoclsparse_csr_util.hpp:473-509 (aoclsparse_set_mat_diag).

Simplifications: memory is sequentially consistent and each value is read or written in one step; the
kernel is any number of reads of the array of values, in any order; the row pointers, column indices,
`idiag` and `diag_val` are never written by these calls and are constants here.
-/
namespace Verif
namespace Model
variable {R : Type}

/-- Where a call is. -/
inductive DgPC (R : Type)
  /-- no such call -/
  | off
  /-- mv.cpp:221, csrmm.hpp:638 — about to compare the mark with the descriptor -/
  | check
  /-- csr_util.hpp:485-501 — in the loop, about to treat row `i` -/
  | write (i : Nat)
  /-- csr_util.hpp:506 — about to set the mark -/
  | mark
  /-- mv.cpp:228-244 and the csrmm kernels — the kernel has read the values `seen` -/
  | read (seen : Nat → Option R)
  /-- the call has returned a result computed from the values `seen` -/
  | done (seen : Nat → Option R)
  /-- a read or write outside an array -/
  | crash

/-- csr_util.hpp:485-501 — the new diagonal value of row `i` -/
def dgNew [Zero R] [One R] (dv : List R) (w i : Nat) : Option R :=
  if w = 0 then rd dv (i : Int) else if w = 1 then some 1 else if w = 2 then some 0 else none

/-- csr_util.hpp:485-501 — the store of one iteration -/
def dgStore [Zero R] [One R] (idiag : List Int) (dv : List R) (w i : Nat) (val : List R) :
    Option (List R) := do
  let p ← rd idiag (i : Int)
  let d ← dgNew dv w i
  wr val p d

/-- the kernel needs every stored value -/
def dgAll (n : Nat) (seen : Nat → Option R) : Bool := (List.range n).all fun k => (seen k).isSome

/-- mv.cpp:213-244, csrmm.hpp:636-646, csr_util.hpp:473-509 — one step of a call for diagonal type `w`
on a copy with `M` rows; `k` is the position the kernel reads next, or a number outside the array when
it is done -/
def dgStep [Zero R] [One R] (M : Nat) (idiag : List Int) (dv : List R) (w k : Nat) :
    DgPC R → List R × Nat → Option (DgPC R × List R × Nat)
  | .check, (v, mk) => if w ≠ mk then some (.write 0, v, mk) else some (.read fun _ => none, v, mk)
  | .write i, (v, mk) =>
    if i < M then
      match dgStore idiag dv w i v with
      | none => some (.crash, v, mk)
      | some v' => some (.write (i + 1), v', mk)
    else some (.mark, v, mk)
  | .mark, (v, _) => some (.read fun _ => none, v, w)
  | .read seen, (v, mk) =>
    if k < v.length then some (.read (Function.update seen k v[k]?), v, mk)
    else if dgAll v.length seen then some (.done seen, v, mk)
    else none
  | _, _ => none

/-- The calls and the shared part of the copy: its values and the mark `mtx_diag`. -/
structure DgSys (R : Type) where
  pc : Nat → DgPC R
  val : List R
  mark : Nat

/-- one of the calls makes a step -/
def DgSys.Step [Zero R] [One R] (M : Nat) (idiag : List Int) (dv : List R) (asks : Nat → Option Nat)
    (S S' : DgSys R) : Prop :=
  ∃ (t k w : Nat) (r : DgPC R × List R × Nat), asks t = some w ∧
    dgStep M idiag dv w k (S.pc t) (S.val, S.mark) = some r ∧
    S' = ⟨Function.update S.pc t r.1, r.2.1, r.2.2⟩

/-- before the first step; `asks t` is the diagonal type in the descriptor of call `t` -/
def dgStart (c : MCopy R) (asks : Nat → Option Nat) : DgSys R :=
  ⟨fun t => if (asks t).isSome then .check else .off, c.val, c.mtxDiag⟩

/-- mv.cpp:221-226, csrmm.hpp:638-644 — the adjustment made by one call with nobody else around -/
def dgAlone [Zero R] [One R] (M : Nat) (w : Nat) (c : MCopy R) : Option (Status × MCopy R) :=
  if w ≠ c.mtxDiag then setMatDiag (M : Int) w c else some (.success, c)

/-- what a call is about to access: position in the array of values (`some p`) or the mark (`none`), and
whether it writes; csr_util.hpp:485-506, mv.cpp:221-244.  In the kernel: every position of the array may
be next -/
def dgAccess (idiag : List Int) (M n : Nat) : DgPC R → Option Nat → Bool → Prop
  | .check, l, b => l = none ∧ b = false
  | .write i, l, b => i < M ∧ b = true ∧ ∃ p : Nat, rd idiag (i : Int) = some (p : Int) ∧ l = some p
  | .mark, l, b => l = none ∧ b = true
  | .read _, l, b => b = false ∧ ∃ p < n, l = some p
  | _, _, _ => False

end Model
end Verif
