/-
Model of library/src/include/aoclsparse_mtx_dispatcher.hpp: the descriptor +
operation identifier ("doid") and its bit algebra.  An `enum class doid` value is
its integer code (`Nat`); a static_cast of any integer is that integer.
-/
import Verif.Core.Types

namespace Verif
namespace Model

/-- mtx_dispatcher.hpp:41-74 — the enumerators used by name. -/
def gn : Nat := 0
def gc : Nat := 1
def gt : Nat := 2
def gh : Nat := 3
/-- mtx_dispatcher.hpp:73 — `doid::len`, the invalid identifier. -/
def doidLen : Nat := 20

/-- mtx_dispatcher.hpp:79-143 — get_doid.  `isReal` is the `if constexpr` on the
value type.  `type`, `op` and `fm` are the raw enum codes of the API; the array
lookup `op_to_bits[op_v]` is written out. -/
def getDoid (isReal : Bool) (type : Nat) (fm : Nat) (op : Int) : Nat :=
  -- 89-96
  let op1 : Int := if isReal ∧ op = 113 then 112 else op
  let ty : Nat := if isReal ∧ type = 2 then 1 else type
  -- 99-104
  let op2 : Int :=
    if ty = 1 ∧ op1 = 112 then 111
    else if ty = 2 ∧ op1 = 113 then 111
    else op1
  -- 107-109
  let opv : Int := op2 - 111
  if opv < 0 ∨ opv > 2 then doidLen
  else
    let v : Nat := opv.toNat
    -- 113
    let bits : Nat := if v = 0 then 0 else if v = 1 then 2 else 3
    -- 116-140
    if ty = 0 then bits
    else if ty = 1 then 4 + 2 * fm + (v >>> 1)
    else if ty = 2 then 8 + 2 * fm + (v ^^^ fm)
    else if ty = 3 then 12 + 4 * fm + bits
    else doidLen

/-- mtx_dispatcher.hpp:156-165 — trans_doid (codes are non-negative here). -/
def transDoid (d : Nat) : Nat :=
  if d ≥ doidLen then doidLen
  else if d < 12 then d ^^^ 2
  else 12 + ((d - 12) ^^^ 6)

/-- mtx_dispatcher.hpp:212-219 — conj_doid. -/
def conjDoid (d : Nat) : Nat :=
  if d ≥ doidLen then doidLen else d ^^^ 1

/-- mtx_dispatcher.hpp:346 — tri_xor_mask. -/
def triXorMask (op : Nat) : Nat :=
  if op = 0 then 0 else if op = 1 then 1 else if op = 2 then 6 else 7

/-- mtx_dispatcher.hpp:311-353 — get_effective_doid. -/
def effDoid (mat req : Nat) : Nat :=
  let matGrp := mat >>> 2
  let reqGrp := req >>> 2
  let matOp := mat &&& 3
  let reqOp := req &&& 3
  if matGrp = reqGrp then
    if matGrp = 0 ∨ matGrp ≥ 3 ∨ (matOp ^^^ reqOp) ≤ 1 then matOp ^^^ reqOp
    else doidLen
  else if matGrp ≠ 0 then doidLen
  else if reqGrp ≥ 3 then 12 + ((req - 12) ^^^ triXorMask matOp)
  else req ^^^ matOp

end Model
end Verif
