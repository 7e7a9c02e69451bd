/-
The prefix sum of row counts in machine integers.
-/
import Verif.Core.Mem
import Verif.Model.Overflow

namespace Verif
namespace Model

/-- conversion of a wider integer to `w` bits (two's complement, as every supported compiler does) -/
def narrow (w : Nat) (x : Int) : Int := Int.bmod x (2 ^ w)

/-- csradd.hpp:103-108, csr2m.cpp:224-229, convert.cpp:711-717 — the counts in `ptr[1..m]` are replaced by their running
sum, an integer of `acc` bits that is converted to `w` bits when stored -/
def prefixSumInt (acc w : Nat) (m start : Int) (ptr : List Int) : Option (Int × List Int) :=
  forC 1 (m + 1) (fun i s => do
    let c ← rd s.2 i
    let t ← chk acc (s.1 + c)
    let ptr ← wr s.2 i (narrow w t)
    some (t, ptr)) (start, ptr)

/-- csradd.hpp:101-122, csr2m.cpp:220-240, convert.cpp:708-728 — the sum, then the check of the sum; `none` inside: the
call returns invalid_size -/
def rowPointers (acc w : Nat) (m start : Int) (ptr : List Int) : Option (Option (List Int)) := do
  let s ← prefixSumInt acc w m start ptr
  if sumOverflow acc w s.1 then some none else some (some s.2)

end Model
end Verif
