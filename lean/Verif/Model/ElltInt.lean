/-
The CSR to transposed ELL conversion in machine integers.
-/
import Verif.Model.Ell
import Verif.Model.Overflow

namespace Verif
namespace Model

variable {R : Type}

/-- convert.hpp:160-165 — one entry of row `i` at `k * m + i`; state (k, column indices, values) -/
def elltPutInt (bits : Nat) (m : Int) (ind : List Int) (val : List R) (i j : Int) (ks : Int × List Int × List R) :
    Option (Int × List Int × List R) := do
  let c ← rd ind j
  let v ← rd val j
  let a ← chk bits (ks.1 * m)
  let p ← chk bits (a + i)
  let ec ← wr ks.2.1 p c
  let ev ← wr ks.2.2 p v
  some (ks.1 + 1, ec, ev)

/-- convert.hpp:166-170 — padding cell `k` of row `i` -/
def elltPadInt [Zero R] (bits : Nat) (m : Int) (ind : List Int) (re i k : Int) (s : List Int × List R) :
    Option (List Int × List R) := do
  let c ← rd ind (re - 1)
  let a ← chk bits (k * m)
  let p ← chk bits (a + i)
  let ec ← wr s.1 p c
  let ev ← wr s.2 p 0
  some (ec, ev)

/-- convert.hpp:156-171 — one row -/
def elltRowInt [Zero R] (bits : Nat) (m base : Int) (ptr ind : List Int) (val : List R) (w i : Int)
    (s : List Int × List R) : Option (List Int × List R) := do
  let rb ← rd ptr i
  let re ← rd ptr (i + 1)
  let ks ← forC (rb - base) (re - base) (elltPutInt bits m ind val i) (0, s)
  forC ks.1 w (elltPadInt bits m ind (re - base) i) ks.2

/-- convert.hpp:154-173 — csr2ellt after the checks, `bits`-bit integers.  The row pointers are as in `csr2elltCore`. -/
def csr2elltCoreInt [Zero R] (bits : Nat) (m base : Int) (ptr ind : List Int) (val : List R) (w : Int)
    (ec : List Int) (ev : List R) : Option (List Int × List R) :=
  forC 0 m (elltRowInt bits m base ptr ind val w) (ec, ev)

end Model
end Verif
