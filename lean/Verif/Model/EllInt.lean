/-
The CSR to ELL conversion in machine integers.
-/
import Verif.Model.Ell
import Verif.Model.Overflow

namespace Verif
namespace Model

variable {R : Type}

/-- convert.hpp:92-96 — one entry; state (position, column indices, values) -/
def ellPutInt (bits : Nat) (ind : List Int) (val : List R) (j : Int) (ps : Int × List Int × List R) :
    Option (Int × List Int × List R) := do
  let c ← rd ind j
  let v ← rd val j
  let ec ← wr ps.2.1 ps.1 c
  let ev ← wr ps.2.2 ps.1 v
  let p ← chk bits (ps.1 + 1)
  some (p, ec, ev)

/-- convert.hpp:99-103 — one padding cell -/
def ellPadInt [Zero R] (bits : Nat) (ps : Int × List Int × List R) : Option (Int × List Int × List R) := do
  let ec ← wr ps.2.1 ps.1 (-1)
  let ev ← wr ps.2.2 ps.1 0
  let p ← chk bits (ps.1 + 1)
  some (p, ec, ev)

/-- convert.hpp:86-104 — one row: the position starts at `i * ell_width` -/
def ellRowInt [Zero R] (bits : Nat) (base : Int) (ptr ind : List Int) (val : List R) (w i : Int)
    (s : List Int × List R) : Option (List Int × List R) := do
  let rb ← rd ptr i
  let re ← rd ptr (i + 1)
  let p ← chk bits (i * w)
  let ps ← forC (rb - base) (re - base) (ellPutInt bits ind val) (p, s)
  let ps ← forC (re - base - (rb - base)) w (fun _ ps => ellPadInt bits ps) ps
  some ps.2

/-- convert.hpp:84-105 — csr2ell after the checks, `bits`-bit integers.  The row pointers are as in `csr2ellCore`. -/
def csr2ellCoreInt [Zero R] (bits : Nat) (m base : Int) (ptr ind : List Int) (val : List R) (w : Int)
    (ec : List Int) (ev : List R) : Option (List Int × List R) :=
  forC 0 m (ellRowInt bits base ptr ind val w) (ec, ev)

end Model
end Verif
