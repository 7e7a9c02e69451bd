/-
The CSR to DIA conversion in machine integers.
-/
import Verif.Model.Dia
import Verif.Model.Overflow

namespace Verif
namespace Model

variable {R : Type}

/-- convert.hpp:345-357 — one entry: mark its diagonal; the offset is evaluated from the left -/
def diaMarkInt (w : Nat) (m base : Int) (ind : List Int) (i j : Int) (d : List Int) : Option (List Int) := do
  let c ← rd ind j
  let a ← chk w (c - base)
  let b ← chk w (a - i)
  let offset ← chk w (b + m)
  let x ← rd d offset
  if x = 0 then wr d offset 1 else some d

/-- convert.hpp:373-382 — one entry: store its value at `i + m * diag_idx[offset]` -/
def diaPutInt (w : Nat) (m base : Int) (ind : List Int) (val : List R) (idx : List Int) (i j : Int)
    (dv : List R) : Option (List R) := do
  let c ← rd ind j
  let a ← chk w (c - base)
  let b ← chk w (a - i)
  let offset ← chk w (b + m)
  let v ← rd val j
  let q ← rd idx offset
  let p ← chk w (m * q)
  let k ← chk w (i + p)
  wr dv k v

/-- convert.hpp:290-385 — aoclsparse_csr2dia_template; `m + n` is evaluated in aoclsparse_int.  The row pointers are as in
`csr2dia`. -/
def csr2diaInt (w : Nat) (m n base : Int) (ptr ind : List Int) (val : List R) (numDiag : Int)
    (off : List Int) (dval : List R) : Option (List Int × List R) :=
  if m = 0 ∨ n = 0 ∨ numDiag = 0 then some (off, dval)
  else do
    let mn ← chk w (m + n)
    let idx ← forC 0 m (fun i s => do
      let b ← rd ptr i
      let e ← rd ptr (i + 1)
      forC (b - base) (e - base) (diaMarkInt w m base ind i) s) (List.replicate mn.toNat 0)
    let s ← forC 0 mn (diaNumber m) (idx, off, 0)
    let dv ← forC 0 m (fun i dv => do
      let b ← rd ptr i
      let e ← rd ptr (i + 1)
      forC (b - base) (e - base) (diaPutInt w m base ind val s.1 i) dv) dval
    some (s.2.1, dv)

end Model
end Verif
