/-
The numbers of blocks and cells of the CSR to BSR conversions, in machine integers.
-/
import Verif.Model.Bsr
import Verif.Model.Overflow

namespace Verif
namespace Model

/-- convert.cpp:642-643, 1260-1261 — `(m + block_dim - 1) / block_dim`, evaluated from the left in aoclsparse_int -/
def blockCount (w : Nat) (k bd : Int) : Option Int := do
  let a ← chk w (k + bd)
  let b ← chk w (a - 1)
  some (b.tdiv bd)

/-- convert.cpp:596-729 — aoclsparse_csr2bsr_nnz with the block counts in machine integers.  The running sum is as in
`csr2bsrNnz`; it is 64-bit in the code. -/
def csr2bsrNnzInt (w : Nat) (m n : Int) (base : Int) (ptr ind : Option (List Int)) (bd : Int)
    (rowPtr : Option (List Int)) (nnz : Option Int) :
    Option (Status × Option (List Int) × Option Int) :=
  if m < 0 ∨ n < 0 ∨ bd ≤ 0 then some (.invalidSize, rowPtr, nnz)
  else match ptr, ind, rowPtr, nnz with
  | some ptr, some ind, some rp, some z =>
    if m = 0 ∨ n = 0 then some (.success, some rp, some 0)
    else if base ≠ 0 ∧ base ≠ 1 then some (.invalidValue, some rp, some z)
    else do
      let mb ← blockCount w m bd
      let nb ← blockCount w n bd
      let s ← forC 0 mb (bsrNnzRow m base bd ptr ind) (List.replicate nb.toNat 0, List.replicate nb.toNat 0, rp)
      let rp ← wr s.2.2 0 base
      let s ← forC 0 mb bsrNnzSum (rp, base)
      let last ← rd s.1 mb
      some (.success, some s.1, some (last - base))
  | _, _, rp, z => some (.invalidPointer, rp, z)

/-- convert.cpp:1352-1353 — the values of the new matrix are set to zero: the bound `bsr_nnz * block_dim * block_dim` is
evaluated from the left in aoclsparse_int -/
def bsrZero {R : Type} (w : Nat) (nz bd : Int) (zero : R) (val : List R) : Option (List R) := do
  let a ← chk w (nz * bd)
  let c ← chk w (a * bd)
  forC 0 c (fun i v => wr v i zero) val

end Model
end Verif
