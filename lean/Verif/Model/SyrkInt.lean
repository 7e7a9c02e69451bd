/-
The estimate of syrk with its row sums in the integer type of the library.
-/
import Verif.Model.Syrk

namespace Verif
namespace Model

variable {R : Type}

/-- syrk.cpp:98-100 — the estimate of row `i` of A·Aᴴ: `nnz_row += nnz_count[col] - 1` in an integer type of `w` bits;
a value out of range is undefined -/
def estRowNInt (w : Nat) (A : Arrs R) (cnt : List Int) (i : Int) : Option Int := do
  let b ← rd A.ptr i
  let e ← rd A.ptr (i + 1)
  forC b e (fun idx s => do
    let col ← rd A.ind (idx - A.base)
    let x ← rd cnt (col - A.base)
    let d ← chk w (x - 1)
    chk w (s + d)) 0

/-- syrk.cpp:74-104 — the estimate for A·Aᴴ; the total is accumulated in 64 bits and not truncated here -/
def estimateNInt (w : Nat) (m n : Int) (A : Arrs R) : Option Int := do
  let cnt ← estCols m n A
  forC 0 m (fun i total => do
    let x ← estRowNInt w A cnt i
    some (estAdd m x total)) 0

/-- syrk.cpp:121-133 — the estimates of the rows of Aᴴ·A: `nnz_row[j] += nnz_count[i] - 1` in the integer type -/
def estRowsTInt (w : Nat) (m n : Int) (A : Arrs R) : Option (List Int) :=
  forC 0 m (fun i r => do
    let b ← rd A.ptr i
    let e ← rd A.ptr (i + 1)
    forC b e (fun idx r => do
      let col ← rd A.ind (idx - A.base)
      let x ← rd r (col - A.base)
      let d ← chk w (e - b - 1)
      let s ← chk w (x + d)
      wr r (col - A.base) s) r) (List.replicate n.toNat 0)

/-- syrk.cpp:106-140 — the estimate for Aᴴ·A; the total is accumulated in 64 bits and not truncated here -/
def estimateTInt (w : Nat) (m n : Int) (A : Arrs R) : Option Int := do
  let r ← estRowsTInt w m n A
  forC 0 n (fun j total => do
    let x ← rd r j
    some (estAdd n x total)) 0

end Model
end Verif
