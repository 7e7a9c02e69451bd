/-
Model of library/src/level2/aoclsparse_dotmv.hpp: product with a matrix followed by a dot product.
-/
import Verif.Model.Mv
import Verif.Model.Level1

namespace Verif
namespace Model

variable {R : Type} [Zero R] [One R] [Add R] [Mul R] [DecidableEq R]

/-- dotmv.hpp:30-60 — aoclsparse_dotmv_t; `dot` is the kernel of dense_dot (dense_dot.hpp:53-88), `none`
if the dispatcher has none; `d` the output (its old value if it is not null).  The scalars are passed by
value. -/
def dotmv (isa : Isa) (k : MvSel R) (dot : Option (DotKer R)) (srt : (Int → Int → Bool) → List Int → List Int)
    (g : Garb R) (sameType : Bool) (op : Int) (alpha : R) (A : Option (MvHandle R)) (d : Option Descr)
    (x : Option (List R)) (beta : R) (y : Option (List R)) (out : Option R) :
    Option (Status × Option (List R) × Option R × Option (MvHandle R)) :=
  match out, A with
  | some _, some _ => do
    let r ← mv isa k srt g sameType op (some alpha) A d x (some beta) y
    if r.1 ≠ .success then some (r.1, r.2.1, out, r.2.2)
    else
      match dot with
      | none => some (.invalidKid, r.2.1, out, r.2.2)
      | some ker => do
        let H ← r.2.2
        let xs ← x
        let ys ← r.2.1
        let v ← denseDot ker k.cj (min H.raw.um H.raw.un) xs ys
        some (.success, r.2.1, some v, r.2.2)
  | _, _ => some (.invalidPointer, y, out, A)

end Model
end Verif
