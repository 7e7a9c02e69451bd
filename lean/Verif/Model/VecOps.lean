/-
Vector loads and stores, and the block loops of the templated kernels
  library/src/include/kernel-templates/kt_l0_avx2.hpp (kt_loadu_p, kt_storeu_p)
-/
import Verif.Core.Mem

namespace Verif
namespace Model

variable {R σ : Type}

/-- kt_loadu_p — `K` consecutive elements starting at position `p` -/
def vload (a : List R) (p : Int) (K : Nat) : Option (List R) :=
  (List.range K).mapM fun (l : Nat) => rd a (p + (l : Int))

/-- kt_storeu_p — store the lanes `v` from position `p` on -/
def vstore (a : List R) (p : Int) (v : List R) : Option (List R) :=
  forC 0 (v.length : Int) (fun l a => do
    let x ← rd v l
    wr a (p + l) x) a

/-- `while(i + K <= e) { f; i += K; }`: the final `i` and state; `n` bounds the number of
iterations -/
def whileBlk (K : Nat) (e : Int) (f : Int → σ → Option σ) : Nat → Int → σ → Option (Int × σ)
  | 0, i, s => some (i, s)
  | n + 1, i, s =>
    if i + (K : Int) ≤ e then (f i s).bind fun s' => whileBlk K e f n (i + K) s'
    else some (i, s)

/-- the loop above from `lo` on (at most `e - lo` iterations happen) -/
def whileFrom (K : Nat) (lo e : Int) (f : Int → σ → Option σ) (s : σ) : Option (Int × σ) :=
  whileBlk K e f (e - lo).toNat lo s

end Model
end Verif
