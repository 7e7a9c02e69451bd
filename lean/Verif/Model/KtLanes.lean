/-
The vector primitives of the kernel templates at the level of lanes
  library/src/include/kernel-templates/kt_l0_sse.hpp      (128 bit)
  library/src/include/kernel-templates/kt_l0_avx2.hpp     (256 bit)
  library/src/include/kernel-templates/kt_l0_avx512.hpp   (512 bit)
  library/src/include/kernel-templates/kt_l0.hpp, kt_l1.hpp
A register is the list of its lanes, lane 0 first; a lane holds one number of the base type (float or
double), so a complex number takes two lanes, real part first.  The functions `mm…` are the intrinsics
as the Intel manual describes them, for every width at once: one instruction on 256 or 512 bits acts on
every 128-bit block alike unless it says otherwise.  Memory of complex numbers is the array of their
parts, as `reinterpret_cast` sees it.  Half precision (kt_l0_avx512fp16.hpp, not used by the library) and
integer registers are not modelled.
-/
import Verif.Core.Mem
import Verif.Core.Types
import Verif.Model.CplxVec

namespace Verif
namespace Model

/-- kt_common.hpp:156-161: `bsz` — the width of a register -/
inductive Bsz where
  | b128
  | b256
  | b512
deriving DecidableEq

/-- number of 128-bit blocks -/
def Bsz.blocks : Bsz → Nat
  | .b128 => 1
  | .b256 => 2
  | .b512 => 4

/-- the base type of the elements -/
inductive LaneTy where
  | flt
  | dbl
deriving DecidableEq

/-- lanes in a 128-bit block -/
def LaneTy.per : LaneTy → Nat
  | .flt => 4
  | .dbl => 2

/-- number of lanes -/
def laneCount (w : Bsz) (t : LaneTy) : Nat := w.blocks * t.per

/-- the fused operations of a lane -/
structure LaneFpu (T : Type) where
  /-- `a * b + c` -/
  fma : T → T → T → T
  /-- `a * b - c` -/
  fms : T → T → T → T

/-- product and sum one after the other -/
def LaneFpu.plain {T : Type} [Add T] [Sub T] [Mul T] : LaneFpu T := ⟨fun a b c => a * b + c, fun a b c => a * b - c⟩

section
variable {T : Type} [Zero T]

/-! ### intrinsics -/

/-- lane `i` (`v[i]`) -/
def lane (v : List T) (i : Nat) : T := v.getD i 0

/-- the register with lane `i` equal to `f i` -/
def mmOf (n : Nat) (f : Nat → T) : List T := (List.range n).map f

/-- `_mm_permute_pd`: one bit of the mask per lane, within blocks of two lanes -/
def mmPermutePd (imm : Nat) (v : List T) : List T :=
  mmOf v.length fun i => lane v (2 * (i / 2) + imm / 2 ^ i % 2)

/-- `_mm_permute_ps`: two bits of the mask per lane of a block of four, the same mask in every block -/
def mmPermutePs (imm : Nat) (v : List T) : List T :=
  mmOf v.length fun i => lane v (4 * (i / 4) + imm / 4 ^ (i % 4) % 4)

/-- `_mm256_permute4x64_pd`, `_mm512_permutex_pd`: two bits of the mask per lane, within 256 bits -/
def mmPermute4Pd (imm : Nat) (v : List T) : List T :=
  mmOf v.length fun i => lane v (4 * (i / 4) + imm / 4 ^ (i % 4) % 4)

/-- `_mm256_permutevar8x32_ps`, `_mm512_permutexvar_pd/ps`: lane `i` from lane `idx[i]` (the last bits of
the index; the masks below are in range) -/
def mmPermuteVar (idx : List Nat) (v : List T) : List T := mmOf v.length fun i => lane v (idx.getD i 0)

/-- `_mm_movedup_pd`, `_mm_moveldup_ps`: even lanes doubled -/
def mmMoveLow (v : List T) : List T := mmOf v.length fun i => lane v (2 * (i / 2))

/-- `_mm_movehdup_ps`: odd lanes doubled -/
def mmMoveHigh (v : List T) : List T := mmOf v.length fun i => lane v (2 * (i / 2) + 1)

/-- `_mm_shuffle_pd` (128 bit): lane 0 from `a`, lane 1 from `b` -/
def mmShufflePd (a b : List T) (imm : Nat) : List T :=
  [lane a (imm % 2), lane b (imm / 2 % 2)]

/-- `_mm_shuffle_ps` (128 bit): lanes 0 and 1 from `a`, lanes 2 and 3 from `b` -/
def mmShufflePs (a b : List T) (imm : Nat) : List T :=
  [lane a (imm % 4), lane a (imm / 4 % 4), lane b (imm / 16 % 4), lane b (imm / 64 % 4)]

/-- `_MM_SHUFFLE(z, y, x, w)` -/
def mmShuffleImm (z y x w : Nat) : Nat := 64 * z + 16 * y + 4 * x + w

/-- `_mm_blend_ps`: lane `i` from `b` if bit `i` of the mask is set -/
def mmBlendPs (a b : List T) (imm : Nat) : List T :=
  mmOf a.length fun i => if imm / 2 ^ i % 2 = 1 then lane b i else lane a i

/-- `_mm_hadd_pd`: sums of neighbours, in every block first those of `a`, then those of `b` -/
def mmHaddPd [Add T] (a b : List T) : List T :=
  mmOf a.length fun i => if i % 2 = 0 then lane a i + lane a (i + 1) else lane b (i - 1) + lane b i

/-- `_mm_hadd_ps`: in every block of four `a0+a1, a2+a3, b0+b1, b2+b3` -/
def mmHaddPs [Add T] (a b : List T) : List T :=
  mmOf a.length fun i =>
    if i % 4 < 2 then lane a (4 * (i / 4) + 2 * (i % 4)) + lane a (4 * (i / 4) + 2 * (i % 4) + 1)
    else lane b (4 * (i / 4) + 2 * (i % 4 - 2)) + lane b (4 * (i / 4) + 2 * (i % 4 - 2) + 1)

/-- `_mm256_castpd256_pd128`, `_mm256_castps256_ps128`: the lower half -/
def mmLower (v : List T) : List T := v.take (v.length / 2)

/-- `_mm256_extractf128_pd/ps(v, 1)`: the upper half -/
def mmUpper (v : List T) : List T := v.drop (v.length / 2)

/-- `_mm_add_pd/ps` -/
def mmAdd [Add T] (a b : List T) : List T := List.zipWith (· + ·) a b

/-- `_mm_sub_pd/ps` -/
def mmSub [Sub T] (a b : List T) : List T := List.zipWith (· - ·) a b

/-- `_mm_mul_pd/ps` -/
def mmMul [Mul T] (a b : List T) : List T := List.zipWith (· * ·) a b

/-- `_mm_div_pd/ps` -/
def mmDiv [Div T] (a b : List T) : List T := List.zipWith (· / ·) a b

/-- `_mm_fmadd_pd/ps` -/
def mmFmadd (F : LaneFpu T) (a b c : List T) : List T :=
  mmOf a.length fun i => F.fma (lane a i) (lane b i) (lane c i)

/-- `_mm_fmsub_pd/ps` -/
def mmFmsub (F : LaneFpu T) (a b c : List T) : List T :=
  mmOf a.length fun i => F.fms (lane a i) (lane b i) (lane c i)

/-- `_mm_fmaddsub_pd/ps`: even lanes `a*b - c`, odd lanes `a*b + c` -/
def mmFmaddsub (F : LaneFpu T) (a b c : List T) : List T :=
  mmOf a.length fun i =>
    if i % 2 = 0 then F.fms (lane a i) (lane b i) (lane c i) else F.fma (lane a i) (lane b i) (lane c i)

/-- `_mm_addsub_pd/ps`: even lanes `a - b`, odd lanes `a + b` -/
def mmAddsub [Add T] [Sub T] (a b : List T) : List T :=
  mmOf a.length fun i => if i % 2 = 0 then lane a i - lane b i else lane a i + lane b i

/-- `_mm_xor_pd/ps` with a register of `0.0` (`false`) and `-0.0` (`true`): the sign is flipped -/
def mmXorSign [Neg T] (mask : List Bool) (v : List T) : List T :=
  mmOf v.length fun i => if mask.getD i false then -lane v i else lane v i

/-- `_mm512_maskz_loadu_pd/ps`: lanes whose bit is not set are zero, their memory is not read -/
def mmMaskzLoadu (n mask : Nat) (mem : List T) (p : Int) : Option (List T) :=
  (List.range n).mapM fun (i : Nat) => if mask / 2 ^ i % 2 = 1 then rd mem (p + i) else some 0

/-! ### loads and stores -/

/-- kt_l0_avx2.hpp:191-215, kt_l0_sse.hpp:177-203, kt_l0_avx512.hpp:223-251 — kt_load_p, kt_loadu_p at lane `p` of the
memory (the alignment that kt_load_p asks for is not modelled) -/
def ktLoadu (w : Bsz) (t : LaneTy) (mem : List T) (p : Int) : Option (List T) :=
  (List.range (laneCount w t)).mapM fun (i : Nat) => rd mem (p + i)

/-- kt_l0_avx2.hpp:217-226, kt_l0_sse.hpp:205-214, kt_l0_avx512.hpp:253-262 — kt_storeu_p -/
def ktStoreu (v : List T) (mem : List T) (p : Int) : Option (List T) :=
  forC 0 v.length (fun i m => wr m (p + i) (lane v i.toNat)) mem

/-- kt_l0_avx2.hpp:50-82, kt_l0_sse.hpp:49-82, kt_l0_avx512.hpp:59-88 — kt_set1_p, real -/
def ktSet1 (w : Bsz) (t : LaneTy) (x : T) : List T := List.replicate (laneCount w t) x

/-- the same, complex: `_mm256_set_pd(i, r, i, r)` (the last argument is lane 0) -/
def ktSet1C (w : Bsz) (t : LaneTy) (re im : T) : List T :=
  mmOf (laneCount w t) fun i => if i % 2 = 0 then re else im

/-- kt_l0_avx2.hpp:37-48, kt_l0_sse.hpp:35-47, kt_l0_avx512.hpp:46-57 — kt_setzero_p -/
def ktSetzero (w : Bsz) (t : LaneTy) : List T := List.replicate (laneCount w t) 0

/-- kt_l0_avx2.hpp:84-119, kt_l0_sse.hpp:84-113, kt_l0_avx512.hpp:90-138 — kt_set_p, real: lane `k` is `v[b[k]]`,
where `v` points to position `o` of the memory and `b` to position `q` of the indices -/
def ktSet (w : Bsz) (t : LaneTy) (mem : List T) (o : Int) (b : List Int) (q : Int) : Option (List T) :=
  (List.range (laneCount w t)).mapM fun (k : Nat) => do
    let c ← rd b (q + k)
    rd mem (o + c)

/-- the same, complex: lanes `2k` and `2k + 1` are `v[b[k]].real()` and `v[b[k]].imag()` -/
def ktSetC (w : Bsz) (t : LaneTy) (mem : List T) (o : Int) (b : List Int) (q : Int) : Option (List T) :=
  (List.range (laneCount w t)).mapM fun (i : Nat) => do
    let c ← rd b (q + ((i / 2 : Nat) : Int))
    rd mem (2 * (o + c) + ((i % 2 : Nat) : Int))

/-- kt_common_x86.hpp:216-255 — `pz<T, L>(x, idx)`: `x[idx]` if `L ≥ 0`, zero otherwise -/
def ktPz (l : Int) (mem : List T) (p : Int) : Option T := if l ≥ 0 then rd mem p else some 0

/-- kt_l0_avx2.hpp:121-152, kt_l0_sse.hpp:115-144 — kt_maskz_set_p without AVX-512VL, first `L` elements at `b`, real:
lane `k` is `pz<SUF, L - (k+1)>(v, b + k)` -/
def ktMaskz (w : Bsz) (t : LaneTy) (L : Nat) (mem : List T) (b : Int) : Option (List T) :=
  (List.range (laneCount w t)).mapM fun (k : Nat) => ktPz ((L : Int) - (k + 1)) mem (b + k)

/-- the same, complex -/
def ktMaskzC (w : Bsz) (t : LaneTy) (L : Nat) (mem : List T) (b : Int) : Option (List T) :=
  (List.range (laneCount w t)).mapM fun (i : Nat) =>
    ktPz ((L : Int) - ((i / 2 : Nat) + 1)) mem (2 * (b + ((i / 2 : Nat) : Int)) + ((i % 2 : Nat) : Int))

/-- kt_l0_avx512.hpp:140-177 — kt_maskz_set_p with AVX-512: `_mm512_maskz_loadu_pd((1 << L) - 1, &v[b])` -/
def ktMaskz512 (w : Bsz) (t : LaneTy) (L : Nat) (mem : List T) (b : Int) : Option (List T) :=
  mmMaskzLoadu (laneCount w t) (2 ^ L - 1) mem b

/-- the same, complex: the mask has two bits per element -/
def ktMaskz512C (w : Bsz) (t : LaneTy) (L : Nat) (mem : List T) (b : Int) : Option (List T) :=
  mmMaskzLoadu (laneCount w t) (2 ^ (2 * L) - 1) mem (2 * b)

/-- kt_l0_avx2.hpp:154-189, kt_l0_sse.hpp:146-175, kt_l0_avx512.hpp:179-221 — kt_maskz_set_p with indices, real: lane `k` is
`pz<SUF, L - (k+1)>(v, b, k)`; neither the index nor the value of a masked lane is read -/
def ktMaskzInd (w : Bsz) (t : LaneTy) (L : Nat) (mem : List T) (o : Int) (b : List Int) (q : Int) :
    Option (List T) :=
  (List.range (laneCount w t)).mapM fun (k : Nat) =>
    if (L : Int) - (k + 1) ≥ 0 then do
      let c ← rd b (q + k)
      rd mem (o + c)
    else some 0

/-- the same, complex -/
def ktMaskzIndC (w : Bsz) (t : LaneTy) (L : Nat) (mem : List T) (o : Int) (b : List Int) (q : Int) :
    Option (List T) :=
  (List.range (laneCount w t)).mapM fun (i : Nat) =>
    if (L : Int) - ((i / 2 : Nat) + 1) ≥ 0 then do
      let c ← rd b (q + ((i / 2 : Nat) : Int))
      rd mem (2 * (o + c) + ((i % 2 : Nat) : Int))
    else some 0

/-- the fused operation of a scatter (kt_common.hpp:439-446) -/
inductive ScatterOp where
  | none
  | add
  | sub

/-- kt_l0.hpp:36-54 — the value that one step of the scatter stores -/
def ScatterOp.put [Add T] [Sub T] (op : ScatterOp) (old new : T) : T :=
  match op with
  | .none => new
  | .add => old + new
  | .sub => old - new

/-- kt_l0.hpp:36-54 — one step of kt_scatter_p -/
def ktScatterStep [Add T] [Sub T] (op : ScatterOp) (a : List T) (o : Int) (b : List Int) (q : Int) (k : Int)
    (m : List T) : Option (List T) := do
  let c ← rd b (q + k)
  let old ← rd m (o + c)
  wr m (o + c) (op.put old (lane a k.toNat))

/-- kt_l0.hpp:36-54 — kt_scatter_p: `v[b[k]] (op)= a[k]`, one element after the other; here `T` is the
type of the elements (the register is read as an array of elements), real or complex -/
def ktScatter [Add T] [Sub T] (op : ScatterOp) (a : List T) (mem : List T) (o : Int) (b : List Int) (q : Int) :
    Option (List T) :=
  forC 0 a.length (ktScatterStep op a o b q) mem

/-! ### arithmetic -/

variable [Add T] [Sub T] [Mul T] [Div T] [Neg T]

/-- kt_l0_avx2.hpp:228-237, kt_l0_sse.hpp:216-226, kt_l0_avx512.hpp:264-273 — kt_add_p (real and complex) -/
def ktAdd (a b : List T) : List T := mmAdd a b

/-- kt_l0_avx2.hpp:239-249, kt_l0_sse.hpp:228-239, kt_l0_avx512.hpp:275-285 — kt_sub_p (real and complex) -/
def ktSub (a b : List T) : List T := mmSub a b

/-- kt_l0_avx2.hpp:256-263, kt_l0_sse.hpp:247-254, kt_l0_avx512.hpp:292-299 — kt_mul_p, real -/
def ktMul (a b : List T) : List T := mmMul a b

/-- kt_l0_sse.hpp:255-270 — kt_mul_p, one complex double in 128 bits -/
def ktMulSseD (a b : List T) : List T :=
  let real := mmMul a b
  let imag := mmMul a (mmShufflePd b b 1)
  let t1 := mmShufflePd real imag 3
  let t2 := mmShufflePd real imag 0
  mmAddsub t2 t1

/-- kt_l0_sse.hpp:271-288 — kt_mul_p, two complex floats in 128 bits -/
def ktMulSseF (a b : List T) : List T :=
  let real := mmMul a b
  let imag := mmMul a (mmShufflePs b b (mmShuffleImm 2 3 0 1))
  let t1 := mmBlendPs real imag 10
  let t2 := mmBlendPs imag real 10
  let t2 := mmShufflePs t2 t2 (mmShuffleImm 2 3 0 1)
  mmAddsub t1 t2

/-- kt_l0_avx2.hpp:264-277, kt_l0_avx512.hpp:300-313 — kt_mul_p, complex double; the mask `imm` is 0x5 for 256 bits
and 0x55 for 512 bits -/
def ktMulAvxD (F : LaneFpu T) (imm : Nat) (a b : List T) : List T :=
  let half := mmMoveLow (mmPermutePd imm a)
  let tmp := mmMul half b
  let half := mmMoveLow a
  mmFmaddsub F half b (mmPermutePd imm tmp)

/-- kt_l0_avx2.hpp:278-291, kt_l0_avx512.hpp:314-327 — kt_mul_p, complex float -/
def ktMulAvxF (F : LaneFpu T) (a b : List T) : List T :=
  let half := mmMoveHigh a
  let tmp := mmMul half b
  let half := mmMoveLow a
  mmFmaddsub F half b (mmPermutePs 0xB1 tmp)

/-- kt_l0_avx2.hpp:251-292, kt_l0_sse.hpp:241-289, kt_l0_avx512.hpp:287-328 — kt_mul_p, complex -/
def ktMulC (F : LaneFpu T) (w : Bsz) (t : LaneTy) (a b : List T) : List T :=
  match w, t with
  | .b128, .dbl => ktMulSseD a b
  | .b128, .flt => ktMulSseF a b
  | .b256, .dbl => ktMulAvxD F 0x5 a b
  | .b512, .dbl => ktMulAvxD F 0x55 a b
  | _, .flt => ktMulAvxF F a b

/-- kt_l0_avx2.hpp:301-304, kt_l0_sse.hpp:299-302, kt_l0_avx512.hpp:337-340 — kt_fmadd_p, real -/
def ktFmadd (F : LaneFpu T) (a b c : List T) : List T := mmFmadd F a b c

/-- kt_l0_avx2.hpp:294-309, kt_l0_sse.hpp:291-307, kt_l0_avx512.hpp:330-345 — kt_fmadd_p, complex -/
def ktFmaddC (F : LaneFpu T) (w : Bsz) (t : LaneTy) (a b c : List T) : List T := ktAdd (ktMulC F w t a b) c

/-- kt_l0_avx2.hpp:318-321, kt_l0_sse.hpp:317-320, kt_l0_avx512.hpp:354-357 — kt_fmsub_p, real -/
def ktFmsub (F : LaneFpu T) (a b c : List T) : List T := mmFmsub F a b c

/-- kt_l0_avx2.hpp:311-326, kt_l0_sse.hpp:309-325, kt_l0_avx512.hpp:347-362 — kt_fmsub_p, complex -/
def ktFmsubC (F : LaneFpu T) (w : Bsz) (t : LaneTy) (a b c : List T) : List T := ktSub (ktMulC F w t a b) c

/-- kt_l0_avx2.hpp:382-403, kt_l0_sse.hpp:327-348, kt_l0_avx512.hpp:418-440 — kt_conj_p, complex: the mask is
`(0, -0, 0, -0, …)` -/
def ktConjC (w : Bsz) (t : LaneTy) (a : List T) : List T :=
  mmXorSign ((List.range (laneCount w t)).map fun i => i % 2 = 1) a

/-- kt_l0_avx2.hpp:333-341 — kt_hsum_p, four doubles -/
def ktHsum4 (v : List T) : T :=
  let w := mmHaddPd v v
  let l := mmLower w
  let h := mmUpper w
  let s := mmAdd l h
  lane s 0

/-- kt_l0_avx2.hpp:342-351 — kt_hsum_p, eight floats -/
def ktHsum8 (v : List T) : T :=
  let w := mmHaddPs v v
  let w := mmHaddPs w w
  let l := mmLower w
  let h := mmUpper w
  let s := mmAdd l h
  lane s 0

/-- kt_l0_avx2.hpp:328-351, kt_l0_sse.hpp:350-363, kt_l0_avx512.hpp:364-376 — kt_hsum_p, real.  `red` is the order in which
the compiler evaluates `_mm512_reduce_add_pd/ps`. -/
def ktHsum (red : List T → T) (w : Bsz) (t : LaneTy) (v : List T) : T :=
  match w, t with
  | .b128, .dbl => lane v 0 + lane v 1
  | .b128, .flt => lane v 0 + lane v 1 + lane v 2 + lane v 3
  | .b256, .dbl => ktHsum4 v
  | .b256, .flt => ktHsum8 v
  | .b512, _ => red v

/-- kt_l0_avx2.hpp:352-362 — kt_hsum_p, two complex doubles -/
def ktHsumC4 (v : List T) : T × T :=
  let tmp := mmPermute4Pd 0b1110 v
  let s := mmAdd v tmp
  (lane s 0, lane s 1)

/-- kt_l0_avx2.hpp:363-379 — kt_hsum_p, four complex floats; `idx` is listed from lane 0 on -/
def ktHsumC8 (v : List T) : T × T :=
  let tmp := mmPermutePs 0b1110 v
  let res := mmAdd v tmp
  let tmp := mmPermuteVar [4, 5, 1, 0, 3, 2, 7, 6] res
  let s := mmAdd res tmp
  (lane s 0, lane s 1)

/-- kt_l0_avx512.hpp:377-393 — kt_hsum_p, four complex doubles -/
def ktHsumC8d (v : List T) : T × T :=
  let tmp := mmPermute4Pd 0b11101110 v
  let res := mmAdd v tmp
  let tmp := mmPermuteVar [4, 5, 6, 7, 3, 2, 1, 0] res
  let s := mmAdd res tmp
  (lane s 0, lane s 1)

/-- kt_l0_avx512.hpp:394-415 — kt_hsum_p, eight complex floats -/
def ktHsumC16 (v : List T) : T × T :=
  let tmp := mmPermutePs 0b11101110 v
  let res := mmAdd v tmp
  let tmp := mmPermuteVar [4, 5, 0, 1, 2, 3, 6, 7, 12, 13, 8, 9, 10, 11, 14, 15] res
  let s := mmAdd res tmp
  let tmp := mmPermuteVar [8, 9, 0, 1, 2, 3, 4, 5, 6, 7, 10, 11, 12, 13, 14, 15] s
  let s := mmAdd s tmp
  (lane s 0, lane s 1)

/-- kt_l0_avx2.hpp:352-380, kt_l0_sse.hpp:364-372, kt_l0_avx512.hpp:377-416 — kt_hsum_p, complex -/
def ktHsumC (w : Bsz) (t : LaneTy) (v : List T) : T × T :=
  match w, t with
  | .b128, .dbl => (lane v 0, lane v 1)
  | .b128, .flt => (lane v 0 + lane v 2, lane v 1 + lane v 3)
  | .b256, .dbl => ktHsumC4 v
  | .b256, .flt => ktHsumC8 v
  | .b512, .dbl => ktHsumC8d v
  | .b512, .flt => ktHsumC16 v

/-- kt_l0_avx2.hpp:406-427, kt_l0_sse.hpp:374-402, kt_l0_avx512.hpp:442-463 — kt_fmadd_B, complex: the pair `(c, d)` after
the call.  With 128 bits it is kt_fmadd_p and `d` is not used. -/
def ktFmaddB (F : LaneFpu T) (w : Bsz) (t : LaneTy) (a b : List T) (s : List T × List T) : List T × List T :=
  match w, t with
  | .b128, t => (ktFmaddC F .b128 t a b s.1, s.2)
  | .b256, .dbl => (mmFmadd F a b s.1, mmFmadd F a (mmPermutePd 0b0101 b) s.2)
  | .b512, .dbl => (mmFmadd F a b s.1, mmFmadd F a (mmPermutePd 0b01010101 b) s.2)
  | _, .flt => (mmFmadd F a b s.1, mmFmadd F a (mmPermutePs 0b10110001 b) s.2)

/-- kt_l0_avx2.hpp:429-475, kt_l0_sse.hpp:404-412, kt_l0_avx512.hpp:465-491 — kt_hsum_B, complex -/
def ktHsumB (red : List T → T) (w : Bsz) (t : LaneTy) (s : List T × List T) : T × T :=
  match w with
  | .b128 => ktHsumC .b128 t s.1
  | .b256 => (ktHsum red .b256 t (ktConjC .b256 t s.1), ktHsum red .b256 t s.2)
  | .b512 => (red (ktConjC .b512 t s.1), red s.2)

/-- kt_l0_avx2.hpp:493-526, kt_l0_sse.hpp:431-463, kt_l0_avx512.hpp:509-540 — kt_pow2_p, complex: both lanes of an element
hold the square of its absolute value -/
def ktPow2C (w : Bsz) (t : LaneTy) (a : List T) : List T :=
  let pow2 := ktMul a a
  match w, t with
  | .b128, .dbl => mmAdd pow2 (mmShufflePd pow2 pow2 1)
  | .b128, .flt => mmAdd pow2 (mmShufflePs pow2 pow2 (mmShuffleImm 2 3 0 1))
  | .b256, .dbl => mmAdd pow2 (mmPermutePd 0b0101 pow2)
  | .b512, .dbl => mmAdd pow2 (mmPermutePd 0x55 pow2)
  | _, .flt => mmAdd pow2 (mmPermutePs 0b10110001 pow2)

/-- kt_l0_avx2.hpp:533-540, kt_l0_sse.hpp:471-478, kt_l0_avx512.hpp:547-554 — kt_div_p, real -/
def ktDiv (a b : List T) : List T := mmDiv a b

/-- kt_l0_avx2.hpp:528-557, kt_l0_sse.hpp:465-495, kt_l0_avx512.hpp:542-571 — kt_div_p, complex -/
def ktDivC (F : LaneFpu T) (w : Bsz) (t : LaneTy) (a b : List T) : List T :=
  let nmrtr := ktMulC F w t a (ktConjC w t b)
  let dentr := ktPow2C w t b
  mmDiv nmrtr dentr

/-- kt_l1.hpp:41-48 — kt_dot_p, real -/
def ktDot (red : List T → T) (w : Bsz) (t : LaneTy) (a b : List T) : T := ktHsum red w t (ktMul a b)

/-- kt_l1.hpp:41-48 — kt_dot_p, complex -/
def ktDotC (F : LaneFpu T) (w : Bsz) (t : LaneTy) (a b : List T) : T × T := ktHsumC w t (ktMulC F w t a b)

/-- kt_l1.hpp:57-70 — kt_cdot_p, complex: `b` is conjugated -/
def ktCdotC (F : LaneFpu T) (w : Bsz) (t : LaneTy) (a b : List T) : T × T := ktDotC F w t a (ktConjC w t b)

end

/-! ### the accumulators of the kernels, in registers -/

section
variable {S : Type} [Ring S]

/-- a register of complex numbers: the parts of every element next to each other -/
def ktPack (z : List (Cx S)) : List S := z.flatMap fun c => [c.re, c.im]

/-- the accumulator of the real kernels: kt_setzero_p, kt_fmadd_p, kt_hsum_p (kt_fmadd_B and kt_hsum_B are the
same for real types, kt_l0_avx2.hpp:415-416, 434-436) -/
def vecKt (F : LaneFpu S) (red : List S → S) (w : Bsz) (t : LaneTy) : Vec S where
  σ := List S
  zero := ktSetzero w t
  fma := fun L s => ktFmadd F (L.map (·.1)) (L.map (·.2)) s
  hsum := ktHsum red w t

/-- the accumulator of the complex kernels that use kt_fmadd_p and kt_hsum_p -/
def vecKtC (F : LaneFpu S) (w : Bsz) (t : LaneTy) : Vec (Cx S) where
  σ := List S
  zero := ktSetzero w t
  fma := fun L s => ktFmaddC F w t (ktPack (L.map (·.1))) (ktPack (L.map (·.2))) s
  hsum := fun s => ⟨(ktHsumC w t s).1, (ktHsumC w t s).2⟩

/-- the pair of accumulators of the complex kernels that use kt_fmadd_B and kt_hsum_B -/
def vecKtB (F : LaneFpu S) (red : List S → S) (w : Bsz) (t : LaneTy) : Vec (Cx S) where
  σ := List S × List S
  zero := (ktSetzero w t, ktSetzero w t)
  fma := fun L s => ktFmaddB F w t (ktPack (L.map (·.1))) (ktPack (L.map (·.2))) s
  hsum := fun s => ⟨(ktHsumB red w t s).1, (ktHsumB red w t s).2⟩

end
end Model
end Verif
