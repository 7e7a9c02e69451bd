/-
Model of the choice of a kernel: the Oracle and what it asks.

  library/src/include/aoclsparse_cntx_dispatcher.hpp   46-109 (tables, get_supported, ORL), 301-396 (Oracle)
  library/src/include/aoclsparse_context.hpp           135-362 (context), 388-418 (isa_hint)
  library/src/extra/aoclsparse_auxiliary.cpp           56-113 (aoclsparse_enable_instructions)
  the tables of level1, level2/aoclsparse_csrmv.hpp, level2/aoclsparse_diamv.hpp, level2/aoclsparse_trsv.cpp,
  level3/aoclsparse_csrmm.hpp

ISA codes (context.hpp:44-58): UNSET 0, GENERIC 1, AVX2 2, AVX512F 3, AVX512DQ 4, AVX512VL 5, …
A null kernel pointer is `none`.
-/
import Verif.Core.Mem
import Verif.Core.Types

namespace Verif
namespace Model

/-- context.hpp:135-147 — what the library knows about the machine and the build.  `flags` is the array
cpuflags, `arch` lib_local_arch, `build512` whether USE_AVX512 is defined, `hint` global_isa_hint. -/
structure Ctx where
  flags : Nat → Bool
  arch : BitVec 32
  build512 : Bool
  hint : Nat

/-- context.hpp:302-309 — supports -/
def Ctx.supports (c : Ctx) (isa : Nat) : Bool := isa == 1 || c.flags isa

/-- context.hpp:198-219 — global_isa_hint from the environment variable (in upper case), given cpuflags -/
def envHint (flags : Nat → Bool) (env : String) : Nat :=
  if env = "AVX512" then (if flags 3 then 3 else if flags 2 then 2 else 1)
  else if env = "AVX2" then (if flags 2 then 2 else 1)
  else if env = "GENERIC" then 1
  else 0

/-- context.hpp:222-261 — lib_local_arch; `uarch`: 1 Zen or Zen+, 2 Zen2, 3 Zen3, 4 Zen4, 5 Zen5, anything
else unknown -/
def localArch (flags : Nat → Bool) (uarch : Nat) : BitVec 32 :=
  match uarch with
  | 1 => 1#32
  | 2 => 2#32
  | 3 => 4#32
  | 4 => 8#32
  | 5 => 16#32
  | _ => if flags 3 && flags 4 && flags 5 then 8#32 else if flags 2 then 4#32 else 0#32

/-- context.hpp:149-262 — the constructor.  `has` are the flags reported by the CPU, of which GENERIC, UNSET
and BF16 are not looked up. -/
def mkCtx (build512 : Bool) (has : Nat → Bool) (env : String) (uarch : Nat) : Ctx :=
  let flags := fun f => decide (f ∈ [2, 3, 4, 5, 6, 7, 8, 10, 11, 12]) && has f
  ⟨flags, localArch flags uarch, build512, envHint flags env.toUpper⟩

/-- context.hpp:388-418 — isa_hint, one per thread -/
structure IsaHint where
  old : Nat
  cur : Nat
deriving DecidableEq

/-- context.hpp:394-397 — the constructor -/
def IsaHint.init (c : Ctx) : IsaHint := ⟨c.hint, c.hint⟩

/-- context.hpp:406-413 — set_isa_hint -/
def IsaHint.set (h : IsaHint) (isa : Nat) : IsaHint := ⟨h.cur, isa⟩

/-- context.hpp:415-418 — is_isa_updated -/
def IsaHint.updated (h : IsaHint) : Bool := h.cur != h.old

/-- context.hpp:98-126 — env_get_var<T> for a type T other than aoclsparse_int: the variable is returned only
if T is std::string -/
def envGetVar (isString : Bool) (env : Option String) (fallback : String) : String :=
  match env with
  | some s => if isString then s else fallback
  | none => fallback

/-- auxiliary.cpp:56-113 — aoclsparse_enable_instructions.  A null pointer makes std::string{nullptr},
undefined.  In line 71 the second argument is `""`, so T is `const char *`. -/
def enableInstructions (c : Ctx) (env : Option String) (h : IsaHint) (pref : Option String) :
    Option (Status × IsaHint) :=
  match pref with
  | none => none
  | some s =>
    if s ≠ "" then
      let isa := if s.toUpper = "ENV" then (envGetVar false env "").toUpper else s.toUpper
      if isa = "" then some (.success, h.set 0)
      else if isa = "AVX512" ∧ c.flags 3 = true then some (.success, h.set 3)
      else if (isa = "AVX2" ∨ isa = "AVX512") ∧ c.flags 2 = true then some (.success, h.set 2)
      else if isa = "GENERIC" ∨ isa = "AVX2" ∨ isa = "AVX512" then some (.success, h.set 1)
      else some (.invalidValue, h)
    else some (.success, h.set 0)

/-- cntx_dispatcher.hpp:46-52 — Table: a row -/
structure Row (K : Type) where
  kernel : Option K
  flag : Nat
  arch : BitVec 32

/-- cntx_dispatcher.hpp:101-109 — ORL: rows for AVX-512 builds only -/
def orl {K : Type} (build512 : Bool) (r : Row K) : Row K := if build512 then r else ⟨none, 0, 0#32⟩

/-- cntx_dispatcher.hpp:71-99 — get_supported: one round of the loop -/
def supStep (c : Ctx) (s : Nat × Nat) (isa : Nat) : Nat × Nat :=
  if c.supports isa then
    if isa > 2 ∧ c.build512 = false then s
    else if s.2 ≤ isa then (isa, isa) else s
  else s

/-- cntx_dispatcher.hpp:71-99 — get_supported -/
def supportedOf (c : Ctx) (l : List Nat) : Nat := (l.foldl (supStep c) (0, 0)).1

/-- cntx_dispatcher.hpp:57-69 — the other ORL: a choice of two functions -/
def orl2 {K : Type} (c : Ctx) (f512 f2 : K) : K := if c.flags 3 && c.build512 then f512 else f2

/-- __builtin_popcount -/
def popcount (b : BitVec 32) : Nat := (List.range 32).countP fun i => b.getLsbD i

/-- cntx_dispatcher.hpp:361-384 — the score of a row -/
def rowScore {K : Type} (c : Ctx) (isaFlag : Nat) (r : Row K) : Nat :=
  let archBits := c.arch &&& r.arch
  let arch : Nat := if archBits ≠ 0 then 1 else 0
  let multi : Nat := if ~~~archBits &&& r.arch ≠ 0 then 1 else 0
  let multi := 32 - multi * (popcount r.arch - 1)
  ((1 - arch) * 1 + arch * multi) * arch + 100 * (if isaFlag = r.flag then 1 else 0)

/-- cntx_dispatcher.hpp:356-390 — one round of the loop; the state is maxscore and best_kernel -/
def oracleBody {K : Type} (c : Ctx) (isaFlag : Nat) (tbl : List (Row K)) (k : Int) (s : Nat × Option K) :
    Option (Nat × Option K) := do
  let r ← rd tbl k
  if c.supports r.flag then
    if s.1 ≤ rowScore c isaFlag r then some (rowScore c isaFlag r, r.kernel) else some s
  else some s

/-- cntx_dispatcher.hpp:301-396 — Oracle.  `best` is the parameter best_kernel, passed by value: the caller's
cache is not written.  Reading outside the table is undefined. -/
def oracle {K : Type} (c : Ctx) (h : IsaHint) (tbl : List (Row K)) (best : Option K) (kid begin_ end_ : Int) :
    Option (Option K) :=
  if 0 ≤ kid then
    if kid ≥ end_ - begin_ ∨ begin_ ≥ end_ ∨ ¬ (0 ≤ begin_ ∧ begin_ ≤ tbl.length - 1) ∨
        ¬ (0 ≤ end_ ∧ end_ ≤ tbl.length) then some none
    else do
      let r ← rd tbl (begin_ + kid)
      if c.supports r.flag then some r.kernel else some none
  else if best.isNone = true ∨ h.updated = true then do
    let s ← forC begin_ end_ (oracleBody c h.cur tbl) (0, best)
    some s.2
  else some best

/-! ### the tables -/

/-- a kernel: which of the kernels of its table, the operation it is an instance for, and the ISA its
instructions need: GENERIC for reference code, AVX2 for `bsz::b256`, AVX512VL for `bsz::b256` with
`kt_avxext::AVX512VL`, AVX512F for `bsz::b512` and the hand-written AVX-512 kernels -/
structure Kern where
  id : Nat
  doid : Nat
  need : Nat
deriving DecidableEq

/-- archs::ALL -/
def archAll : BitVec 32 := BitVec.allOnes 32

/-- the tables of dense_dot.hpp:70-73, axpyi.hpp:90-93, sctr.hpp:110-113, dot.hpp:98-101, roti.hpp:96-99,
csrmv.hpp:144-147 and 339-342, diamv.hpp:235-238 and 242-245 -/
def tblVanilla (b512 : Bool) : List (Row Kern) :=
  [⟨some ⟨0, 0, 1⟩, 1, archAll⟩, ⟨some ⟨1, 0, 2⟩, 2, archAll⟩, ⟨some ⟨1, 0, 2⟩, 2, archAll⟩,
   orl b512 ⟨some ⟨3, 0, 3⟩, 3, archAll⟩]

/-- the rows of one operation in gthr.hpp:120-123, trsv.cpp:319-358, and csrmm.hpp:784-787, 790-793,
815-818, 821-824 (where the third row needs AVX2 only) -/
def tblVL (b512 : Bool) (doid needVL : Nat) : List (Row Kern) :=
  [⟨some ⟨0, doid, 1⟩, 1, archAll⟩, ⟨some ⟨1, doid, 2⟩, 2, archAll⟩,
   orl b512 ⟨some ⟨2, doid, needVL⟩, 5, archAll⟩, orl b512 ⟨some ⟨3, doid, 3⟩, 3, archAll⟩]

/-- trsv.cpp:317-359 — eight operations, doid 12 to 19 -/
def tblTrsv (b512 : Bool) : List (Row Kern) :=
  [12, 13, 14, 15, 16, 17, 18, 19].flatMap fun d => tblVL b512 d 5

/-- csrmv.hpp:170-173, 198-201, 249-252, 363-366, 399-402 — transposed and symmetric products: the first row
is a 256-bit kernel ("Replace with reference") -/
def tblNoRef (b512 : Bool) : List (Row Kern) :=
  [⟨some ⟨1, 0, 2⟩, 1, archAll⟩, ⟨some ⟨1, 0, 2⟩, 2, archAll⟩, ⟨some ⟨1, 0, 2⟩, 2, archAll⟩,
   orl b512 ⟨some ⟨3, 0, 3⟩, 3, archAll⟩]

/-- trsv.cpp:361-379 — the kernel for a doid and a kid -/
def trsvSelect (c : Ctx) (h : IsaHint) (doid kid : Int) : Option (Except Status Kern) :=
  if doid - 12 < 0 ∨ doid - 12 > 7 then some (.error .internalError)
  else do
    let k ← oracle c h (tblTrsv c.build512) none kid ((doid - 12) * 4) ((doid - 12) * 4 + 4)
    match k with
    | none => some (.error .invalidKid)
    | some k => some (.ok k)

/-! ### threads -/

/-- context.hpp:264-282 and 314-362 — get_num_threads.  `env` is the value of AOCLSPARSE_NUM_THREADS after
strtol, `procs` omp_get_num_procs, and so on; `omp`: built with OpenMP. -/
def getNumThreads (omp : Bool) (env : Option Int) (procs maxThreads limit maxLevels level : Int) : Int :=
  if omp then
    let nt := env.getD procs
    let nt := if nt ≤ 0 then 1 else nt
    let ompMin := if maxThreads > limit then limit else maxThreads
    let n := if ompMin > nt then nt else ompMin
    if maxLevels ≤ level then 1 else n
  else 1

end Model
end Verif
