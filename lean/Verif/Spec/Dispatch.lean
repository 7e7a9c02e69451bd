/-
What the dispatcher is meant to choose (documentation in aoclsparse_cntx_dispatcher.hpp:117-299 and
aoclsparse_auxiliary.h:49-89).
-/
import Verif.Model.Dispatch

namespace Verif
namespace Spec
open Model

/-- the machine can run code for this ISA -/
def CanRun (c : Ctx) (isa : Nat) : Prop := isa = 1 ∨ c.flags isa = true

/-- the machine is one of the suggested architectures of a row; `none`: an unknown machine -/
def suggested {K : Type} (arch : Option Nat) (r : Row K) : Bool :=
  match arch with
  | some a => r.arch.getLsbD a
  | none => false

/-- how many other architectures a row suggests -/
def others {K : Type} (arch : Option Nat) (r : Row K) : Nat :=
  (List.range 32).countP fun i => r.arch.getLsbD i && !decide (arch = some i)

/-- how well a row fits: 100 for the ISA asked for; between 1 and 32 if the machine is among the suggested
architectures, the fewer others the better -/
def fit {K : Type} (arch : Option Nat) (wanted : Nat) (r : Row K) : Nat :=
  (if wanted = r.flag then 100 else 0) + if suggested arch r then 32 - others arch r else 0

/-- row `k` is the best of rows `b ≤ k < e`: it can run, no other that can run fits better, later ones fit
less -/
structure Best {K : Type} (c : Ctx) (arch : Option Nat) (wanted : Nat) (tbl : List (Row K)) (b e k : Nat)
    (r : Row K) : Prop where
  row : tbl[k]? = some r
  range : b ≤ k ∧ k < e
  run : CanRun c r.flag
  best : ∀ j r', b ≤ j → j < e → tbl[j]? = some r' → CanRun c r'.flag →
    fit arch wanted r' ≤ fit arch wanted r ∧ (k < j → fit arch wanted r' < fit arch wanted r)

/-- the preference a string stands for on a machine; `none`: not a preference -/
def preference (c : Ctx) (s : String) : Option Nat :=
  match s.toUpper with
  | "" => some 0
  | "ENV" => some 0
  | "GENERIC" => some 1
  | "AVX2" => some (if c.flags 2 then 2 else 1)
  | "AVX512" => some (if c.flags 3 then 3 else if c.flags 2 then 2 else 1)
  | _ => none

/-- the preference in force after a sequence of requests, the latest first; `init` at the start -/
def inForce (c : Ctx) (init : Nat) : List String → Nat
  | [] => init
  | s :: l => (preference c s).getD (inForce c init l)

end Spec
end Verif
