/-
What a handle owns: the addresses that must be released when it is destroyed, and nothing else.
-/
import Verif.Model.Own
import Mathlib.Algebra.BigOperators.Group.Multiset.Basic

namespace Verif
namespace Spec
namespace Own
open Model.Own

/-- the address a pointer brings, when it is to something the library allocated -/
def hp : Option Ptr → Multiset Nat
  | some (.heap a) => {a}
  | _ => 0

/-- the addresses of a list of pointers -/
def hps (ps : List (Option Ptr)) : Multiset Nat := (ps.map hp).sum

/-- an object owns itself, its arrays if they are the library's, and its index arrays -/
def objOwn (o : Obj) : Multiset Nat :=
  {o.self} + (if o.internal then hps o.arrs else 0) + hps [o.idiag, o.iurow, o.diagVal]

def objOwn? : Option Obj → Multiset Nat
  | some o => objOwn o
  | none => 0

/-- a handle owns itself, the nodes of its hints, the arrays of the incomplete factorisation, and its
objects -/
def handleOwn (h : Handle) : Multiset Nat :=
  {h.self} + (h.hints : Multiset Nat) + hps [h.iluDiag, h.iluVal] + (h.mats.map objOwn?).sum

def handleOwn? : Option Handle → Multiset Nat
  | some h => handleOwn h
  | none => 0

def workOwn? : Option Work → Multiset Nat
  | some w => {w.self} + hps w.arrs
  | none => 0

/-- a solver handle owns itself, its data, its right hand side and the working arrays of the methods -/
def solverOwn (h : Solver) : Multiset Nat :=
  {h.self} + {h.data} + hps [h.b] + workOwn? h.cg + workOwn? h.gmres

def solverOwn? : Option Solver → Multiset Nat
  | some h => solverOwn h
  | none => 0

/-- everything the caller's variables own -/
def worldOwn {V : Type} (w : World V) : Multiset Nat :=
  (w.slots.map handleOwn?).sum + (w.solvers.map solverOwn?).sum

end Own
end Spec
end Verif
