/-
What the options of the iterative solvers are meant to be: the table in aoclsparse_solvers.h:165-180, and what
a sequence of calls leaves in it.
-/
import Verif.Model.Opts

namespace Verif
namespace Spec
open Model

/-- the words of a text: the maximal runs of characters that are not blank, in lower case.  Names and labels are
compared by their words. -/
def words (s : Str) : List Str := ((s.splitOnP isSpc).filter (· ≠ [])).map (·.map lowerC)

/-- the value of a sequence of decimal digits -/
def digitsVal (ds : Str) : Nat := ds.foldl (fun a c => 10 * a + (c.toNat - 48)) 0

/-- a text that starts, after blanks and a sign, with the digits of a number -/
def IntText (s : Str) (v : Int) : Prop :=
  ∃ blanks sign ds rest : Str, s = blanks ++ sign ++ ds ++ rest ∧ (∀ c ∈ blanks, isSpc c = true) ∧
    (sign = [] ∨ sign = ['+'] ∨ sign = ['-']) ∧ ds ≠ [] ∧ (∀ c ∈ ds, c.isDigit = true) ∧
    (∀ c t, rest = c :: t → c.isDigit = false) ∧
    v = if sign = ['-'] then -(digitsVal ds : Int) else digitsVal ds

/-- a reader of integers of 32 bits -/
def ReadsInts (readInt : Str → Option Int) : Prop :=
  ∀ s v, readInt s = some v ↔ IntText s v ∧ -2 ^ 31 ≤ v ∧ v ≤ 2 ^ 31 - 1

/-- the value of an option -/
inductive OptVal (Q : Type) where
  | int (i : Int)
  | real (q : Q)
  | choice (label : String)

/-- what an option takes: integers from 1, reals from 0, or one of a list of labels with their meaning -/
inductive Kind where
  | int
  | real
  | choice (labels : List (String × Int))
deriving DecidableEq

/-- the table of options -/
def table : List (String × Kind) :=
  [("cg iteration limit", .int), ("gmres iteration limit", .int), ("gmres restart iterations", .int),
   ("cg rel tolerance", .real), ("cg abs tolerance", .real), ("gmres rel tolerance", .real),
   ("gmres abs tolerance", .real),
   ("iterative method", .choice [("cg", 1), ("pcg", 1), ("gmres", 2), ("gm res", 2)]),
   ("cg preconditioner", .choice [("none", 0), ("user", 1), ("gs", 3), ("symgs", 3), ("sgs", 3)]),
   ("gmres preconditioner", .choice [("none", 0), ("user", 1), ("ilu0", 2)])]

/-- the option a name stands for -/
def optionOf (name : Str) : Option (String × Kind) :=
  table.find? fun e => decide (words e.1.toList = words name)

/-- what a text stands for as the value of an option: `none` not a number where a number is needed (the call
does not return), `some none` refused -/
def valueOf {Q : Type} [LinearOrder Q] (zero : Q) (readInt : Str → Option Int) (stod : Str → Option (Option Q))
    (k : Kind) (v : Str) :
    Option (Option (OptVal Q)) :=
  match k with
  | .int => (readInt v).map fun i => if 1 ≤ i then some (.int i) else none
  | .real => (stod v).map fun q =>
    match q with
    | some q => if zero ≤ q then some (.real q) else none
    | none => none
  | .choice labels => some ((labels.find? fun l => decide (words l.1.toList = words v)).map fun l => .choice l.1)

/-- the state: the value of each option, and whether a solve is under way -/
structure OptState (Q : Type) where
  vals : String → OptVal Q
  locked : Bool

/-- the values at the start -/
def defaults {Q : Type} (rel abs : Q) : String → OptVal Q := fun n =>
  if n = "cg iteration limit" then .int 500
  else if n = "gmres iteration limit" then .int 150
  else if n = "gmres restart iterations" then .int 20
  else if n = "cg rel tolerance" ∨ n = "gmres rel tolerance" then .real rel
  else if n = "cg abs tolerance" ∨ n = "gmres abs tolerance" then .real abs
  else if n = "iterative method" then .choice "cg"
  else .choice "none"

/-- the effect of a call to set an option: null pointers and unknown names are refused; so is a value that is
not valid, and any value while a solve is under way -/
def setEffect {Q : Type} [LinearOrder Q] (zero : Q) (readInt : Str → Option Int) (stod : Str → Option (Option Q))
    (S : OptState Q) (option value : Option Str) : Option (Status × OptState Q) :=
  match option, value with
  | none, _ => some (.invalidPointer, S)
  | _, none => some (.invalidPointer, S)
  | some name, some value =>
    match optionOf name with
    | none => some (.invalidValue, S)
    | some (n, k) => (valueOf zero readInt stod k value).map fun r =>
      match r with
      | none => (.invalidValue, S)
      | some v =>
        if S.locked then (.invalidValue, S)
        else (.success, { S with vals := fun n' => if n' = n then v else S.vals n' })

/-- a call: set an option, or the start or the end of a solve -/
inductive OptCall where
  | set (option value : Option Str)
  | lock
  | unlock

/-- a sequence of calls; `none`: a call that does not return -/
def runOpts {Q : Type} [LinearOrder Q] (zero : Q) (readInt : Str → Option Int) (stod : Str → Option (Option Q)) :
    List OptCall → OptState Q → Option (List Status × OptState Q)
  | [], S => some ([], S)
  | .set o v :: cs, S => do
    let r ← setEffect zero readInt stod S o v
    let q ← runOpts zero readInt stod cs r.2
    some (r.1 :: q.1, q.2)
  | .lock :: cs, S => runOpts zero readInt stod cs { S with locked := true }
  | .unlock :: cs, S => runOpts zero readInt stod cs { S with locked := false }

/-- a value is of the kind of the option and within its bounds -/
def Fits {Q : Type} [LinearOrder Q] (zero : Q) : Kind → OptVal Q → Prop
  | .int, .int i => 1 ≤ i ∧ i ≤ 2 ^ 31 - 1
  | .real, .real q => zero ≤ q
  | .choice labels, .choice l => l ∈ labels.map (·.1)
  | _, _ => False

/-- the meaning of a label -/
def meaning (k : Kind) (l : String) : Option Int :=
  match k with
  | .choice labels => labels.lookup l
  | _ => none

end Spec
end Verif
