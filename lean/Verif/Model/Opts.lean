/-
Model of the options of the iterative solvers.

  library/src/include/aoclsparse_itsol_options.hpp          97-113 (PrepareString), 146-330 (OptionInt),
                                                            332-500 (OptionReal), 530-590 (OptionBool),
                                                            591-738 (OptionString), 742-1000 (OptionRegistry)
  library/src/solvers/aoclsparse_itsol_list_options.hpp     90-237 (register_options)
  library/src/solvers/aoclsparse_itsol_functions.hpp        1620-1716 (handle_parse_option)
  library/src/solvers/aoclsparse_itsol_functions.cpp        61-93 (aoclsparse_itsol_option_set)

A string is a list of characters.  Real values are in a linearly ordered type `Q`; NaN is `none`.  Fields that
are only printed (id, desc, hidden, pgrp, setby, vdefault) are left out.
-/
import Verif.Core.Mem
import Verif.Core.Types
import Mathlib.Data.Int.Order.Basic

namespace Verif
namespace Model

abbrev Str := List Char

/-- the class [[:space:]] in the "C" locale: blank, \t \n \v \f \r -/
def isSpc (c : Char) : Bool := c == ' ' || (decide (9 ≤ c.toNat) && decide (c.toNat ≤ 13))

/-- ::tolower in the "C" locale -/
def lowerC (c : Char) : Char := if 'A' ≤ c ∧ c ≤ 'Z' then Char.ofNat (c.toNat + 32) else c

/-- itsol_options.hpp:107 — regex_replace(str, "[[:space:]]+", " "): each maximal run of blanks becomes one.
`inRun`: the character before is a blank. -/
def squeeze (inRun : Bool) : Str → Str
  | [] => []
  | c :: s => if isSpc c then (if inRun then squeeze true s else ' ' :: squeeze true s) else c :: squeeze false s

/-- itsol_options.hpp:98-109 — PrepareString: trim left, trim right, squeeze, lower case -/
def prepStr (s : Str) : Str :=
  let s := s.dropWhile isSpc
  let s := (s.reverse.dropWhile isSpc).reverse
  let s := squeeze false s
  s.map lowerC

/-- itsol_options.hpp:83-94 — kinds of bounds -/
inductive LBound where
  | mInf | greaterThan | greaterEqual
deriving DecidableEq
inductive UBound where
  | pInf | lessThan | lessEqual
deriving DecidableEq

/-- itsol_options.hpp:301-320 and 474-493 — CheckRange, for integers and reals -/
def checkRange {V : Type} [LinearOrder V] (value lower : V) (lb : LBound) (upper : V) (ub : UBound) : Nat :=
  (if lb = .greaterThan ∧ value ≤ lower then 1
   else if lb = .greaterEqual ∧ value < lower then 2 else 0) +
  (if ub = .lessThan ∧ upper ≤ value then 10
   else if ub = .lessEqual ∧ upper < value then 20 else 0)

/-- itsol_options.hpp:146-160 and 332-348 — OptionInt, OptionReal -/
structure NumOpt (V : Type) where
  name : Str
  value : V
  lower : V
  lb : LBound
  upper : V
  ub : UBound

/-- itsol_options.hpp:163-206 and 351-400 — the constructors; `none`: an exception.  The default and the bounds
of a real option are not NaN here. -/
def mkNumOpt {V : Type} [LinearOrder V] (name : Str) (lower : V) (lb : LBound) (upper : V) (ub : UBound)
    (vdefault : V) : Option (NumOpt V) :=
  if upper < lower then none
  else if lower = upper ∧ lb ≠ .mInf ∧ ub ≠ .pInf ∧ ¬ (lb = .greaterEqual ∧ ub = .lessEqual) then none
  else if checkRange vdefault lower lb upper ub ≠ 0 then none
  else if prepStr name = [] then none
  else some ⟨prepStr name, vdefault, lower, lb, upper, ub⟩

/-- itsol_options.hpp:326-336 — SetInvegerValue; an exception is the flag the registry returns for it -/
def NumOpt.setInt (o : NumOpt Int) (v : Int) : Except Nat (NumOpt Int) :=
  if checkRange v o.lower o.lb o.upper o.ub ≠ 0 then .error 1 else .ok { o with value := v }

/-- itsol_options.hpp:498-515 — SetRealValue -/
def NumOpt.setReal {Q : Type} [LinearOrder Q] (o : NumOpt Q) (v : Option Q) : Except Nat (NumOpt Q) :=
  match v with
  | none => .error 2
  | some v => if checkRange v o.lower o.lb o.upper o.ub ≠ 0 then .error 1 else .ok { o with value := v }

/-- itsol_options.hpp:518-526 — OptionBool -/
structure BoolOpt where
  name : Str
  value : Bool

/-- itsol_options.hpp:591-600 — OptionString.  The map is a list of pairs with distinct keys. -/
structure StrOpt where
  name : Str
  value : Str
  labels : List (Str × Int)
deriving DecidableEq

/-- itsol_options.hpp:630-644 — the labels, prepared; a label that is empty or occurs twice: exception.
A map is sorted; the order does not matter for lookups. -/
def prepLabels : List (Str × Int) → List (Str × Int) → Option (List (Str × Int))
  | [], acc => some acc
  | (l, k) :: rest, acc =>
    if prepStr l = [] then none
    else if (acc.lookup (prepStr l)).isSome then none
    else prepLabels rest (acc ++ [(prepStr l, k)])

/-- itsol_options.hpp:603-662 — the constructor -/
def mkStrOpt (name : Str) (labels : List (Str × Int)) (vdefault : Str) : Option StrOpt :=
  if labels.length = 0 then none
  else if prepStr name = [] then none
  else do
    let ls ← prepLabels labels []
    if (ls.lookup (prepStr vdefault)).isNone then none
    else some ⟨prepStr name, prepStr vdefault, ls⟩

/-- itsol_options.hpp:724-738 — SetStringValue -/
def StrOpt.set (o : StrOpt) (v : Str) : Except Nat StrOpt :=
  if (o.labels.lookup (prepStr v)).isNone then .error 2 else .ok { o with value := prepStr v }

/-- itsol_options.hpp:742-753 — OptionRegistry -/
structure Registry (Q : Type) where
  readonly : Bool
  ints : List (NumOpt Int)
  reals : List (NumOpt Q)
  bools : List BoolOpt
  strs : List StrOpt

/-- find_if by name, and change what is found with a setter; the flag of SetOption -/
def setFirst {O : Type} (nameOf : O → Str) (pname : Str) (f : O → Except Nat O) (locked : Bool) :
    List O → Nat × List O
  | [] => (3, [])
  | o :: l =>
    if nameOf o = pname then
      if locked then (4, o :: l)
      else
        match f o with
        | .error e => (e, o :: l)
        | .ok o' => (0, o' :: l)
    else
      let r := setFirst nameOf pname f locked l
      (r.1, o :: r.2)

section
variable {Q : Type}

/-- itsol_options.hpp:797-829 — SetOption for an integer -/
def Registry.setIntOpt (R : Registry Q) (name : Str) (v : Int) : Nat × Registry Q :=
  let r := setFirst NumOpt.name (prepStr name) (fun o => o.setInt v) R.readonly R.ints
  (r.1, { R with ints := r.2 })

/-- itsol_options.hpp:830-862 — SetOption for a real -/
def Registry.setRealOpt [LinearOrder Q] (R : Registry Q) (name : Str) (v : Option Q) : Nat × Registry Q :=
  let r := setFirst NumOpt.name (prepStr name) (fun o => o.setReal v) R.readonly R.reals
  (r.1, { R with reals := r.2 })

/-- itsol_options.hpp:863-891 — SetOption for a Boolean -/
def Registry.setBoolOpt (R : Registry Q) (name : Str) (v : Bool) : Nat × Registry Q :=
  let r := setFirst BoolOpt.name (prepStr name) (fun o => .ok { o with value := v }) R.readonly R.bools
  (r.1, { R with bools := r.2 })

/-- itsol_options.hpp:892-924 — SetOption for a string -/
def Registry.setStrOpt (R : Registry Q) (name : Str) (v : Str) : Nat × Registry Q :=
  let r := setFirst StrOpt.name (prepStr name) (fun o => o.set v) R.readonly R.strs
  (r.1, { R with strs := r.2 })

/-- itsol_options.hpp:926-942 — GetOption for an integer; `none`: flag 3 -/
def Registry.getInt (R : Registry Q) (name : Str) : Option Int :=
  (R.ints.find? fun o => decide (o.name = prepStr name)).map (·.value)

/-- itsol_options.hpp:944-960 — GetOption for a real -/
def Registry.getReal (R : Registry Q) (name : Str) : Option Q :=
  (R.reals.find? fun o => decide (o.name = prepStr name)).map (·.value)

/-- itsol_options.hpp:961-977 — GetOption for a Boolean -/
def Registry.getBool (R : Registry Q) (name : Str) : Option Bool :=
  (R.bools.find? fun o => decide (o.name = prepStr name)).map (·.value)

/-- itsol_options.hpp:978-995 — GetOption for a string -/
def Registry.getStr (R : Registry Q) (name : Str) : Option Str :=
  (R.strs.find? fun o => decide (o.name = prepStr name)).map (·.value)

/-- itsol_options.hpp:996-1012 and 719-723 — GetKey; `labels.at` throws if the value is not a label: outer
`none` -/
def Registry.getKey (R : Registry Q) (name : Str) : Option (Option Int) :=
  match R.strs.find? fun o => decide (o.name = prepStr name) with
  | none => some none
  | some o => (o.labels.lookup o.value).map some

end

/-- itsol_options.hpp:762-769 — Lock and UnLock -/
def Registry.lock {Q : Type} (R : Registry Q) : Registry Q := { R with readonly := true }
def Registry.unlock {Q : Type} (R : Registry Q) : Registry Q := { R with readonly := false }

/-! ### numbers in text -/

/-- the digits at the front of a text, as a number, and whether there is one -/
def digits : Str → Nat → Bool → Nat × Bool
  | [], acc, any => (acc, any)
  | c :: s, acc, any =>
    if c.isDigit then digits s (acc * 10 + (c.toNat - '0'.toNat)) true else (acc, any)

/-- std::stoi (strtol in base 10: blanks, a sign, digits; what follows is ignored); `none`: an exception, for
no digits or a value outside int -/
def stoi (s : Str) : Option Int :=
  let s := s.dropWhile isSpc
  let r : Bool × Str := match s with
    | '-' :: s => (true, s)
    | '+' :: s => (false, s)
    | s => (false, s)
  let d := digits r.2 0 false
  if d.2 = false then none
  else
    let v : Int := if r.1 then -(d.1 : Int) else d.1
    if v < -2147483648 ∨ 2147483647 < v then none else some v

/-- itsol_functions.hpp:1702-1714 — the flag as a status -/
def flagStatus (flag : Nat) : Status :=
  if flag = 0 then .success
  else if flag = 1 ∨ flag = 2 ∨ flag = 3 ∨ flag = 4 then .invalidValue
  else .internalError

/-- itsol_functions.hpp:1621-1716 — handle_parse_option.  `none`: an exception of std::stoi or std::stod leaves
the function, and with it the library.  `stod` is std::stod (or stof): `none` an exception, `some none` NaN. -/
def parseOption {Q : Type} [LinearOrder Q] (stod : Str → Option (Option Q)) (R : Registry Q)
    (option value : Option Str) : Option (Status × Registry Q) :=
  match option, value with
  | none, _ => some (.invalidPointer, R)
  | _, none => some (.invalidPointer, R)
  | some name, some value =>
    if (R.getInt name).isSome then
      (stoi value).map fun v => (flagStatus (R.setIntOpt name v).1, (R.setIntOpt name v).2)
    else if (R.getReal name).isSome then
      (stod value).map fun v => (flagStatus (R.setRealOpt name v).1, (R.setRealOpt name v).2)
    else if (R.getStr name).isSome then
      some (flagStatus (R.setStrOpt name value).1, (R.setStrOpt name value).2)
    else if (R.getBool name).isSome then
      (stoi value).map fun v =>
        (flagStatus (R.setBoolOpt name (decide (v ≠ 0))).1, (R.setBoolOpt name (decide (v ≠ 0))).2)
    else some (.invalidValue, R)

/-- itsol_list_options.hpp:90-237 — register_options.  `rel`, `abs`: the default tolerances
expected_precision(2.0) and expected_precision(); `zero`, `one`: 0.0 and 1.0. -/
def registerOptions {Q : Type} [LinearOrder Q] (zero one rel abs : Q) : Option (Registry Q) := do
  let s1 ← mkStrOpt "iterative method".toList
    [("CG".toList, 1), ("PCG".toList, 1), ("GMRES".toList, 2), ("GM RES".toList, 2)] "CG".toList
  let i1 ← mkNumOpt "cg iteration limit".toList (1 : Int) .greaterEqual 1 .pInf 500
  let r1 ← mkNumOpt "cg rel tolerance".toList zero .greaterEqual one .pInf rel
  let r2 ← mkNumOpt "cg abs tolerance".toList zero .greaterEqual one .pInf abs
  let s2 ← mkStrOpt "cg preconditioner".toList
    [("None".toList, 0), ("User".toList, 1), ("GS".toList, 3), ("SymGS".toList, 3), ("SGS".toList, 3)] "None".toList
  let i2 ← mkNumOpt "gmres iteration limit".toList (1 : Int) .greaterEqual 1 .pInf 150
  let r3 ← mkNumOpt "gmres rel tolerance".toList zero .greaterEqual one .pInf rel
  let r4 ← mkNumOpt "gmres abs tolerance".toList zero .greaterEqual one .pInf abs
  let s3 ← mkStrOpt "gmres preconditioner".toList
    [("None".toList, 0), ("User".toList, 1), ("ILU0".toList, 2)] "None".toList
  let i3 ← mkNumOpt "gmres restart iterations".toList (1 : Int) .greaterEqual 1 .pInf 20
  some ⟨false, [i1, i2, i3], [r1, r2, r3, r4], [], [s1, s2, s3]⟩

end Model
end Verif
