/-
What a user knows about descriptors, from the calls made alone: `current f a past` is the value last
accepted for setting `f` of descriptor number `a`, where `past` lists the calls made, latest first.
Independent of the model.
-/
import Mathlib.Data.List.Basic

namespace Verif
namespace Spec

/-- the four settings of a matrix descriptor -/
inductive Fld where
  | type | fill | diag | base
deriving DecidableEq, Repr

/-- the values of the public enumerations: general/symmetric/hermitian/triangular are 0-3, lower/upper
0-1, non-unit/unit/zero 0-2, zero-based/one-based 0-1 -/
def Fld.legal : Fld → Int → Prop
  | .type, v => 0 ≤ v ∧ v ≤ 3
  | .fill, v => 0 ≤ v ∧ v ≤ 1
  | .diag, v => 0 ≤ v ∧ v ≤ 2
  | .base, v => 0 ≤ v ∧ v ≤ 1

instance (f : Fld) (v : Int) : Decidable (f.legal v) := by
  cases f <;> unfold Fld.legal <;> infer_instance

/-- the documented defaults: general, lower, non-unit, zero-based -/
def Fld.default : Fld → Int := fun _ => 0

/-- a call on descriptors; pointers are null or the number of a descriptor in order of creation -/
inductive DCall where
  | create (out fails : Bool)
  | copy (dest src : Option Nat)
  | destroy (p : Option Nat)
  | set (f : Fld) (p : Option Nat) (v : Int)
  | get (f : Fld) (p : Option Nat)
deriving DecidableEq, Repr

/-- how many descriptors were created -/
def created : List DCall → Nat
  | [] => 0
  | .create true false :: past => created past + 1
  | _ :: past => created past

/-- the value last accepted for setting `f` of descriptor `a` -/
def current (f : Fld) (a : Nat) : List DCall → Int
  | [] => f.default
  | .create true false :: past => if a = created past then f.default else current f a past
  | .copy (some d) (some s) :: past => if a = d then current f s past else current f a past
  | .set g (some b) v :: past =>
    if g = f ∧ b = a ∧ f.legal v then v else current f a past
  | _ :: past => current f a past

/-- descriptor `a` exists: it was created and not destroyed -/
def alive (a : Nat) (past : List DCall) : Prop :=
  a < created past ∧ DCall.destroy (some a) ∉ past

instance (a : Nat) (past : List DCall) : Decidable (alive a past) := by
  unfold alive; infer_instance

/-- a correct caller: every descriptor a call names exists -/
def wellUsed : List DCall → Prop
  | [] => True
  | c :: past => wellUsed past ∧ match c with
    | .create _ _ => True
    | .copy d s => (∀ a ∈ d, alive a past) ∧ ∀ a ∈ s, alive a past
    | .destroy p => ∀ a ∈ p, alive a past
    | .set _ p _ => ∀ a ∈ p, alive a past
    | .get _ p => ∀ a ∈ p, alive a past

end Spec
end Verif
