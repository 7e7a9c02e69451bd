/-
Model of the hint functions, library/src/analysis/aoclsparse_analysis.cpp:568-747, the list of hints
(library/src/analysis/aoclsparse_csr_util.cpp:47-100) and aoclsparse_optimize on a handle with its hints
(the work done is `Model.optimize`, Model/Mv.lean).  Enum arguments are arbitrary integers.
-/
import Verif.Model.Mv
import Verif.Model.Doid
import Verif.Model.DescrObj

namespace Verif
namespace Model
variable {R : Type}

/-- mat_structures.hpp:774-859 — a handle with its list of hints (each with its kernel id), head first,
and the memory policy (default: unrestricted) -/
structure HintHandle (R : Type) where
  H : MvHandle R
  hints : List (MvHint × Int)
  unrestricted : Bool

/-- csr_util.cpp:47-100 — aoclsparse_add_hint; `fails`: `new` throws.  `isReal` is the value type. -/
def addHint (isReal fails : Bool) (l : List (MvHint × Int)) (act : Nat) (d : DescObj) (trans nop kid : Int) :
    Status × List (MvHint × Int) :=
  if fails then (.memoryError, l)
  else (.success,
    (⟨⟨getDoid isReal d.type.toNat d.fill.toNat trans, d.fill.toNat, false⟩, act, trans.toNat, d.type.toNat,
      nop⟩, kid) :: l)

/-- analysis.cpp:568-625 — aoclsparse_set_hint -/
def setHint (isReal fails : Bool) (mat : Option (HintHandle R)) (act : Nat) (trans : Int)
    (descr : Option DescObj) (nop kid : Int) : Status × Option (HintHandle R) :=
  match mat with
  | none => (.invalidPointer, mat)
  | some A =>
    match A.H.mats.head? with
    | none => (.invalidPointer, mat)
    | some first =>
      match descr with
      | none => (.invalidPointer, mat)
      | some d =>
        if d.base ≠ 0 ∧ d.base ≠ 1 then (.invalidValue, mat)
        else if first.base ≠ d.base then (.invalidValue, mat)
        else if trans ≠ 111 ∧ trans ≠ 112 ∧ trans ≠ 113 then (.invalidValue, mat)
        else if d.fill ≠ 0 ∧ d.fill ≠ 1 then (.invalidValue, mat)
        else if d.diag ≠ 0 ∧ d.diag ≠ 1 ∧ d.diag ≠ 2 then (.invalidValue, mat)
        else if d.type ≠ 0 ∧ d.type ≠ 1 ∧ d.type ≠ 3 ∧ d.type ≠ 2 then (.invalidValue, mat)
        else if nop < 0 ∨ (nop = 0 ∧ kid = -1) then (.invalidValue, mat)
        else if act ≤ 0 ∨ act ≥ 13 then (.invalidOperation, mat)
        else
          let r := addHint isReal fails A.hints act d trans nop kid
          (r.1, some { A with hints := r.2 })

section wrappers
variable (isReal fails : Bool) (mat : Option (HintHandle R)) (trans : Int) (descr : Option DescObj) (nop : Int)

/-- analysis.cpp:627-633 — aoclsparse_set_mv_hint -/
def setMvHint := setHint isReal fails mat 1 trans descr nop (-1)
/-- analysis.cpp:635-642 — aoclsparse_set_mv_hint_kid -/
def setMvHintKid (kid : Int) := setHint isReal fails mat 1 trans descr nop kid
/-- analysis.cpp:644-650 — aoclsparse_set_dotmv_hint -/
def setDotmvHint := setHint isReal fails mat 8 trans descr nop (-1)
/-- analysis.cpp:651-657 — aoclsparse_set_sv_hint -/
def setSvHint := setHint isReal fails mat 2 trans descr nop (-1)
/-- analysis.cpp:658-664 — aoclsparse_set_mm_hint -/
def setMmHint := setHint isReal fails mat 3 trans descr nop (-1)
/-- analysis.cpp:665-671 — aoclsparse_set_2m_hint -/
def set2mHint := setHint isReal fails mat 4 trans descr nop (-1)
/-- analysis.cpp:672-678 — aoclsparse_set_lu_smoother_hint -/
def setLuSmootherHint := setHint isReal fails mat 5 trans descr nop (-1)
/-- analysis.cpp:679-699 — aoclsparse_set_sm_hint -/
def setSmHint (order : Int) : Status × Option (HintHandle R) :=
  if order ≠ 0 ∧ order ≠ 1 then (.invalidValue, mat)
  else if order = 0 then setHint isReal fails mat 6 trans descr nop (-1)
  else setHint isReal fails mat 7 trans descr nop (-1)
/-- analysis.cpp:700-706 — aoclsparse_set_symgs_hint -/
def setSymgsHint := setHint isReal fails mat 9 trans descr nop (-1)
/-- analysis.cpp:707-731 — aoclsparse_set_sorv_hint -/
def setSorvHint (type : Int) : Status × Option (HintHandle R) :=
  if type ≠ 0 ∧ type ≠ 1 ∧ type ≠ 2 then (.invalidValue, mat)
  else if type = 0 then setHint isReal fails mat 10 111 descr nop (-1)
  else if type = 1 then setHint isReal fails mat 11 111 descr nop (-1)
  else setHint isReal fails mat 12 111 descr nop (-1)

end wrappers

/-- analysis.cpp:733-747 — aoclsparse_set_memory_hint (minimal 0, unrestricted 1) -/
def setMemoryHint (mat : Option (HintHandle R)) (policy : Int) : Status × Option (HintHandle R) :=
  match mat with
  | none => (.invalidPointer, mat)
  | some A =>
    if policy ≠ 0 ∧ policy ≠ 1 then (.invalidValue, mat)
    else (.success, some { A with unrestricted := decide (policy = 1) })

/-- analysis.cpp:426-566 — aoclsparse_optimize on a handle that may be null or hold no matrix -/
def optimizeH [Zero R] (isa : Isa) (dbl : Bool) (srt : (Int → Int → Bool) → List Int → List Int) (ch : MvChoice)
    (g : Garb R) (g' : MvGarb R) (cj re : R → R) (mat : Option (HintHandle R)) :
    Option (Status × Option (HintHandle R)) :=
  match mat with
  | none => some (.invalidPointer, none)
  | some A =>
    if ¬ (A.H.raw.um < 0 ∨ A.H.raw.un < 0 ∨ A.H.raw.nnz < 0) ∧ A.H.mats.isEmpty then some (.invalidPointer, mat)
    else do
      let r ← optimize isa dbl A.unrestricted srt ch g g' cj re A.H (A.hints.map (·.1))
      some (r.1, some { A with H := r.2.1, hints := List.zipWith (fun x k => (x, k)) r.2.2 (A.hints.map (·.2)) })

/-- magic_box.hpp:34-56 — get_kid: the kernel id of the first hint in the list with this action and
identifier, -1 without one -/
def getKid : List (MvHint × Int) → Nat → Nat → Int
  | [], _, _ => -1
  | (x, k) :: l, doid, act => if x.act = act ∧ doid = x.h.doid then k else getKid l doid act

end Model
end Verif
