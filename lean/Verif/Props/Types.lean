/-
C61: a routine of one value type called on a matrix handle of another value type.
-/
import Verif.Model.Life
import Verif.Model.Dotmv
import Verif.Model.Symgs
import Verif.Model.Trsm
import Verif.Model.Ilu
import Verif.Model.Update
import Verif.Model.SpTypes
import Verif.Props.Life

namespace Verif
open Model

/-- What a call of a routine of one value type on a handle of another has to do: `run` is the call on a handle of the
same type (`true`) and of another type (`false`), `idle` the outcome in which nothing was written and the handle is as
before, with a status.  The call ends, changes nothing and reports an error; the only exception, `empty`, is a call
that has nothing to compute.  If the type is the only thing wrong with the call, the error is `wrong_type`. -/
structure Refuses {α : Type} (status : α → Status) (idle : Status → α) (run : Bool → Option α) (empty : Prop) :
    Prop where
  ends : ∃ st, run false = some (idle st) ∧ (st = .success → empty)
  names : ∀ r, run true = some r → status r = .success → ¬ empty → run false = some (idle .wrongType)

section
variable {α : Type} {status : α → Status} {run : Bool → Option α} {idle : Status → α} {empty : Prop}

/-- a check before that of the value type -/
theorem Refuses.step {c : Prop} [Decidable c] {st : Status} (hid : ∀ st, status (idle st) = st)
    (hst : st = .success → c → empty) (h : Refuses status idle run empty) :
    Refuses status idle (fun same => if c then some (idle st) else run same) empty := by
  by_cases hc : c
  · simp only [if_pos hc]
    refine ⟨⟨st, rfl, fun e => hst e hc⟩, fun r e hr hn => ?_⟩
    cases e
    rw [hid] at hr
    exact absurd (hst hr hc) hn
  · simpa only [if_neg hc] using h

/-- a call refused by an earlier check -/
theorem Refuses.const {st : Status} (hid : ∀ st, status (idle st) = st) (hst : st ≠ .success) :
    Refuses status idle (fun _ => some (idle st)) empty := by
  refine ⟨⟨st, rfl, fun e => absurd e hst⟩, fun r e hr _ => ?_⟩
  cases e
  rw [hid] at hr
  exact absurd hr hst

/-- the check of the value type -/
theorem Refuses.typ : Refuses status idle (fun same => if same = false then some (idle .wrongType) else run same)
    empty :=
  ⟨⟨.wrongType, if_pos rfl, by simp⟩, fun _ _ _ _ => if_pos rfl⟩

end

/-- the statuses of a refused call with a null pointer -/
local macro "null" : tactic =>
  `(tactic| first
    | (apply Refuses.const (st := .invalidPointer) (fun _ => rfl); simp; done)
    | (apply Refuses.const (st := .notImplemented) (fun _ => rfl); simp; done))

/-- the checks one after the other up to that of the value type -/
local macro "refuse" : tactic =>
  `(tactic| (dsimp only
             repeat first
               | exact Refuses.typ
               | (apply Refuses.step (fun _ => rfl)
                  · first
                      | (simp; done)
                      | exact fun _ h => ⟨_, rfl, h⟩)))

section
variable {R : Type} [Field R] [DecidableEq R]

/-- **C61, products.** -/
theorem C61_mv (isa : Isa) (k : MvSel R) (srt : (Int → Int → Bool) → List Int → List Int) (g : Garb R) (op : Int)
    (alpha beta : Option R) (A : Option (MvHandle R)) (d : Option Descr) (x y : Option (List R)) :
    Refuses (·.1) (fun st => (st, y, A)) (fun same => mv isa k srt g same op alpha A d x beta y) False := by
  unfold mv
  rcases alpha with - | alpha <;> rcases beta with - | beta <;> rcases A with - | H <;> rcases d with - | d <;>
    rcases x with - | x <;> rcases y with - | y <;> try null
  refuse

/-- **C61, products followed by a dot product.** -/
theorem C61_dotmv (isa : Isa) (k : MvSel R) (dot : Option (DotKer R)) (srt : (Int → Int → Bool) → List Int → List Int)
    (g : Garb R) (op : Int) (alpha beta : R) (A : Option (MvHandle R)) (d : Option Descr) (x y : Option (List R))
    (out : Option R) :
    Refuses (·.1) (fun st => (st, y, out, A)) (fun same => dotmv isa k dot srt g same op alpha A d x beta y out)
      False := by
  obtain ⟨⟨st, e, hs⟩, hn⟩ := C61_mv isa k srt g op (some alpha) (some beta) A d x y
  try dsimp only at e hs hn
  constructor
  · unfold dotmv
    split
    · rw [e]
      exact ⟨st, by simp [show st ≠ .success from hs], hs⟩
    · exact ⟨_, rfl, by simp⟩
  · intro r e1 h _
    unfold dotmv at e1 ⊢
    split at e1
    · simp only [Option.bind_eq_bind, Option.bind_eq_some_iff] at e1
      obtain ⟨q, eq, e1⟩ := e1
      have hq : q.1 = .success := by
        by_contra hc
        rw [if_pos hc] at e1
        cases e1
        exact hc h
      try dsimp only
      rw [hn q eq hq not_false]
      simp
    · cases e1; cases h

/-- **C61, products with a dense matrix.** -/
theorem C61_csrmm (w : Nat) (isReal : Bool) (tm : MmTeam) (ker : MmKernel R) (g : Garb R) (cj : R → R) (op : Int)
    (alpha beta : R) (A : Option (MvHandle R)) (d : Option Descr) (order : Int) (B C : Option (List R))
    (n ldb ldc : Int) :
    Refuses (·.1) (fun st => (st, C, A))
      (fun same => csrmmH w isReal tm ker g cj same op alpha A d order B n ldb beta C ldc) False := by
  unfold csrmmH
  rcases A with - | H
  · null
  constructor
  · refine ⟨_, if_pos rfl, ?_⟩
    unfold mmBadType
    rcases d with - | d <;> rcases B with - | B <;> rcases C with - | C <;> try (simp; done)
    intro h
    dsimp only at h
    iterate 5
      (rcases ite_or h with ⟨-, h'⟩ | ⟨-, h'⟩
       · cases h'
       replace h := h'; clear h')
    cases h
  · intro r e h _
    dsimp only at e ⊢
    rw [if_pos rfl]
    rw [if_neg (by simp)] at e
    split at e
    · cases e; cases h
    · simp only [Option.bind_eq_bind, Option.bind_eq_some_iff] at e
      obtain ⟨q, eq, e⟩ := e
      cases e
      dsimp only at h
      unfold csrmm at eq
      unfold mmBadType
      rcases d with - | d <;> rcases B with - | B <;> rcases C with - | C <;> try (cases eq; cases h; done)
      dsimp only at eq ⊢
      iterate 5
        (rcases ite_or eq with ⟨-, eq'⟩ | ⟨hc, eq'⟩
         · cases eq'; cases h
         replace eq := eq'; clear eq'
         rw [if_neg hc])

/-- **C61, triangular solves.** -/
theorem C61_trsv (isReal : Bool) (w : Nat) (cjg : R → R) (srt : (Int → Int → Bool) → List Int → List Int) (g : Garb R)
    (im : TrsvImpl R) (op : Int) (alpha : R) (A : Option (MvHandle R)) (d : Option Descr) (b x : Option (List R))
    (incb incx : Int) :
    Refuses (·.1) (fun st => (st, x, A)) (fun same => trsvH isReal w cjg srt g im same op alpha A d b incb x incx)
      False := by
  unfold trsvH
  rcases A with - | H <;> rcases x with - | x <;> rcases b with - | b <;> rcases d with - | d <;>
    try null
  refuse

/-- **C61, triangular solves with several right-hand sides.**  Nothing to compute: no rows, no entries or no
right-hand sides. -/
theorem C61_trsm (isReal : Bool) (w : Nat) (cjg : R → R) (srt : (Int → Int → Bool) → List Int → List Int) (g : Garb R)
    (im : TrsvImpl R) (sched : List Nat) (op : Int) (alpha : R) (A : Option (MvHandle R)) (d : Option Descr)
    (order : Int) (B X : Option (List R)) (n ldb ldx : Int) :
    Refuses (·.1) (fun st => (st, X, A))
      (fun same => trsmH isReal w cjg srt g im same sched op alpha A d order B n ldb X ldx)
      (∃ H, A = some H ∧ (H.raw.um = 0 ∨ H.raw.un = 0 ∨ H.raw.nnz = 0 ∨ n = 0)) := by
  unfold trsmH
  rcases A with - | H <;> rcases X with - | X <;> rcases B with - | B <;> rcases d with - | d <;>
    try null
  dsimp only
  rcases hc : trsmCheck H.raw.fmt H.raw.um H.raw.un H.raw.nnz H.raw.base d op n ldb ldx with - | st
  · exact .typ
  · have key : st = .success → ∃ H', some H = some H' ∧ (H'.raw.um = 0 ∨ H'.raw.un = 0 ∨ H'.raw.nnz = 0 ∨ n = 0) := by
      rintro rfl
      refine ⟨H, rfl, ?_⟩
      by_contra hn
      unfold trsmCheck at hc
      iterate 3
        (rcases ite_or hc with ⟨-, h⟩ | ⟨-, h⟩
         · cases h
         replace hc := h; clear h)
      rw [if_neg hn] at hc
      iterate 6
        (rcases ite_or hc with ⟨-, h⟩ | ⟨-, h⟩
         · cases h
         replace hc := h; clear h)
      cases hc
    refine ⟨⟨st, rfl, key⟩, ?_⟩
    intro r e h hn
    cases e
    exact absurd (key h) hn

/-- **C61, symmetric Gauss-Seidel.**  Nothing to compute: no rows, no columns or no entries. -/
theorem C61_symgs (E : GsEnv R) (op : Int) (A : Option (MvHandle R)) (d : Option Descr) (alpha : R)
    (b x y : Option (List R)) (fuse : Bool) :
    Refuses (·.1) (fun st => (st, x, y, A)) (fun same => symgs E same op A d alpha b x y fuse)
      (∃ H, A = some H ∧ (H.raw.um = 0 ∨ H.raw.un = 0 ∨ H.raw.nnz = 0)) := by
  unfold symgs
  rcases x with - | x <;> rcases b with - | b <;> rcases A with - | H <;> rcases d with - | d <;>
    try null
  refuse

/-- **C61, successive over-relaxation.**  Nothing to compute: no rows. -/
theorem C61_sorv (isReal : Bool) (ty : Nat) (d : Option Descr) (A : Option (MvHandle R)) (omega alpha : R)
    (x b : Option (List R)) :
    Refuses (·.1) (fun st => (st, x, A)) (fun same => sorv isReal same ty d A omega alpha x b)
      (∃ H, A = some H ∧ H.raw.um = 0) := by
  unfold sorv
  apply Refuses.step (fun _ => rfl) (by simp)
  rcases A with - | H <;> rcases d with - | d <;> rcases x with - | x <;> rcases b with - | b <;>
    try null
  refuse

/-- **C61, the ILU(0) smoother.** -/
theorem C61_ilu (nz : R → Bool) (g : Nat → Int) (op : Int) (A : Option (IluHandle R)) (d : Option Descr)
    (precond : Bool) (x b : Option (List R)) :
    Refuses (·.1) (fun st => (st, false, x, A)) (fun same => ilu nz g same op A d precond x b) False := by
  unfold ilu
  rcases A with - | H <;> rcases d with - | d <;> rcases x with - | x <;> rcases b with - | b <;>
    try null
  refuse

/-- **C61, changes of one value.** -/
theorem C61_set (A : Option (MvHandle R)) (row col : Int) (v : R) :
    Refuses (·.1) (fun st => (st, A)) (fun same => setValue same A row col v) False := by
  unfold setValue
  rcases A with - | H
  · null
  dsimp only
  rcases H.mats with - | ⟨- | - | - | -, rest⟩ <;> try null
  refuse

theorem C61_set_coo (A : Option (Coo R)) (row col : Int) (v : R) :
    Refuses (·.1) (fun st => (st, A)) (fun same => setValueCoo same A row col v) False := by
  unfold setValueCoo
  rcases A with - | C
  · null
  refuse

/-- **C61, changes of all values.** -/
theorem C61_update (A : Option (MvHandle R)) (len : Int) (v : Option (List R)) :
    Refuses (·.1) (fun st => (st, A)) (fun same => updateValues same A len v) False := by
  unfold updateValues
  rcases A with - | H <;> rcases v with - | v <;> try null
  dsimp only
  rcases H.mats with - | ⟨- | - | - | -, rest⟩ <;> try null
  refuse

theorem C61_update_coo (A : Option (Coo R)) (len : Int) (v : Option (List R)) :
    Refuses (·.1) (fun st => (st, A)) (fun same => updateValuesCoo same A len v) False := by
  unfold updateValuesCoo
  rcases A with - | C <;> rcases v with - | v <;> try null
  refuse

/-- **C61, export.**  No array leaves the library with another type than its own. -/
theorem C61_export (ptrs : Bool) (A : Option (MvHandle R)) :
    Refuses (·.1) (fun st => (st, none)) (fun same => exportCsr same ptrs A) False ∧
    Refuses (·.1) (fun st => (st, none)) (fun same => exportCsc same ptrs A) False := by
  unfold exportCsr exportCsc
  rcases A with - | H
  · exact ⟨by null, by null⟩
  refine ⟨?_, ?_⟩ <;> refuse

/-- **C61, TCSR products.** -/
theorem C61_mv_tcsr (isa : Isa) (real dbl : Bool) (V : Vec R) (K : Nat) (op : Int) (alpha beta : Option R)
    (T : Option (Tcsr R)) (d : Option Descr) (x y : Option (List R)) :
    Refuses (·.1) (fun st => (st, y)) (fun same => mvTcsr isa real dbl V K same op alpha T d x beta y) False := by
  unfold mvTcsr
  rcases alpha with - | alpha <;> rcases beta with - | beta <;> rcases T with - | T <;> rcases d with - | d <;>
    rcases x with - | x <;> rcases y with - | y <;> try null
  refuse

/-- the status of a solve that either fails or returns the solution -/
def solveStatus : Except Status (List R) → Status
  | .error st => st
  | .ok _ => .success

/-- **C61, TCSR triangular solves**: refused, so that the solution is not written. -/
theorem C61_trsv_tcsr (isReal : Bool) (w : Nat) (cjg : R → R) (im : TrsvImpl R) (op : Int) (alpha : R)
    (T : Option (Tcsr R)) (d : Option Descr) (b x : Option (List R)) (incb incx : Int) :
    Refuses solveStatus Except.error (fun same => trsvTcsr isReal w cjg im same op alpha T d b incb x incx) False := by
  unfold trsvTcsr
  rcases T with - | T <;> rcases x with - | x <;> rcases b with - | b <;> rcases d with - | d <;> try null
  refuse

end

/-! ### products of two sparse matrices -/

/-- **C61, products of two sparse matrices**: the values of both are read with their own type, or the call is refused. -/
theorem C61_two_matrices (a b : ValTy) :
    (∀ T, spInstance a b = .ok T ↔ a = T ∧ b = T) ∧ (a ≠ b → spInstance a b = .error .wrongType) := by
  cases a <;> cases b <;> simp [spInstance] <;> (intro T; cases T <;> simp)

/-- **C61, the two stages.**  The second stage looks at the types of the factors only: a result made by the first stage
for a value type with smaller elements is written beyond its end.  The call is defined exactly if the elements are not
larger than those of the first stage. -/
theorem C61_finalize (a b tC : ValTy) {nnz : Int} (hn : 0 < nnz) :
    (a ≠ b → finTypes a b tC nnz = some .wrongType) ∧
    (a = b → ((finTypes a b tC nnz).isSome ↔ a.size ≤ tC.size)) := by
  refine ⟨fun h => ?_, ?_⟩
  · unfold finTypes; rw [(C61_two_matrices a b).2 h]
  · rintro rfl
    have h0 : ∀ t : ValTy, 0 < t.size := by intro t; cases t <;> decide
    unfold finTypes
    rw [((C61_two_matrices a a).1 a).2 ⟨rfl, rfl⟩]
    dsimp only
    constructor
    · intro h
      by_contra hlt
      obtain ⟨u, eu⟩ : ∃ u, forC 0 nnz (finStore a tC nnz) () = some u := by
        by_contra hc
        have : forC 0 nnz (finStore a tC nnz) () = none := by
          rcases hf : forC 0 nnz (finStore a tC nnz) () with - | u
          · rfl
          · exact absurd ⟨u, hf⟩ hc
        rw [this] at h
        cases h
      obtain ⟨k, rfl⟩ : ∃ k : Nat, nnz = (k : Int) + 1 := ⟨(nnz - 1).toNat, by omega⟩
      rw [forC_split (lo := 0) (mid := (k : Int)) (by omega) (by omega), Option.bind_eq_some_iff] at eu
      obtain ⟨s, -, es⟩ := eu
      rw [forC_lt (by omega), Option.bind_eq_some_iff] at es
      obtain ⟨s', es, -⟩ := es
      unfold finStore at es
      rcases ite_or es with ⟨⟨-, hk⟩, -⟩ | ⟨-, es⟩
      · have := Int.mul_lt_mul_of_pos_left (by omega : tC.size < a.size) (by omega : (0 : Int) < (k : Int) + 1)
        omega
      · cases es
    · intro h
      obtain ⟨s, e, -⟩ := forC_inv (lo := 0) (hi := nnz) (f := finStore a tC nnz) (s := ()) (fun _ _ => True) (by omega)
        trivial (fun i s hi hl _ => ⟨(), if_pos ⟨hi,
          Int.le_trans (Int.mul_le_mul_of_nonneg_right (by omega : i + 1 ≤ nnz) (h0 a).le)
            (Int.mul_le_mul_of_nonneg_left h (by omega))⟩, trivial⟩)
      rw [e]
      rfl

/-- counted for single precision, computed in double precision -/
example : finTypes .d .d .s 1 = none := by decide

/-! ### calls in which the type is the only thing wrong -/

set_option synthInstance.maxSize 1000

/-- a product, a triangular solve, a Gauss-Seidel sweep, a change of a value and an export on a handle of the type of
the call (`true`) and of another one (`false`) -/
def typesRun (same : Bool) : Option (List Status × List (List Rat)) := do
  let H0 := MvHandle.fresh (gsExA.raw false) false
  let a ← mv gsExE.isa gsExSel insertionSortB gsExG same 111 (some 1) (some H0) (some ⟨0, 0, 0, 1⟩) (some [1, 1, 1])
    (some 0) (some [0, 0, 0])
  let b ← trsvH true 64 star insertionSortB gsExG .ref same 111 1 a.2.2 (some ⟨3, 0, 0, 1⟩) (some [4, 10, 6]) 1
    (some [0, 0, 0]) 1
  let c ← symgs gsExE same 111 b.2.2 (some ⟨1, 0, 0, 1⟩) 1 (some [4, 10, 6]) (some [0, 0, 0]) none false
  let d ← csrmmH 64 true ⟨1, [0]⟩ .ref gsExG star same 111 1 c.2.2.2 (some ⟨1, 0, 0, 1⟩) 1 (some [1, 1, 1]) 1 3 0
    (some [0, 0, 0]) 3
  let e ← setValue same d.2.2 2 1 7
  let f ← updateValues same e.2 7 (some [1, 4, 6, 2, 1, 3, 5])
  let g ← exportCsr same true f.2
  some ([a.1, b.1, c.1, d.1, e.1, f.1, g.1], [a.2.1.getD [], b.2.1.getD [], c.2.1.getD [], d.2.1.getD [],
    (g.2.map (·.val)).getD []])

example : typesRun true = some ([.success, .success, .success, .success, .success, .success, .success],
    [[5, 6, 7], [1, 8 / 5, 11 / 15], [41 / 150, 109 / 75, 11 / 15], [6, 8, 7], [1, 4, 6, 2, 1, 3, 5]]) := by
  decide +kernel

example : typesRun false = some ([.wrongType, .wrongType, .wrongType, .wrongType, .wrongType, .wrongType, .wrongType],
    [[0, 0, 0], [0, 0, 0], [0, 0, 0], [0, 0, 0], []]) := by
  decide +kernel

end Verif
