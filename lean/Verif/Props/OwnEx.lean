/-
C23, C25 — histories that meet the hypotheses, and histories in which the code mishandles a failing
allocation.
-/
import Verif.Props.Own

namespace Verif
namespace Props
open Model.Own Spec.Own Proofs.Own

/-- arrays of the caller hold 100 + their number; new memory holds 7 -/
def ownInit : World Nat :=
  World.init (fun p => match p with | .user k => 100 + k | .heap _ => 0) (fun _ => 7)

/-- a handle is created, prepared, copied, updated, converted, used in sums and products; some
allocations fail on the way; a solver is used twice -/
def ownHist : List (Call Nat) :=
  [⟨.create .success .csr [0, 1, 2], []⟩, ⟨.hint 0 .success, []⟩, ⟨.hint 0 .success, [true]⟩,
   ⟨.prepare 0 [.csc .success, .expanded true true, .clean ⟨.success, false, false, .success, false, true⟩,
      .blk, .hyb, .br4, .ilu .success], []⟩,
   ⟨.copy 0 .success .success, []⟩, ⟨.copy 0 .success .success, [false, false, false, true]⟩,
   ⟨.update 0 .success 55, []⟩, ⟨.prepare 0 [.expanded true true, .blk], [false, false, false, false, true]⟩,
   ⟨.convertBsr 0 .success .success .success .success true, []⟩,
   ⟨.add 0 1 .success (some true) .success .success, []⟩,
   ⟨.sp2m 0 1 .success .success .success .success .success false true true false true, []⟩,
   ⟨.sp2m 0 1 .success .success .success .success .success false true false false true,
      [false, false, false, false, false, false, false, true]⟩,
   ⟨.destroy 0, []⟩, ⟨.solverNew true, []⟩, ⟨.solverInput 0 .success, []⟩,
   ⟨.solverRun 0 true true .success, [false, false, true]⟩, ⟨.solverRun 0 true true .success, []⟩,
   ⟨.solverInput 0 .success, []⟩, ⟨.solverRun 0 false true .success, []⟩]

example : ∀ c ∈ ownHist, Call.Ok c := by
  intro c hc
  simp only [ownHist, List.mem_cons, List.not_mem_nil, or_false] at hc
  rcases hc with rfl | rfl | rfl | rfl | rfl | rfl | rfl | rfl | rfl | rfl | rfl | rfl | rfl | rfl | rfl | rfl |
    rfl | rfl | rfl <;> simp [Call.Ok, Op.fragile, isIlu]

/-- the statuses, and that something is allocated -/
example : (runCalls ownHist ownInit).map (fun r => (r.1, decide (10 ≤ r.2.mem.live.length))) =
    some ([.success, .success, .memoryError, .success, .success, .memoryError, .success, .memoryError,
      .success, .success, .success, .memoryError, .success, .success, .success, .memoryError, .success,
      .success, .success], true) := by decide +kernel

/-- everything is released at the end -/
example : ((runCalls ownHist ownInit).bind (fun r => runCalls (destroyAll r.2) r.2)).map
    (fun r => r.2.mem.live) = some [] := by decide +kernel

/-- a copy does not see the update of its source, nor the source that of its copy -/
example : (runCalls (ownHist.take 2 ++ [⟨.copy 0 .success .success, []⟩, ⟨.update 0 .success 55, []⟩,
      ⟨.userWrite 1 3, []⟩, ⟨.update 1 .success 66, []⟩] : List (Call Nat)) ownInit).map
    (fun r => (seen r.2 0, seen r.2 1)) =
    some (some [some 100, some 3, some 55], some [some 100, some 101, some 66]) := by decide +kernel

/-- F50: optimize for an incomplete factorisation; when the second array cannot be allocated the first is
released but the handle still points to it, and destroying the handle releases it again -/
theorem C23_optimize_ilu_double_release :
    (runCalls ([⟨.create .success .csr [0, 1, 2], []⟩,
      ⟨.prepare 0 [.ilu .success], [false, true]⟩] : List (Call Nat)) ownInit).map Prod.fst =
        some [.success, .memoryError] ∧
    (runCalls ([⟨.create .success .csr [0, 1, 2], []⟩,
      ⟨.prepare 0 [.ilu .success], [false, true]⟩, ⟨.destroy 0, []⟩] : List (Call Nat)) ownInit).isNone := by
  decide +kernel

/-- F51: convert_bsr uses its descriptor although it could not be allocated -/
theorem C23_convert_bsr_no_descriptor :
    (runCalls ([⟨.create .success .csr [0, 1, 2], []⟩,
      ⟨.convertBsr 0 .success .success .success .success false, [true]⟩] : List (Call Nat))
        ownInit).isNone := by decide +kernel

/-- F51: convert_bsr releases its arrays twice when the new object cannot be stored in the new handle -/
theorem C23_convert_bsr_double_release :
    (runCalls ([⟨.create .success .csr [0, 1, 2], []⟩,
      ⟨.convertBsr 0 .success .success .success .success false,
        [false, false, false, false, false, false, true]⟩] : List (Call Nat)) ownInit).isNone := by
  decide +kernel

/-- the same call with no failing allocation is fine -/
example : (runCalls ([⟨.create .success .csr [0, 1, 2], []⟩,
      ⟨.convertBsr 0 .success .success .success .success false, []⟩] : List (Call Nat)) ownInit).map
      (fun r => (r.1, r.2.mem.live.length)) = some ([.success, .success], 7) := by decide +kernel

/-- F52: add does not set its output variable to null first; when the handle of the sum cannot be
allocated it deletes what the variable held before — here the handle of the operand itself (address 0),
whose next use is undefined -/
theorem C23_add_deletes_old :
    ((runCalls ([⟨.create .success .csr [0, 1, 2], []⟩] : List (Call Nat)) ownInit).bind (fun r => do
      let h ← r.2.slots[0]?.join
      let q ← Model.Own.add .success (some true) .success .success (some (.heap 0)) h h
        { r.2.mem with fails := [false, false, false, false, true] }
      some (r.2.mem.live, q.1.1, q.2.live, (destroyH h q.2).isNone))) =
    some ([1, 0], .memoryError, [1], true) := by decide +kernel

end Props
end Verif
