/-
C34: incomplete factorisation without fill-in.
-/
import Verif.Proofs.Ilu2
import Verif.Proofs.Orient
import Mathlib.Data.Rat.Star

namespace Verif
open Model Finset

variable {R : Type} [Field R]

/-- The matrices the factorisation is meant for. -/
structure IluMat (A : Csr R) : Prop where
  wf : A.WF
  square : A.m = A.n
  diag : A.FullDiag
  lower : A.LowerSorted
  nodup : A.NoDup

theorem LowerSorted.of_sorted {A : Csr R} (hs : A.Sorted) (hn : A.NoDup) : A.LowerSorted := by
  intro i hi
  have h1 : (A.cols i).Pairwise (· ≤ ·) := hs i hi
  have h2 : (A.cols i).Nodup := hn i hi
  exact (h1.and h2).imp fun ⟨h3, h4⟩ _ => lt_of_le_of_ne h3 h4

/-- the factors in the handle are those of `A`, and no pivot is near zero -/
def IluFactors (nz : R → Bool) (A : Csr R) (v : List R) : Prop :=
  v.length = A.nnz ∧ ∀ i, i < A.n → IluRowOk A (A.withVal v) i ∧ nz ((A.withVal v).mat i i) = false

/-- the factorisation broke down in row `r`: up to this row the factors are right, and its pivot is near
zero -/
def IluBreakdown (nz : R → Bool) (A : Csr R) (v : List R) : Prop :=
  ∃ r, r < A.n ∧ (∀ i, i ≤ r → IluRowOk A (A.withVal v) i) ∧
    (∀ i, i < r → nz ((A.withVal v).mat i i) = false) ∧ nz ((A.withVal v).mat r r) = true

/-- handles as they are left by creation, optimisation and successful calls -/
structure IluOk (nz : R → Bool) (A : Csr R) (H : IluHandle R) : Prop where
  raw : H.raw = A.raw false
  sort : H.sort = .fully ∨ H.sort = .partially
  full : H.fulldiag = true
  state : (H.ready = false ∧ H.factorized = false) ∨
    (H.ready = true ∧ H.factorized = false ∧ H.val = A.val ∧ H.diag.length = A.n) ∨
    (H.ready = true ∧ H.factorized = true ∧ IluFactors nz A H.val ∧
      ∀ r : Nat, r < A.n → rd H.diag (r : Int) = some (iluDg A r : Int))

section
variable {nz : R → Bool} (hz : ∀ d, nz d = false → d ≠ 0) {A : Csr R} (hA : IluMat A)
include hA

theorem optimizeIlu_ok (g : Nat → Int) {H : IluHandle R} (hH : IluOk nz A H) :
    IluOk nz A (optimizeIlu g H) ∧ (optimizeIlu g H).ready = true := by
  unfold optimizeIlu
  by_cases hr : H.ready = true
  · rw [if_pos hr]; exact ⟨hH, hr⟩
  · rw [if_neg hr]
    refine ⟨⟨hH.raw, hH.sort, hH.full, .inr (.inl ⟨rfl, ?_, ?_, ?_⟩)⟩, rfl⟩
    · rcases hH.state with h | h | h
      · exact h.2
      · exact absurd h.1 hr
      · exact absurd h.1 hr
    · rw [hH.raw]
      show List.take (A.nnz : Int).toNat A.val = A.val
      rw [Int.toNat_natCast, List.take_of_length_le (by rw [hA.wf.val_len]; exact le_refl _)]
    · dsimp only
      rw [hH.raw]
      show (alloc (A.m : Int).toNat g).length = A.n
      rw [Int.toNat_natCast, hA.square]
      simp [alloc]

include hz

theorem ilu0Template_ok {H : IluHandle R} (hH : IluOk nz A H) (hr : H.ready = true) {x b : List R}
    (hx : A.n ≤ x.length) (hb : A.n ≤ b.length) :
    (∃ x' H', ilu0Template nz H x b = some (.success, true, x', H') ∧ IluOk nz A H' ∧
      H'.factorized = true ∧ (H.factorized = true → H' = H) ∧ IluSolves (A.withVal H'.val) A.n b x x') ∨
    (∃ H', ilu0Template nz H x b = some (.numericalError, false, x, H') ∧ H.factorized = false ∧
      IluBreakdown nz A H'.val) := by
  have hP := iluPat_of hA.wf hA.square hA.diag hA.lower hA.nodup
  have hR := iluArr_of hA.wf hA.square
  have e1 : H.raw.un = (A.n : Int) := by rw [hH.raw]; rfl
  have e2 : H.raw.base = A.base := by rw [hH.raw]; rfl
  have e3 : H.raw.ptr = A.ptr := by rw [hH.raw]; rfl
  have e4 : H.raw.ind = A.ind := by rw [hH.raw]; rfl
  have hmm : ∀ {v : List R} {f : Nat → R}, Rep v A.nnz f → ∀ r, r < A.n →
      (A.withVal v).mat r r = f (iluDg A r) := by
    intro v f hv r hr
    have := mat_at hA.wf hA.square hP hv hr (hP.dgl r hr) (hP.dgr r hr)
    rwa [hP.dgc r hr] at this
  unfold ilu0Template
  rw [e1, e2, e3, e4]
  rcases hH.state with h | ⟨-, hf, hval, hdl⟩ | ⟨-, hf, hfac, hdg⟩
  · rw [h.1] at hr; cases hr
  · rw [if_neg (by simp [hf]), hval]
    have hrep : Rep A.val A.nnz (fun k => A.val.getD k 0) := by
      have := Rep.of_list A.val (0 : R)
      rwa [hA.wf.val_len] at this
    rcases ilu0Fact_spec nz hz hP hR hrep hdl with ⟨v', dg', f, e, hi⟩ | ⟨v', dg', e, h1, h2, r, f, k1, k2, k3, k4, k5⟩
    · left
      rw [e]
      simp only [Option.bind_eq_bind, Option.bind_some]
      rw [if_neg (by simp)]
      obtain ⟨x', y, g, e5, h5, h6, h7, h8⟩ := iluSolve_spec nz hz hP hR hi.rep hi.diag hi.piv hx hb
      rw [e5]
      refine ⟨x', _, rfl, ⟨hH.raw, hH.sort, hH.full, .inr (.inr ⟨hr, rfl, ⟨hi.rep.1, ?_⟩, hi.diag⟩)⟩, rfl,
        fun h => ?_, iluSolves_of hA.wf hA.square hP hi.rep hx h5 h6 h7 h8⟩
      · intro i hin
        exact ⟨iluRowOk_of hA.wf hA.square hP hi.rep hrep hin (hi.done i hin), by
          rw [hmm hi.rep i hin]; exact hi.piv i hin⟩
      · rw [hf] at h; cases h
    · right
      rw [e]
      simp only [Option.bind_eq_bind, Option.bind_some]
      rw [if_pos (by simp)]
      refine ⟨_, rfl, hf, r, k1, ?_, ?_, ?_⟩
      · intro i hir
        exact iluRowOk_of hA.wf hA.square hP k2 hrep (by omega) (k3 i hir)
      · intro i hir
        rw [hmm k2 i (by omega)]
        exact k4 i hir
      · rw [hmm k2 r k1]
        exact k5
  · left
    rw [if_pos hf]
    have hrep : Rep H.val A.nnz (fun k => H.val.getD k 0) := by
      have := Rep.of_list H.val (0 : R)
      rwa [hfac.1] at this
    obtain ⟨x', y, g, e5, h5, h6, h7, h8⟩ := iluSolve_spec nz hz hP hR hrep hdg
      (fun r hr => by rw [← hmm hrep r hr]; exact (hfac.2 r hr).2) hx hb
    rw [e5]
    exact ⟨x', H, rfl, hH, hf, fun _ => rfl, iluSolves_of hA.wf hA.square hP hrep hx h5 h6 h7 h8⟩

/-- **C34, one call.**  For a square matrix with full diagonal whose lower parts are sorted: the smoother
either succeeds — then the handle holds factors whose product agrees with the matrix at every stored entry,
and `x'` solves `L * U * x' = b` — or reports a numerical error because a pivot is near zero, and leaves
`x` alone.  A handle that holds factors keeps them. -/
theorem C34_ilu {H : IluHandle R} (hH : IluOk nz A H) (h0 : 0 < A.n) (g : Nat → Int) (fl dd : Nat)
    {x b : List R} (hx : A.n ≤ x.length) (hb : A.n ≤ b.length) :
    (∃ x' H', ilu nz g true 111 (some H) (some ⟨0, fl, dd, A.base⟩) true (some x) (some b)
        = some (.success, true, some x', some H') ∧ IluOk nz A H' ∧ H'.factorized = true ∧
      IluFactors nz A H'.val ∧ (H.factorized = true → H' = H) ∧
      IluSolves (A.withVal H'.val) A.n b x x') ∨
    (∃ H', ilu nz g true 111 (some H) (some ⟨0, fl, dd, A.base⟩) true (some x) (some b)
        = some (.numericalError, false, some x, some H') ∧ H.factorized = false ∧
      IluBreakdown nz A H'.val) := by
  have hum : H.raw.um = (A.n : Int) := by rw [hH.raw, ← hA.square]; rfl
  have hun : H.raw.un = (A.n : Int) := by rw [hH.raw]; rfl
  have hbase : H.raw.base = A.base := by rw [hH.raw]; rfl
  have hfmt : H.raw.fmt = 0 := by rw [hH.raw]; rfl
  unfold ilu
  dsimp only
  rw [if_neg (by simp), if_neg (by simp [hbase]), if_neg (by simp), if_neg (by simp [hfmt]),
    if_neg (by simp), if_neg (by have := hH.sort; tauto), if_neg (by simp [hH.full]), if_neg (by simp),
    if_neg (by rw [hum, hun]; omega), if_neg (by rw [hum, hun]; omega)]
  obtain ⟨h1, h2⟩ := optimizeIlu_ok hA g hH
  have hfe : (optimizeIlu g H).factorized = H.factorized := by
    unfold optimizeIlu
    split <;> rfl
  have hsame : H.factorized = true → optimizeIlu g H = H := by
    intro hf
    have : H.ready = true := by
      rcases hH.state with h | h | h
      · rw [h.2] at hf; cases hf
      · exact h.1
      · exact h.1
    unfold optimizeIlu
    rw [if_pos this]
  rcases ilu0Template_ok hz hA h1 h2 hx hb with ⟨x', H', e, k1, k2, k3, k4⟩ | ⟨H', e, k1, k2⟩
  · left
    rw [e]
    refine ⟨x', H', rfl, k1, k2, ?_, fun hf => ?_, k4⟩
    · rcases k1.state with h | h | h
      · rw [h.2] at k2; cases k2
      · rw [h.2.1] at k2; cases k2
      · exact h.2.2.1
    · have := k3 (by rw [hfe]; exact hf)
      rw [this, hsame hf]
  · right
    rw [e]
    exact ⟨H', rfl, by rw [← hfe]; exact k1, k2⟩

end

/-! ### histories -/

/-- Handles reached from a created matrix by `aoclsparse_optimize` and successful calls. -/
inductive IluReached (nz : R → Bool) (A : Csr R) : IluHandle R → Prop
  | create (sort : MatSort) (hs : sort = .fully ∨ sort = .partially) :
      IluReached nz A (.fresh (A.raw false) sort true)
  | optimize {H : IluHandle R} (g : Nat → Int) (hH : IluReached nz A H) : IluReached nz A (optimizeIlu g H)
  | call {H H' : IluHandle R} (g : Nat → Int) (fl dd : Nat) (x b : List R) (x' : Option (List R)) (p : Bool)
      (hH : IluReached nz A H) (hx : A.n ≤ x.length) (hb : A.n ≤ b.length)
      (e : ilu nz g true 111 (some H) (some ⟨0, fl, dd, A.base⟩) true (some x) (some b)
        = some (.success, p, x', some H')) : IluReached nz A H'

/-- **C34, histories.**  After any number of successful calls and optimisations, the next call behaves as
in `C34_ilu`; once there are factors no call fails. -/
theorem C34_history {nz : R → Bool} (hz : ∀ d, nz d = false → d ≠ 0) {A : Csr R} (hA : IluMat A)
    (h0 : 0 < A.n) {H : IluHandle R} (hH : IluReached nz A H) : IluOk nz A H := by
  induction hH with
  | create sort hs => exact ⟨rfl, hs, rfl, .inl ⟨rfl, rfl⟩⟩
  | optimize g hH ih => exact (optimizeIlu_ok hA g ih).1
  | call g fl dd x b x' p hH hx hb e ih =>
    rcases C34_ilu hz hA ih h0 g fl dd hx hb with ⟨x1, H1, e1, h1, -⟩ | ⟨H1, e1, -⟩
    · rw [e] at e1
      cases e1
      exact h1
    · rw [e] at e1
      cases e1

/-- Calls the smoother rejects, leaving everything as it was: null pointers, another operation, another
base, another matrix type, another value type, a matrix with missing diagonal entries, rows that are not
even partially sorted, a matrix that is not square. -/
theorem C34_invalid (nz : R → Bool) (g : Nat → Int) (same : Bool) (op : Int) (H : Option (IluHandle R))
    (d : Option Descr) (pc : Bool) (x b : Option (List R))
    (h : H = none ∨ d = none ∨ pc = false ∨ x = none ∨ b = none ∨ same = false ∨ op ≠ 111 ∨
      ∃ HH dd, H = some HH ∧ d = some dd ∧ (HH.raw.base ≠ dd.base ∨ dd.type ≠ 0 ∨ HH.fulldiag = false ∨
        HH.sort = .unsorted ∨ HH.sort = .unknown ∨ HH.raw.um ≠ HH.raw.un)) :
    ∃ st, st ≠ .success ∧ ilu nz g same op H d pc x b = some (st, false, x, H) := by
  unfold ilu
  split
  · rename_i HH dd xs bs
    simp only [reduceCtorEq, false_or, Option.some.injEq] at h
    by_cases c1 : pc = false
    · rw [if_pos c1]; exact ⟨_, by simp, rfl⟩
    rw [if_neg c1]
    by_cases c2 : HH.raw.base ≠ dd.base
    · rw [if_pos c2]; exact ⟨_, by simp, rfl⟩
    rw [if_neg c2]
    by_cases c3 : op ≠ 111
    · rw [if_pos c3]; exact ⟨_, by simp, rfl⟩
    rw [if_neg c3]
    by_cases c4 : HH.raw.fmt ≠ 0
    · rw [if_pos c4]; exact ⟨_, by simp, rfl⟩
    rw [if_neg c4]
    by_cases c5 : dd.type ≠ 0
    · rw [if_pos c5]; exact ⟨_, by simp, rfl⟩
    rw [if_neg c5]
    by_cases c6 : HH.sort ≠ .fully ∧ HH.sort ≠ .partially
    · rw [if_pos c6]; exact ⟨_, by simp, rfl⟩
    rw [if_neg c6]
    by_cases c7 : HH.fulldiag = false
    · rw [if_pos c7]; exact ⟨_, by simp, rfl⟩
    rw [if_neg c7]
    by_cases c8 : same = false
    · rw [if_pos c8]; exact ⟨_, by simp, rfl⟩
    rw [if_neg c8]
    by_cases c9 : HH.raw.um < 0 ∨ HH.raw.un < 0 ∨ HH.raw.um ≠ HH.raw.un
    · rw [if_pos c9]; exact ⟨_, by simp, rfl⟩
    exfalso
    rcases h with h | h | h | ⟨H2, d2, rfl, rfl, h⟩
    · exact c1 h
    · exact c8 h
    · exact c3 h
    · rcases h with h | h | h | h | h | h
      · exact c2 h
      · exact c5 h
      · exact c7 h
      · exact c6 (by simp [h])
      · exact c6 (by simp [h])
      · exact c9 (.inr (.inr h))
  · exact ⟨_, by simp, rfl⟩

/-! ### concrete cases -/

/-- 3 x 3, one-based, entry (1, 2) missing: no fill-in there -/
def iluEx : Csr ℚ := ⟨3, 3, 1, [1, 4, 6, 9], [1, 2, 3, 1, 2, 1, 2, 3], [2, 1, 1, 4, 5, 2, 4, 6]⟩
/-- near zero means zero -/
def iluNz (d : ℚ) : Bool := decide (d = 0)

/-- status, factors and result of a call on a handle -/
def iluShow (r : Option (Status × Bool × Option (List ℚ) × Option (IluHandle ℚ))) :
    Option (Status × Bool × Option (List ℚ) × Option (List ℚ)) :=
  r.map fun r => (r.1, r.2.1, r.2.2.1, r.2.2.2.map (·.val))

example : iluEx.WF ∧ iluEx.FullDiag ∧ iluEx.LowerSorted ∧ iluEx.NoDup ∧
    ∀ d, iluNz d = false → d ≠ 0 := by
  refine ⟨by decide +kernel, by decide +kernel, by decide +kernel, by decide +kernel, ?_⟩
  intro d h
  simpa [iluNz] using h

example : iluShow (ilu iluNz (fun _ => 9) true 111 (some (.fresh (iluEx.raw false) .fully true)) (some ⟨0, 0, 0, 1⟩)
    true (some [0, 0, 0]) (some [1, 2, 3])) =
    some (.success, true, some [3/10, 0, 2/5], some [2, 1, 1, 2, 3, 1, 1, 5]) := by decide +kernel

/-- a singular matrix: the second pivot is zero -/
def iluSing : Csr ℚ := ⟨2, 2, 0, [0, 2, 4], [0, 1, 0, 1], [1, 1, 1, 1]⟩

/-- A failed factorisation leaves the partly eliminated values in the handle: calling again "succeeds"
with factors that are not those of the matrix (entry (1, 1) of the product is 0, not 1). -/
theorem C34_retry_counterexample : ∃ H1 H2 x',
    ilu iluNz (fun _ => 9) true 111 (some (.fresh (iluSing.raw false) .fully true)) (some ⟨0, 0, 0, 0⟩) true
      (some [0, 0]) (some [1, 2]) = some (.numericalError, false, some [0, 0], some H1) ∧
    ilu iluNz (fun _ => 9) true 111 (some H1) (some ⟨0, 0, 0, 0⟩) true (some [0, 0]) (some [1, 2])
      = some (.success, true, some x', some H2) ∧ ¬ IluRowOk iluSing (iluSing.withVal H2.val) 1 := by
  refine ⟨⟨iluSing.raw false, .fully, true, true, false, [0, 3], [1, 1, 1, 0]⟩,
    ⟨iluSing.raw false, .fully, true, true, true, [0, 3], [1, 1, 1, -1]⟩, [2, -1], by decide +kernel, by decide +kernel, ?_⟩
  intro h
  have := h 1 (by decide +kernel)
  revert this
  decide +kernel

/-- partially sorted: the lower part of the last row does not ascend -/
def iluPart : Csr ℚ := ⟨3, 3, 0, [0, 2, 4, 7], [0, 1, 0, 1, 1, 0, 2], [1, 1, 1, 3, 1, 1, 1]⟩

/-- Partially sorted matrices are accepted, but the factors are wrong if a lower part does not ascend. -/
theorem C34_partially_sorted_counterexample : iluPart.WF ∧ iluPart.Grouped ∧ iluPart.FullDiag ∧
    iluPart.NoDup ∧ ∃ x' H',
    ilu iluNz (fun _ => 9) true 111 (some (.fresh (iluPart.raw false) .partially true)) (some ⟨0, 0, 0, 0⟩) true
      (some [0, 0, 0]) (some [1, 2, 3]) = some (.success, true, some x', some H') ∧
    ¬ IluRowOk iluPart (iluPart.withVal H'.val) 2 := by
  refine ⟨by decide +kernel, by decide +kernel, by decide +kernel, by decide +kernel, ?_⟩
  refine ⟨[1/2, 1/2, 5/2], ⟨iluPart.raw false, .partially, true, true, true, [0, 3, 6],
    [1, 1, 1, 2, -1/2, 1, 1]⟩, by decide +kernel, ?_⟩
  intro h
  have := h 1 (by decide +kernel)
  revert this
  decide +kernel

/-- the columns (1, 3) and (2, 4) of a 2 x 2 matrix -/
def iluCsc : Csr ℚ := ⟨2, 2, 0, [0, 2, 4], [0, 1, 0, 1], [1, 3, 2, 4]⟩

/-- Handles created from CSC arrays are accepted and their transpose is factorised: the matrix is full, so
the factors are exact, but `x'` does not solve `A * x' = b`. -/
theorem C34_csc_counterexample : ∃ x' H',
    ilu iluNz (fun _ => 9) true 111 (some (.fresh (iluCsc.raw true) .fully true)) (some ⟨0, 0, 0, 0⟩) true
      (some [0, 0]) (some [1, 0]) = some (.success, true, some x', some H') ∧
    ∑ j ∈ range 2, userMat true iluCsc 0 j * x'.getD j 0 ≠ 1 ∧
    ∑ j ∈ range 2, userMat false iluCsc 0 j * x'.getD j 0 = 1 := by
  refine ⟨[-2, 1], ⟨iluCsc.raw true, .fully, true, true, true, [0, 3], [1, 3, 2, -2]⟩, by decide +kernel, ?_, ?_⟩ <;>
    decide +kernel

end Verif
