/-
C17, C18: products with a general CSR matrix and its transposes.
-/
import Verif.Proofs.CsrmvT
import Verif.Core.Scatter
import Mathlib.Algebra.Star.BigOperators
import Mathlib.Data.Int.Star

namespace Verif
open Model Finset

variable {R : Type}

/-! ## C17 -/

/-- **C17** Every general kernel computes `alpha*A*x + beta*y`, inside the arrays.
(`k.Ok` only restricts the registers of the templated kernel, see `C17_kernels`.) -/
theorem C17_value [CommSemiring R] [DecidableEq R] (k : GnKernel R) (hk : k.Ok) (A : Csr R)
    (hA : A.WF) (alpha beta : R) (x y : List R) (hx : A.n ≤ x.length) (hy : A.m ≤ y.length) :
    ∃ y', csrmvGn k A.base alpha A.m A.val A.ind A.ptr x beta y = some y' ∧
      IsMv alpha beta A.mat A.m A.n x y y' := by
  obtain ⟨y', h1, h2⟩ := rows_spec (Rep.of_list y 0) hy
    (fun i => gnComb k alpha beta (rowDot A x i))
    (fun i y => do
      let lo ← rd A.ptr i
      let hi ← rd A.ptr (i + 1)
      let r ← k.dot A.ind A.val x A.base lo hi
      k.store alpha beta r i y) (by
      intro i y f hi hy
      have e1 := Csr.WF.rd_ptr hA (i := i) (by omega)
      have e2 := Csr.WF.rd_ptr hA (i := i + 1) (by omega)
      rw [show ((i + 1 : Nat) : Int) = (i : Int) + 1 by push_cast; rfl] at e2
      simp only [e1, e2, gnDot_row hk hA hx hi, Option.bind_eq_bind, Option.bind_some]
      exact gnStore_spec k hy (by omega))
  refine ⟨y', h1, isMv_of_rep hy (fun i _ => rowDot_eq hA x i) (h2.congr ?_)⟩
  intro i _
  simp only [gnComb_eq, comb_eq]

/-- the kernels the library selects meet `Ok`: the scalar and the fixed vector kernels always,
the templated kernel on real registers with any horizontal sum, and on complex registers -/
theorem C17_kernels :
    (∀ (R : Type) [CommSemiring R] [DecidableEq R],
      (GnKernel.ref : GnKernel R).Ok ∧ (GnKernel.vec8 : GnKernel R).Ok ∧
      (GnKernel.avx2 : GnKernel R).Ok ∧ (GnKernel.avx512 : GnKernel R).Ok) ∧
    (∀ (R : Type) [CommSemiring R] [DecidableEq R] (K : Nat) (hs : List R → R), 0 < K →
      (∀ v, v.length = K → hs v = v.sum) → (GnKernel.kt K (vecLanes K hs)).Ok) ∧
    (∀ (S : Type) [CommRing S] [DecidableEq S] (K : Nat), 0 < K →
      (GnKernel.kt K (vecCplx (S := S) K)).Ok) := by
  refine ⟨fun R _ _ => ⟨trivial, trivial, trivial, trivial⟩, ?_, ?_⟩
  · intro R _ _ K hs hK h
    exact vecLanes_ok hK h
  · intro S _ _ K hK
    exact vecCplx_ok hK

theorem forN_rel {σ τ : Type} {f : Int → σ → Option σ} {g : Int → τ → Option τ}
    (P : Int → σ → τ → Prop)
    (hs : ∀ i s t s' t', P i s t → f i s = some s' → g i t = some t' → P (i + 1) s' t') :
    ∀ (n : Nat) (lo : Int) s t s' t', P lo s t → forN f n lo s = some s' →
      forN g n lo t = some t' → P (lo + n) s' t'
  | 0, lo, s, t, s', t', h, h1, h2 => by
    simp only [forN, Option.some.injEq] at h1 h2
    subst h1 h2
    simpa using h
  | n + 1, lo, s, t, s', t', h, h1, h2 => by
    simp only [forN] at h1 h2
    obtain ⟨s1, a1, a2⟩ := Option.bind_eq_some_iff.mp h1
    obtain ⟨t1, b1, b2⟩ := Option.bind_eq_some_iff.mp h2
    have := forN_rel P hs n (lo + 1) s1 t1 s' t' (hs _ _ _ _ _ h a1 b1) a2 b2
    rw [show lo + ((n + 1 : Nat) : Int) = lo + 1 + n by push_cast; ring]
    exact this

/-- **C17** With `beta = 0` the previous contents of `y` do not reach the result: no assumption
on the arithmetic is used, so this holds with NaNs and infinities in `y`. -/
theorem C17_beta_zero [Zero R] [One R] [Add R] [Mul R] [DecidableEq R] (k : GnKernel R)
    (base : Int) (alpha : R) (m : Nat) (val : List R) (ind ptr : List Int) (x y1 y2 r1 r2 : List R)
    (hlen : y1.length = y2.length)
    (h1 : csrmvGn k base alpha m val ind ptr x 0 y1 = some r1)
    (h2 : csrmvGn k base alpha m val ind ptr x 0 y2 = some r2) :
    ∀ i, i < m → r1[i]? = r2[i]? := by
  have key := forN_rel
    (P := fun i (s t : List R) => s.length = t.length ∧ ∀ k : Nat, (k : Int) < i → s[k]? = t[k]?)
    (f := fun i y => do
      let lo ← rd ptr i
      let hi ← rd ptr (i + 1)
      let r ← k.dot ind val x base lo hi
      k.store alpha 0 r i y)
    (g := fun i y => do
      let lo ← rd ptr i
      let hi ← rd ptr (i + 1)
      let r ← k.dot ind val x base lo hi
      k.store alpha 0 r i y)
    (by
      rintro i s t s' t' ⟨hl, heq⟩ hs ht
      simp only [Option.bind_eq_bind, Option.bind_eq_some_iff] at hs ht
      obtain ⟨lo, a1, hi, a2, r, a3, a4⟩ := hs
      obtain ⟨lo', b1, hi', b2, r', b3, b4⟩ := ht
      rw [a1] at b1; cases b1
      rw [a2] at b2; cases b2
      rw [a3] at b3; cases b3
      have : ∃ v, k.store alpha 0 r i s = wr s i v ∧ k.store alpha 0 r i t = wr t i v := by
        cases k <;> simp only [GnKernel.store, storeRow, storeRowKt] <;> simp <;>
          exact ⟨_, rfl, rfl⟩
      obtain ⟨v, c1, c2⟩ := this
      rw [c1] at a4; rw [c2] at b4
      refine ⟨by rw [wr_length a4, wr_length b4, hl], ?_⟩
      intro k hk
      obtain ⟨p1, p2, rfl⟩ := wr_some_iff.mp a4
      obtain ⟨q1, q2, rfl⟩ := wr_some_iff.mp b4
      by_cases hki : k = i.toNat
      · subst hki
        rw [List.getElem?_set_self (by omega), List.getElem?_set_self (by omega)]
      · rw [List.getElem?_set_ne (by omega), List.getElem?_set_ne (by omega)]
        exact heq k (by omega))
    (m : Int).toNat 0 y1 y2 r1 r2 ⟨hlen, by intro k hk; omega⟩
    (by simpa [csrmvGn, forC] using h1) (by simpa [csrmvGn, forC] using h2)
  intro i hi
  exact key.2 i (by simp; omega)

/-- **C17** Parallel row loop: whatever the assignment of rows to threads and whatever the
interleaving of their accesses to `y`, no access leaves the array, the loop cannot get stuck, and
the final `y` is the product. -/
theorem C17_schedule [CommSemiring R] [DecidableEq R] (k : GnKernel R) (hk : k.Ok) (A : Csr R)
    (hA : A.WF) (alpha beta : R) (x y : List R) (hx : A.n ≤ x.length) (hy : A.m ≤ y.length) :
    ∃ ps, csrmvGnProgs k A.base alpha A.m A.val A.ind A.ptr x beta = some ps ∧
      ps.length = A.m ∧
      ∀ c, Prog.Steps (ps, y) c →
        ¬ Prog.Fault c ∧ (Prog.Finished c → IsMv alpha beta A.mat A.m A.n x y c.2) ∧
        (¬ Prog.Finished c → ∃ d, Prog.Step c d) := by
  have hps : csrmvGnProgs k A.base alpha A.m A.val A.ind A.ptr x beta
      = some ((List.range A.m).map fun i => k.prog alpha beta (rowDot A x i) (i : Int)) := by
    unfold csrmvGnProgs
    apply mapM_range_some
    intro i hi
    have e1 := Csr.WF.rd_ptr hA (i := i) (by omega)
    have e2 := Csr.WF.rd_ptr hA (i := i + 1) (by omega)
    rw [show ((i + 1 : Nat) : Int) = (i : Int) + 1 by push_cast; rfl] at e2
    simp only [e1, e2, gnDot_row hk hA hx hi, Option.bind_eq_bind, Option.bind_some]
  refine ⟨_, hps, by simp, ?_⟩
  intro c hc
  obtain ⟨y', h1, h2⟩ := C17_value k hk A hA alpha beta x y hx hy
  have hseq : Prog.seqRun ((List.range A.m).map
      fun i => k.prog alpha beta (rowDot A x i) (i : Int)) y = some y' := by
    rw [← h1]
    unfold Prog.seqRun csrmvGn
    rw [foldlM_map', forC_range]
    simp only [Int.sub_zero, Int.toNat_natCast]
    apply foldlM_congr'
    intro s i hi
    have hi := List.mem_range.mp hi
    have e1 := Csr.WF.rd_ptr hA (i := i) (by omega)
    have e2 := Csr.WF.rd_ptr hA (i := i + 1) (by omega)
    rw [show ((i + 1 : Nat) : Int) = (i : Int) + 1 by push_cast; rfl] at e2
    simp only [zero_add, e1, e2, gnDot_row hk hA hx hi, Option.bind_eq_bind, Option.bind_some,
      gnProg_run]
  have := Prog.schedule_independent (cells := fun t a => a = (t : Int))
    (fun s t a hst h1 h2 => hst (by omega))
    (by
      intro t p hp
      rw [List.getElem?_map] at hp
      obtain ⟨i, hi, rfl⟩ := Option.map_eq_some_iff.mp hp
      have : i = t := by
        have := List.getElem?_eq_some_iff.mp hi
        obtain ⟨_, h⟩ := this
        simpa using h.symm
      subst this
      exact gnProg_confined _ _ _ _ _)
    hseq hc
  refine ⟨this.1, fun hf => ?_, this.2.2⟩
  rw [this.2.1 hf]
  exact h2

/-! ## C18 -/

/-- **C18** The scalar kernel for the transpose. -/
theorem C18_transpose [CommSemiring R] [StarRing R] [DecidableEq R] (A : Csr R) (hA : A.WF)
    (alpha beta : R) (x y : List R) (hx : A.m ≤ x.length) (hy : A.n ≤ y.length) :
    ∃ y', csrmvTh id A.base alpha A.m A.n A.val A.ind A.ptr x beta y = some y' ∧
      IsMv alpha beta (applyOp .trans A.mat) A.n A.m x y y' :=
  csrmvTh_spec (AddMonoidHom.id R) hA alpha beta hx hy

/-- **C18** The scalar kernel for the conjugate transpose. -/
theorem C18_conj_transpose [CommSemiring R] [StarRing R] [DecidableEq R] (A : Csr R) (hA : A.WF)
    (alpha beta : R) (x y : List R) (hx : A.m ≤ x.length) (hy : A.n ≤ y.length) :
    ∃ y', csrmvTh star A.base alpha A.m A.n A.val A.ind A.ptr x beta y = some y' ∧
      IsMv alpha beta (applyOp .conjTrans A.mat) A.n A.m x y y' :=
  csrmvTh_spec (starAddEquiv (R := R)).toAddMonoidHom hA alpha beta hx hy

/-- **C18** The vectorised multi-threaded kernel for the transpose: with all `nthreads` requested
threads, for every order in which they enter the critical section. -/
theorem C18_transpose_kt [CommSemiring R] [StarRing R] [DecidableEq R] (A : Csr R) (hA : A.WF)
    (K : Nat) (hK : 0 < K) (alpha beta : R) (x y : List R) (hx : A.m ≤ x.length)
    (hy : A.n ≤ y.length) (nthreads : Nat) (hn : 0 < nthreads) (order : List Nat)
    (ho : order.Perm (List.range nthreads)) :
    ∃ y', csrmvtKt K A.base alpha A.m A.n A.val A.ind A.ptr x beta y nthreads order = some y' ∧
      IsMv alpha beta (applyOp .trans A.mat) A.n A.m x y y' :=
  csrmvtKt_spec hK hA alpha beta hx hy hn ho

/-! ## Non-vacuity and findings -/

/-- 3 x 4, one-based, an empty row -/
def exMv : Csr Int := ⟨3, 4, 1, [1, 6, 6, 8], [1, 2, 4, 3, 1, 2, 4], [1, 2, 3, 4, 5, 6, 7]⟩

example : exMv.WF := by
  constructor <;> decide +kernel

-- every kernel on the example, including a row longer than the vector width
example : csrmvGn .avx2 1 2 3 exMv.val exMv.ind exMv.ptr [1, 10, 100, 1000] 3 [1, 1, 1, 77]
    = some [2 * (1 + 20 + 3000 + 400 + 5) + 3, 3, 2 * (60 + 7000) + 3, 77] := by decide +kernel
example : csrmvGn (.kt 4 (vecLanes 4 List.sum)) 1 2 3 exMv.val exMv.ind exMv.ptr
    [1, 10, 100, 1000] 3 [1, 1, 1, 77]
    = some [2 * (1 + 20 + 3000 + 400 + 5) + 3, 3, 2 * (60 + 7000) + 3, 77] := by decide +kernel

-- transposed: two threads, merging in reverse order
example : csrmvtKt 2 1 2 3 4 exMv.val exMv.ind exMv.ptr [1, 10, 100] 3 [1, 1, 1, 1] 2 [1, 0]
    = some [2 * (1 + 5) + 3, 2 * (2 + 600) + 3, 2 * 4 + 3, 2 * (3 + 700) + 3] := by decide +kernel

/-- Finding: the rows are split by the number of threads *requested*; OpenMP may deliver fewer
(dynamic adjustment, thread limits), and then the rows of the missing threads are lost without an
error: with two threads requested and a team of one, `y` lacks the last rows. -/
theorem C18_smaller_team_loses_rows :
    ∃ (A : Csr Int) (x y y' : List Int), A.WF ∧ A.m ≤ x.length ∧ A.n ≤ y.length ∧
      csrmvtKt 2 A.base 1 A.m A.n A.val A.ind A.ptr x 0 y 2 [0] = some y' ∧
      ¬ IsMv 1 0 (applyOp .trans A.mat) A.n A.m x y y' := by
  refine ⟨exMv, [1, 10, 100], [0, 0, 0, 0], [6, 2, 4, 3], ?_, by decide, by decide,
    by decide +kernel, ?_⟩
  · constructor <;> decide +kernel
  · intro h
    have := h.rows 1 (by decide)
    revert this
    decide +kernel

end Verif
