/-
C70: transposed products on many threads, whatever the interleaving.
-/
import Verif.Proofs.MvtRound
import Verif.Props.Rounded
import Verif.Props.MmExact

namespace Verif
open Model

section
variable {R : Type} [Zero R] [One R] [Add R] [Mul R] [DecidableEq R]

/-- **Scaling.**  The parallel loop that multiplies `y` by beta (or clears it) before the product: however
its iterations are dealt out to threads and interleaved, it ends in the same array `y1`. -/
theorem C70_scaling (beta : R) {n : Nat} {y : List R} (hn : n ≤ y.length) :
    ∃ y1, scaleY beta n y = some y1 ∧ y1.length = y.length ∧ (beta ≠ 0 → beta = 1 → y1 = y) ∧
      (beta = 0 ∨ beta ≠ 1 → ∀ T asg, Assigns n T asg → AllSchedules (loopP T asg (mvtScaleP beta)) (rd y) (rd y1)) :=
  mvt_scaling beta hn

/-- **Product.**  The parallel region of the transposed product, in any arithmetic.  `T` threads, of which
those in `fail` cannot allocate their buffer.  However the threads are interleaved there is no undefined
behaviour, no race and no deadlock, and all runs end.  The result is that of the threads entering the
critical section in some order, `res ord`; each order is possible.  It is the result that the sequential
model of the kernel gives, with the status `memory_error` if and only if some thread failed. -/
theorem C70_schedules {K : Nat} (hK : 0 < K) {A : Csr R} (hA : A.WF) (alpha beta : R) {x y y1 : List R}
    (hx : A.m ≤ x.length) (hy : A.n ≤ y.length) (hs : scaleY beta A.n y = some y1) (T : Nat) (fail : Nat → Bool) :
    ∃ res : List Nat → List R,
      (∀ ord : List Nat, ord.Perm (List.range T) →
        csrmvtKtM fail K A.base alpha A.m A.n A.val A.ind A.ptr x beta y T ord
          = some (if ∃ t, t < T ∧ fail t = true then .memoryError else .success, res (ord.filter fun t => !fail t))) ∧
      CritOrders ((List.range T).filter fun t => !fail t)
        (mvtTeam fail K A.base alpha A.m A.n A.val A.ind A.ptr x T) (rd y1) (fun ord => rd (res ord)) := by
  have hl : y1.length = y.length := mvtScale_len hy hs
  refine ⟨_, fun ord hord => ?_, mvt_region hK hA alpha hx (by omega) T fail⟩
  have hlt : ∀ t ∈ ord.filter (fun t => !fail t), t < T := fun t ht =>
    List.mem_range.1 (hord.mem_iff.1 (List.mem_of_mem_filter ht))
  obtain ⟨z, e, -, -⟩ := mvt_merge_exact hK hA alpha hx _ hlt (y := y1) (by omega)
  have hf : ∀ (l : List Nat) (y : List R),
      l.foldlM (csrmvtStepM fail K A.base alpha A.m A.n A.val A.ind A.ptr x T) y
        = (l.filter fun t => !fail t).foldlM (fun y t =>
          (csrmvtBuf K A.base alpha A.m A.n A.val A.ind A.ptr x T t).bind fun b => mergeBuf A.n y b) y := by
    intro l
    induction l with
    | nil => intro y; rfl
    | cons t l ih =>
      intro y
      rw [List.foldlM_cons]
      cases hft : fail t
      · rw [List.filter_cons_of_pos (by simp [hft]), List.foldlM_cons]
        unfold csrmvtStepM
        rw [if_neg (by simp [hft])]
        exact congrArg _ (funext ih)
      · rw [List.filter_cons_of_neg (by simp [hft])]
        unfold csrmvtStepM
        rw [if_pos hft]
        exact ih y
  unfold csrmvtKtM
  rw [hs]
  show Option.bind (ord.foldlM (csrmvtStepM fail K A.base alpha A.m A.n A.val A.ind A.ptr x T) y1) _ = _
  rw [hf, e]
  show some (_, z) = some (_, z)
  congr 2
  have : ord.any fail = true ↔ ∃ t, t < T ∧ fail t = true := by
    rw [List.any_eq_true]
    constructor
    · rintro ⟨t, ht, h⟩
      exact ⟨t, List.mem_range.1 (hord.mem_iff.1 ht), h⟩
    · rintro ⟨t, ht, h⟩
      exact ⟨t, hord.mem_iff.2 (List.mem_range.2 ht), h⟩
  by_cases h : ∃ t, t < T ∧ fail t = true
  · rw [if_pos h, if_pos (this.2 h)]
  · rw [if_neg h, if_neg fun g => h (this.1 g)]

/-- **Values.**  What is computed for an element of the result, operation by operation: each thread sums
up the products of its rows, and the sums are added to beta times the element in the order in which the
threads come to the critical section.  Only elements of the result change. -/
theorem C70_values {K : Nat} (hK : 0 < K) {A : Csr R} (hA : A.WF) (alpha beta : R) {x y y1 : List R}
    (hx : A.m ≤ x.length) (hy : A.n ≤ y.length) (hs : scaleY beta A.n y = some y1) (T : Nat)
    (n : Nat) (c : CrCfg Int R)
    (h : CrRun n ⟨mvtTeam (fun _ => false) K A.base alpha A.m A.n A.val A.ind A.ptr x T, rd y1⟩ c) (hd : CrDone c) :
    ∃ (ord : List Nat) (z : List R), ord.Perm (List.range T) ∧ c.mem = rd z ∧ z.length = y.length ∧
      ∀ j, z[j]? = y[j]?.map fun r => if j < A.n then mvtElt K alpha beta A x T ord j r else r := by
  have hl : y1.length = y.length := mvtScale_len hy hs
  obtain ⟨ord, hord, e⟩ := (mvt_region hK hA alpha hx (y := y1) (by omega) T fun _ => false).result n c h hd
  have hord : ord.Perm (List.range T) := by simpa using hord
  have hlt : ∀ t ∈ ord, t < T := fun t ht => List.mem_range.1 (hord.mem_iff.1 ht)
  obtain ⟨z, e1, l1, c1⟩ := mvt_values hK hA alpha beta hx hy hlt
  refine ⟨ord, z, hord, ?_, l1, c1⟩
  unfold csrmvtKt at e1
  rw [hs] at e1
  rw [e]
  congr 1
  have e1 : ord.foldlM (fun y t =>
    (csrmvtBuf K A.base alpha A.m A.n A.val A.ind A.ptr x T t).bind fun b => mergeBuf A.n y b) y1 = some z := e1
  rw [e1]; rfl

/-- **Rounding errors.**  Real data in an arithmetic that rounds every operation, and where any product may
be fused with the addition that uses it.  However the threads are interleaved, an element of the result
differs from alpha·(Aᵀ·x) + beta·y by at most `(1 + u)^(N + T + 2) - 1` times |alpha|·(|A|ᵀ·|x|) + |beta|·|y|,
where `N` is the number of entries stored in the column and `T` the number of threads. -/
theorem C70_error {ρ : Rounding} {v : R → ℝ} {fac : R → Option (ℝ × ℝ)} (hR : Contracts ρ v fac) (h1 : v 1 = 1)
    {K : Nat} (hK : 0 < K) {A : Csr R} (hA : A.WF) (alpha beta : R) {x y y1 : List R}
    (hx : A.m ≤ x.length) (hy : A.n ≤ y.length) (hs : scaleY beta A.n y = some y1) {T : Nat} (hT : 0 < T)
    (pA : ∀ a ∈ A.val, fac a = none) (px : ∀ a ∈ x, fac a = none) (py : ∀ a ∈ y, fac a = none)
    (n : Nat) (c : CrCfg Int R)
    (h : CrRun n ⟨mvtTeam (fun _ => false) K A.base alpha A.m A.n A.val A.ind A.ptr x T, rd y1⟩ c) (hd : CrDone c) :
    ∃ z : List R, c.mem = rd z ∧ z.length = y.length ∧
      (∀ j, j < A.n → ∃ r z', y[j]? = some r ∧ z[j]? = some z' ∧
        |v z' - (v beta * v r + v alpha * ∑ i ∈ Finset.range A.m, (A.mapTo v).mat i j * v (x.getD i 0))|
          ≤ ((1 + ρ.u) ^ (A.colCount j + T + 2) - 1) *
            (|v beta| * |v r| + |v alpha| *
              ∑ i ∈ Finset.range A.m, (A.mapTo fun a => |v a|).mat i j * |v (x.getD i 0)|)) ∧
      ∀ j, A.n ≤ j → z[j]? = y[j]? := by
  obtain ⟨ord, z, hord, e, hl, hz⟩ := C70_values hK hA alpha beta hx hy hs T n c h hd
  refine ⟨z, e, hl, fun j hj => ?_, fun j hj => ?_⟩
  · have hlt : j < y.length := by omega
    refine ⟨_, mvtElt K alpha beta A x T ord j y[j], List.getElem?_eq_getElem hlt, ?_, ?_⟩
    · rw [hz, List.getElem?_eq_getElem hlt]
      simp [hj]
    · exact (mvtElt_near hR h1 px pA hT hord j (py _ (List.getElem_mem hlt))).1.2
  · rw [hz]
    cases y[j]? with
    | none => rfl
    | some r => simp [show ¬ j < A.n by omega]

/-- The serial kernel of the transposed product: what is computed for an element of the result, and how
far it is from alpha·(Aᵀ·x) + beta·y. -/
theorem C70_serial {ρ : Rounding} {v : R → ℝ} {fac : R → Option (ℝ × ℝ)} (hR : Contracts ρ v fac) (h1 : v 1 = 1)
    {A : Csr R} (hA : A.WF) (alpha beta : R) {x y : List R} (hx : A.m ≤ x.length) (hy : A.n ≤ y.length)
    (pA : ∀ a ∈ A.val, fac a = none) (px : ∀ a ∈ x, fac a = none) (py : ∀ a ∈ y, fac a = none) :
    ∃ z : List R, csrmvTh id A.base alpha A.m A.n A.val A.ind A.ptr x beta y = some z ∧ z.length = y.length ∧
      (∀ j, j < A.n → ∃ r z', y[j]? = some r ∧ z[j]? = some z' ∧
        z' = mvtCol (mvtScale beta r) (mvtRows 1 alpha A x 0 A.m) j ∧
        |v z' - (v beta * v r + v alpha * ∑ i ∈ Finset.range A.m, (A.mapTo v).mat i j * v (x.getD i 0))|
          ≤ ((1 + ρ.u) ^ (A.colCount j + 2) - 1) *
            (|v beta| * |v r| + |v alpha| *
              ∑ i ∈ Finset.range A.m, (A.mapTo fun a => |v a|).mat i j * |v (x.getD i 0)|)) ∧
      ∀ j, A.n ≤ j → z[j]? = y[j]? := by
  obtain ⟨z, e, hl, hz⟩ := mvt_serial hA alpha beta hx hy
  refine ⟨z, e, hl, fun j hj => ?_, fun j hj => ?_⟩
  · have hlt : j < y.length := by omega
    refine ⟨_, _, List.getElem?_eq_getElem hlt, ?_, rfl, ?_⟩
    · rw [hz, List.getElem?_eq_getElem hlt]
      simp [hj]
    · exact (mvtSerial_near hR h1 px pA j (py _ (List.getElem_mem hlt))).1.2
  · rw [hz]
    cases y[j]? with
    | none => rfl
    | some r => simp [show ¬ j < A.n by omega]

end

/-- **Exact arithmetic.**  In a commutative semiring (exact arithmetic) all interleavings end in the same
result, the transposed product. -/
theorem C70_exact {R : Type} [CommSemiring R] [DecidableEq R] {K : Nat} (hK : 0 < K) {A : Csr R} (hA : A.WF)
    (alpha beta : R) {x y y1 : List R} (hx : A.m ≤ x.length) (hy : A.n ≤ y.length)
    (hs : scaleY beta A.n y = some y1) {T : Nat} (hT : 0 < T) :
    ∃ z, IsMv alpha beta (fun i j => A.mat j i) A.n A.m x y z ∧
      ∀ n c, CrRun n ⟨mvtTeam (fun _ => false) K A.base alpha A.m A.n A.val A.ind A.ptr x T, rd y1⟩ c → CrDone c →
        c.mem = rd z := by
  obtain ⟨z, -, h⟩ := csrmvtKt_spec hK hA alpha beta hx hy hT (List.Perm.refl (List.range T))
  refine ⟨z, h, fun n c hr hd => ?_⟩
  have hl : y1.length = y.length := mvtScale_len hy hs
  obtain ⟨ord, hord, e⟩ := (mvt_region hK hA alpha hx (y := y1) (by omega) T fun _ => false).result n c hr hd
  have hord : ord.Perm (List.range T) := by simpa using hord
  obtain ⟨z', e1, h'⟩ := csrmvtKt_spec hK hA alpha beta hx hy hT hord
  have hzz : z' = z := by
    apply List.ext_getElem?
    intro i
    by_cases hi : i < A.n
    · rw [h.rows i hi, h'.rows i hi]
    · rw [h.rest i (by omega), h'.rest i (by omega)]
  unfold csrmvtKt at e1
  rw [hs] at e1
  have e1 : ord.foldlM (fun y t =>
    (csrmvtBuf K A.base alpha A.m A.n A.val A.ind A.ptr x T t).bind fun b => mergeBuf A.n y b) y1 = some z' := e1
  rw [e, e1, ← hzz]; rfl

/-- three rows with one column -/
def mvt3A : Csr Digits3 := ⟨3, 1, 0, [0, 1, 2, 3], [0, 0, 0], [⟨8⟩, 1, 1]⟩

/-- **Not reproducible (F104).**  With rounding, the result depends on the interleaving: two runs of the
same call, on the same data with the same three threads, that end with 12 and with 10. -/
theorem C70_order_counterexample :
    ∃ (y1 : List Digits3) (n n' : Nat) (c c' : CrCfg Int Digits3), scaleY 0 (1 : Nat) [0] = some y1 ∧
      CrRun n ⟨mvtTeam (fun _ => false) 4 0 1 3 1 mvt3A.val mvt3A.ind mvt3A.ptr [1, 1, 1] 3, rd y1⟩ c ∧ CrDone c ∧
      CrRun n' ⟨mvtTeam (fun _ => false) 4 0 1 3 1 mvt3A.val mvt3A.ind mvt3A.ptr [1, 1, 1] 3, rd y1⟩ c' ∧ CrDone c' ∧
      c.mem 0 = some ⟨12⟩ ∧ c'.mem 0 = some ⟨10⟩ := by
  obtain ⟨res, h1, h2⟩ := C70_schedules (K := 4) (by decide) (A := mvt3A)
    ⟨by decide, by decide, by decide, by decide, by decide, by decide, by decide⟩ 1 0 (x := [1, 1, 1]) (y := [0])
    (y1 := [0]) (by decide) (by decide) (by decide +kernel) 3 (fun _ => false)
  obtain ⟨n, c, r, d, m⟩ := h2.every [0, 1, 2] (by decide)
  obtain ⟨n', c', r', d', m'⟩ := h2.every [1, 2, 0] (by decide)
  refine ⟨[0], n, n', c, c', by decide +kernel, r, d, r', d', ?_, ?_⟩
  · have := h1 [0, 1, 2] (by decide)
    have hr : res [0, 1, 2] = [⟨12⟩] := by
      have e : csrmvtKtM (fun _ => false) 4 mvt3A.base (1 : Digits3) mvt3A.m mvt3A.n mvt3A.val mvt3A.ind mvt3A.ptr
          [1, 1, 1] 0 [0] 3 [0, 1, 2] = some (.success, [⟨12⟩]) := by decide +kernel
      rw [e] at this
      simpa using this.symm
    rw [m, hr]; rfl
  · have := h1 [1, 2, 0] (by decide)
    have hr : res [1, 2, 0] = [⟨10⟩] := by
      have e : csrmvtKtM (fun _ => false) 4 mvt3A.base (1 : Digits3) mvt3A.m mvt3A.n mvt3A.val mvt3A.ind mvt3A.ptr
          [1, 1, 1] 0 [0] 3 [1, 2, 0] = some (.success, [⟨10⟩]) := by decide +kernel
      rw [e] at this
      simpa using this.symm
    rw [m', hr]; rfl

/-! ### cases that meet the hypotheses -/

/-- `C70_schedules` with two threads, the second without a buffer: the rows of the first alone are added -/
example : exMv.WF ∧ scaleY 3 (4 : Nat) [1, 1, 1, (1 : Int)] = some [3, 3, 3, 3] ∧
    csrmvtKtM (fun t => t == 1) 2 1 2 3 4 exMv.val exMv.ind exMv.ptr [1, 10, 100] 3 [1, 1, 1, (1 : Int)] 2 [1, 0]
      = some (.memoryError, [2 * (1 + 5) + 3, 2 * 2 + 3, 2 * 4 + 3, 2 * 3 + 3]) := by
  refine ⟨by constructor <;> decide +kernel, by decide +kernel, by decide +kernel⟩

/-- `C70_serial` (and the arithmetic of `C70_error`) for double precision: the 1×2 matrix (2, 3) -/
example : ∃ z : List (Fp (binary 53)), csrmvTh id 0 ⟨7⟩ (1 : Nat) (2 : Nat) [⟨2⟩, ⟨3⟩] [0, 1] [0, 2] [⟨5⟩] ⟨10⟩ [⟨1⟩, ⟨1⟩] = some z ∧
    z.length = 2 := by
  obtain ⟨z, h, hl, -, -⟩ := C70_serial (fp_contracts (binary 53)) rfl
    (A := ⟨1, 2, 0, [0, 2], [0, 1], [⟨2⟩, ⟨3⟩]⟩) ⟨by simp, by simp, rfl, by decide, rfl, by simp, by decide⟩ ⟨7⟩ ⟨10⟩
    (x := [⟨5⟩]) (y := [⟨1⟩, ⟨1⟩]) (by simp) (by simp) (by simp) (by simp) (by simp)
  exact ⟨z, h, hl⟩

/-- `C70_exact`: all interleavings of two threads -/
example : ∃ z : List Int, ∀ n c,
    CrRun n ⟨mvtTeam (fun _ => false) 2 1 2 3 4 exMv.val exMv.ind exMv.ptr [1, 10, 100] 2, rd [3, 3, 3, 3]⟩ c →
      CrDone c → c.mem = rd z :=
  let ⟨z, _, h⟩ := C70_exact (K := 2) (by decide) (A := exMv) (by constructor <;> decide +kernel) 2 3
    (x := [1, 10, 100]) (y := [1, 1, 1, 1]) (y1 := [3, 3, 3, 3]) (by decide) (by decide) (by decide +kernel) (T := 2)
    (by decide)
  ⟨z, h⟩

end Verif
