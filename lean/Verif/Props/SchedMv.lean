/-
C71: the parallel loops of the matrix-vector products, under every schedule.
-/
import Verif.Proofs.SchedMv

namespace Verif
namespace Props
open Model

variable {R : Type} [Zero R] [One R] [Add R] [Mul R] [DecidableEq R]

/-- **C71** The product with a CSR matrix, in any arithmetic: if the loop run row after row does nothing
undefined and ends with `y'`, then so does the loop on any number of threads, for any assignment of the rows to
threads and any interleaving of their accesses: no undefined access, no data race, and `y'` at the end. -/
theorem C71_csr (k : GnKernel R) (base : Int) (alpha : R) (m : Nat) (val : List R) (ind ptr : List Int) (x : List R)
    (beta : R) (y y' : List R) (h : csrmvGn k base alpha m val ind ptr x beta y = some y') :
    ∀ (T : Nat) (asg : Nat → List Nat), Assigns m T asg →
      AllSchedules (loopP T asg (smvGn k base alpha val ind ptr x beta)) (rd y) (rd y') := by
  have hr : forC 0 (m : Int) (fun i y => ((rd ptr i).bind fun lo => (rd ptr (i + 1)).bind fun hi =>
      k.dot ind val x base lo hi).bind fun r => k.store alpha beta r i y) y = some y' := by
    rw [← h]
    refine forC_congr fun i _ _ y => ?_
    simp only [Option.bind_eq_bind, Option.bind_assoc]
  cases k
  case kt K V => exact smv_rows (res := id) (cell := fun _ i => i) .kt hr (by intro r r' _ _ _ _ _ _ e; omega)
  all_goals exact smv_rows (res := id) (cell := fun _ i => i) .plain hr (by intro r r' _ _ _ _ _ _ e; omega)

/-- **C71** The same for one triangle of a CSR matrix. -/
theorem C71_triangle (base : Int) (alpha : R) (m : Nat) (diag fill : Nat) (val : List R)
    (ind ptr idiag iurow : List Int) (x : List R) (beta : R) (y y' : List R)
    (h : csrmvTriAvx2 base alpha m diag fill val ind ptr idiag iurow x beta y = some y') :
    ∀ (T : Nat) (asg : Nat → List Nat), Assigns m T asg →
      AllSchedules (loopP T asg (smvTri base alpha diag fill val ind ptr idiag iurow x beta)) (rd y) (rd y') :=
  smv_rows (res := id) (cell := fun _ i => i) .always h (by intro r r' _ _ _ _ _ _ e; omega)

/-- **C71** The same for a matrix given by its two triangles. -/
theorem C71_tcsr (base : Int) (alpha : R) (M : Tcsr R) (m : Nat) (hm : M.m = m) (x : List R) (beta : R) (y y' : List R)
    (h : dtcsrmv base alpha M x beta y = some y') :
    ∀ (T : Nat) (asg : Nat → List Nat), Assigns m T asg →
      AllSchedules (loopP T asg (smvTcsr base alpha M x beta)) (rd y) (rd y') := by
  unfold dtcsrmv at h
  rw [hm] at h
  exact smv_rows (res := id) (cell := fun _ i => i) .always h (by intro r r' _ _ _ _ _ _ e; omega)

/-- **C71** The same for a matrix in ELL format, scalar code. -/
theorem C71_ell (alpha : R) (m : Nat) (ev : List R) (ec : List Int) (w base : Int) (x : List R) (beta : R) (y y' : List R)
    (h : ellmvRef alpha m ev ec w base x beta y = some y') :
    ∀ (T : Nat) (asg : Nat → List Nat), Assigns m T asg →
      AllSchedules (loopP T asg (smvEll alpha ev ec w base x beta)) (rd y) (rd y') :=
  smv_rows (res := id) (cell := fun _ i => i) .plain h (by intro r r' _ _ _ _ _ _ e; omega)

/-- **C71** The same for a matrix in ELL format, AVX2 code. -/
theorem C71_ell_avx2 (alpha : R) (m : Nat) (ev : List R) (ec : List Int) (w base : Int) (x : List R) (beta : R)
    (y y' : List R) (h : dellmvAvx2 alpha m ev ec w base x beta y = some y') :
    ∀ (T : Nat) (asg : Nat → List Nat), Assigns m T asg →
      AllSchedules (loopP T asg (smvEllAvx2 alpha ev ec w base x beta)) (rd y) (rd y') :=
  smv_rows (res := id) (cell := fun _ i => i) .plain h (by intro r r' _ _ _ _ _ _ e; omega)

/-- **C71** The same for a matrix in transposed ELL format, scalar code. -/
theorem C71_ellt (alpha : R) (m : Nat) (ev : List R) (ec : List Int) (w base : Int) (x : List R) (beta : R)
    (y y' : List R) (h : elltmvRef alpha m ev ec w base x beta y = some y') :
    ∀ (T : Nat) (asg : Nat → List Nat), Assigns m T asg →
      AllSchedules (loopP T asg (smvEllt alpha m ev ec w base x beta)) (rd y) (rd y') :=
  smv_rows (res := id) (cell := fun _ i => i) .plain h (by intro r r' _ _ _ _ _ _ e; omega)

omit [Zero R] [One R] [Add R] [Mul R] [DecidableEq R] in
theorem smv_rest {m : Nat} {f : Int → List R → Option (List R)} {y y' : List R}
    (h : forC ((m : Int).tdiv 4 * 4) m f y = some y') :
    forC 0 ((m % 4 : Nat) : Int) (fun i y => f ((m : Int).tdiv 4 * 4 + i) y) y = some y' := by
  rw [forC_shift, Int.add_zero, ← h]
  congr 1
  rw [Int.tdiv_eq_ediv_of_nonneg (by omega)]
  omega

/-- **C71** A matrix in transposed ELL format, AVX2 code: a loop over blocks of four rows, then one over the
remaining rows, each with its own threads and schedule.  Between them `y` is the same array `y1` always. -/
theorem C71_ellt_avx2 (alpha : R) (m : Nat) (ev : List R) (ec : List Int) (w base : Int) (x : List R) (beta : R)
    (y y' : List R) (h : elltmvAvx2 alpha m ev ec w base x beta y = some y') :
    ∃ y1, (∀ (T : Nat) (asg : Nat → List Nat), Assigns (m / 4) T asg →
        AllSchedules (loopP T asg (smvEllt4 alpha m ev ec w base x beta)) (rd y) (rd y1)) ∧
      ∀ (T : Nat) (asg : Nat → List Nat), Assigns (m % 4) T asg →
        AllSchedules (loopP T asg (smvElltRest alpha m ev ec w base x beta)) (rd y1) (rd y') := by
  unfold elltmvAvx2 at h
  rw [Option.bind_eq_bind, Option.bind_eq_some_iff] at h
  obtain ⟨y1, h1, h2⟩ := h
  refine ⟨y1, smv_blocks ?_, ?_⟩
  · rw [← h1, show ((m : Int).tdiv 4) = ((m / 4 : Nat) : Int) by
      rw [Int.tdiv_eq_ediv_of_nonneg (by omega)]; rfl]
    rfl
  · exact smv_rows (o := fun i => elltRow m w base ec ev x ((m : Int).tdiv 4 * 4 + i)) (res := id)
      (cell := fun _ i => (m : Int).tdiv 4 * 4 + i) .plain (smv_rest h2) (by intro r r' _ _ _ _ _ _ e; omega)

/-- **C71** The same for the copy in blocks of four rows that an optimised handle may hold. -/
theorem C71_blocked (alpha : R) (m : Nat) (base : Int) (B : Br4 R) (x : List R) (beta : R) (y y' : List R)
    (h : br4Mv alpha m base B x beta y = some y') :
    ∃ y1, (∀ (T : Nat) (asg : Nat → List Nat), Assigns (m / 4) T asg →
        AllSchedules (loopP T asg (smvBr4 alpha beta base B x)) (rd y) (rd y1)) ∧
      ∀ (T : Nat) (asg : Nat → List Nat), Assigns (m % 4) T asg →
        AllSchedules (loopP T asg (smvBr4Rest alpha beta m base B x)) (rd y1) (rd y') := by
  unfold br4Mv at h
  rw [Option.bind_eq_bind, Option.bind_eq_some_iff] at h
  obtain ⟨y1, h1, h2⟩ := h
  refine ⟨y1, smv_blocks ?_, ?_⟩
  · rw [← h1, show ((m : Int).tdiv 4) = ((m / 4 : Nat) : Int) by
      rw [Int.tdiv_eq_ediv_of_nonneg (by omega)]; rfl]
    refine forC_congr fun i _ _ y => ?_
    unfold br4Group
    simp only [Option.bind_eq_bind, Option.bind_assoc]
  · have h2 := smv_rest h2
    exact smv_rows (o := fun i => (rd B.ptr ((m : Int).tdiv 4 * 4 + i)).bind fun p0 =>
        (rd B.ptr ((m : Int).tdiv 4 * 4 + i + 1)).bind fun p1 =>
        forC (p0 - base) (p1 - base) (fun j r => do
          let t ← term B.ind B.val x base j
          some (r + t)) 0) (res := id)
      (cell := fun _ i => (m : Int).tdiv 4 * 4 + i) .plain (by
        rw [← h2]
        refine forC_congr fun i _ _ y => ?_
        unfold br4Rest
        simp only [Option.bind_eq_bind, Option.bind_assoc, id]) (by intro r r' _ _ _ _ _ _ e; omega)

/-- **C71** The hybrid product, when part of the rows are kept as CSR and each of them is listed once: three
parallel loops.  The rows of the CSR part of `y` are saved before and restored after the first two, by one thread. -/
theorem C71_hybrid (alpha : R) (m k : Nat) (ev : List R) (ec : List Int) (w ell_m : Int) (hk : (m : Int) - ell_m = k)
    (h0 : k ≠ 0) (cval : List R) (cptr cind map : List Int) (hmap : (map.take k).Nodup) (base : Int) (x : List R)
    (beta : R) (y y' : List R)
    (h : ellthybmvAvx2 alpha m ev ec w ell_m cval cptr cind map base x beta y = some y') :
    ∃ t y1 y2 y3, (if beta ≠ 0 then saveRows k map y else some []) = some t ∧
      (∀ (T : Nat) (asg : Nat → List Nat), Assigns (m / 4) T asg →
        AllSchedules (loopP T asg (smvEllt4 alpha m ev ec w base x beta)) (rd y) (rd y1)) ∧
      (∀ (T : Nat) (asg : Nat → List Nat), Assigns (m % 4) T asg →
        AllSchedules (loopP T asg (smvElltRest alpha m ev ec w base x beta)) (rd y1) (rd y2)) ∧
      (if beta ≠ 0 then restoreRows k map t y2 else some y2) = some y3 ∧
      ∀ (T : Nat) (asg : Nat → List Nat), Assigns k T asg →
        AllSchedules (loopP T asg (smvHyb
          (fun rs re => dot4 cind cval x base (rs - base) (re - base - (rs - base))) alpha cptr map beta))
          (rd y3) (rd y') := by
  unfold ellthybmvAvx2 hybMv at h
  rw [if_neg (by omega), hk] at h
  obtain ⟨t, y2, y3, ht, h2, h3, h4⟩ : ∃ t y2 y3, (if beta ≠ 0 then saveRows k map y else some []) = some t ∧
      elltmvAvx2 alpha m ev ec w base x beta y = some y2 ∧
      (if beta ≠ 0 then restoreRows k map t y2 else some y2) = some y3 ∧
      forC 0 (k : Int) (fun i y => (rd map i).bind fun off => (rd cptr off).bind fun rs =>
        (rd cptr (off + 1)).bind fun re => (dot4 cind cval x base (rs - base) (re - base - (rs - base))).bind fun r =>
          storeRow alpha beta r off y) y3 = some y' := by
    by_cases hb : beta ≠ 0
    · simp only [if_pos hb, Option.bind_eq_bind, Option.bind_eq_some_iff] at h ⊢
      obtain ⟨t, ht, y2, h2, y3, h3, h4⟩ := h
      exact ⟨t, y2, y3, ht, h2, h3, h4⟩
    · simp only [if_neg hb, Option.bind_eq_bind, Option.bind_some, Option.bind_eq_some_iff] at h ⊢
      obtain ⟨y2, h2, h4⟩ := h
      exact ⟨[], y2, y2, rfl, h2, rfl, h4⟩
  obtain ⟨y1, a, b⟩ := C71_ellt_avx2 alpha m ev ec w base x beta y y2 h2
  refine ⟨t, y1, y2, y3, ht, a, b, h3, ?_⟩
  refine smv_rows (res := fun q : R × Int => q.1) (cell := fun q _ => q.2) .plain (y := y3) ?_ ?_
  · rw [← h4]
    refine forC_congr fun i _ _ y => ?_
    simp only [Option.bind_assoc, Option.bind_some]
  · intro r r' hr hr' q q' e e' he
    simp only [Option.bind_eq_some_iff] at e e'
    obtain ⟨off, e1, _, -, _, -, _, -, e2⟩ := e
    obtain ⟨off', e1', _, -, _, -, _, -, e2'⟩ := e'
    cases e2; cases e2'
    change off = off' at he
    subst he
    rw [rd_ofNat] at e1 e1'
    have l1 : (map.take k)[r]? = some off := by rw [List.getElem?_take_of_lt hr]; exact e1
    have l2 : (map.take k)[r']? = some off := by rw [List.getElem?_take_of_lt hr']; exact e1'
    exact (List.getElem?_inj (List.getElem?_eq_some_iff.1 l1).1 hmap).1 (l1.trans l2.symm)

/-- **C71** Solving for several columns (F81): all threads assign one shared variable after each column.  As soon
as two threads have a column, there is an execution in which both are about to write it — a data race, which makes
the execution undefined — although the columns themselves do not interfere. -/
theorem C71_trsm_race {V : Type} (solve : Nat → ThP (Option Int) V V) (th : Nat → ThP (Option Int) V Unit)
    (m0 : Option Int → Option V) (t t' : Nat) (htt : t ≠ t') (j j' : Nat) (l l' : List Nat)
    (ht : th t = smvTrsm solve (j :: l)) (ht' : th t' = smvTrsm solve (j' :: l'))
    (own own' ro : Option Int → Prop) (hs : (solve j).wp own ro m0 fun _ _ => True)
    (hs' : (solve j').wp own' ro m0 fun _ _ => True) (hd : ∀ c, own' c ∨ ro c → ¬ own c) :
    (∃ n c, PRun n ⟨th, m0⟩ c ∧ PRace c) ∧ ∀ m1, ¬ AllSchedules th m0 m1 := by
  have key : ∃ n c, PRun n ⟨th, m0⟩ c ∧ PRace c := by
    obtain ⟨n, a, c, hr, h1, h2, h3, -⟩ := smv_solo t (solve j) (fun st => .write none st (smvTrsm solve l))
      ⟨th, m0⟩ _ ht hs
    obtain ⟨n', a', c', hr', h1', h2', -, -⟩ := smv_solo t' (solve j') (fun st => .write none st (smvTrsm solve l'))
      c _ ((h2 t' (Ne.symm htt)).trans ht')
      (ThP.wp_agree (fun _ _ _ _ _ => trivial) (fun x hx => (h3 x (hd x hx)).symm) hs').1
    refine ⟨_, c', smv_run_trans hr hr', t, t', none, true, true, htt, ?_, ?_, .inl rfl⟩
    · rw [h2' t htt, h1]; rfl
    · rw [h1']; rfl
  refine ⟨key, fun m1 h => ?_⟩
  obtain ⟨n, c, hr, hc⟩ := key
  exact (h.safe n c hr).2 hc

/-! ### concrete cases -/

/-- a 5 by 5 matrix with rows of one to three entries -/
def smvExPtr : List Int := [0, 1, 3, 4, 7, 8]
def smvExInd : List Int := [0, 1, 4, 2, 0, 3, 4, 4]
def smvExVal : List Int := [2, 3, 1, 4, 5, 6, 7, 8]

example : ∃ y', csrmvGn .avx2 0 2 ((5 : Nat) : Int) smvExVal smvExInd smvExPtr [1, 2, 3, 4, 5] 3 [1, 1, 1, 1, 1] =
    some y' := ⟨_, rfl⟩

example : ∃ y', ellmvRef (2 : Int) ((3 : Nat) : Int) [1, 2, 3, 0, 4, 5] [0, 1, 2, -1, 0, 2] 2 0 [1, 2, 3] 3 [1, 1, 1] =
    some y' := ⟨_, rfl⟩

example : ∃ y', elltmvAvx2 (2 : Int) ((5 : Nat) : Int) [1, 2, 3, 4, 5] [0, 1, 2, 3, 4] 1 0 [1, 2, 3, 4, 5] 3
    [1, 1, 1, 1, 1] = some y' := ⟨_, rfl⟩

/-- the lower triangle with its diagonal -/
example : ∃ y', csrmvTriAvx2 0 (2 : Int) ((2 : Nat) : Int) 0 0 [4, 1, 5] [0, 0, 1] [0, 1, 3] [0, 2] [1, 3] [1, 2] 3
    [1, 1] = some y' := ⟨_, rfl⟩

/-- both triangles of a 2 by 2 matrix -/
example : ∃ y', dtcsrmv 0 (2 : Int) ⟨2, 2, 4, 0, [0, 1, 3], [0, 2, 3], [0, 0, 1], [0, 1, 1], [4, 1, 5], [4, 7, 5],
    [0, 2], [1, 3]⟩ [1, 2] 3 [1, 1] = some y' := ⟨_, rfl⟩

example : ∃ y', dellmvAvx2 (2 : Int) ((3 : Nat) : Int) [1, 2, 3, 0, 4, 5] [0, 1, 2, -1, 0, 2] 2 0 [1, 2, 3] 3 [1, 1, 1] =
    some y' := ⟨_, rfl⟩

example : ∃ y', elltmvRef (2 : Int) ((3 : Nat) : Int) [1, 2, 3, 0, 4, 5] [0, 1, 2, 2, 0, 2] 2 0 [1, 2, 3] 3 [1, 1, 1] =
    some y' := ⟨_, rfl⟩

/-- one block of four rows and one more row -/
example : ∃ y', br4Mv (2 : Int) ((5 : Nat) : Int) 0 ⟨[0, 1, 2, 3, 4, 5], [0, 1, 2, 3, 4], [1, 2, 3, 4, 5]⟩
    [1, 2, 3, 4, 5] 3 [1, 1, 1, 1, 1] = some y' := ⟨_, rfl⟩

/-- row 1 of the five is kept as CSR -/
example : ∃ y', ellthybmvAvx2 (2 : Int) ((5 : Nat) : Int) [1, 2, 3, 4, 5] [0, 1, 2, 3, 4] 1 4 smvExVal smvExPtr
    smvExInd [1] 0 [1, 2, 3, 4, 5] 3 [1, 1, 1, 1, 1] = some y' := ⟨_, rfl⟩

example : ([1].take 1 : List Int).Nodup ∧ ((5 : Nat) : Int) - 4 = (1 : Nat) := by decide

/-- five rows on two threads -/
example : Assigns 5 2 (fun t => if t = 0 then [4, 0, 2] else [3, 1]) := by
  show List.Perm _ _
  decide

/-- the solver reads one cell of its column and writes it; two columns, two threads -/
def smvExSolve (j : Nat) : ThP (Option Int) Int Int :=
  .read (some j) fun v => .write (some j) (v + 1) (.ret 0)

example : (∃ n c, PRun n ⟨fun t => if t < 2 then smvTrsm smvExSolve [t] else .ret (), fun _ => some (1 : Int)⟩ c ∧
    PRace c) :=
  (C71_trsm_race smvExSolve _ _ 0 1 (by decide) 0 1 [] [] rfl rfl (fun c => c = some 0) (fun c => c = some 1)
    (fun _ => False) ⟨.inl rfl, 1, rfl, rfl, by simp, trivial⟩ ⟨.inl rfl, 1, rfl, rfl, by simp, trivial⟩
    (by
      rintro c (rfl | h)
      · decide
      · exact h.elim)).1

end Props
end Verif
