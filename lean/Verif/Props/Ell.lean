/-
C09, C10, C11: ELL, ELLT and hybrid formats.
-/
import Verif.Proofs.EllMv

namespace Verif
open Model

variable {R : Type}

/-! ### C09 -/

/-- **C09** The width reported for a well-formed matrix is the length of its longest row. -/
theorem C09_width (A : Csr R) [Zero R] (hA : A.WF) (old : Int) :
    ∃ w : Nat, csr2ellWidth A.m (some A.ptr) old = some (.success, (w : Int)) ∧
      (∀ i, i < A.m → (A.row i).length ≤ w) ∧
      (w = 0 ∨ ∃ i, i < A.m ∧ (A.row i).length = w) := by
  obtain ⟨w, h1, h2, h3⟩ := ellWidthLoop_spec hA
  refine ⟨w, ?_, h2, h3⟩
  unfold csr2ellWidth
  rw [if_neg (by omega)]
  simp [h1]

/-- **C09** Conversion to ELL: every row is stored in its slot, in storage order, followed by
padding with index -1 and value 0, nothing outside the m*w cells is written, for any old
content of the arrays.  `w` may be any bound of the row lengths. -/
theorem C09_csr2ell [Zero R] (A : Csr R) (hA : A.WF) (w : Nat)
    (hw : ∀ i, i < A.m → (A.row i).length ≤ w) (ec : List Int) (ev : List R)
    (hec : A.m * w ≤ ec.length) (hev : A.m * w ≤ ev.length) :
    ∃ ec' ev', csr2ell A.m A.base (some A.ptr) (some A.ind) (some A.val) (some ec) (some ev) w
        = some (.success, some ec', some ev') ∧
      ec'.length = ec.length ∧ ev'.length = ev.length ∧
      EllContent A.m w (ellOff w) A.base (fun _ => -1) A.row ec' ev' ∧
      (∀ k, A.m * w ≤ k → ec'[k]? = ec[k]? ∧ ev'[k]? = ev[k]?) := by
  unfold csr2ell
  rw [if_neg (by omega)]
  by_cases hz : (A.m : Int) = 0 ∨ (w : Int) = 0
  · rw [if_pos hz]
    refine ⟨ec, ev, rfl, rfl, rfl, ⟨?_, ?_⟩, fun _ _ => ⟨rfl, rfl⟩⟩
    · intro i t hi ht; have := hw i hi; omega
    · intro i t hi _ ht; omega
  · rw [if_neg hz]
    obtain ⟨ec', ev', h1, h2, h3, h4, h5⟩ := ell_fill (m := A.m) (w := w)
      (off := fun i t => i * w + t) (base := A.base) (pad := fun _ => -1) (rows := A.row)
      (ec := ec) (ev := ev)
      (fun i t i' t' _ ht _ ht' he => by
        have := off_inj (w := (w : Int)) (i := i) (j := t) (i' := i') (j' := t')
          (by omega) (by omega) (by omega) (by omega) (by exact_mod_cast he)
        omega)
      (fun i t hi ht => by
        have := off_lt (w := (w : Int)) (i := i) (j := t) (m := A.m) (by omega) (by omega)
          (by omega)
        have : i * w + t < A.m * w := by exact_mod_cast this
        omega) hw
    refine ⟨ec', ev', ?_, h2, h3, h4, ?_⟩
    · simp only [csr2ellCore_eq hA w hw, h1, Option.bind_eq_bind, Option.bind_some]
    · intro k hk
      apply h5
      intro i t hi ht
      have := off_lt (w := (w : Int)) (i := i) (j := t) (m := A.m) (by omega) (by omega)
        (by omega)
      have : i * w + t < A.m * w := by exact_mod_cast this
      omega

/-- the matrix-vector product on converted data, for a kernel computing each row -/
private theorem ell_mv [Semiring R] [DecidableEq R] (A : Csr R) (hA : A.WF)
    (alpha beta : R) (x y : List R) (hy : A.m ≤ y.length)
    (rowf : Int → Option R)
    (hrow : ∀ i, i < A.m → rowf (i : Nat) = some (rowDot A x i)) :
    ∃ y', forC 0 (A.m : Int) (fun i y => do
        let r ← rowf i
        storeRow alpha beta r i y) y = some y' ∧ IsMv alpha beta A.mat A.m A.n x y y' := by
  obtain ⟨y', h1, h2⟩ := rows_spec (Rep.of_list y 0) hy
    (fun k => comb alpha beta (rowDot A x k))
    (fun i y => (rowf i).bind fun r => storeRow alpha beta r i y) (by
      intro i y f hi hy
      rw [hrow i hi]
      exact storeRow_spec hy (by omega))
  exact ⟨y', h1, isMv_of_rep hy (fun i _ => rowDot_eq hA x i) h2⟩

private theorem ellmvT_ok [Zero R] [One R] [Add R] [Mul R] [DecidableEq R]
    (kernel : R → Int → List R → List Int → Int → Int → List R → R → List R → Option (List R))
    (alpha beta : R) (m n w : Nat) (hm : 0 < m) (hn : 0 < n) (hw : 0 < w) (base : Int)
    (hb : base = 0 ∨ base = 1) (f D : Nat) (ev : List R) (ec : List Int) (x y : List R) :
    ellmvT kernel 111 alpha m n (some ev) (some ec) w (some ⟨0, f, D, base⟩) (some x) beta (some y)
      = (kernel alpha m ev ec w base x beta y).bind fun y' => some (.success, some y') := by
  unfold ellmvT
  simp only []
  rw [if_neg (by omega), if_neg (by simp), if_neg (by simp), if_neg (by omega), if_neg (by omega),
    if_neg (by omega), if_neg (by omega), if_neg (by omega)]
  rfl

/-- **C09** Product with ELL data obtained from a CSR matrix: the scalar (float) and the
4-wide (double) kernels both compute `alpha*A*x + beta*y`. -/
theorem C09_ellmv [Semiring R] [DecidableEq R] (A : Csr R) (hA : A.WF)
    (w : Nat) (hw0 : 0 < w) (hm : 0 < A.m) (hn : 0 < A.n)
    (hw : ∀ i, i < A.m → (A.row i).length ≤ w) (ec : List Int) (ev : List R)
    (hc : EllContent A.m w (ellOff w) A.base (fun _ => -1) A.row ec ev)
    (alpha beta : R) (x y : List R) (hx : A.n ≤ x.length) (hy : A.m ≤ y.length) (f D : Nat) :
    (∃ y', ellmvT ellmvRef 111 alpha A.m A.n (some ev) (some ec) w (some ⟨0, f, D, A.base⟩)
        (some x) beta (some y) = some (.success, some y') ∧ IsMv alpha beta A.mat A.m A.n x y y') ∧
    (∃ y', ellmvT dellmvAvx2 111 alpha A.m A.n (some ev) (some ec) w (some ⟨0, f, D, A.base⟩)
        (some x) beta (some y) = some (.success, some y') ∧ IsMv alpha beta A.mat A.m A.n x y y') := by
  have hr : ∀ i, i < A.m → ∀ e ∈ A.row i, 0 ≤ e.1 ∧ e.1 < A.n :=
    fun i _ e he => Csr.row_range hA he
  have hp : ∀ i : Nat, (fun _ => (-1 : Int)) i - A.base < 0 := by intro i; have := hA.base01; simp only; omega
  have hsum : ∀ i, i < A.m →
      ∑ t ∈ Finset.range (A.row i).length, rowF (A.row i) x t = rowDot A x i := by
    intro i hi
    rw [sum_rowF _ _ (Nat.le_refl _), rowDot]
  constructor
  · obtain ⟨y', h1, h2⟩ := ell_mv A hA alpha beta x y hy (ellRowRef w A.base ec ev x)
      (fun i hi => by rw [ellRowRef_spec hc hx hr hp hi (hw i hi), hsum i hi])
    refine ⟨y', ?_, h2⟩
    rw [ellmvT_ok _ _ _ _ _ _ hm hn hw0 _ hA.base01]
    exact Option.bind_eq_some_iff.2 ⟨y', h1, rfl⟩
  · obtain ⟨y', h1, h2⟩ := ell_mv A hA alpha beta x y hy (ellRowAvx2 w A.base ec ev x)
      (fun i hi => by rw [ellRowAvx2_spec hc hx hr hp hi (hw i hi), hsum i hi])
    refine ⟨y', ?_, h2⟩
    rw [ellmvT_ok _ _ _ _ _ _ hm hn hw0 _ hA.base01]
    exact Option.bind_eq_some_iff.2 ⟨y', h1, rfl⟩

/-- Finding: for a matrix without entries (width 0) the product returns success but leaves `y`
untouched instead of scaling it by beta. -/
theorem C09_zero_width_keeps_y :
    (⟨1, 1, 0, [0, 0], [], []⟩ : Csr Int).WF ∧
    ellmvT ellmvRef 111 (1 : Int) 1 1 (some []) (some []) 0 (some ⟨0, 0, 0, 0⟩) (some [5]) 2
      (some [7]) = some (.success, some [7]) ∧
    ¬ IsMv (1 : Int) 2 (⟨1, 1, 0, [0, 0], [], []⟩ : Csr Int).mat 1 1 [5] [7] [7] := by
  refine ⟨by decide +kernel, by decide +kernel, ?_⟩
  intro h
  have := h.rows 0 (by omega)
  revert this
  decide +kernel

/-! ### C10 -/

/-- the padding index of row `i` in ELLT data: the last stored column at or before row `i` -/
def lastCol (A : Csr R) (i : Nat) : Int := (rd A.ind (A.p (i + 1) - A.base - 1)).getD 0

private theorem lastCol_spec (A : Csr R) (hA : A.WF) {i : Nat} (hi : i < A.m)
    (h : A.base < A.p (i + 1)) :
    rd A.ind (A.p (i + 1) - A.base - 1) = some (lastCol A i) ∧
      0 ≤ lastCol A i - A.base ∧ lastCol A i - A.base < A.n := by
  have h2 := hA.hi (i := i + 1) (by omega)
  obtain ⟨c, hc⟩ := rd_exists (a := A.ind) (i := A.p (i + 1) - A.base - 1) (by omega) (by omega)
  have hl : lastCol A i = c := by simp [lastCol, hc]
  rw [hl]
  refine ⟨hc, ?_⟩
  rw [rd_eq (by omega)] at hc
  have := hA.ind_range c (List.mem_of_getElem? hc)
  omega

private theorem ptr_pos (A : Csr R) (hA : A.WF) (h0 : 0 < (A.row 0).length) (hm : 0 < A.m)
    {i : Nat} (hi : i < A.m) : A.base < A.p (i + 1) := by
  have h1 := Csr.row_length hA hm
  have h2 := hA.lo (i := 0) (by omega)
  have h3 := hA.mono (i := 1) (j := i + 1) (by omega) (by omega)
  simp only [zero_add] at h1
  omega

/-- **C10** Conversion to ELLT of a matrix whose first row is not empty: every row is stored in
its slot, padding has value 0 and an index inside the matrix. -/
theorem C10_csr2ellt [Zero R] (A : Csr R) (hA : A.WF) (w : Nat)
    (hw : ∀ i, i < A.m → (A.row i).length ≤ w)
    (hfirst : 0 < A.m → 0 < (A.row 0).length)
    (ec : List Int) (ev : List R) (hec : A.m * w ≤ ec.length) (hev : A.m * w ≤ ev.length) :
    ∃ ec' ev' pad, csr2ellt A.m A.base (some A.ptr) (some A.ind) (some A.val) (some ec) (some ev) w
        = some (.success, some ec', some ev') ∧
      ec'.length = ec.length ∧ ev'.length = ev.length ∧
      EllContent A.m w (elltOff A.m) A.base pad A.row ec' ev' ∧
      (∀ i, i < A.m → 0 ≤ pad i - A.base ∧ pad i - A.base < A.n) ∧
      (∀ k, A.m * w ≤ k → ec'[k]? = ec[k]? ∧ ev'[k]? = ev[k]?) := by
  unfold csr2ellt
  rw [if_neg (by omega)]
  by_cases hz : (A.m : Int) = 0 ∨ (w : Int) = 0
  · rw [if_pos hz]
    refine ⟨ec, ev, lastCol A, rfl, rfl, rfl, ⟨?_, ?_⟩, ?_, fun _ _ => ⟨rfl, rfl⟩⟩
    · intro i t hi ht; have := hw i hi; omega
    · intro i t hi _ ht; omega
    · intro i hi
      exact (lastCol_spec A hA hi (ptr_pos A hA (hfirst (by omega)) (by omega) hi)).2
  · rw [if_neg hz]
    have hlt : ∀ i t, i < A.m → t < w → t * A.m + i < A.m * w := by
      intro i t hi ht
      have := off_lt (w := (A.m : Int)) (i := t) (j := i) (m := w) (by omega) (by omega)
        (by omega)
      have : t * A.m + i < w * A.m := by exact_mod_cast this
      rw [Nat.mul_comm A.m]; exact this
    obtain ⟨ec', ev', h1, h2, h3, h4, h5⟩ := ell_fill (m := A.m) (w := w)
      (off := fun i t => t * A.m + i) (base := A.base) (pad := lastCol A) (rows := A.row)
      (ec := ec) (ev := ev)
      (fun i t i' t' hi _ hi' _ he => by
        have := off_inj (w := (A.m : Int)) (i := t) (j := i) (i' := t') (j' := i')
          (by omega) (by omega) (by omega) (by omega) (by exact_mod_cast he)
        omega)
      (fun i t hi ht => by have := hlt i t hi ht; omega) hw
    refine ⟨ec', ev', lastCol A, ?_, h2, h3, h4, ?_, ?_⟩
    · simp only [csr2elltCore_eq hA w hw (lastCol A) (fun i hi _ =>
        (lastCol_spec A hA hi (ptr_pos A hA (hfirst (by omega)) (by omega) hi)).1), h1,
        Option.bind_eq_bind, Option.bind_some]
    · intro i hi
      exact (lastCol_spec A hA hi (ptr_pos A hA (hfirst (by omega)) (by omega) hi)).2
    · intro k hk
      apply h5
      intro i t hi ht
      have := hlt i t hi ht
      omega

/-- Finding: when the first row of the matrix is empty (and the width is not 0) the conversion
reads `csr_col_ind[-1]`: undefined behaviour for every such matrix. -/
theorem C10_empty_first_row_ub [Zero R] (A : Csr R) (hA : A.WF) (w : Nat) (hw : 0 < w)
    (hm : 0 < A.m) (hfirst : (A.row 0).length = 0) (ec : List Int) (ev : List R) :
    csr2ellt A.m A.base (some A.ptr) (some A.ind) (some A.val) (some ec) (some ev) w = none := by
  unfold csr2ellt
  rw [if_neg (by omega), if_neg (by omega)]
  simp only [Option.bind_eq_bind, Option.bind_eq_none_iff]
  intro r hr
  exfalso
  unfold csr2elltCore at hr
  rw [forC_lt (by omega)] at hr
  have e1 := hA.rd_ptr (i := 0) (by omega)
  have e2 := hA.rd_ptr (i := 1) (by omega)
  have hrl := Csr.row_length hA hm
  have hp0 : A.p 0 = A.base := hA.ptr_first
  simp only [zero_add] at hrl
  simp only [Nat.cast_zero, Nat.cast_one] at e1 e2
  simp only [zero_add, e1, e2, Option.bind_eq_bind, Option.bind_some] at hr
  rw [forC_ge (lo := A.p 0 - A.base) (by omega)] at hr
  simp only [Option.bind_some] at hr
  rw [forC_lt (lo := 0) (by omega), rd_neg (by omega)] at hr
  simp at hr

/-- **C10** Product with ELLT data: the scalar (float) and the 4-rows-at-a-time (double) kernels
both compute `alpha*A*x + beta*y`. -/
theorem C10_elltmv [Semiring R] [DecidableEq R] (A : Csr R) (hA : A.WF)
    (w : Nat) (hw0 : 0 < w) (hm : 0 < A.m) (hn : 0 < A.n)
    (hw : ∀ i, i < A.m → (A.row i).length ≤ w) (ec : List Int) (ev : List R) (pad : Nat → Int)
    (hc : EllContent A.m w (elltOff A.m) A.base pad A.row ec ev)
    (hpad : ∀ i, i < A.m → 0 ≤ pad i - A.base ∧ pad i - A.base < A.n)
    (alpha beta : R) (x y : List R) (hx : A.n ≤ x.length) (hy : A.m ≤ y.length) (f D : Nat) :
    (∃ y', ellmvT elltmvRef 111 alpha A.m A.n (some ev) (some ec) w (some ⟨0, f, D, A.base⟩)
        (some x) beta (some y) = some (.success, some y') ∧ IsMv alpha beta A.mat A.m A.n x y y') ∧
    (∃ y', ellmvT elltmvAvx2 111 alpha A.m A.n (some ev) (some ec) w (some ⟨0, f, D, A.base⟩)
        (some x) beta (some y) = some (.success, some y') ∧ IsMv alpha beta A.mat A.m A.n x y y') := by
  have hr : ∀ i, i < A.m → ∀ e ∈ A.row i, 0 ≤ e.1 ∧ e.1 < A.n :=
    fun i _ e he => Csr.row_range hA he
  have hsum : ∀ i, i < A.m →
      ∑ t ∈ Finset.range w, rowF (A.row i) x t = matVec A.mat A.n x i := by
    intro i hi
    rw [sum_rowF _ _ (hw i hi), ← rowDot_eq hA, rowDot]
  constructor
  · obtain ⟨y', h1, h2⟩ := elltmvRef_spec hc hx hr (fun i hi _ => hpad i hi) (alpha := alpha)
      (beta := beta) (Rep.of_list y 0) hy
    refine ⟨y', ?_, isMv_of_rep hy hsum h2⟩
    rw [ellmvT_ok _ _ _ _ _ _ hm hn hw0 _ hA.base01]
    exact Option.bind_eq_some_iff.2 ⟨y', h1, rfl⟩
  · obtain ⟨y', h1, h2⟩ := elltmvAvx2_spec hc hx hr (fun i hi _ => hpad i hi) (alpha := alpha)
      (beta := beta) (Rep.of_list y 0) hy
    refine ⟨y', ?_, isMv_of_rep hy hsum h2⟩
    rw [ellmvT_ok _ _ _ _ _ _ hm hn hw0 _ hA.base01]
    exact Option.bind_eq_some_iff.2 ⟨y', h1, rfl⟩

/-! ### C11 -/

/-- **C11** Hybrid width selection: `ell_m` is the number of rows that fit in the chosen width,
and at least one row fits. -/
theorem C11_width [Zero R] (A : Csr R) (hA : A.WF) (hm : 0 < A.m) (em0 w0 : Int) :
    ∃ w : Nat, csr2ellthybWidth A.m A.nnz (some A.ptr) em0 w0
        = some (.success, (A.m : Int) - ((longRows A w A.m).length : Int), (w : Int)) ∧
      ∃ i, i < A.m ∧ (A.row i).length ≤ w := by
  obtain ⟨w, h1, h2⟩ := ellthybWidthCore_spec hA hm
  refine ⟨w, ?_, h2⟩
  unfold csr2ellthybWidth
  rw [if_neg (by omega), if_neg (by omega)]
  simp only [h1, Option.bind_eq_bind, Option.bind_some]

/-- **C11** The hybrid conversion: the rows that fit are stored in ELLT layout, the others are
listed (once each, in increasing order) in the row map and leave only zeros in the ELL part. -/
theorem C11_csr2ellthybrid [Zero R] (A : Csr R) (hA : A.WF) (w : Nat) (hm : 0 < A.m)
    (hfirst : 0 < (A.row 0).length) (em : Int)
    (map ec : List Int) (ev : List R) (hmap : (longRows A w A.m).length ≤ map.length)
    (hec : A.m * w ≤ ec.length) (hev : A.m * w ≤ ev.length) :
    ∃ ec' ev' pad, csr2ellthybrid A.m A.base em (some A.ptr) (some A.ind) (some A.val) (some map)
        (some ec) (some ev) w
        = some (.success, (A.m : Int) - ((longRows A w A.m).length : Int),
            some ((longRows A w A.m).map (fun (k : Nat) => (k : Int))
              ++ map.drop (longRows A w A.m).length), some ec', some ev') ∧
      EllContent A.m w (elltOff A.m) A.base pad (hybRow A w) ec' ev' ∧
      (∀ i, i < A.m → 0 ≤ pad i - A.base ∧ pad i - A.base < A.n) := by
  obtain ⟨ec', ev', h1, h2, h3, h4⟩ := csr2ellthybridCore_spec hA w (lastCol A)
    (fun i hi _ => (lastCol_spec A hA hi (ptr_pos A hA hfirst hm hi)).1) map ec ev hmap hec hev
  refine ⟨ec', ev', lastCol A, ?_, h4, fun i hi =>
    (lastCol_spec A hA hi (ptr_pos A hA hfirst hm hi)).2⟩
  unfold csr2ellthybrid
  rw [if_neg (by omega), if_neg (by omega)]
  simp only [h1, Option.bind_eq_bind, Option.bind_some]

/-- **C11** The hybrid product computes `alpha*A*x + beta*y` for every split width. -/
theorem C11_ellthybmv [Semiring R] [DecidableEq R] (A : Csr R) (hA : A.WF) (w : Nat)
    (ec : List Int) (ev : List R) (pad : Nat → Int) (rest : List Int)
    (hc : EllContent A.m w (elltOff A.m) A.base pad (hybRow A w) ec ev)
    (hpad : ∀ i, i < A.m → 0 ≤ pad i - A.base ∧ pad i - A.base < A.n)
    (alpha beta : R) (x y : List R) (hx : A.n ≤ x.length) (hy : A.m ≤ y.length) :
    ∃ y', ellthybmvAvx2 alpha A.m ev ec w ((A.m : Int) - ((longRows A w A.m).length : Int))
        A.val A.ptr A.ind ((longRows A w A.m).map (fun (k : Nat) => (k : Int)) ++ rest) A.base
        x beta y = some y' ∧ IsMv alpha beta A.mat A.m A.n x y y' := by
  obtain ⟨y', h1, h2⟩ := ellthybmvAvx2_spec hA hc hx (fun i hi _ => hpad i hi) (alpha := alpha)
    (beta := beta) (Rep.of_list y 0) hy rest
  exact ⟨y', h1, isMv_of_rep hy (fun i _ => rowDot_eq hA x i) h2⟩

/-- **C09–C11** With `beta = 0` the previous content of `y` has no influence, for any scalar type
(no algebraic law is used, so this covers NaN and infinities). -/
theorem C09_beta_zero [Zero R] [One R] [Add R] [Mul R] [DecidableEq R] (alpha r : R) (i : Nat)
    (y y' : List R) (h : y.length = y'.length) (hi : i < y.length) :
    ∃ z z', storeRow alpha 0 r i y = some z ∧ storeRow alpha 0 r i y' = some z' ∧
      z[i]? = z'[i]? := by
  unfold storeRow
  simp only [ne_eq, not_true, if_false]
  refine ⟨_, _, wr_ofNat hi, wr_ofNat (by omega), ?_⟩
  simp [hi, h ▸ hi]

/-! ### the hypotheses are met -/

/-- 3x4, base 1, rows of length 2, 0, 3 -/
def exEll : Csr Int := ⟨3, 4, 1, [1, 3, 3, 6], [1, 4, 2, 3, 4], [1, 2, 3, 4, 5]⟩

example : exEll.WF ∧ csr2ellWidth 3 (some exEll.ptr) 9 = some (.success, 3) ∧
    csr2ell 3 1 (some exEll.ptr) (some exEll.ind) (some exEll.val)
      (some (List.replicate 9 77)) (some (List.replicate 9 77)) 3
      = some (.success, some [1, 4, -1, -1, -1, -1, 2, 3, 4],
          some [1, 2, 0, 0, 0, 0, 3, 4, 5]) ∧
    csr2ellt 3 1 (some exEll.ptr) (some exEll.ind) (some exEll.val)
      (some (List.replicate 9 77)) (some (List.replicate 9 77)) 3
      = some (.success, some [1, 4, 2, 4, 4, 3, 4, 4, 4],
          some [1, 0, 3, 2, 0, 4, 0, 0, 5]) := by decide +kernel

example : ellmvT dellmvAvx2 111 (2 : Int) 3 4 (some [1, 2, 0, 0, 0, 0, 3, 4, 5])
    (some [1, 4, -1, -1, -1, -1, 2, 3, 4]) 3 (some ⟨0, 0, 0, 1⟩) (some [1, 10, 100, 1000]) 3
    (some [1, 1, 1]) = some (.success, some [4005, 3, 10863]) := by decide +kernel

example : csr2ellthybWidth 3 5 (some exEll.ptr) 9 9 = some (.success, 2, 2) := by decide +kernel

example : csr2ellthybrid 3 1 0 (some exEll.ptr) (some exEll.ind) (some exEll.val)
    (some [9, 9]) (some (List.replicate 6 7)) (some (List.replicate 6 7)) 2
    = some (.success, 2, some [2, 9], some [1, 4, 4, 4, 4, 4], some [1, 0, 0, 2, 0, 0]) := by
  rfl

example : longRows exEll 2 3 = [2] ∧ 0 < (exEll.row 0).length := by decide +kernel

example : ellthybmvAvx2 (2 : Int) 3 [1, 0, 0, 2, 0, 0] [1, 4, 4, 4, 4, 4] 2 2 exEll.val exEll.ptr
    exEll.ind [2, 9] 1 [1, 10, 100, 1000] 3 [1, 1, 1] = some [4005, 3, 10863] := by decide +kernel

end Verif
