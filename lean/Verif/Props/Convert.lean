/-
C42  Conversion of a handle to CSR and to BSR.
-/
import Verif.Spec.Convert
import Verif.Props.Bsr
import Verif.Props.Sp2md

namespace Verif
open Model Finset

variable {R : Type}

/-! ### lists of entries -/

theorem copyInto_ok {α : Type} (L d : List α) {n : Int} (hn : n = L.length) (hd : d.length = L.length) :
    copyInto n L d = some L := by
  subst hn
  unfold copyInto
  rw [if_neg (by omega)]
  cases L with
  | nil =>
    have : d = [] := List.length_eq_zero_iff.1 hd
    subst this
    rfl
  | cons a L =>
    rw [fill_pre (N := (a :: L).length) (g := fun k => (a :: L).getD k a) hd]
    · congr 1
      apply List.ext_getElem?
      intro k
      by_cases hk : k < (a :: L).length
      · rw [List.getElem?_map, List.getElem?_range hk, List.getElem?_eq_getElem hk]
        simp only [Option.map_some, List.getD_eq_getElem?_getD, List.getElem?_eq_getElem hk, Option.getD_some]
      · rw [List.getElem?_eq_none (by simpa using hk), List.getElem?_eq_none (by simpa using hk)]
    · intro i s hi
      rw [rd_ofNat, List.getD_eq_getElem?_getD, List.getElem?_eq_getElem hi]
      rfl

theorem rowsOf_self (A : Csr R) : A.RowsOf A.triples := fun _ hi => (Csr.triples_filter_row hi).symm

/-- the matrix denoted is that of the list -/
theorem Csr.RowsOf.entry [AddCommMonoid R] {B : Csr R} {T : List (Int × Int × R)} (h : B.RowsOf T)
    {i : Nat} (hi : i < B.m) (j : Nat) :
    B.entry i j = ((T.filter fun e => e.1 = (i : Int) ∧ e.2.1 = (j : Int)).map (·.2.2)).sum := by
  unfold Csr.entry
  rw [h i hi, List.filter_map, List.map_map, List.filter_filter]
  congr 2
  apply List.filter_congr
  intro e _
  simp [Bool.and_comm]

theorem Csr.RowsOf.mapVal {B : Csr R} {T : List (Int × Int × R)} (hB : B.WF) (h : B.RowsOf T)
    (f : R → R) : (B.mapVal f).RowsOf (T.map fun e => (e.1, e.2.1, f e.2.2)) := by
  intro i hi
  rw [Csr.mapVal_row hB f hi, h i hi, List.filter_map, List.map_map, List.map_map]
  rfl

theorem triples_swap_rows {A B : Csr R}  (hm : B.m = A.n)
    (hrow : ∀ j, j < A.n → B.row j =
        (A.entries.filter (fun e => e.2.1 = (j : Int))).map (fun e => ((e.1 : Int), e.2.2))) :
    B.RowsOf (A.triples.map swapRC) := by
  intro j hj
  rw [hrow j (by omega)]
  unfold Csr.triples
  rw [List.filter_map, List.filter_map, List.map_map, List.map_map]
  rfl

/-- the entries of the user's matrix, as rows of op without conjugation -/
theorem opEntry_eq [Star R] (op : Op) (T : List (Int × Int × R)) :
    T.map (opEntry op) = (if op = .none then T else T.map swapRC).map
      (fun e => (e.1, e.2.1, (if op = .conjTrans then star else id) e.2.2)) := by
  cases op
  · have : opEntry (R := R) Op.none = id := rfl
    simp [this]
  · simp [opEntry, swapRC, Function.comp_def]
  · simp [opEntry, swapRC, Function.comp_def]

theorem opEntry_sum [AddCommMonoid R] [StarAddMonoid R] (op : Op) (T : List (Int × Int × R)) (i j : Nat) :
    (((T.map (opEntry op)).filter fun e => e.1 = (i : Int) ∧ e.2.1 = (j : Int)).map (·.2.2)).sum
      = applyOp op (fun i j =>
          ((T.filter fun e => e.1 = (i : Int) ∧ e.2.1 = (j : Int)).map (·.2.2)).sum) i j := by
  have sw : ∀ f : Int × Int × R → Bool, (∀ e, f e = decide (e.1 = (j : Int) ∧ e.2.1 = (i : Int))) →
      T.filter f = T.filter (fun e => e.1 = (j : Int) ∧ e.2.1 = (i : Int)) :=
    fun f hf => List.filter_congr (fun e _ => hf e)
  cases op
  · simp [applyOp, show opEntry (R := R) Op.none = id from rfl]
  · simp only [applyOp]
    rw [List.filter_map, List.map_map, sw _ (fun e => by
      rw [Bool.eq_iff_iff]; simp only [opEntry, Function.comp, decide_eq_true_eq]
      exact ⟨fun h => (of_decide_eq_true h).symm, fun h => decide_eq_true h.symm⟩)]
    rfl
  · simp only [applyOp]
    rw [List.filter_map, List.map_map, sw _ (fun e => by
      rw [Bool.eq_iff_iff]; simp only [opEntry, Function.comp, decide_eq_true_eq]
      exact ⟨fun h => (of_decide_eq_true h).symm, fun h => decide_eq_true h.symm⟩)]
    simp only [Function.comp_def, opEntry]
    induction (T.filter fun e => decide (e.1 = (j : Int) ∧ e.2.1 = (i : Int))) with
    | nil => simp
    | cons a l ih => simp [ih]

theorem userTriples_sum [Semiring R] (isT : Bool) (A : Csr R) {i j : Nat}
    (hi : i < userRows isT A) (hj : j < userCols isT A) :
    (((userTriples isT A).filter fun e => e.1 = (i : Int) ∧ e.2.1 = (j : Int)).map (·.2.2)).sum
      = userMat isT A i j := by
  cases isT
  · simp only [userTriples, userMat, Csr.mat, userRows] at hi ⊢
    rw [if_neg (by simp), if_neg (by simp), Csr.entry_eq_triples (by simpa using hi)]
  · simp only [userTriples, userMat, Csr.mat, userCols] at hj ⊢
    rw [if_pos trivial, if_pos trivial, transM, Csr.entry_eq_triples (by simpa using hj), List.filter_map,
      List.map_map]
    show ((A.triples.filter _).map (·.2.2)).sum = _
    congr 2
    apply List.filter_congr
    intro e _
    rw [Bool.eq_iff_iff]
    simp only [swapRC, Function.comp, decide_eq_true_eq]
    exact ⟨fun h => (of_decide_eq_true h).symm, fun h => decide_eq_true h.symm⟩

theorem opMat_eq [CommSemiring R] [StarRing R] {B : Csr R} (op : Op) (isT : Bool) (A : Csr R)
    (hB : B.RowsOf ((userTriples isT A).map (opEntry op))) (hm : B.m = opRows op isT A)
    {i j : Nat} (hi : i < opRows op isT A) (hj : j < opCols op isT A) :
    B.mat i j = applyOp op (userMat isT A) i j := by
  show B.entry i j = _
  rw [hB.entry (by omega), opEntry_sum]
  cases op
  · simp only [applyOp]
    exact userTriples_sum isT A (by simpa [opRows] using hi) (by simpa [opCols] using hj)
  · simp only [applyOp]
    exact userTriples_sum isT A (by simpa [opCols] using hj) (by simpa [opRows] using hi)
  · simp only [applyOp]
    rw [userTriples_sum isT A (by simpa [opCols] using hj) (by simpa [opRows] using hi)]

theorem mapVal_nodup {B : Csr R} (hB : B.WF) (f : R → R) (h : B.NoDup) : (B.mapVal f).NoDup := by
  intro i hi
  rw [Csr.mapVal_row hB f hi, List.map_map]
  exact h i hi

/-! ### conversion to CSR -/

/-- the copy before conjugation -/
theorem convertCsrCsr_ok (A : Csr R) (hA : A.WF) (isT : Bool) (op : Op) (g : Garb R) (vt : Nat) :
    ∃ B : Csr R, convertCsrCsr op.code ⟨isT, A.m, A.n, A.nnz, A.base, A.ptr, A.ind, A.val⟩
        (cvAlloc g (opRows op isT A : Nat) A.nnz A.base) = some (.success, B.ptr, B.ind, B.val) ∧
      B.WF ∧ B.m = opRows op isT A ∧ B.n = opCols op isT A ∧ B.base = A.base ∧ B.nnz = A.nnz ∧
      B.RowsOf (if op = .none then userTriples isT A else (userTriples isT A).map swapRC) ∧
      (A.NoDup → B.NoDup) := by
  unfold convertCsrCsr
  have hs : (A.triples.map swapRC).map swapRC = A.triples := by
    rw [List.map_map]
    conv_rhs => rw [← List.map_id A.triples]
    rfl
  have l1 : (cvAlloc g (opRows op isT A : Nat) A.nnz A.base).1.length = opRows op isT A + 1 := by
    unfold cvAlloc
    dsimp only
    split_ifs
    · rw [List.length_replicate]; omega
    · rw [alloc_length]; omega
  have l2 : (cvAlloc g (opRows op isT A : Nat) A.nnz A.base).2.1.length = A.nnz := by
    simp [cvAlloc]
  have l3 : (cvAlloc g (opRows op isT A : Nat) A.nnz A.base).2.2.length = A.nnz := by
    simp [cvAlloc]
  by_cases hd : (isT = false ∧ op = .none) ∨ (isT = true ∧ op ≠ .none)
  · have hd' : (isT = false ∧ op.code = 111) ∨ (isT = true ∧ op.code ≠ 111) := by
      rcases hd with ⟨a, rfl⟩ | ⟨a, b⟩
      · exact .inl ⟨a, rfl⟩
      · refine .inr ⟨a, ?_⟩
        cases op
        · exact absurd rfl b
        · decide
        · decide
    have hm : opRows op isT A = A.m := by
      rcases hd with ⟨rfl, rfl⟩ | ⟨rfl, h⟩
      · rfl
      · simp [opRows, h, userCols]
    have hn : opCols op isT A = A.n := by
      rcases hd with ⟨rfl, rfl⟩ | ⟨rfl, h⟩
      · rfl
      · simp [opCols, h, userRows]
    rw [if_pos hd']
    refine ⟨A, ?_, hA, hm.symm, hn.symm, rfl, rfl, ?_, id⟩
    · dsimp only
      rw [copyInto_ok A.ptr _ (by rw [hA.ptr_len]; push_cast; rfl) (by rw [l1, hm, hA.ptr_len]),
        copyInto_ok A.ind _ (n := (A.nnz : Int)) rfl (by rw [l2]; rfl),
        copyInto_ok A.val _ (by rw [hA.val_len]; rfl) (by rw [l3, hA.val_len]; rfl)]
      rfl
    · rcases hd with ⟨rfl, rfl⟩ | ⟨rfl, h⟩
      · simpa [userTriples] using rowsOf_self A
      · simp only [userTriples, if_neg h, if_true, hs]
        exact rowsOf_self A
  · have hd' : ¬ ((isT = false ∧ op.code = 111) ∨ (isT = true ∧ op.code ≠ 111)) := by
      intro h
      apply hd
      rcases h with ⟨a, b⟩ | ⟨a, b⟩
      · refine .inl ⟨a, ?_⟩
        cases op
        · rfl
        · exact absurd b (by decide)
        · exact absurd b (by decide)
      · exact .inr ⟨a, fun e => b (by rw [e]; rfl)⟩
    have hm : opRows op isT A = A.n := by
      cases isT
      · have : op ≠ .none := fun e => hd (.inl ⟨rfl, e⟩)
        simp [opRows, this, userCols]
      · have : op = .none := by by_contra e; exact hd (.inr ⟨rfl, e⟩)
        simp [opRows, this, userRows]
    have hn : opCols op isT A = A.m := by
      cases isT
      · have : op ≠ .none := fun e => hd (.inl ⟨rfl, e⟩)
        simp [opCols, this, userRows]
      · have : op = .none := by by_contra e; exact hd (.inr ⟨rfl, e⟩)
        simp [opCols, this, userCols]
    rw [if_neg hd']
    obtain ⟨B, he, h1, h2, h3, hwf, hrow, hp⟩ := C05_csr2csc A hA A.base hA.base01
      (cvAlloc g (opRows op isT A : Nat) A.nnz A.base).1
      (cvAlloc g (opRows op isT A : Nat) A.nnz A.base).2.1
      (cvAlloc g (opRows op isT A : Nat) A.nnz A.base).2.2 (by rw [l1, hm]) l2 l3
    have hO : B.nnz = A.nnz := by
      have h1 := hp.length_eq
      rw [List.length_map, Csr.triples, Csr.triples, List.length_map, List.length_map,
        Csr.entries_length hA, Csr.entries_length hwf] at h1
      exact h1
    refine ⟨B, ?_, hwf, by rw [h1, hm], by rw [h2, hn], h3, hO, ?_, ?_⟩
    · dsimp only
      rw [he]
      rfl
    · have := triples_swap_rows h1 hrow
      cases isT
      · have ho : op ≠ .none := fun e => hd (.inl ⟨rfl, e⟩)
        simpa [userTriples, ho] using this
      · have ho : op = .none := by by_contra e; exact hd (.inr ⟨rfl, e⟩)
        simpa [userTriples, ho] using this
    · intro hnd j hj
      rw [hrow j (by omega)]
      exact colRow_nodup hnd j

theorem convertCsrT_fin [Star R] {src : CvH R} {x : MtxObj R} {B : Csr R} {op : Op} {g : Garb R}
    {T : List (Int × Int × R)}
    (hre : src.vt < 2 → ∀ v : R, star v = v) (hvt : src.vt < 4)
    (hB : B.WF) (hn : (B.nnz : Int) = src.nnz)
    (e : convertCsrObj op.code src x
      (cvAlloc g (if op.code = 111 then src.m else src.n) src.nnz x.base)
        = some (.success, B.ptr, B.ind, B.val))
    (h1 : (if op.code = 111 then src.m else src.n) = (B.m : Int))
    (h2 : (if op.code = 111 then src.n else src.m) = (B.n : Int)) (h3 : B.base = x.base)
    (hT : B.RowsOf (if op = .none then T else T.map swapRC)) :
    ∃ C : Csr R, convertCsrT g star src x op.code = some (.success, some (C.handle src.vt false)) ∧
      C.WF ∧ C.m = B.m ∧ C.n = B.n ∧ C.base = x.base ∧ C.nnz = B.nnz ∧ C.RowsOf (T.map (opEntry op)) ∧
      (B.NoDup → C.NoDup) := by
  have hf : (if decide ((src.vt = 2 ∨ src.vt = 3) ∧ op.code = 113) = true then star else id)
      = (if op = .conjTrans then (star : R → R) else id) := by
    by_cases hc : op = .conjTrans
    · subst hc
      by_cases hv : src.vt < 2
      · rw [if_neg (by simp; intro h; omega), if_pos rfl]
        funext v
        exact (hre hv v).symm
      · rw [if_pos (by simp [Op.code]; omega), if_pos rfl]
    · rw [if_neg hc, if_neg]
      cases op
      · simp [Op.code]
      · simp [Op.code]
      · exact absurd rfl hc
  refine ⟨B.mapVal (if op = .conjTrans then star else id), ?_, hB.mapVal _, rfl, rfl, h3, rfl, ?_,
    mapVal_nodup hB _⟩
  · unfold convertCsrT
    dsimp only
    rw [e]
    simp only [Option.bind_eq_bind, Option.bind_some, ne_eq, not_true, if_false]
    rw [conjLoop_ok _ star B.val (by rw [hB.val_len, ← hn]; rfl), hf, h1, h2, ← hn, ← h3]
    rfl
  · rw [opEntry_eq]
    exact hT.mapVal hB _

/-- **C42, CSR and CSC sources.**  For every valid CSR or CSC matrix (any shape, base and order of the
entries, duplicates allowed), every op and any content of the memory obtained, `aoclsparse_convert_csr`
stays within its arrays and succeeds; the new handle holds valid CSR arrays of op(A), of its size and in
the base of the source, each row listing exactly the entries of that row of op(A), in the order in which
the source stores them. -/
theorem C42_convert_csr [Star R] (A : Csr R) (hA : A.WF) (isT : Bool) (op : Op) (g : Garb R) (vt : Nat)
    (hvt : vt < 4) (hre : vt < 2 → ∀ v : R, star v = v) :
    ∃ B : Csr R, convertCsr g star (some (A.handle vt isT)) op.code true
        = some (.success, some (B.handle vt false)) ∧
      B.WF ∧ B.m = opRows op isT A ∧ B.n = opCols op isT A ∧ B.base = A.base ∧ B.nnz = A.nnz ∧
      B.RowsOf ((userTriples isT A).map (opEntry op)) ∧ (A.NoDup → B.NoDup) := by
  obtain ⟨B, e, hB, h1, h2, h3, h4, h5, h6⟩ := convertCsrCsr_ok A hA isT op g vt
  have hm : (if op.code = 111 then ((userRows isT A : Nat) : Int) else (userCols isT A : Nat))
      = (opRows op isT A : Nat) := by
    cases op <;> simp [Op.code, opRows]
  have hn : (if op.code = 111 then ((userCols isT A : Nat) : Int) else (userRows isT A : Nat))
      = (opCols op isT A : Nat) := by
    cases op <;> simp [Op.code, opCols]
  obtain ⟨C, c1, c2, c3, c4, c5, c6, c7, c8⟩ := convertCsrT_fin (src := A.handle vt isT)
    (x := .csr ⟨isT, A.m, A.n, A.nnz, A.base, A.ptr, A.ind, A.val⟩) (B := B) (op := op) (g := g)
    (T := userTriples isT A) hre hvt hB (by rw [h4]; rfl)
    (by
      simp only [Csr.handle, MtxObj.base, convertCsrObj]
      rw [hm]
      exact e)
    (by simp only [Csr.handle]; rw [hm, h1]) (by simp only [Csr.handle]; rw [hn, h2]) h3 h5
  refine ⟨C, ?_, c2, c3.trans h1, c4.trans h2, c5, c6.trans h4, c7, fun h => c8 (h6 h)⟩
  unfold convertCsr
  simp only
  rw [if_pos (by exact hvt)]
  exact c1

/-- C42, matrix form: the new handle denotes op(A). -/
theorem C42_convert_csr_mat [CommSemiring R] [StarRing R] (A : Csr R) (hA : A.WF) (isT : Bool) (op : Op)
    (g : Garb R) (vt : Nat) (hvt : vt < 4) (hre : vt < 2 → ∀ v : R, star v = v) :
    ∃ B : Csr R, convertCsr g star (some (A.handle vt isT)) op.code true
        = some (.success, some (B.handle vt false)) ∧
      B.WF ∧ B.m = opRows op isT A ∧ B.n = opCols op isT A ∧ B.base = A.base ∧
      ∀ i j, i < opRows op isT A → j < opCols op isT A → B.mat i j = applyOp op (userMat isT A) i j := by
  obtain ⟨B, e, hB, h1, h2, h3, -, h5, -⟩ := C42_convert_csr A hA isT op g vt hvt hre
  exact ⟨B, e, hB, h1, h2, h3, fun i j hi hj => opMat_eq op isT A h5 h1 hi hj⟩

/-- **C42, COO sources.**  The same for every COO matrix with indices in range, in any order, duplicates
allowed. -/
theorem C42_convert_coo [Star R] (A : Coo R) (hA : A.WF) (op : Op) (g : Garb R) (vt : Nat)
    (hvt : vt < 4) (hre : vt < 2 → ∀ v : R, star v = v) :
    ∃ B : Csr R, convertCsr g star (some (A.handle vt)) op.code true
        = some (.success, some (B.handle vt false)) ∧
      B.WF ∧ B.m = (if op = .none then A.m else A.n) ∧ B.n = (if op = .none then A.n else A.m) ∧
      B.base = A.base ∧ B.nnz = A.row.length ∧ B.RowsOf (A.entries.map (opEntry op)) := by
  have key : ∃ B : Csr R, convertCsrCoo op.code (A.handle vt) ⟨A.base, A.row, A.col, A.val⟩
      (cvAlloc g (if op.code = 111 then (A.m : Int) else A.n) A.row.length A.base)
        = some (.success, B.ptr, B.ind, B.val) ∧
      B.WF ∧ B.m = (if op = .none then A.m else A.n) ∧ B.n = (if op = .none then A.n else A.m) ∧
      B.base = A.base ∧ B.nnz = A.row.length ∧
      B.RowsOf (if op = .none then A.entries else A.entries.map swapRC) := by
    have l1 : ∀ k : Nat, (cvAlloc g (k : Int) A.row.length A.base).1.length = k + 1 := by
      intro k
      unfold cvAlloc
      dsimp only
      split_ifs
      · rw [List.length_replicate]; omega
      · rw [alloc_length]; omega
    have l2 : ∀ k : Int, (cvAlloc g k A.row.length A.base).2.1.length = A.row.length := by
      intro k; simp [cvAlloc]
    have l3 : ∀ k : Int, (cvAlloc g k A.row.length A.base).2.2.length = A.row.length := by
      intro k; simp [cvAlloc]
    have hlen : ∀ {B : Csr R} {T : List (Int × Int × R)}, B.WF → B.triples.Perm T →
        T.length = A.row.length → B.nnz = A.row.length := by
      intro B T hB hp hT
      have := hp.length_eq
      rw [Csr.triples, List.length_map, Csr.entries_length hB, hT] at this
      exact this
    have le : A.entries.length = A.row.length := by
      unfold Coo.entries
      rw [List.length_map, List.length_zip, List.length_zip, hA.col_len, hA.val_len]
      simp
    unfold convertCsrCoo
    by_cases ho : op = .none
    · subst ho
      have i1 : (if Op.none.code = 111 then (A.m : Int) else A.n) = A.m := if_pos rfl
      rw [i1, if_pos (show Op.none.code = 111 from rfl)]
      obtain ⟨B, he, h1, h2, h3, hwf, hrow, hp⟩ := C06_coo2csr A hA
        (cvAlloc g A.m A.row.length A.base).1 (cvAlloc g A.m A.row.length A.base).2.1
        (cvAlloc g A.m A.row.length A.base).2.2 (l1 _) (l2 _) (l3 _)
      refine ⟨B, ?_, hwf, h1, h2, h3, hlen hwf hp le, ?_⟩
      · simp only [Coo.handle]
        rw [he]; rfl
      · intro i hi
        rw [hrow i (by omega)]
        rfl
    · have hc : op.code ≠ 111 := by
        cases op
        · exact absurd rfl ho
        · decide
        · decide
      rw [if_neg hc, if_neg hc]
      simp only [if_neg ho]
      have hA' : (⟨A.n, A.m, A.base, A.col, A.row, A.val⟩ : Coo R).WF :=
        ⟨hA.base01, hA.col_len.symm, by rw [hA.val_len, hA.col_len], hA.col_range, hA.row_range⟩
      have hent : (⟨A.n, A.m, A.base, A.col, A.row, A.val⟩ : Coo R).entries = A.entries.map swapRC := by
        unfold Coo.entries
        dsimp only
        have c1 := hA.col_len
        have c2 := hA.val_len
        apply List.ext_getElem
        · simp [c1, c2]
        · intro k h1 h2
          simp [swapRC]
      obtain ⟨B, he, h1, h2, h3, hwf, hrow, hp⟩ := C06_coo2csr _ hA'
        (cvAlloc g A.n A.row.length A.base).1 (cvAlloc g A.n A.row.length A.base).2.1
        (cvAlloc g A.n A.row.length A.base).2.2 (l1 _) (by rw [l2]; exact hA.col_len.symm)
        (by rw [l3]; exact hA.col_len.symm)
      rw [hent] at hp hrow
      refine ⟨B, ?_, hwf, h1, h2, h3, hlen hwf hp (by rw [List.length_map, le]), ?_⟩
      · simp only [Coo.handle]
        simp only [hA.col_len] at he
        rw [he]; rfl
      · intro i hi
        have hi' : i < A.n := by rw [h1] at hi; exact hi
        rw [hrow i hi']
  obtain ⟨B, e, hB, h1, h2, h3, h4, h5⟩ := key
  have hm : (if op.code = 111 then (A.m : Int) else A.n) = (B.m : Int) := by
    rw [h1]; cases op <;> simp [Op.code]
  have hn : (if op.code = 111 then (A.n : Int) else A.m) = (B.n : Int) := by
    rw [h2]; cases op <;> simp [Op.code]
  obtain ⟨C, c1, c2, c3, c4, c5, c6, c7, -⟩ := convertCsrT_fin (src := A.handle vt)
    (x := .coo ⟨A.base, A.row, A.col, A.val⟩) (B := B) (op := op) (g := g) (T := A.entries)
    hre hvt hB (by rw [h4]; rfl)
    (by
      simp only [Coo.handle, MtxObj.base, convertCsrObj]
      exact e)
    hm hn h3 h5
  refine ⟨C, ?_, c2, c3.trans h1, c4.trans h2, c5, c6.trans h4, c7⟩
  unfold convertCsr
  simp only
  rw [if_pos (by exact hvt)]
  exact c1

/-- C42, matrix form for COO sources. -/
theorem C42_convert_coo_mat [CommSemiring R] [StarRing R] (A : Coo R) (hA : A.WF) (op : Op)
    (g : Garb R) (vt : Nat) (hvt : vt < 4) (hre : vt < 2 → ∀ v : R, star v = v) :
    ∃ B : Csr R, convertCsr g star (some (A.handle vt)) op.code true
        = some (.success, some (B.handle vt false)) ∧
      B.WF ∧ B.m = (if op = .none then A.m else A.n) ∧ B.n = (if op = .none then A.n else A.m) ∧
      ∀ i j, i < B.m → B.mat i j = applyOp op A.entry i j := by
  obtain ⟨B, e, hB, h1, h2, -, -, h5⟩ := C42_convert_coo A hA op g vt hvt hre
  refine ⟨B, e, hB, h1, h2, fun i j hi => ?_⟩
  show B.entry i j = _
  rw [h5.entry hi, opEntry_sum]
  rfl

/-- **C42, there and back.**  Converting with op and the result with op again denotes the source. -/
theorem C42_round_trip [CommSemiring R] [StarRing R] (A : Csr R) (hA : A.WF) (isT : Bool) (op : Op)
    (g g' : Garb R) (vt : Nat) (hvt : vt < 4) (hre : vt < 2 → ∀ v : R, star v = v) :
    ∃ B C : Csr R, convertCsr g star (some (A.handle vt isT)) op.code true
        = some (.success, some (B.handle vt false)) ∧
      convertCsr g' star (some (B.handle vt false)) op.code true
        = some (.success, some (C.handle vt false)) ∧
      C.WF ∧ C.m = userRows isT A ∧ C.n = userCols isT A ∧
      ∀ i j, i < C.m → j < C.n → C.mat i j = userMat isT A i j := by
  obtain ⟨B, e, hB, h1, h2, -, h4⟩ := C42_convert_csr_mat A hA isT op g vt hvt hre
  obtain ⟨C, e', hC, k1, k2, -, k4⟩ := C42_convert_csr_mat B hB false op g' vt hvt hre
  have r1 : opRows op false B = userRows isT A := by
    unfold opRows userRows userCols at *
    cases op <;> simp_all [opCols, userRows]
  have r2 : opCols op false B = userCols isT A := by
    unfold opCols userRows userCols at *
    cases op <;> simp_all [opRows, userCols]
  refine ⟨B, C, e, e', hC, k1.trans r1, k2.trans r2, fun i j hi hj => ?_⟩
  rw [k4 i j (by omega) (by omega)]
  have hi' : i < userRows isT A := by omega
  have hj' : j < userCols isT A := by omega
  cases op
  · simp only [applyOp]
    exact h4 i j (by simpa [opRows] using hi') (by simpa [opCols] using hj')
  · simp only [applyOp]
    exact h4 j i (by simpa [opRows] using hj') (by simpa [opCols] using hi')
  · simp only [applyOp]
    have := h4 j i (by simpa [opRows] using hj') (by simpa [opCols] using hi')
    simp only [userMat, if_neg (by simp : ¬ (false = true))]
    rw [this]
    simp [applyOp, userMat]

/-- what is refused, and that nothing is handed out then -/
theorem C42_convert_csr_refused (g : Garb R) (cj : R → R) (src : Option (CvH R)) (op : Int)
    (dest : Bool) :
    ((src = none ∨ dest = false) → convertCsr g cj src op dest = some (.invalidPointer, none)) ∧
    (∀ s, src = some s → dest = true →
      (4 ≤ s.vt → convertCsr g cj src op dest = some (.invalidValue, none)) ∧
      (s.vt < 4 → s.first = none → convertCsr g cj src op dest = some (.invalidPointer, none)) ∧
      (s.vt < 4 → s.first ≠ none → s.format ≠ 0 → s.format ≠ 7 →
        convertCsr g cj src op dest = some (.notImplemented, none))) := by
  refine ⟨?_, ?_⟩
  · rintro (rfl | rfl)
    · rfl
    · cases src <;> rfl
  · rintro s rfl rfl
    unfold convertCsr
    dsimp only
    refine ⟨fun h => by rw [if_neg (by omega)], fun h h1 => by rw [if_pos h, h1], fun h h1 h2 h3 => ?_⟩
    rw [if_pos h]
    obtain ⟨x, hx⟩ := Option.ne_none_iff_exists'.1 h1
    rw [hx]
    simp [convertCsrT, convertCsrObj, h2, h3]

/-- **Finding.**  The operation is not checked: any code other than `none` and the conjugate transpose is
taken as a transpose. -/
theorem C42_any_op (g : Garb R) (cj : R → R) (src : Option (CvH R)) (dest : Bool) (op : Int)
    (h1 : op ≠ 111) (h3 : op ≠ 113) :
    convertCsr g cj src op dest = convertCsr g cj src 112 dest := by
  unfold convertCsr
  cases src with
  | none => rfl
  | some s =>
    cases dest
    · rfl
    · dsimp only
      split_ifs
      · cases s.first with
        | none => rfl
        | some x =>
          simp [convertCsrT, convertCsrObj, convertCsrCoo, convertCsrCsr, h1, h3]
      · rfl

/-! ### creation of COO handles -/

/-- **C42, creation of a COO handle.**  For arrays of at least `nnz` elements the call reads within them
and succeeds exactly if no size is negative and all indices are in range; the handle holds the arrays. -/
theorem C42_create_coo (vt : Nat) (base M N nnz : Int) (row col : List Int) (val : List R)
    (h1 : nnz ≤ row.length) (h2 : nnz ≤ col.length) :
    ∃ st h, createCooH vt base M N nnz (some row) (some col) (some val) = some (st, h) ∧
      (st = .success ↔ 0 ≤ M ∧ 0 ≤ N ∧ 0 ≤ nnz ∧
        ∀ k : Nat, (k : Int) < nnz → (base ≤ row.getD k 0 ∧ row.getD k 0 < base + M) ∧
          (base ≤ col.getD k 0 ∧ col.getD k 0 < base + N)) ∧
      (st = .success → h = some ⟨M, N, nnz, vt, 7, some (.coo ⟨base, row, col, val⟩)⟩) ∧
      (st ≠ .success → h = none) := by
  unfold createCooH
  by_cases hs : M < 0 ∨ N < 0 ∨ nnz < 0
  · rw [if_pos hs]
    exact ⟨_, _, rfl, ⟨fun h => by simp at h, fun h => by omega⟩, fun h => by simp at h, fun _ => rfl⟩
  rw [if_neg hs]
  dsimp only
  rcases forE_inv (lo := 0) (hi := nnz) (f := cooCheckStep base M N row col) (s := ())
    (P := fun i _ => ∀ k : Nat, (k : Int) < i → (base ≤ row.getD k 0 ∧ row.getD k 0 < base + M) ∧
          (base ≤ col.getD k 0 ∧ col.getD k 0 < base + N))
    (Q := fun e => e = .invalidIndexValue ∧ ¬ ∀ k : Nat, (k : Int) < nnz →
      (base ≤ row.getD k 0 ∧ row.getD k 0 < base + M) ∧
          (base ≤ col.getD k 0 ∧ col.getD k 0 < base + N)) (by omega) (fun k hk => by omega)
    (by
      intro i s hi0 hi hp
      obtain ⟨k, rfl⟩ := Int.eq_ofNat_of_zero_le hi0
      have r1 : rd row (k : Int) = some (row.getD k 0) := by
        rw [rd_ofNat, List.getD_eq_getElem?_getD, List.getElem?_eq_getElem (by omega)]; rfl
      have r2 : rd col (k : Int) = some (col.getD k 0) := by
        rw [rd_ofNat, List.getD_eq_getElem?_getD, List.getElem?_eq_getElem (by omega)]; rfl
      unfold cooCheckStep
      rw [r1]
      simp only [Option.bind_eq_bind, Option.bind_some]
      by_cases c1 : row.getD k 0 < base ∨ row.getD k 0 ≥ M + base
      · rw [if_pos c1]
        refine .inr ⟨_, rfl, rfl, fun h => ?_⟩
        have := (h k hi).1
        omega
      rw [if_neg c1, r2]
      simp only [Option.bind_some]
      by_cases c2 : col.getD k 0 < base ∨ col.getD k 0 ≥ N + base
      · rw [if_pos c2]
        refine .inr ⟨_, rfl, rfl, fun h => ?_⟩
        have := (h k hi).2
        omega
      · rw [if_neg c2]
        refine .inl ⟨s, rfl, fun q hq => ?_⟩
        by_cases hqk : q = k
        · subst hqk; omega
        · exact hp q (by omega)) with ⟨s, e, hp⟩ | ⟨e, he, hq, hn⟩
  · rw [e]
    exact ⟨_, _, rfl, ⟨fun _ => ⟨by omega, by omega, by omega, hp⟩, fun _ => rfl⟩, fun _ => rfl,
      fun h => absurd rfl h⟩
  · rw [he, hq]
    refine ⟨_, _, rfl, ⟨fun h => by simp at h, fun h => absurd h.2.2.2 hn⟩, fun h => by simp at h,
      fun _ => rfl⟩

/-! ### conversion to BSR -/

/-- outside its rows and columns a matrix is zero -/
theorem mat_zero [Semiring R] {A : Csr R} (hA : A.WF) {i j : Nat} (h : A.m ≤ i ∨ A.n ≤ j) :
    A.mat i j = 0 := by
  show A.entry i j = 0
  unfold Csr.entry
  by_cases hi : A.m ≤ i
  · have : A.row i = [] := by
      unfold Csr.row
      have h1 : A.p (i + 1) = 0 := by
        unfold Csr.p
        rw [List.getD_eq_getElem?_getD, List.getElem?_eq_none (by rw [hA.ptr_len]; omega)]; rfl
      have h2 : 0 ≤ A.p i := by
        rcases Nat.lt_or_ge A.m i with h | h
        · unfold Csr.p
          rw [List.getD_eq_getElem?_getD, List.getElem?_eq_none (by rw [hA.ptr_len]; omega)]; simp
        · have : i = A.m := by omega
          rw [this, hA.ptr_last]
          have := hA.base01
          omega
      rw [h1, show (0 - A.p i).toNat = 0 by omega]
      simp
    simp [this]
  · have hj : A.n ≤ j := by omega
    have : (A.row i).filter (fun e => decide (e.1 = (j : Int))) = [] := by
      rw [List.filter_eq_nil_iff]
      intro e he
      have := Csr.row_range hA he
      simp; omega
    rw [this]; simp

theorem convertBsrFill_ok [Zero R] (A : Csr R) (hA : A.WF) (bd : Nat) (hbd : 0 < bd) (hm : A.m ≠ 0)
    (hn : A.n ≠ 0) (g : Garb R) (vt : Nat) (ro : Bool) :
    ∃ B : Bsr R, convertBsrFill g vt A.m A.n A.base A.ptr A.ind A.val bd ro
        = some (.success, some (B.handle vt)) ∧
      B.WF ∧ B.mb = blocksFor A.m bd ∧ B.nb = blocksFor A.n bd ∧ B.bd = bd ∧ B.rowMajor = ro ∧
      B.base = A.base ∧ B.p B.mb = B.base + B.ind.length ∧
      B.val.length = B.ind.length * (bd * bd) ∧ B.SortedBlocks ∧
      (∀ I, I < B.mb → ∀ b, (∃ k, B.lo I ≤ k ∧ k < B.hi I ∧ B.col k = b) ↔ A.BlockUsed bd I b) ∧
      (∀ [s : Semiring R], s.toZero = ‹Zero R› → A.NoDup → ∀ i j, i < B.mb * bd → B.mat i j = A.mat i j) := by
  have hb : ∀ k : Nat, ((k : Int) + bd - 1).tdiv bd = (blocksFor k bd : Nat) := by
    intro k
    exact nblk_cast hbd
  obtain ⟨rp, z, e1, h⟩ := C13_csr2bsr A hA bd hbd hm hn
    (alloc (((A.m : Int) + bd - 1).tdiv bd + 1).toNat g.p) 0 (by rw [alloc_length, hb]; omega)
  have hz : ((z : Int) * bd * bd) = ((z * (bd * bd) : Nat) : Int) := by push_cast; ring
  obtain ⟨bi, bv, e2, l1, l2, h1, h2, h3, h4, h5⟩ := h ro (alloc z g.i)
    ((List.range (z * (bd * bd))).map fun _ => (0 : R)) (by simp) (by simp)
  have hl : bi.length = z := by rw [l1]; simp
  refine ⟨{ mb := blocksFor A.m bd, nb := blocksFor A.n bd, bd := bd
            rowMajor := ro, base := A.base, ptr := rp, ind := bi, val := bv }, ?_, h1, rfl, rfl, rfl, rfl,
    rfl, by rw [h2, hl], by rw [l2, hl]; simp, h3, h4, ?_⟩
  · unfold convertBsrFill
    dsimp only
    rw [e1]
    simp only [Option.bind_eq_bind, Option.bind_some]
    rw [hz, Int.toNat_natCast, fill_pre (N := z * (bd * bd)) (g := fun _ => (0 : R)) (by simp)
      (fun i s _ => rfl)]
    simp only [Option.bind_some, Int.toNat_natCast]
    rw [e2]
    simp only [Option.bind_some, Bsr.handle, hb, hl]
    congr 4
    · push_cast; ring
  · intro s hs hnd i j hi
    subst hs
    refine h5 hnd (fun k hk => ?_) i j hi
    rw [List.getElem?_map, List.getElem?_range hk]
    rfl

/-- a stored entry of op(A) lies in block `(I, b)` of the partition into `bd` x `bd` blocks -/
def OpBlockUsed [Star R] (op : Op) (isT : Bool) (A : Csr R) (bd I : Nat) (b : Int) : Prop :=
  ∃ e ∈ (userTriples isT A).map (opEntry op), e.1 / (bd : Int) = (I : Int) ∧ e.2.1 / (bd : Int) = b

theorem blockUsed_iff {B : Csr R} {T : List (Int × Int × R)} (h : B.RowsOf T)
    (hT : ∀ e ∈ T, 0 ≤ e.1 ∧ e.1 < B.m) (bd I : Nat) (b : Int) :
    B.BlockUsed bd I b ↔ ∃ e ∈ T, e.1 / (bd : Int) = (I : Int) ∧ e.2.1 / (bd : Int) = b := by
  unfold Csr.BlockUsed
  constructor
  · rintro ⟨⟨i, c, v⟩, he, h1, h2⟩
    obtain ⟨hi, hr⟩ := Csr.mem_entries.1 he
    dsimp only at hi hr h1 h2
    rw [h i hi] at hr
    obtain ⟨x, hx, hxe⟩ := List.mem_map.1 hr
    obtain ⟨hx1, hx2⟩ := List.mem_filter.1 hx
    have hx2 : x.1 = (i : Int) := by simpa using hx2
    refine ⟨x, hx1, ?_, ?_⟩
    · rw [hx2, ← h1]; norm_cast
    · rw [hxe]; exact h2
  · rintro ⟨x, hx, h1, h2⟩
    obtain ⟨a1, a2⟩ := hT x hx
    obtain ⟨i, hi⟩ := Int.eq_ofNat_of_zero_le a1
    refine ⟨(i, x.2.1, x.2.2), Csr.mem_entries.2 ⟨by simp only; omega, ?_⟩, ?_, h2⟩
    · simp only
      rw [h i (by omega)]
      exact List.mem_map.2 ⟨x, List.mem_filter.2 ⟨hx, by simpa using hi⟩, rfl⟩
    · simp only
      rw [hi] at h1
      norm_cast at h1

theorem opEntry_range [Star R] (op : Op) (isT : Bool) {A : Csr R} (hA : A.WF) :
    ∀ e ∈ (userTriples isT A).map (opEntry op), 0 ≤ e.1 ∧ e.1 < opRows op isT A := by
  intro e he
  obtain ⟨x, hx, rfl⟩ := List.mem_map.1 he
  cases isT
  · have := Csr.triples_range hA (e := x) (by simpa [userTriples] using hx)
    cases op <;> simp [opEntry, opRows, userRows, userCols] <;> omega
  · obtain ⟨y, hy, rfl⟩ := List.mem_map.1 (by simpa only [userTriples, if_true] using hx)
    have := Csr.triples_range hA hy
    cases op <;> simp [opEntry, opRows, userRows, userCols, swapRC] <;> omega

/-- **C42, conversion to BSR.**  For every valid CSR matrix with any op, and every valid CSC matrix with a
transposing op, at least one row and column, every block size and block order, and any content of the
memory obtained, `aoclsparse_convert_bsr` stays within its arrays and succeeds.  The handle holds a
well-formed BSR matrix with the blocks of op(A) that hold a stored entry, in increasing order in each
block row; if the source has no repeated entries it denotes op(A), with zeros up to the multiple of the
block size. -/
theorem C42_convert_bsr [CommSemiring R] [StarRing R] (A : Csr R) (hA : A.WF) (isT : Bool) (op : Op)
    (hT : isT = false ∨ op ≠ .none) (hr : opRows op isT A ≠ 0) (hc : opCols op isT A ≠ 0)
    (bd : Nat) (hbd : 0 < bd) (rowMajor : Bool) (g g' : Garb R) (vt : Nat) (hvt : vt < 4)
    (hre : vt < 2 → ∀ v : R, star v = v) (old : Option (CvH R)) :
    ∃ B : Bsr R, convertBsr g g' star (some (A.handle vt isT)) bd (if rowMajor then 0 else 1) op.code
        true old = some (.success, some (B.handle vt)) ∧
      B.WF ∧ B.mb = blocksFor (opRows op isT A) bd ∧ B.nb = blocksFor (opCols op isT A) bd ∧
      B.bd = bd ∧ B.rowMajor = rowMajor ∧ B.base = A.base ∧ B.p B.mb = B.base + B.ind.length ∧
      B.val.length = B.ind.length * (bd * bd) ∧ B.SortedBlocks ∧
      (∀ I, I < B.mb → ∀ b, (∃ k, B.lo I ≤ k ∧ k < B.hi I ∧ B.col k = b) ↔ OpBlockUsed op isT A bd I b) ∧
      (A.NoDup → ∀ i j, i < B.mb * bd → B.mat i j =
        if i < opRows op isT A ∧ j < opCols op isT A then applyOp op (userMat isT A) i j else 0) := by
  have fin : ∀ T : Csr R, T.WF → T.m = opRows op isT A → T.n = opCols op isT A → T.base = A.base →
      T.RowsOf ((userTriples isT A).map (opEntry op)) → (A.NoDup → T.NoDup) →
      ∃ B : Bsr R, convertBsrFill g' vt T.m T.n A.base T.ptr T.ind T.val bd rowMajor
        = some (.success, some (B.handle vt)) ∧
      B.WF ∧ B.mb = blocksFor (opRows op isT A) bd ∧ B.nb = blocksFor (opCols op isT A) bd ∧
      B.bd = bd ∧ B.rowMajor = rowMajor ∧ B.base = A.base ∧ B.p B.mb = B.base + B.ind.length ∧
      B.val.length = B.ind.length * (bd * bd) ∧ B.SortedBlocks ∧
      (∀ I, I < B.mb → ∀ b, (∃ k, B.lo I ≤ k ∧ k < B.hi I ∧ B.col k = b) ↔ OpBlockUsed op isT A bd I b) ∧
      (A.NoDup → ∀ i j, i < B.mb * bd → B.mat i j =
        if i < opRows op isT A ∧ j < opCols op isT A then applyOp op (userMat isT A) i j else 0) := by
    intro T hT tm tn tb trows tnd
    obtain ⟨B, e, h1, h2, h3, h4, h5, h6, h7, h8, h9, h10, h11⟩ := convertBsrFill_ok T hT bd hbd
      (by rw [tm]; exact hr) (by rw [tn]; exact hc) g' vt rowMajor
    rw [tb] at e h6
    rw [tm] at h2
    rw [tn] at h3
    refine ⟨B, e, h1, h2, h3, h4, h5, h6, h7, h8, h9, ?_, ?_⟩
    · intro I hI b
      rw [h10 I hI b]
      exact blockUsed_iff trows (by rw [tm]; exact opEntry_range op isT hA) bd I b
    · intro hnd i j hi
      rw [h11 rfl (tnd hnd) i j hi]
      split_ifs with hij
      · exact opMat_eq op isT A trows tm hij.1 hij.2
      · exact mat_zero hT (by omega)
  unfold convertBsr
  dsimp only
  rw [if_neg (by omega), if_neg (by cases rowMajor <;> simp), if_neg (by cases op <;> decide),
    if_neg (by simp [Csr.handle]), if_pos (by exact hvt)]
  have hro : decide ((if rowMajor = true then (0 : Int) else 1) = 0) = rowMajor := by
    cases rowMajor <;> simp
  simp only [Csr.handle, hro]
  unfold convertBsrT
  by_cases ho : op = .none
  · subst ho
    have ht : isT = false := by simpa using hT
    subst ht
    rw [if_pos (show Op.none.code = 111 from rfl)]
    have := fin A hA rfl rfl rfl (by
      have : opEntry (R := R) Op.none = id := rfl
      simpa [userTriples, this] using rowsOf_self A) id
    exact this
  · rw [if_neg (by
      cases op
      · exact absurd rfl ho
      · decide
      · decide)]
    obtain ⟨T, e, t1, t2, t3, t4, t5, t6, t7⟩ := C42_convert_csr A hA isT op g vt hvt hre
    obtain ⟨B, e', h⟩ := fin T t1 t2 t3 t4 t6 t7
    refine ⟨B, ?_, h⟩
    have e0 : convertCsr g star (some ⟨(userRows isT A : Int), userCols isT A, A.nnz, vt, 0,
        some (.csr ⟨isT, A.m, A.n, A.nnz, A.base, A.ptr, A.ind, A.val⟩)⟩) op.code true
        = some (.success, some (T.handle vt false)) := e
    rw [e0]
    simp only [Option.bind_eq_bind, Option.bind_some, Csr.handle]
    exact e'

/-- what is refused: with a null pointer, a bad block size, order or operation the output variable is
left alone; a source that is not CSR or CSC is refused and the variable cleared -/
theorem C42_convert_bsr_refused [Zero R] (g g' : Garb R) (cj : R → R) (src : Option (CvH R))
    (bd order op : Int) (dest : Bool) (old : Option (CvH R)) :
    ((src = none ∨ dest = false) →
      convertBsr g g' cj src bd order op dest old = some (.invalidPointer, old)) ∧
    (∀ s, src = some s → dest = true →
      ((bd ≤ 0 ∨ (order ≠ 0 ∧ order ≠ 1)) →
        convertBsr g g' cj src bd order op dest old = some (.invalidValue, old)) ∧
      (0 < bd → (order = 0 ∨ order = 1) → (op ≠ 111 ∧ op ≠ 112 ∧ op ≠ 113) →
        convertBsr g g' cj src bd order op dest old = some (.notImplemented, old)) ∧
      (0 < bd → (order = 0 ∨ order = 1) → (op = 111 ∨ op = 112 ∨ op = 113) → s.format ≠ 0 →
        convertBsr g g' cj src bd order op dest old = some (.notImplemented, none))) := by
  refine ⟨?_, ?_⟩
  · rintro (rfl | rfl)
    · rfl
    · cases src <;> rfl
  · rintro s rfl rfl
    unfold convertBsr
    dsimp only
    refine ⟨fun h => ?_, fun h h1 h2 => ?_, fun h h1 h2 h3 => ?_⟩
    · by_cases hb : bd ≤ 0
      · rw [if_pos hb]
      · rw [if_neg hb, if_pos (by omega)]
    · rw [if_neg (by omega), if_neg (by omega), if_pos h2]
    · rw [if_neg (by omega), if_neg (by omega), if_neg (by omega), if_pos h3]

/-! ### examples and findings -/

/-- a 3 x 2 one-based matrix with unsorted rows, as CSR -/
def cvExA : Csr Int := ⟨3, 2, 1, [1, 3, 3, 4], [2, 1, 1], [5, 6, 7]⟩
def cvG : Garb Int := ⟨fun _ => 77, fun _ => 88, fun _ => 99⟩

/-- the hypotheses of the theorems are met, and what they give: the transpose as CSR and as BSR -/
example : cvExA.WF ∧ cvExA.NoDup ∧
    convertCsr cvG star (some (cvExA.handle 0 false)) 112 true
      = some (.success, some ((⟨2, 3, 1, [1, 3, 4], [1, 3, 1], [6, 7, 5]⟩ : Csr Int).handle 0 false)) ∧
    convertCsr cvG star (some (cvExA.handle 0 true)) 112 true
      = some (.success, some (cvExA.handle 0 false)) ∧
    convertBsr cvG cvG star (some (cvExA.handle 0 false)) 2 0 112 true none
      = some (.success, some ((⟨1, 2, 2, true, 1, [1, 3], [1, 2], [6, 0, 5, 0, 7, 0, 0, 0]⟩ :
          Bsr Int).handle 0)) := by
  decide +kernel

example : exCoo.WF ∧ convertCsr cvG star (some (exCoo.handle 0)) 112 true
    = some (.success, some ((⟨3, 3, 0, [0, 1, 3, 5], [2, 2, 2, 0, 0], [30, 10, 50, 20, 40]⟩ :
        Csr Int).handle 0 false)) ∧
    createCooH 0 0 3 3 5 (some exCoo.row) (some exCoo.col) (some exCoo.val)
      = some (.success, some (exCoo.handle 0)) := by
  decide +kernel

/-- **Finding.**  For a CSC handle and op = none the conversion to BSR takes the column arrays for rows:
the result of a square matrix is its transpose, with status success. -/
theorem C42_bsr_of_csc :
    ∃ (A : Csr Int) (B : Bsr Int), A.WF ∧ A.NoDup ∧
      convertBsr cvG cvG star (some (A.handle 0 true)) 1 0 111 true none
        = some (.success, some (B.handle 0)) ∧
      B.mat 0 1 ≠ userMat true A 0 1 ∧ B.mat 0 1 = userMat true A 1 0 := by
  exact ⟨⟨2, 2, 0, [0, 1, 1], [1], [7]⟩, ⟨2, 2, 1, true, 0, [0, 1, 1], [1], [7]⟩, by decide +kernel,
    by decide +kernel, by decide +kernel, by decide +kernel, by decide +kernel⟩

/-- **Finding.**  For a CSC handle with more rows than columns it reads past the end of the column
pointers. -/
theorem C42_bsr_of_csc_reads_past :
    ∃ (A : Csr Int), A.WF ∧
      convertBsr cvG cvG star (some (A.handle 0 true)) 1 0 111 true none = none := by
  exact ⟨⟨1, 3, 0, [0, 1], [1], [7]⟩, by decide +kernel, by decide +kernel⟩

/-- **Finding.**  Without rows or without columns the row pointers of the result are left as they came
from the allocator. -/
theorem C42_bsr_empty (g g' : Garb Int) :
    convertBsr g g' star (some ((⟨2, 0, 0, [0, 0, 0], [], []⟩ : Csr Int).handle 0 false)) 1 0 111 true
        none
      = some (.success, some ⟨2, 0, 0, 0, 10,
          some (.bsr ⟨2, 0, 0, 1, true, 0, [g'.p 0, g'.p 1, g'.p 2], [], []⟩)⟩) := by
  rfl

end Verif
