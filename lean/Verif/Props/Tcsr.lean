/-
C44  TCSR: a matrix given by two separate triangles.
-/
import Verif.Proofs.Tcsr
import Verif.Props.Mv
import Verif.Props.Trsv

namespace Verif
open Model Finset

section create
variable {R : Type}

/-- a call of aoclsparse_create_?tcsr with the arrays of `L` and `U` -/
def callCreate (gd gu : Nat → Int) (L U : Csr R) (nnz : Int) :
    Option (Except Status (Tcsr R × MatSort)) :=
  createTcsr gd gu L.base L.m L.n nnz (some L.ptr) (some U.ptr) (some L.ind) (some U.ind) (some L.val)
    (some U.val)

theorem part_len {A : Csr R} (hA : A.WF) (h : ∀ i, i < A.m → A.row i ≠ []) :
    (A.m : Int) ≤ A.ind.length := by
  have : ∀ k, k ≤ A.m → A.base + (k : Int) ≤ A.p k := by
    intro k
    induction k with
    | zero => intro _; rw [hA.ptr_first]; simp
    | succ k ih =>
      intro hk
      have h1 := ih (by omega)
      have h2 := Csr.row_length hA (i := k) (by omega)
      have h3 := List.length_pos_iff.2 (h k (by omega))
      push_cast
      omega
  have h1 := this A.m (le_refl _)
  rw [hA.ptr_last] at h1
  omega

/-- creation in one piece: the outcome and what the object holds -/
theorem create_spec (gd gu : Nat → Int) (L U : Csr R) (hL : Sized L) (hU : Sized U) (hm : U.m = L.m)
    (hn : U.n = L.n) (hb : U.base = L.base) (nnz : Int) :
    (∃ T st, callCreate gd gu L U nnz = some (.ok (T, st)) ∧ TcsrOk T L U ∧
      nnz = L.ind.length + U.ind.length - L.m ∧
      (st = .fully ∨ st = .partially) ∧ (st = .fully ↔ L.Sorted ∧ U.Sorted)) ∨
    (∃ e, callCreate gd gu L U nnz = some (.error e) ∧ e ≠ .success ∧
      ¬ ((L.base = 0 ∨ L.base = 1) ∧ L.m = L.n ∧ nnz = L.ind.length + U.ind.length - L.m ∧
        IsLowerPart L ∧ IsUpperPart U)) := by
  have rL : rd L.ptr (L.m : Int) = some (L.p L.m) := by
    have := Rep.of_list L.ptr 0; rw [hL.ptr] at this; exact this.rd_nat (by omega)
  have rU : rd U.ptr (L.m : Int) = some (U.p U.m) := by
    have := Rep.of_list U.ptr 0; rw [hU.ptr] at this; rw [← hm]; exact this.rd_nat (by omega)
  have iL := hL.ind
  have iU := hU.ind
  unfold callCreate createTcsr
  dsimp only
  by_cases c1 : L.base ≠ 1 ∧ L.base ≠ 0
  · rw [if_pos c1]
    exact .inr ⟨_, rfl, by simp, fun h => by omega⟩
  rw [if_neg c1]
  by_cases c2 : (L.m : Int) < 0 ∨ (L.n : Int) < 0 ∨ nnz < 0
  · rw [if_pos c2]
    refine .inr ⟨_, rfl, by simp, ?_⟩
    rintro ⟨h1, h2, h3, h4, h5⟩
    have wL := accept_wf h1 hL h2 ((lower_accept hL.val h2 hL.ind).2 h4).1
    have := part_len wL (fun i hi h => by
      obtain ⟨S, v, e, -⟩ := lower_row h4 hi
      rw [e] at h; simp at h)
    omega
  rw [if_neg c2]
  by_cases c3 : (L.m : Int) ≠ L.n
  · rw [if_pos c3]
    exact .inr ⟨_, rfl, by simp, fun h => by omega⟩
  rw [if_neg c3, rL, rU]
  simp only [Option.bind_eq_bind, Option.bind_some]
  by_cases c4 : nnz ≠ L.p L.m - L.base + (U.p U.m - L.base) - L.m
  · rw [if_pos c4]
    exact .inr ⟨_, rfl, by simp, fun h => by omega⟩
  rw [if_neg c4]
  have hsq : L.m = L.n := by omega
  have hsqU : U.m = U.n := by omega
  have hbase : L.base = 0 ∨ L.base = 1 := by omega
  rcases tcsrPart_spec hL .lower with ⟨sL, h1, h2, h3, h4⟩ | ⟨e, h1, h2, h3⟩
  · have hlow := (lower_accept hL.val hsq hL.ind).1 h2
    rw [h1]
    simp only [Option.bind_some]
    rw [← hb, ← hm, ← hn]
    rcases tcsrPart_spec hU .upper with ⟨sU, g1, g2, g3, g4⟩ | ⟨e, g1, g2, g3⟩
    · have hup := (upper_accept hU.val hsqU hU.ind).1 g2
      rw [g1]
      simp only [Option.bind_some]
      obtain ⟨idiag, iurow, k1, k2, k3, k4⟩ := tcsrBuild_spec gd gu (L := L) (U := U) hL.ptr
        (by rw [hU.ptr, hm]) U.base U.n nnz sL sU
      rw [← hm] at k1
      rw [k1]
      refine .inl ⟨_, _, rfl, ⟨accept_wf hbase hL hsq h2.1,
        accept_wf (by rw [hb]; exact hbase) hU hsqU g2.1, hlow, hup, hsq, hm, hn, hb, hb, ?_, ?_, ?_, rfl,
        rfl, rfl, rfl, rfl, rfl, fun i hi => (k4 i hi).1, fun i hi => (k4 i hi).2⟩, by omega, ?_, ?_⟩
      · show (U.m : Int) = L.m; omega
      · show (U.n : Int) = L.n; omega
      · show nnz = _; omega
      · split_ifs <;> simp
      · rw [← h4, ← g4]
        rcases h3 with rfl | rfl <;> rcases g3 with rfl | rfl <;> simp
    · rw [g1]
      refine .inr ⟨e, rfl, ?_, fun h => g2 ((upper_accept hU.val hsqU hU.ind).2 h.2.2.2.2)⟩
      rcases g3 with rfl | rfl | rfl <;> simp
  · rw [h1]
    refine .inr ⟨e, rfl, ?_, fun h => h2 ((lower_accept hL.val hsq hL.ind).2 h.2.2.2.1)⟩
    rcases h3 with rfl | rfl | rfl <;> simp

/-- **C44, creation.**  For arrays as long as their pointers say, creation never reads outside them, and
succeeds exactly if the base is 0 or 1, the matrix is square, the given count of entries is that of the
pair, every row of the lower part ends with its only diagonal entry and has only entries left of it
before, and every row of the upper part begins with its only diagonal entry and has only entries right
of it after. -/
theorem C44_create (gd gu : Nat → Int) (L U : Csr R) (hL : Sized L) (hU : Sized U) (hm : U.m = L.m)
    (hn : U.n = L.n) (hb : U.base = L.base) (nnz : Int) :
    (callCreate gd gu L U nnz ≠ none) ∧
    ((∃ T st, callCreate gd gu L U nnz = some (.ok (T, st))) ↔
      (L.base = 0 ∨ L.base = 1) ∧ L.m = L.n ∧ nnz = L.ind.length + U.ind.length - L.m ∧
        IsLowerPart L ∧ IsUpperPart U) := by
  rcases create_spec gd gu L U hL hU hm hn hb nnz with ⟨T, st, h1, h2, h3, -⟩ | ⟨e, h1, -, h2⟩
  · rw [h1]
    refine ⟨by simp, fun _ => ⟨h2.wfL.base01, h2.sq, h3, h2.lower, h2.upper⟩, fun _ => ⟨T, st, rfl⟩⟩
  · rw [h1]
    exact ⟨by simp, fun ⟨T, st, h⟩ => by simp at h, fun h => absurd h h2⟩

/-- the object holds the user's arrays; the recorded order is exact -/
theorem C44_created (gd gu : Nat → Int) (L U : Csr R) (hL : Sized L) (hU : Sized U) (hm : U.m = L.m)
    (hn : U.n = L.n) (hb : U.base = L.base) (nnz : Int) (T : Tcsr R) (st : MatSort)
    (h : callCreate gd gu L U nnz = some (.ok (T, st))) :
    (T.m = L.m ∧ T.n = L.n ∧ T.nnz = nnz ∧ T.base = L.base ∧ T.ptrL = L.ptr ∧ T.ptrU = U.ptr ∧
      T.indL = L.ind ∧ T.indU = U.ind ∧ T.valL = L.val ∧ T.valU = U.val) ∧
    (st = .fully ∨ st = .partially) ∧ (st = .fully ↔ L.Sorted ∧ U.Sorted) := by
  rcases create_spec gd gu L U hL hU hm hn hb nnz with ⟨T', st', h1, h2, h3, h4, h5⟩ | ⟨e, h1, -, h2⟩
  · rw [h] at h1
    cases h1
    exact ⟨⟨h2.m, h2.n, h2.nnz.trans h3.symm, h2.base, h2.ptrL, h2.ptrU, h2.indL, h2.indU, h2.valL, h2.valU⟩,
      h4, h5⟩
  · rw [h] at h1
    cases h1

theorem created_ok {gd gu : Nat → Int} {L U : Csr R} (hL : Sized L) (hU : Sized U) (hm : U.m = L.m)
    (hn : U.n = L.n) (hb : U.base = L.base) {nnz : Int} {T : Tcsr R} {st : MatSort}
    (h : callCreate gd gu L U nnz = some (.ok (T, st))) : TcsrOk T L U := by
  rcases create_spec gd gu L U hL hU hm hn hb nnz with ⟨T', st', h1, h2, -⟩ | ⟨e, h1, -, h2⟩
  · rw [h] at h1
    cases h1
    exact h2
  · rw [h] at h1
    cases h1

/-- null arrays, a base other than 0 and 1, negative sizes and rectangular shapes are refused before
any array is read -/
theorem C44_create_refused (gd gu : Nat → Int) (base M N nnz : Int)
    (pL pU iL iU : Option (List Int)) (vL vU : Option (List R)) :
    ((pL = none ∨ pU = none ∨ iL = none ∨ iU = none ∨ vL = none ∨ vU = none) →
      createTcsr gd gu base M N nnz pL pU iL iU vL vU = some (.error .invalidPointer)) ∧
    (pL.isSome → pU.isSome → iL.isSome → iU.isSome → vL.isSome → vU.isSome →
      ((base ≠ 0 ∧ base ≠ 1) →
        createTcsr gd gu base M N nnz pL pU iL iU vL vU = some (.error .invalidValue)) ∧
      ((base = 0 ∨ base = 1) → (M < 0 ∨ N < 0 ∨ nnz < 0 ∨ M ≠ N) →
        createTcsr gd gu base M N nnz pL pU iL iU vL vU = some (.error .invalidSize))) := by
  refine ⟨?_, ?_⟩
  · intro h
    unfold createTcsr
    split
    · simp at h
    · rfl
  · intro h1 h2 h3 h4 h5 h6
    obtain ⟨a1, rfl⟩ := Option.isSome_iff_exists.1 h1
    obtain ⟨a2, rfl⟩ := Option.isSome_iff_exists.1 h2
    obtain ⟨a3, rfl⟩ := Option.isSome_iff_exists.1 h3
    obtain ⟨a4, rfl⟩ := Option.isSome_iff_exists.1 h4
    obtain ⟨a5, rfl⟩ := Option.isSome_iff_exists.1 h5
    obtain ⟨a6, rfl⟩ := Option.isSome_iff_exists.1 h6
    unfold createTcsr
    dsimp only
    refine ⟨?_, ?_⟩
    · intro hb
      rw [if_pos ⟨hb.2, hb.1⟩]
    · intro hb hs
      rw [if_neg (by omega)]
      by_cases c : M < 0 ∨ N < 0 ∨ nnz < 0
      · rw [if_pos c]
      · rw [if_neg c, if_pos (by omega)]

end create

section mv
variable {R : Type} [CommRing R] [StarRing R] [DecidableEq R]

/-- what the pair supports -/
def TcsrServed (isa : Isa) (dbl : Bool) (t : MType) (op : Op) : Prop :=
  t = .symmetric ∨ t = .triangular ∨
    (t = .general ∧ op = .none ∧ dbl = true ∧ isa.avx2 = true)

theorem operator_readMat {L U : Csr R} (h : SameDiag L U) (t : MType) (f : Fill) (D : Diag) (op : Op)
    {i j : Nat} (hi : i < L.m) (hj : j < L.m) :
    operator t f D op (readMat t f L U) i j = operator t f D op (pairMat L U) i j := by
  have key : ∀ i j, i < L.m → j < L.m →
      structured t f D (readMat t f L U) i j = structured t f D (pairMat L U) i j := by
    intro i j hi hj
    have hd : ∀ i, i < L.m → diagVal D (readMat t f L U) i = diagVal D (pairMat L U) i := by
      intro i hi
      cases D <;> simp only [diagVal]
      unfold readMat pairMat
      cases t <;> cases f <;> simp [h i hi]
    cases t
    · simp [structured, readMat]
    all_goals
      simp only [structured, hd i hi]
      by_cases hij : i = j
      · simp [hij]
      · simp only [hij, if_false]
        cases f <;> simp only [strictTri, readMat, pairMat]
        · by_cases hlt : j < i
          · simp [hlt, Nat.le_of_lt hlt]
          · have : i ≤ j := by omega
            simp [hlt, this]
        · by_cases hlt : i < j
          · have : ¬ j ≤ i := by omega
            simp [hlt, this]
          · have : ¬ i ≤ j := by omega
            simp [hlt, this]
  cases op <;> simp only [operator, applyOp, key i j hi hj, key j i hj hi]

/-- **C44, product.**  On an object created from the triangles `L` and `U`, a product of a real type
either is refused (`not implemented`) and leaves `y` alone, or computes `alpha·op(M)·x + beta·y`, with
`M` the matrix described by the type, triangle and diagonal of the descriptor over the data read: the
pair for a general matrix, otherwise the named triangle.  Symmetric and triangular matrices are always
served; general ones for op = none in double precision with AVX2.  (`hav`: see C20_avx2.) -/
theorem C44_mv {gd gu : Nat → Int} {L U : Csr R} (hL : Sized L) (hU : Sized U) (hm : U.m = L.m)
    (hn : U.n = L.n) (hb : U.base = L.base) {nnz : Int} {T : Tcsr R} {so : MatSort}
    (hT : callCreate gd gu L U nnz = some (.ok (T, so)))
    (hreal : ∀ v : R, star v = v) (isa : Isa) (dbl : Bool) (V : Vec R) (K : Nat) (hV : V.Ok K)
    (t : MType) (f : Fill) (D : Diag) (op : Op)
    (hav : dbl = true → t = .triangular → f = .upper → D = .unit → op = .none →
      ∀ i, i < U.m → upperCount U i < 4)
    (alpha beta : R) (x y : List R) (hx : L.m ≤ x.length) (hy : L.m ≤ y.length) :
    ∃ st y', mvTcsr isa true dbl V K true op.code (some alpha) (some T)
        (some ⟨t.code, f.code, D.code, L.base⟩) (some x) (some beta) (some y) = some (st, some y') ∧
      (st = .success ∧ IsMv alpha beta (operator t f D op (readMat t f L U)) L.m L.m x y y' ∨
        st = .notImplemented ∧ y' = y) ∧
      (st = .success ↔ t ≠ .hermitian ∧ (L.m = 0 ∨ TcsrServed isa dbl t op)) := by
  have h := created_ok hL hU hm hn hb hT
  have hsq := h.sq
  unfold mvTcsr
  dsimp only
  rw [if_neg (by simp [h.base]), if_neg (by cases op <;> decide), if_neg (by simp),
    if_neg (by cases t <;> decide), if_neg (by rw [h.m, h.n]; omega), if_neg (by simp)]
  by_cases hh : t = .hermitian
  · subst hh
    rw [if_pos (by decide)]
    exact ⟨_, y, rfl, .inr ⟨rfl, rfl⟩, by simp⟩
  rw [if_neg (by cases t <;> simp_all [MType.code])]
  have hlenL : (L.m : Int) ≤ L.ind.length := part_len h.wfL (fun i hi hr => by
    obtain ⟨S, v, e, -⟩ := lower_row h.lower hi
    rw [e] at hr; simp at hr)
  have hlenU : (U.m : Int) ≤ U.ind.length := part_len h.wfU (fun i hi hr => by
    obtain ⟨S, v, e, -⟩ := upper_row h.upper hi
    rw [e] at hr; simp at hr)
  by_cases hz : L.m = 0
  · rw [if_pos (.inl (by rw [h.m, hz]; rfl))]
    have hsz : (if op.code = 111 then T.m else T.n) = ((L.m : Nat) : Int) := by
      rw [h.m, h.n, hsq]; simp
    obtain ⟨y', e1, e2, e3, e4⟩ := vscale_spec (beta := beta) hy
    rw [hsz, e1]
    refine ⟨.success, y', rfl, .inl ⟨rfl, e2, fun i hi => by omega, e4⟩, by simp [hz, hh]⟩
  have c : ¬ (T.m = 0 ∨ T.n = 0 ∨ (T.nnz = 0 ∧ t.code = 0)) := by
    rw [h.m, h.n, h.nnz]; omega
  rw [if_neg c]
  have hxn : L.n ≤ x.length := by omega
  have cL := h.cleanL
  have cU := h.cleanU
  have eqn : ∀ f, operator .symmetric f D .conjTrans = (operator (R := R) .symmetric f D .trans) := by
    intro f; funext M i j; simp [operator, applyOp, hreal]
  have eqt : ∀ f, operator .triangular f D .conjTrans = (operator (R := R) .triangular f D .trans) := by
    intro f; funext M i j; simp [operator, applyOp, hreal]
  -- the two symmetric products
  have symL : ∀ op : Op, ∃ y', csrmvSymmKt V K id L.base alpha L.m D.code 0 L.val L.ind L.ptr T.idiag
      (L.ptr.drop 1) x beta y = some y' ∧
      IsMv alpha beta (operator .symmetric .lower D op L.mat) L.m L.m x y y' := by
    intro op
    cases op
    · exact (C19_symmetric V K hV L h.wfL hsq T.idiag _ cL .lower D .none (by simp) alpha beta x y hxn hy).1
    · exact (C19_symmetric V K hV L h.wfL hsq T.idiag _ cL .lower D .trans (by simp) alpha beta x y hxn hy).1
    · rw [eqn]
      exact (C19_symmetric V K hV L h.wfL hsq T.idiag _ cL .lower D .trans (by simp) alpha beta x y hxn hy).1
  have symU : ∀ op : Op, ∃ y', csrmvSymmKt V K id U.base alpha U.m D.code 1 U.val U.ind U.ptr U.ptr
      T.iurow x beta y = some y' ∧
      IsMv alpha beta (operator .symmetric .upper D op U.mat) U.m U.m x y y' := by
    intro op
    cases op
    · exact (C19_symmetric V K hV U h.wfU (by omega) _ _ cU .upper D .none (by simp) alpha beta x y
        (by omega) (by omega)).1
    · exact (C19_symmetric V K hV U h.wfU (by omega) _ _ cU .upper D .trans (by simp) alpha beta x y
        (by omega) (by omega)).1
    · rw [eqn]
      exact (C19_symmetric V K hV U h.wfU (by omega) _ _ cU .upper D .trans (by simp) alpha beta x y
        (by omega) (by omega)).1
  have hs1 : getSupported isa [3, 2, 1] ≠ 0 := by
    obtain ⟨a, b, c⟩ := isa
    cases a <;> cases b <;> simp [getSupported]
  have hs2 : getSupported isa [1] ≠ 0 := by
    obtain ⟨a, b, c⟩ := isa
    simp [getSupported]
  have hs3 : getSupported isa [2, 1] ≠ 0 := by
    obtain ⟨a, b, c⟩ := isa
    cases a <;> simp [getSupported]
  have hs4 : getSupported isa [2] = 0 ↔ isa.avx2 = false := by
    obtain ⟨a, b, c⟩ := isa
    cases a <;> simp [getSupported]
  have i1 : (if Op.none.code = 113 then (112 : Int) else Op.none.code) = 111 := by decide
  have i2 : (if Op.trans.code = 113 then (112 : Int) else Op.trans.code) = 112 := by decide
  have i3 : (if Op.conjTrans.code = 113 then (112 : Int) else Op.conjTrans.code) = 112 := by decide
  cases t
  · -- general
    cases op
    · by_cases hd : dbl = true ∧ isa.avx2 = true
      · obtain ⟨y', e1, e2⟩ := dtcsrmv_spec h alpha beta hxn hy
        refine ⟨.success, y', ?_, .inl ⟨rfl, ?_⟩, by simp [TcsrServed, hd]⟩
        · have : mvTcsrRun isa dbl V K 111 alpha T ⟨0, f.code, D.code, L.base⟩ x beta y
              = some (.success, y') := by
            unfold mvTcsrRun
            have hg : effDoid gn (getDoid true 0 f.code 111) = gn := by cases f <;> decide
            simp only [hg]
            rw [if_neg]
            · simp only [tcsrmv, hd.1, if_true, h.base, e1, done, Option.map_some]
            · simp only [tcsrScore, hd.1, and_self, if_true]
              rw [hs4, hd.2]; simp
          simp only [MType.code]
          rw [i1, this]
          rfl
        · rw [← hsq] at e2
          exact e2
      · refine ⟨.notImplemented, y, ?_, .inr ⟨rfl, rfl⟩, by simp [TcsrServed, hz]; simpa using hd⟩
        have : mvTcsrRun isa dbl V K 111 alpha T ⟨0, f.code, D.code, L.base⟩ x beta y
            = some (.notImplemented, y) := by
          unfold mvTcsrRun
          have hg : effDoid gn (getDoid true 0 f.code 111) = gn := by cases f <;> decide
          simp only [hg]
          rw [if_pos]
          unfold tcsrScore
          by_cases hd1 : dbl = true
          · rw [if_pos ⟨rfl, hd1⟩, hs4]
            simpa [hd1] using hd
          · simp [hd1, gn]
        simp only [MType.code]
        rw [i1, this]
        rfl
    all_goals
      refine ⟨.notImplemented, y, ?_, .inr ⟨rfl, rfl⟩, by simp [TcsrServed, hz]⟩
      have : mvTcsrRun isa dbl V K 112 alpha T ⟨0, f.code, D.code, L.base⟩ x beta y
          = some (.notImplemented, y) := by
        unfold mvTcsrRun
        have hg : effDoid gn (getDoid true 0 f.code 112) = 2 := by cases f <;> decide
        simp only [hg]
        rw [if_pos]
        simp [tcsrScore, gn]
      simp only [MType.code]
      first
        | (rw [i2, this]; rfl)
        | (rw [i3, this]; rfl)
  · -- symmetric
    have run : ∀ o : Int, o = 111 ∨ o = 112 → ∃ y',
        mvTcsrRun isa dbl V K o alpha T ⟨1, f.code, D.code, L.base⟩ x beta y = some (.success, y') ∧
        ∀ op : Op, IsMv alpha beta (operator .symmetric f D op (readMat .symmetric f L U)) L.m L.m x y y' := by
      intro o ho
      unfold mvTcsrRun
      cases f
      · have hg : effDoid gn (getDoid true 1 Fill.lower.code o) = 4 := by
          rcases ho with rfl | rfl <;> decide
        obtain ⟨y', e1, -⟩ := symL .none
        refine ⟨y', ?_, ?_⟩
        · simp only [hg]
          rw [if_neg (by simpa [tcsrScore, gn] using hs1)]
          simp only [tcsrmv, tcsrUpper, Tcsr.tri, gn, h.base, h.m, h.ptrL, h.indL, h.valL, Fill.code]
          simp [-List.drop_one, e1, done]
        · intro op
          obtain ⟨y2, e2, e3⟩ := symL op
          rw [e1] at e2
          cases e2
          exact e3
      · have hg : effDoid gn (getDoid true 1 Fill.upper.code o) = 6 := by
          rcases ho with rfl | rfl <;> decide
        obtain ⟨y', e1, -⟩ := symU .none
        refine ⟨y', ?_, ?_⟩
        · simp only [hg]
          rw [if_neg (by simpa [tcsrScore, gn] using hs1)]
          rw [h.ub, h.um] at e1
          simp only [tcsrmv, tcsrUpper, Tcsr.tri, gn, h.base, h.m, h.ptrU, h.indU, h.valU, Fill.code]
          simp [-List.drop_one, e1, done]
        · intro op
          obtain ⟨y2, e2, e3⟩ := symU op
          rw [e1] at e2
          cases e2
          rw [h.um] at e3
          exact e3
    have hop : (if op.code = 113 then (112 : Int) else op.code) = 111 ∨
        (if op.code = 113 then (112 : Int) else op.code) = 112 := by cases op <;> simp [Op.code]
    obtain ⟨y', e1, e2⟩ := run _ hop
    exact ⟨.success, y', by simp only [MType.code]; rw [e1]; rfl, .inl ⟨rfl, e2 op⟩,
      by simp [TcsrServed]⟩
  · exact absurd rfl hh
  · -- triangular
    have tr : ∀ o : Op, o ≠ .none → ∃ y',
        mvTcsrRun isa dbl V K 112 alpha T ⟨3, f.code, D.code, L.base⟩ x beta y = some (.success, y') ∧
        IsMv alpha beta (operator .triangular f D o (readMat .triangular f L U)) L.m L.m x y y' := by
      intro o ho
      have eo : operator .triangular f D o = (operator (R := R) .triangular f D .trans) := by
        cases o
        · exact absurd rfl ho
        · rfl
        · exact eqt f
      rw [eo]
      unfold mvTcsrRun
      cases f
      · have hg : effDoid gn (getDoid true 3 Fill.lower.code 112) = 14 := by decide
        obtain ⟨y', e1, e2⟩ := C20_transpose L h.wfL T.idiag _ cL .lower D (.inr (by omega)) alpha beta x y
          hx (by omega)
        refine ⟨y', ?_, by rw [← hsq] at e2; exact e2⟩
        simp only [hg]
        rw [if_neg (by simpa [tcsrScore, gn] using hs2)]
        simp only [Fill.code] at e1
        simp only [tcsrmv, tcsrUpper, Tcsr.tri, gn, h.base, h.m, h.n, h.ptrL, h.indL, h.valL, Fill.code]
        simp [-List.drop_one, e1, done]
      · have hg : effDoid gn (getDoid true 3 Fill.upper.code 112) = 18 := by decide
        obtain ⟨y', e1, e2⟩ := C20_transpose U h.wfU U.ptr _ cU .upper D (.inr (by omega)) alpha beta x y
          (by omega) (by omega)
        rw [h.un, h.um, ← hsq] at e2
        refine ⟨y', ?_, e2⟩
        simp only [hg]
        rw [if_neg (by simpa [tcsrScore, gn] using hs2)]
        rw [h.ub, h.um, h.un] at e1
        simp only [Fill.code] at e1
        simp only [tcsrmv, tcsrUpper, Tcsr.tri, gn, h.base, h.m, h.n, h.ptrU, h.indU, h.valU, Fill.code]
        simp [-List.drop_one, e1, done]
    have pl : op = .none → ∃ y',
        mvTcsrRun isa dbl V K 111 alpha T ⟨3, f.code, D.code, L.base⟩ x beta y = some (.success, y') ∧
        IsMv alpha beta (operator .triangular f D .none (readMat .triangular f L U)) L.m L.m x y y' := by
      intro hop
      unfold mvTcsrRun
      cases f
      · have hg : effDoid gn (getDoid true 3 Fill.lower.code 111) = 12 := by decide
        simp only [hg]
        rw [if_neg (by cases dbl <;> simp [tcsrScore, gn, hs2, hs3])]
        cases hd : dbl
        · obtain ⟨y', e1, e2⟩ := C20_triangular L h.wfL T.idiag _ cL .lower D (.inr (by omega)) alpha beta x y
            hxn hy
          refine ⟨y', ?_, by rw [← hsq] at e2; exact e2⟩
          simp only [Fill.code] at e1
          simp only [tcsrmv, tcsrUpper, Tcsr.tri, gn, h.base, h.m, h.ptrL, h.indL, h.valL, Fill.code]
          simp [-List.drop_one, e1, done]
        · obtain ⟨y', e1, e2⟩ := C20_avx2 L h.wfL T.idiag _ cL .lower D (.inr (by omega)) (by simp)
            alpha beta x y hxn hy
          refine ⟨y', ?_, by rw [← hsq] at e2; exact e2⟩
          simp only [Fill.code] at e1
          simp only [tcsrmv, tcsrUpper, Tcsr.tri, gn, h.base, h.m, h.ptrL, h.indL, h.valL, Fill.code]
          simp [-List.drop_one, e1, done]
      · have hg : effDoid gn (getDoid true 3 Fill.upper.code 111) = 16 := by decide
        simp only [hg]
        rw [if_neg (by cases dbl <;> simp [tcsrScore, gn, hs2, hs3])]
        cases hd : dbl
        · obtain ⟨y', e1, e2⟩ := C20_triangular U h.wfU U.ptr _ cU .upper D (.inr (by omega)) alpha beta x y
            (by omega) (by omega)
          rw [h.un, h.um, ← hsq] at e2
          refine ⟨y', ?_, e2⟩
          rw [h.ub, h.um] at e1
          simp only [Fill.code] at e1
          simp only [tcsrmv, tcsrUpper, Tcsr.tri, gn, h.base, h.m, h.ptrU, h.indU, h.valU, Fill.code]
          simp [-List.drop_one, e1, done]
        · obtain ⟨y', e1, e2⟩ := C20_avx2 U h.wfU U.ptr _ cU .upper D (.inr (by omega))
            (fun _ hD => hav hd rfl rfl hD hop) alpha beta x y (by omega) (by omega)
          rw [h.un, h.um, ← hsq] at e2
          refine ⟨y', ?_, e2⟩
          rw [h.ub, h.um] at e1
          simp only [Fill.code] at e1
          simp only [tcsrmv, tcsrUpper, Tcsr.tri, gn, h.base, h.m, h.ptrU, h.indU, h.valU, Fill.code]
          simp [-List.drop_one, e1, done]
    cases op
    · obtain ⟨y', e1, e2⟩ := pl rfl
      refine ⟨.success, y', ?_, .inl ⟨rfl, e2⟩, by simp [TcsrServed]⟩
      simp only [MType.code]
      rw [i1, e1]
      rfl
    · obtain ⟨y', e1, e2⟩ := tr .trans (by simp)
      refine ⟨.success, y', ?_, .inl ⟨rfl, e2⟩, by simp [TcsrServed]⟩
      simp only [MType.code]
      rw [i2, e1]
      rfl
    · obtain ⟨y', e1, e2⟩ := tr .conjTrans (by simp)
      refine ⟨.success, y', ?_, .inl ⟨rfl, e2⟩, by simp [TcsrServed]⟩
      simp only [MType.code]
      rw [i3, e1]
      rfl

/-- **C44, product with equal diagonals.**  If both parts store the same diagonal, the pair is one
matrix: every served request computes with the matrix `pairMat L U`. -/
theorem C44_mv_one_matrix {gd gu : Nat → Int} {L U : Csr R} (hL : Sized L) (hU : Sized U)
    (hm : U.m = L.m) (hn : U.n = L.n) (hb : U.base = L.base) {nnz : Int} {T : Tcsr R} {so : MatSort}
    (hT : callCreate gd gu L U nnz = some (.ok (T, so))) (hdg : SameDiag L U)
    (hreal : ∀ v : R, star v = v) (isa : Isa) (dbl : Bool) (V : Vec R) (K : Nat) (hV : V.Ok K)
    (t : MType) (f : Fill) (D : Diag) (op : Op)
    (hav : dbl = true → t = .triangular → f = .upper → D = .unit → op = .none →
      ∀ i, i < U.m → upperCount U i < 4) (hs : TcsrServed isa dbl t op)
    (alpha beta : R) (x y : List R) (hx : L.m ≤ x.length) (hy : L.m ≤ y.length) :
    ∃ y', mvTcsr isa true dbl V K true op.code (some alpha) (some T)
        (some ⟨t.code, f.code, D.code, L.base⟩) (some x) (some beta) (some y)
        = some (.success, some y') ∧
      IsMv alpha beta (operator t f D op (pairMat L U)) L.m L.m x y y' := by
  obtain ⟨st, y', e1, e2, e3⟩ := C44_mv hL hU hm hn hb hT hreal isa dbl V K hV t f D op hav alpha beta x y
    hx hy
  have hst : st = .success := e3.2 ⟨by rcases hs with h | h | h <;> simp [h], .inr hs⟩
  subst hst
  rcases e2 with ⟨-, e2⟩ | ⟨h, -⟩
  · exact ⟨y', e1, e2.congr fun i j hi hj => (operator_readMat hdg t f D op hi hj).symm⟩
  · cases h

/-- **C44, the format does not matter.**  A product on the pair and a product on any CSR handle of the
same matrix, whatever was done with that handle before, give the same vector (exactly, over a ring). -/
theorem C44_same_as_csr {gd gu : Nat → Int} {L U : Csr R} (hL : Sized L) (hU : Sized U)
    (hm : U.m = L.m) (hn : U.n = L.n) (hb : U.base = L.base) {nnz : Int} {T : Tcsr R} {so : MatSort}
    (hT : callCreate gd gu L U nnz = some (.ok (T, so))) (hdg : SameDiag L U)
    {isa : Isa} {k : MvSel R} (hk : k.Ok) (hr : k.real = true) {V : Vec R} {K : Nat} (hV : V.Ok K)
    {srt : (Int → Int → Bool) → List Int → List Int} (hsrt : StdSort srt)
    {A : Csr R} (hA : A.WF) (hd : A.OneDiag) (hnd : A.Grouped ∨ A.NoDup)
    (hAm : A.m = L.m) (hAn : A.n = L.m) (hAB : A.base = L.base)
    (hAL : ∀ i j, i < L.m → j < L.m → A.mat i j = pairMat L U i j)
    {H : MvHandle R} (hH : MvReached isa k srt false A H) (g : Garb R)
    (t : MType) (f : Fill) (D : Diag) (op : Op)
    (hav : k.dbl = true → t = .triangular → f = .upper → D = .unit → op = .none →
      ∀ i, i < U.m → upperCount U i < 4) (hs : TcsrServed isa k.dbl t op)
    (alpha beta : R) (x y : List R) (hc : MvCall k false A t f D op x y)
    (hsA : MvSupported isa k false A t D op) :
    ∃ y' H', mvTcsr isa true k.dbl V K true op.code (some alpha) (some T)
        (some ⟨t.code, f.code, D.code, L.base⟩) (some x) (some beta) (some y)
        = some (.success, some y') ∧
      mv isa k srt g true op.code (some alpha) (some H) (some ⟨t.code, f.code, D.code, L.base⟩)
        (some x) (some beta) (some y) = some (.success, some y', some H') := by
  have hx : L.m ≤ x.length := by
    have := hc.xlen; cases op <;> simp [opCols, userRows, userCols] at this <;> omega
  have hy : L.m ≤ y.length := by
    have := hc.ylen; cases op <;> simp [opRows, userRows, userCols] at this <;> omega
  obtain ⟨y', e1, e2⟩ := C44_mv_one_matrix hL hU hm hn hb hT hdg (hk.real hr) isa k.dbl V K hV t f D op hav
    hs alpha beta x y hx hy
  obtain ⟨st, y2, H', d1, -, d3, d4⟩ := C21_history hsrt hk hA hd hnd hH g t f D op alpha beta x y hc
  have hst := d4 hsA
  subst hst
  have d5 := d3 rfl
  have ro : opRows op false A = L.m := by cases op <;> simp [opRows, userRows, userCols, hAm, hAn]
  have co : opCols op false A = L.m := by cases op <;> simp [opCols, userRows, userCols, hAm, hAn]
  rw [ro, co] at d5
  have d6 : IsMv alpha beta (operator t f D op (pairMat L U)) L.m L.m x y y2 := by
    refine d5.congr ?_
    intro i j hi hj
    have key : ∀ i j, i < L.m → j < L.m →
        structured t f D (userMat false A) i j = structured t f D (pairMat L U) i j := by
      intro i j hi hj
      show structured t f D A.mat i j = _
      cases t <;> cases D <;> simp only [structured, diagVal, hAL i j hi hj, hAL j i hj hi, hAL i i hi hi]
    cases op <;> simp only [operator, applyOp, key i j hi hj, key j i hj hi]
  have := e2.unique d6
  subst this
  rw [hAB] at d1
  exact ⟨y', H', e1, d1⟩

/-- complex types are refused and leave `y` alone -/
theorem C44_mv_complex (isa : Isa) (dbl : Bool) (V : Vec R) (K : Nat) (op : Op) (T : Tcsr R)
    (t : MType) (f : Fill) (D : Diag) (alpha beta : R) (x y : List R) (hsq : T.m = T.n) :
    mvTcsr isa false dbl V K true op.code (some alpha) (some T)
        (some ⟨t.code, f.code, D.code, T.base⟩) (some x) (some beta) (some y)
      = some (.notImplemented, some y) := by
  unfold mvTcsr
  dsimp only
  rw [if_neg (by simp), if_neg (by cases op <;> decide), if_neg (by simp),
    if_neg (by cases t <;> decide), if_neg (by simp [hsq]), if_pos rfl]

/-- bad arguments are refused and leave `y` alone -/
theorem C44_mv_invalid (isa : Isa) (real dbl : Bool) (V : Vec R) (K : Nat) (same : Bool)
    (opc : Int) (a : Option R) (Td : Option (Tcsr R)) (d : Option Descr) (xo : Option (List R))
    (b : Option R) (yo : Option (List R))
    (hbad : a = none ∨ Td = none ∨ d = none ∨ xo = none ∨ b = none ∨ yo = none ∨ same = false ∨
      (∀ op : Op, op.code ≠ opc) ∨ (∃ T dd, Td = some T ∧ d = some dd ∧
        (T.base ≠ dd.base ∨ ∀ t : MType, t.code ≠ dd.type))) :
    ∃ st, mvTcsr isa real dbl V K same opc a Td d xo b yo = some (st, yo) ∧ st ≠ .success := by
  unfold mvTcsr
  split
  · rename_i a' b' T' d' x' y'
    simp only [reduceCtorEq, false_or, Option.some.injEq] at hbad
    by_cases h1 : T'.base ≠ d'.base
    · rw [if_pos h1]; exact ⟨_, rfl, by simp⟩
    rw [if_neg h1]
    by_cases h2 : opc ≠ 111 ∧ opc ≠ 112 ∧ opc ≠ 113
    · rw [if_pos h2]; exact ⟨_, rfl, by simp⟩
    rw [if_neg h2]
    by_cases h3 : same = false
    · rw [if_pos h3]; exact ⟨_, rfl, by simp⟩
    rw [if_neg h3]
    rw [if_pos]
    · exact ⟨_, rfl, by simp⟩
    · rcases hbad with h | h | ⟨T2, d2, rfl, rfl, h | h⟩
      · exact absurd h h3
      · exfalso
        have a1 := h .none
        have a2 := h .trans
        have a3 := h .conjTrans
        simp only [Op.code] at a1 a2 a3
        omega
      · exact absurd h h1
      · have a1 := h .general
        have a2 := h .symmetric
        have a3 := h .hermitian
        have a4 := h .triangular
        simp only [MType.code] at a1 a2 a3 a4
        omega
  · exact ⟨_, rfl, by simp⟩

end mv

section solve
variable {R : Type} [Field R] [DecidableEq R] [StarRing R]

/-- **C44, triangular solve.**  On an object created from `L` and `U`, the solve returns the solution of
`op(T)·x = alpha·b`, with `T` the triangle named by the descriptor, and touches nothing else of the
array. -/
theorem C44_trsv {gd gu : Nat → Int} {L U : Csr R} (hL : Sized L) (hU : Sized U) (hm : U.m = L.m)
    (hn : U.n = L.n) (hb : U.base = L.base) {nnz : Int} {T : Tcsr R} {so : MatSort}
    (hT : callCreate gd gu L U nnz = some (.ok (T, so)))
    (isReal : Bool) (hreal : isReal = true → ∀ v : R, star v = v)
    (w : Nat) (im : TrsvImpl R) (op : Op) (alpha : R) (hm0 : 0 < L.m) (t : MType)
    (ht : t = .symmetric ∨ t = .triangular) (f : Fill) (Dg : Diag) (hdz : Dg ≠ .zero)
    (hinv : Dg = .nonUnit → ∀ i, i < L.m → readMat .triangular f L U i i ≠ 0)
    (him : SolveOk im (match f with | .lower => L | .upper => U) alpha)
    (b x : List R) (incb incx : Nat) (hincb : 0 < incb)
    (hincx : 0 < incx) (hov : prodOvf w ((L.m : Int) - 1) incx = false)
    (hovb : prodOvf w ((L.m : Int) - 1) incb = false)
    (hbl : ∀ i, i < L.m → i * incb < b.length) (hxl : ∀ i, i < L.m → i * incx < x.length) :
    ∃ x', trsvTcsr isReal w star im true op.code alpha (some T)
        (some ⟨t.code, f.code, Dg.code, L.base⟩) (some b) incb (some x) incx = some (.ok x') ∧
      IsSolve (operator .triangular f Dg op (readMat .triangular f L U)) L.m alpha b incb x incx x' := by
  have h := created_ok hL hU hm hn hb hT
  have hsq := h.sq
  have hdoid : trsvDoid isReal ⟨t.code, f.code, Dg.code, L.base⟩ op.code
      = getDoid isReal 3 f.code op.code := by
    rcases ht with rfl | rfl <;> rfl
  have hrange : ∀ (r : Bool) (f : Fill) (op : Op), 12 ≤ getDoid r 3 f.code op.code ∧
      getDoid r 3 f.code op.code ≤ 19 := by
    intro r f op; cases r <;> cases f <;> cases op <;> decide
  have hmean : ∀ M : Mat R, doidOp Dg (getDoid isReal 3 f.code op.code) M
      = operator .triangular f Dg op M := fun M =>
    C02_getDoid_meaning isReal .triangular f op Dg M hreal (by simp)
  obtain ⟨g1, g2⟩ := hrange isReal f op
  generalize hdd : getDoid isReal 3 f.code op.code = d at *
  have hlenL : (L.m : Int) ≤ L.ind.length := part_len h.wfL (fun i hi hr => by
    obtain ⟨S, v, e, -⟩ := lower_row h.lower hi
    rw [e] at hr; simp at hr)
  have hlenU : (U.m : Int) ≤ U.ind.length := part_len h.wfU (fun i hi hr => by
    obtain ⟨S, v, e, -⟩ := upper_row h.upper hi
    rw [e] at hr; simp at hr)
  have c1 : ¬ (T.m ≤ 0 ∨ T.nnz ≤ 0) := by rw [h.m, h.nnz]; omega
  have c2 : ¬ (T.m ≠ T.n ∨ (incb : Int) ≤ 0 ∨ (incx : Int) ≤ 0) := by rw [h.m, h.n]; omega
  have c3 : ¬ (L.base ≠ 0 ∧ L.base ≠ 1) := by
    have := h.wfL.base01; omega
  have c4 : ¬ (op.code ≠ 111 ∧ op.code ≠ 112 ∧ op.code ≠ 113) := by cases op <;> simp [Op.code]
  have c5 : ¬ (t.code ≠ 1 ∧ t.code ≠ 3) := by rcases ht with rfl | rfl <;> simp [MType.code]
  have c6 : ¬ Dg.code = 2 := by cases Dg <;> simp_all [Diag.code]
  have c7 : ¬ (f.code ≠ 0 ∧ f.code ≠ 1) := by cases f <;> simp [Fill.code]
  have run : ∀ x', trsvKernel star im d alpha L.m (T.opt f.code).base (T.opt f.code).val
      (T.opt f.code).ind (T.opt f.code).ptr (T.opt f.code).idiag (T.opt f.code).iurow b incb x incx
      (decide (Dg.code = 1)) = some x' →
      trsvTcsr isReal w star im true op.code alpha (some T)
        (some ⟨t.code, f.code, Dg.code, L.base⟩) (some b) incb (some x) incx = some (.ok x') := by
    intro x' e
    unfold trsvTcsr
    dsimp only
    rw [if_neg c1, if_neg c2, if_neg (by simp [h.base]), if_neg c3, if_neg c4, if_neg c5, if_neg c6,
      if_neg c7, if_neg (by simp)]
    simp only [trsvRun, hdoid]
    rw [if_neg (by simp [Tcsr.opt])]
    simp only [Bool.false_eq_true, if_false]
    rw [if_neg (by omega), if_neg (by rw [h.m]; simp [hov, hovb]), h.m, e]
    rfl
  cases f
  · have him' : ImplOk im L alpha d := by
      cases im with
      | ref => trivial
      | kt V K => exact ⟨him.1, fun _ => him.2⟩
    obtain ⟨x', e, hs⟩ := C27_kernel im d ⟨g1, g2⟩ L h.wfL hsq T.idiag _ h.cleanL Dg hdz
      (fun hn i hi => hinv hn i hi) alpha him' b x incb incx hincx hbl hxl
    rw [hmean] at hs
    refine ⟨x', run x' ?_, hs⟩
    simp only [Tcsr.opt, Tcsr.tri, Fill.code]
    simpa [-List.drop_one, h.base, h.valL, h.indL, h.ptrL] using e
  · have him' : ImplOk im U alpha d := by
      cases im with
      | ref => trivial
      | kt V K => exact ⟨him.1, fun _ => him.2⟩
    obtain ⟨x', e, hs⟩ := C27_kernel im d ⟨g1, g2⟩ U h.wfU (by omega) U.ptr _ h.cleanU Dg hdz
      (fun hn i hi => hinv hn i (by omega)) alpha him' b x incb incx hincx (by rw [h.um]; exact hbl)
      (by rw [h.um]; exact hxl)
    rw [hmean, h.um] at hs
    refine ⟨x', run x' ?_, hs⟩
    rw [h.ub, h.um] at e
    simp only [Tcsr.opt, Tcsr.tri, Fill.code]
    simpa [h.base, h.valU, h.indU, h.ptrU] using e

end solve

/-! ### concrete cases -/

/-- one-based 3×3: lower part of [[2,0,7],[3,4,0],[0,5,6]] -/
def tcExL : Csr Int := ⟨3, 3, 1, [1, 2, 4, 6], [1, 1, 2, 2, 3], [2, 3, 4, 5, 6]⟩
/-- its upper part -/
def tcExU : Csr Int := ⟨3, 3, 1, [1, 3, 4, 5], [1, 3, 2, 3], [2, 7, 4, 6]⟩
/-- the same upper part with another diagonal -/
def tcExW : Csr Int := ⟨3, 3, 1, [1, 3, 4, 5], [1, 3, 2, 3], [20, 7, 40, 60]⟩

/-- the hypotheses of the theorems are met -/
example : Sized tcExL ∧ Sized tcExU ∧ SameDiag tcExL tcExU ∧ ¬ SameDiag tcExL tcExW := by
  refine ⟨⟨by decide, by decide, by decide⟩, ⟨by decide, by decide, by decide⟩, ?_, ?_⟩ <;>
    (unfold SameDiag; decide +kernel)

theorem tcEx_created : ∃ T, callCreate (fun _ => 9) (fun _ => 8) tcExL tcExU 6 = some (.ok (T, .fully)) ∧
    T.idiag = [1, 3, 5] ∧ T.iurow = [2, 4, 5] :=
  ⟨⟨3, 3, 6, 1, tcExL.ptr, tcExU.ptr, tcExL.ind, tcExU.ind, tcExL.val, tcExU.val, [1, 3, 5], [2, 4, 5]⟩,
    by decide +kernel, rfl, rfl⟩

/-- creation rejects a lower row whose diagonal is not last, a missing diagonal and a wrong count -/
example :
    callCreate (fun _ => 9) (fun _ => 8) { tcExL with ind := [1, 2, 1, 2, 3] } tcExU 6
      = some (.error .unsortedInput) ∧
    callCreate (fun _ => 9) (fun _ => 8) { tcExL with ind := [1, 1, 1, 2, 3] } tcExU 6
      = some (.error .invalidValue) ∧
    callCreate (fun _ => 9) (fun _ => 8) tcExL tcExU 7 = some (.error .invalidSize) := by
  refine ⟨?_, ?_, ?_⟩ <;> decide +kernel

/-- the pair over the rationals, and a solve with each triangle: the hypotheses of C44_trsv are met and
the result is the solution -/
def tcExLq : Csr ℚ := ⟨3, 3, 1, [1, 2, 4, 6], [1, 1, 2, 2, 3], [2, 3, 4, 5, 6]⟩
def tcExUq : Csr ℚ := ⟨3, 3, 1, [1, 3, 4, 5], [1, 3, 2, 3], [2, 7, 4, 6]⟩

example : (∃ T so, callCreate (fun _ => 9) (fun _ => 8) tcExLq tcExUq 6 = some (.ok (T, so)) ∧
      trsvTcsr true 32 star .ref true 111 1 (some T) (some ⟨3, 0, 0, 1⟩) (some [2, 11, 28]) 1
        (some [0, 0, 0]) 1 = some (.ok [1, 2, 3]) ∧
      trsvTcsr true 32 star .ref true 111 1 (some T) (some ⟨1, 1, 0, 1⟩) (some [23, 8, 18]) 1
        (some [0, 0, 0]) 1 = some (.ok [1, 2, 3])) ∧
    Sized tcExLq ∧ Sized tcExUq ∧ (∀ i, i < 3 → readMat .triangular .lower tcExLq tcExUq i i ≠ 0) ∧
    (∀ i, i < 3 → readMat .triangular .upper tcExLq tcExUq i i ≠ 0) ∧ prodOvf 32 (3 - 1) 1 = false := by
  refine ⟨⟨⟨3, 3, 6, 1, tcExLq.ptr, tcExUq.ptr, tcExLq.ind, tcExUq.ind, tcExLq.val, tcExUq.val, [1, 3, 5],
    [2, 4, 5]⟩, .fully, by decide +kernel, by decide +kernel, by decide +kernel⟩,
    ⟨by decide, by decide, by decide⟩, ⟨by decide, by decide, by decide⟩, by decide +kernel,
    by decide +kernel, by decide +kernel⟩

/-- create, then multiply: status and result -/
def tcExRun (L U : Csr Int) (isa : Isa) (dbl : Bool) (opc : Int) (d : Descr) (x : List Int) :
    Option (Status × Option (List Int)) := do
  let r ← callCreate (fun _ => 9) (fun _ => 8) L U 6
  match r with
    | .ok (T, _) =>
      mvTcsr isa true dbl (vecLanes 4 hsum4l) 4 true opc (some 1) (some T) (some d) (some x) (some 0)
        (some [0, 0, 0])
    | .error e => some (e, none)

/-- **Finding.**  Creation does not compare the two diagonals.  If they differ, the general product and
the lower triangle use the diagonal of the lower part, the upper triangle that of the upper part: the
handle does not stand for one matrix. -/
theorem C44_two_diagonals :
    tcExRun tcExL tcExW ⟨true, false, false⟩ true 111 ⟨0, 0, 0, 1⟩ [1, 1, 1]
      = some (.success, some [9, 7, 11]) ∧
    tcExRun tcExL tcExW ⟨true, false, false⟩ true 111 ⟨3, 0, 0, 1⟩ [1, 1, 1]
      = some (.success, some [2, 7, 11]) ∧
    tcExRun tcExL tcExW ⟨true, false, false⟩ true 111 ⟨3, 1, 0, 1⟩ [1, 1, 1]
      = some (.success, some [27, 40, 60]) ∧
    tcExRun tcExL tcExW ⟨true, false, false⟩ true 111 ⟨1, 0, 0, 1⟩ [1, 1, 1]
      = some (.success, some [5, 12, 11]) ∧
    tcExRun tcExL tcExW ⟨true, false, false⟩ true 111 ⟨1, 1, 0, 1⟩ [1, 1, 1]
      = some (.success, some [27, 40, 67]) := by
  refine ⟨?_, ?_, ?_, ?_, ?_⟩ <;> decide +kernel

/-- **Finding.**  The general product is there in double precision with AVX2 only; single precision, the
transposed product and machines without AVX2 get `not implemented`. -/
theorem C44_general_served :
    tcExRun tcExL tcExU ⟨true, false, false⟩ false 111 ⟨0, 0, 0, 1⟩ [1, 1, 1]
      = some (.notImplemented, some [0, 0, 0]) ∧
    tcExRun tcExL tcExU ⟨true, true, true⟩ true 112 ⟨0, 0, 0, 1⟩ [1, 1, 1]
      = some (.notImplemented, some [0, 0, 0]) ∧
    tcExRun tcExL tcExU ⟨false, false, false⟩ true 111 ⟨0, 0, 0, 1⟩ [1, 1, 1]
      = some (.notImplemented, some [0, 0, 0]) ∧
    tcExRun tcExL tcExU ⟨true, true, true⟩ true 112 ⟨3, 1, 1, 1⟩ [1, 10, 100]
      = some (.success, some [1, 10, 107]) := by
  refine ⟨?_, ?_, ?_, ?_⟩ <;> decide +kernel

end Verif
