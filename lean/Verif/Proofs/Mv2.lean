/-
The matrix-vector product with any object held by a handle.
-/
import Verif.Proofs.Mv
import Verif.Proofs.Br4
import Verif.Proofs.EllMv512
import Verif.Props.BlkCsr
import Verif.Props.CsrOpt
import Verif.Props.Ell
import Verif.Props.Expand

namespace Verif
open Model Finset

variable {R : Type} [CommRing R] [StarRing R]

/-- what the library relies on for each kind of object in the list of a handle over the arrays `A` of
a CSR (`ta = false`) or CSC matrix -/
def StoredOk (ta : Bool) (A : Csr R) : Stored R → Prop
  | .csr c opt iu =>
    CopyOk (userMat ta A) (userRows ta A) (userCols ta A) c ∧
    c.n = ((c.csr (userRows ta A) (userCols ta A)).n : Int) ∧
    (c.doid < 4 → c.diagVal = none ∧ c.mtxDiag = 0) ∧
    (opt = true → c.doid = (A.raw ta).doid ∧ (c.base = 0 ∨ c.base = A.base) ∧
      (∀ i, i < A.m → upperCount (c.csr (userRows ta A) (userCols ta A)) i = upperCount A i) ∧
      (A.NoDup → (c.csr (userRows ta A) (userCols ta A)).NoDup) ∧
      ∃ idl iul, c.idiag = some idl ∧ iu = some iul ∧
        Clean (c.csr (userRows ta A) (userCols ta A)) idl iul)
  | .br4 base B => ta = false ∧ base = A.base ∧ IsBr4 A B ∧ br4PadOk A
  | .hyb base w em ec ev map => ta = false ∧ base = A.base ∧ ∃ (w' : Nat) (pad : Nat → Int) (rest : List Int),
      w = (w' : Int) ∧ em = (A.m : Int) - ((longRows A w' A.m).length : Int) ∧
      map = (longRows A w' A.m).map (fun (k : Nat) => (k : Int)) ++ rest ∧
      EllContent A.m w' (elltOff A.m) A.base pad (hybRow A w') ec ev ∧
      (∀ i, i < A.m → 0 ≤ pad i - A.base ∧ pad i - A.base < A.n)
  | .blk base nR ptr ind masks val => ta = false ∧ base = A.base ∧ ∃ nR' : Nat, nR = (nR' : Int) ∧
      (nR' = 1 ∨ nR' = 2 ∨ nR' = 4) ∧ 8 ≤ A.n ∧
      (⟨A.m, A.n, A.base, nR', ptr, ind, masks, val⟩ : BlkCsr R).WF ∧
      ∀ i, i < A.m → (⟨A.m, A.n, A.base, nR', ptr, ind, masks, val⟩ : BlkCsr R).row i = A.row i

/-- the handle holds the user's arrays `A` first, and correct objects -/
structure HandleOk (ta : Bool) (A : Csr R) (H : MvHandle R) : Prop where
  raw : H.raw = A.raw ta
  first : ∃ idl o iu rest, H.mats = .csr { (A.raw ta).copy0 with idiag := idl } o iu :: rest
  all : ∀ s ∈ H.mats, StoredOk ta A s
  sorted : H.sorted = true → A.Sorted
  full : ∀ s ∈ H.mats, s.opt = true → (H.fulldiag = true ↔ A.FullDiag)

/-! ### small facts -/

omit [StarRing R] in
theorem Csr.mat_out {A : Csr R} (hA : A.WF) {i : Nat} (hi : A.m ≤ i) (j : Nat) : A.mat i j = 0 := by
  have hz : A.p (i + 1) = 0 := by
    unfold Csr.p
    rw [List.getD_eq_getElem?_getD, List.getElem?_eq_none (by rw [hA.ptr_len]; omega)]
    rfl
  have hp : 0 ≤ A.p i := by
    by_cases h : i = A.m
    · subst h
      rw [hA.ptr_last]
      have := hA.base01
      omega
    · have : A.p i = 0 := by
        unfold Csr.p
        rw [List.getD_eq_getElem?_getD, List.getElem?_eq_none (by rw [hA.ptr_len]; omega)]
        rfl
      omega
  unfold Csr.mat Csr.entry Csr.row
  rw [hz, show (0 - A.p i).toNat = 0 by omega]
  simp

theorem doidOp_general (D D' : Diag) {d : Nat} (hd : d < 4) (M : Mat R) : doidOp D d M = doidOp D' d M := by
  have : d = 0 ∨ d = 1 ∨ d = 2 ∨ d = 3 := by omega
  rcases this with rfl | rfl | rfl | rfl <;> rfl

/-- an operator depends on the elements in range only -/
theorem doidOp_congr (D : Diag) {e : Nat} (he : e < 20) {M M' : Mat R} {m n : Nat}
    (hsq : 4 ≤ e → e < 12 → m = n) (h : ∀ i j, i < m → j < n → M i j = M' i j) :
    ∀ i j, i < (if trE e then n else m) → j < (if trE e then m else n) →
      doidOp D e M i j = doidOp D e M' i j := by
  have hmean : ∃ t f c, doidMeaning e = some (t, f, c, trE e) ∧
      ((t = .symmetric ∨ t = .hermitian) → 4 ≤ e ∧ e < 12) := by
    have : e = 0 ∨ e = 1 ∨ e = 2 ∨ e = 3 ∨ e = 4 ∨ e = 5 ∨ e = 6 ∨ e = 7 ∨ e = 8 ∨ e = 9 ∨ e = 10 ∨
      e = 11 ∨ e = 12 ∨ e = 13 ∨ e = 14 ∨ e = 15 ∨ e = 16 ∨ e = 17 ∨ e = 18 ∨ e = 19 := by omega
    rcases this with rfl | rfl | rfl | rfl | rfl | rfl | rfl | rfl | rfl | rfl | rfl | rfl | rfl | rfl |
      rfl | rfl | rfl | rfl | rfl | rfl <;> exact ⟨_, _, _, rfl, by simp⟩
  obtain ⟨t, f, c, hm, hs⟩ := hmean
  have key : ∀ i j, i < m → j < n → structured t f D M i j = structured t f D M' i j := by
    intro i j hi hj
    have hd : i = j → diagVal D M i = diagVal D M' i := by
      rintro rfl
      cases D <;> simp [diagVal, h i i hi hj]
    have hji : (t = .symmetric ∨ t = .hermitian) → M j i = M' j i := by
      intro ht
      have := hs ht
      have := hsq this.1 this.2
      exact h j i (by omega) (by omega)
    cases t with
    | general => exact h i j hi hj
    | symmetric =>
      simp only [structured]
      split
      · exact hd ‹_›
      · rw [h i j hi hj, hji (.inl rfl)]
    | hermitian =>
      simp only [structured]
      split
      · exact hd ‹_›
      · rw [h i j hi hj, hji (.inr rfl)]
    | triangular =>
      simp only [structured]
      split
      · exact hd ‹_›
      · rw [h i j hi hj]
  intro i j hi hj
  simp only [doidOp, hm]
  cases htr : trE e
  · rw [htr] at hi hj
    simp only [Bool.false_eq_true, if_false] at hi hj ⊢
    cases c
    · exact key i j hi hj
    · simp [conjM, key i j hi hj]
  · rw [htr] at hi hj
    simp only [if_true] at hi hj ⊢
    cases c
    · exact key j i hj hi
    · simp [conjM, transM, key j i hj hi]

/-- the triangle the CSR kernels are called with is the one named by the identifier -/
theorem effFill_agrees (isReal : Bool) (t : MType) (f : Fill) (op : Op) (d : Nat) (hd : d < 4)
    (h4 : 4 ≤ effDoid d (getDoid isReal t.code f.code op.code)) :
    fillE (effDoid d (getDoid isReal t.code f.code op.code)) = flipIf (kindT d) f := by
  have : d = 0 ∨ d = 1 ∨ d = 2 ∨ d = 3 := by omega
  rcases this with rfl | rfl | rfl | rfl <;> cases isReal <;> cases t <;> cases f <;> cases op <;>
    first | rfl | (exfalso; revert h4; decide)

/-- facts about the identifier used on arrays of kind `d` -/
theorem eff_table (isReal : Bool) (t : MType) (f : Fill) (op : Op) (d : Nat) (hd : d < 4) :
    let e := effDoid d (getDoid isReal t.code f.code op.code)
    e < 20 ∧ (4 ≤ e ↔ t ≠ .general) ∧ (12 ≤ e ↔ t = .triangular) ∧
    (8 ≤ e → e < 12 → t = .hermitian) ∧
    (t = .general ∨ t = .triangular → ((trE e) != (kindT d)) = decide (op ≠ .none)) ∧
    (t = .symmetric ∨ t = .hermitian → trE e = false) ∧
    (e = 16 → flipIf (kindT d) f = .upper ∧ kindT d = decide (op ≠ .none)) ∧
    (e = 0 → d = getDoid isReal t.code f.code op.code) ∧
    getDoid isReal t.code f.code op.code < 20 ∧
    (getDoid isReal t.code f.code op.code < 4 ↔ t = .general) := by
  have : d = 0 ∨ d = 1 ∨ d = 2 ∨ d = 3 := by omega
  rcases this with rfl | rfl | rfl | rfl <;> cases isReal <;> cases t <;> cases f <;> cases op <;> decide

/-- a copy of a symmetric or Hermitian matrix serves only its own request -/
theorem eff_sym {isa : Isa} {real dbl : Bool} {d q : Nat} (h4 : 4 ≤ d) (h12 : d < 12) (hq : q < 20)
    (he : effDoid d q < 20) (ha : archScore isa real dbl 0 (effDoid d q) ≠ 0) : d = q := by
  have key : ∀ d < 12, 4 ≤ d → ∀ q < 20, effDoid d q < 20 → effDoid d q ≠ 1 → d = q := by decide
  refine key d h12 h4 q hq he ?_
  intro h
  rw [h] at ha
  revert ha
  simp [archScore, gn, gt, gh]

theorem flip_code (d : Nat) (f : Fill) :
    (if d = gt ∨ d = gh then (if f.code = 1 then 0 else if f.code = 0 then 1 else f.code) else f.code)
      = (flipIf (kindT d) f).code := by
  unfold kindT gt gh flipIf
  by_cases h : d = 2 ∨ d = 3
  · rw [if_pos h]
    cases f <;> simp [h, Fill.code]
  · rw [if_neg h]
    simp [h]

/-! ### product -/

variable [DecidableEq R]

/-- what a call must satisfy -/
structure MvCall (k : MvSel R) (ta : Bool) (A : Csr R) (t : MType) (f : Fill) (D : Diag) (op : Op)
    (x y : List R) : Prop where
  wf : A.WF
  /-- needed for the clean copy of symmetric, Hermitian and triangular matrices -/
  cleanable : t ≠ .general → A.OneDiag ∧ (A.Grouped ∨ A.NoDup)
  herm : t = .hermitian → RealDiag A.mat
  /-- a fixed diagonal is applied in every row of the arrays -/
  shape : t = .triangular → D = .nonUnit ∨ A.m ≤ A.n
  /-- see C20_avx2 -/
  avx2 : k.dbl = true → t = .triangular → D = .unit → flipIf ta f = .upper → ta = decide (op ≠ .none) →
    ∀ i, i < A.m → upperCount A i < 4
  xlen : opCols op ta A ≤ x.length
  ylen : opRows op ta A ≤ y.length

/-- the kernels needed are there and a general matrix comes with an ordinary diagonal -/
def MvServed (isa : Isa) (k : MvSel R) (t : MType) (D : Diag) : Prop :=
  k.gn.isSome ∧ k.gt.isSome ∧ k.sym.isSome ∧ isa.vl = true ∧ (t = .general → D = .nonUnit)

section call
variable {isa : Isa} {k : MvSel R} {ta : Bool} {A : Csr R} {t : MType} {f : Fill} {D : Diag} {op : Op}
  {alpha beta : R} {x y : List R} {H : MvHandle R}

/-- result of a call -/
def MvOut (isa : Isa) (k : MvSel R) (ta : Bool) (A : Csr R) (t : MType) (f : Fill) (D : Diag) (op : Op)
    (alpha beta : R) (x y : List R) (good : Prop) (r : Option (Status × List R × MvHandle R)) : Prop :=
  ∃ st y' H', r = some (st, y', H') ∧ HandleOk ta A H' ∧ (st ≠ .success → y' = y) ∧
    (st = .success → IsMv alpha beta (operator t f D op (userMat ta A)) (opRows op ta A) (opCols op ta A)
      x y y') ∧
    (MvServed isa k t D → good → st = .success)

/-- the product with a copy of general kind -/
theorem csrGeneral_spec (hk : k.Ok) (h : MvCall k ta A t f D op x y) (hsq : t = .symmetric ∨ t = .hermitian → A.m = A.n)
    {c : MCopy R} {opt : Bool} {iu : Option (List Int)} (hc : StoredOk ta A (.csr c opt iu)) (hd : c.doid < 4)
    (hready : t ≠ .general → opt = true) :
    ∃ st y', csrmvD k (effDoid c.doid (getDoid k.real t.code f.code op.code)) alpha c D.code
        (flipIf (kindT c.doid) f).code iu x beta y = some (st, y') ∧ (st ≠ .success → y' = y) ∧
      (st = .success → IsMv alpha beta (operator t f D op (userMat ta A)) (opRows op ta A)
        (opCols op ta A) x y y') ∧
      st = mvStat k (effDoid c.doid (getDoid k.real t.code f.code op.code)) := by
  obtain ⟨hcp, hn, -, ho⟩ := hc
  obtain ⟨t1, t2, t3, t4, t5, t6, t7, -, t9, t10⟩ := eff_table k.real t f op c.doid hd
  have hfl := effFill_agrees k.real t f op c.doid hd
  set q := getDoid k.real t.code f.code op.code with hq
  set e := effDoid c.doid q with he
  set M := userRows ta A with hM
  set N := userCols ta A with hN
  have hUh : t = .hermitian → RealDiag (userMat ta A) := by
    intro ht i
    have := h.herm ht i
    cases ta <;> exact this
  obtain ⟨D', -, hel⟩ := hcp.elems
  have hMN : t = .symmetric ∨ t = .hermitian → M = N := by
    intro ht
    have := hsq ht
    cases ta <;> simp [hM, hN, userRows, userCols, this]
  -- elements
  have hel' : ∀ i j, i < (c.csr M N).m → j < (c.csr M N).n →
      (c.csr M N).mat i j = doidOp D c.doid (userMat ta A) i j := by
    intro i j hi hj
    rw [hel i j hi hj, doidOp_general D' D hd]
  have hsq' : 4 ≤ e → e < 12 → (c.csr M N).m = (c.csr M N).n := by
    intro h1 h2
    have hne := t2.1 h1
    have hnt : ¬ t = .triangular := fun hc => by have := t3.2 hc; omega
    have : M = N := hMN (by cases t <;> simp_all)
    simp only [MCopy.csr]
    split <;> omega
  -- dimensions
  have hrows : (if trE e then (c.csr M N).n else (c.csr M N).m) = opRows op ta A ∧
      (if trE e then (c.csr M N).m else (c.csr M N).n) = opCols op ta A := by
    by_cases hs : t = .symmetric ∨ t = .hermitian
    · have := hMN hs
      simp only [MCopy.csr, opRows, opCols, ← hM, ← hN, this]
      simp
    · have hgt : t = .general ∨ t = .triangular := by cases t <;> simp_all
      have := t5 hgt
      simp only [MCopy.csr, opRows, opCols, ← hM, ← hN]
      cases h1 : trE e <;> cases h2 : kindT c.doid <;> rw [h1, h2] at this <;> cases op <;>
        simp at this ⊢
  have hcall : CsrCall k c M N e D (flipIf (kindT c.doid) f) iu x y := by
    refine ⟨hcp.wf, hcp.rows, hn, t1, fun h4 => (hfl h4).symm, ?_, hsq', ?_, ?_, ?_, ?_, ?_⟩
    · intro h4
      exact (ho (hready (t2.1 h4))).2.2.2.2
    · intro h8 h12 i
      have ht := t4 h8 h12
      have hs := hsq' (by omega) h12
      by_cases hi : i < (c.csr M N).m
      · rw [hel' i i hi (by omega)]
        have hU := hUh ht i
        have : c.doid = 0 ∨ c.doid = 1 ∨ c.doid = 2 ∨ c.doid = 3 := by omega
        rcases this with h | h | h | h <;> rw [h] <;>
          simp [doidOp, doidMeaning, structured, conjM, transM, hU]
      · rw [Csr.mat_out hcp.wf (by omega)]
        simp
    · intro h12
      have ht := t3.1 h12
      have hod := (ho (hready (by rw [ht]; simp))).1
      rcases h.shape ht with hD | hA'
      · exact .inl hD
      · right
        have hcs : (c.csr M N).m = A.m ∧ (c.csr M N).n = A.n := by
          simp only [MCopy.csr, hod, hM, hN]
          cases ta <;> exact ⟨rfl, rfl⟩
        omega
    · intro hdb h16 hD i hi
      have ht := t3.1 (by omega)
      have ho' := ho (hready (by rw [ht]; simp))
      have hkt : kindT c.doid = ta := by
        rw [ho'.1]; cases ta <;> rfl
      have hcs : (c.csr M N).m = A.m := by
        simp only [MCopy.csr, ho'.1, hM, hN]
        cases ta <;> rfl
      obtain ⟨f1, f2⟩ := t7 h16
      rw [hkt] at f1 f2
      rw [ho'.2.2.1 i (by omega)]
      exact h.avx2 hdb ht hD f1 f2 i (by omega)
    · rw [hrows.2]; exact h.xlen
    · rw [hrows.1]; exact h.ylen
  obtain ⟨y', e1, e2, e3⟩ := csrmvD_spec (alpha := alpha) (beta := beta) hk hcall
  refine ⟨_, y', e1, e2, ?_, rfl⟩
  intro hst
  have hmv := e3 hst
  rw [hrows.1, hrows.2] at hmv
  refine hmv.congr ?_
  intro i j hi hj
  rw [← hrows.1] at hi
  rw [← hrows.2] at hj
  have h1 := doidOp_congr D t1 hsq' hel' i j hi hj
  rw [h1]
  have hlen : effDoid c.doid q ≠ doidLen := by
    rw [← he]; unfold doidLen; omega
  rw [he, C01_effective_sound D c.doid q (by omega) t9 hlen (userMat ta A) ?_,
    hq, C02_getDoid_meaning k.real t f op D (userMat ta A) hk.real hUh]
  intro hh
  refine hUh ?_
  rw [hq] at hh
  revert hh
  cases k.real <;> cases t <;> cases f <;> cases op <;> simp <;> decide

/-- the status of an available product -/
theorem mvStat_ok {e : Nat} (he : e < 20) (h1 : k.gn.isSome) (h2 : k.gt.isSome) (h3 : k.sym.isSome)
    (ha : archScore isa k.real k.dbl 0 e ≠ 0) : mvStat k e = .success := by
  have hg : ∀ l, getSupported isa l = getSupported isa l := fun _ => rfl
  unfold archScore gn gt gh at ha
  unfold mvStat
  rw [if_pos rfl] at ha
  by_cases e0 : e = 0
  · rw [if_pos e0, if_pos h1]
  rw [if_neg e0]
  by_cases e2 : e = 2
  · rw [if_pos e2, if_pos h2]
  rw [if_neg e2]
  rw [if_neg (by omega)] at ha
  by_cases e3 : e = 3
  · rw [if_pos e3]
    cases hr : k.real
    · simp
    · rw [hr] at ha
      simp [e3] at ha
  rw [if_neg e3]
  rw [if_neg (by omega)] at ha
  by_cases h12 : 4 ≤ e ∧ e < 12
  · rw [if_neg (by omega), if_pos h12.2, if_pos h3]
    simp
  rw [if_neg h12] at ha
  by_cases h4 : e < 4
  · rw [if_neg (by omega), if_neg (by omega), if_neg (by omega)] at ha
    exact absurd rfl ha
  rw [if_neg h4, if_neg (by omega)]
  rw [if_neg]
  rintro (h | h | ⟨h, hr⟩)
  · rw [if_neg (by omega), if_neg (by omega), if_neg (by omega)] at ha; exact ha rfl
  · rw [if_neg (by omega), if_neg (by omega), if_neg (by omega)] at ha; exact ha rfl
  · rw [if_neg (by omega), if_neg (by omega), if_neg (by simp [hr])] at ha; exact ha rfl

omit [CommRing R] [StarRing R] [DecidableEq R] in
theorem raw_doid (A : Csr R) (ta : Bool) : (A.raw ta).doid = if ta then 2 else 0 := by
  cases ta <;> rfl

omit [CommRing R] [StarRing R] [DecidableEq R] in
theorem raw_doid_le (A : Csr R) (ta : Bool) : (A.raw ta).doid ≤ 2 := by
  rw [raw_doid]; split <;> omega

/-- putting a changed copy back -/
theorem HandleOk.set {H : MvHandle R} (hH : HandleOk ta A H) {i : Nat} {c c' : MCopy R} {opt : Bool}
    {iu : Option (List Int)} (hi : H.mats[i]? = some (.csr c opt iu)) (h4 : 4 ≤ c.doid)
    (hc' : StoredOk ta A (.csr c' opt iu)) :
    HandleOk ta A { H with mats := H.mats.set i (.csr c' opt iu) } := by
  refine ⟨hH.raw, ?_, ?_, hH.sorted, ?_⟩
  · obtain ⟨idl, o, iu0, rest, hf⟩ := hH.first
    cases i with
    | zero =>
      exfalso
      rw [hf] at hi
      simp only [List.getElem?_cons_zero, Option.some.injEq, Stored.csr.injEq] at hi
      rw [← hi.1] at h4
      have h5 : 4 ≤ (A.raw ta).doid := h4
      have := raw_doid_le A ta
      omega
    | succ i =>
      exact ⟨idl, o, iu0, rest.set i _, by simp only; rw [hf]; rfl⟩
  · intro s hs
    rcases List.mem_or_eq_of_mem_set hs with h | rfl
    · exact hH.all s h
    · exact hc'
  · intro s hs ho
    rcases List.mem_or_eq_of_mem_set hs with h | rfl
    · exact hH.full s h ho
    · exact hH.full _ (List.mem_of_getElem? hi) ho

/-- mv on a CSR object -/
theorem mvCsr_spec (hk : k.Ok) (h : MvCall k ta A t f D op x y)
    (hsq : t = .symmetric ∨ t = .hermitian → A.m = A.n) (hH : HandleOk ta A H) {i : Nat} {c : MCopy R}
    {opt : Bool} {iu : Option (List Int)} (hi : H.mats[i]? = some (.csr c opt iu))
    (hready : t ≠ .general → opt = true ∨ c.doid = getDoid k.real t.code f.code op.code)
    (hsym : 4 ≤ c.doid → c.doid = getDoid k.real t.code f.code op.code) {b : Int} :
    MvOut isa k ta A t f D op alpha beta x y
      (archScore isa k.real k.dbl 0 (effDoid c.doid (getDoid k.real t.code f.code op.code)) ≠ 0)
      (mvCsr k (getDoid k.real t.code f.code op.code) alpha H ⟨t.code, f.code, D.code, b⟩ i c opt iu
        x beta y) := by
  have hc := hH.all _ (List.mem_of_getElem? hi)
  have hUh : t = .hermitian → RealDiag (userMat ta A) := by
    intro ht i
    have := h.herm ht i
    cases ta <;> exact this
  unfold mvCsr
  by_cases hd4 : c.doid < 4
  · obtain ⟨t1, -, -, -, -, -, -, -, -, t10⟩ := eff_table k.real t f op c.doid hd4
    have hdv := hc.2.2.1 hd4
    by_cases hex : c.doid = getDoid k.real t.code f.code op.code
    · have htg : t = .general := t10.1 (by omega)
      rw [if_pos hex]
      dsimp only
      by_cases hD : D.code ≠ c.mtxDiag
      · rw [if_pos hD]
        have hsd : setMatDiag H.raw.um D.code c = some (.invalidPointer, c) := by
          unfold setMatDiag
          rw [hdv.1]
          cases c.idiag <;> rfl
        simp only [hsd, Option.bind_eq_bind, Option.bind_some]
        rw [if_pos (by simp)]
        refine ⟨_, y, H, rfl, hH, fun _ => rfl, by simp, ?_⟩
        rintro ⟨-, -, -, -, hDg⟩ -
        rw [hDg htg, hdv.2] at hD
        exact absurd rfl hD
      · rw [if_neg hD]
        obtain ⟨st, y', e1, e2, e3, e4⟩ := csrGeneral_spec (alpha := alpha) (beta := beta) hk h hsq hc hd4
          (fun hn => absurd htg hn)
        have he : effDoid c.doid (getDoid k.real t.code f.code op.code) = gn := by
          rw [← hex]
          have : c.doid = 0 ∨ c.doid = 1 ∨ c.doid = 2 ∨ c.doid = 3 := by omega
          rcases this with h | h | h | h <;> rw [h] <;> rfl
        have hgen : ∀ d1 f1 d2 f2, csrmvD k gn alpha c d1 f1 iu x beta y = csrmvD k gn alpha c d2 f2 iu x beta y := by
          intro d1 f1 d2 f2
          unfold csrmvD
          rw [if_pos rfl, if_pos rfl]
        rw [he] at e1
        rw [hgen 0 0 D.code (flipIf (kindT c.doid) f).code]
        simp only [e1, Option.bind_eq_bind, Option.bind_some]
        exact ⟨st, y', H, rfl, hH, e2, e3, fun hs ha => by
          rw [e4]; exact mvStat_ok t1 hs.1 hs.2.1 hs.2.2.1 ha⟩
    · rw [if_neg hex]
      obtain ⟨st, y', e1, e2, e3, e4⟩ := csrGeneral_spec (alpha := alpha) (beta := beta) hk h hsq hc hd4
        (fun hn => (hready hn).resolve_right hex)
      dsimp only
      rw [flip_code]
      simp only [e1, Option.bind_eq_bind, Option.bind_some]
      exact ⟨st, y', H, rfl, hH, e2, e3, fun hs ha => by
        rw [e4]; exact mvStat_ok t1 hs.1 hs.2.1 hs.2.2.1 ha⟩
  · have h4 : 4 ≤ c.doid := by omega
    have hex := hsym h4
    rw [if_pos hex]
    obtain ⟨hcp, hn, -, ho⟩ := hc
    obtain ⟨hMN, -⟩ := hcp.sym h4
    have hkT : kindT c.doid = false := by unfold kindT; simp; omega
    have hq12 := hcp.kind
    have htne : t ≠ .general ∧ t ≠ .triangular := by
      rw [hex] at h4 hq12
      constructor <;> rintro rfl <;> revert h4 hq12 <;> cases k.real <;> cases f <;> cases op <;> decide
    have hum : H.raw.um = (userRows ta A : Int) := by
      rw [hH.raw]
      cases ta <;> rfl
    -- the arrays with the requested diagonal
    have core : ∀ c' : MCopy R, CopyOk (userMat ta A) (userRows ta A) (userCols ta A) c' →
        c'.doid = c.doid → c'.mtxDiag = D.code →
        ∃ st y', csrmvD k gn alpha c' 0 0 iu x beta y = some (st, y') ∧ (st ≠ .success → y' = y) ∧
          (st = .success → IsMv alpha beta (operator t f D op (userMat ta A)) (opRows op ta A)
            (opCols op ta A) x y y') ∧ (k.gn.isSome → st = .success) := by
      intro c' hcp' hcd hdiag
      have hm : (c'.csr (userRows ta A) (userCols ta A)).m = opRows op ta A ∧
          (c'.csr (userRows ta A) (userCols ta A)).n = opCols op ta A := by
        simp only [MCopy.csr, hcd, hkT, opRows, opCols, hMN]
        simp
      have hx := h.xlen
      have hy := h.ylen
      unfold csrmvD
      rw [if_pos rfl]
      cases hg : k.gn with
      | none => exact ⟨_, _, rfl, by simp, by simp, by simp⟩
      | some g =>
        dsimp only
        rw [hcp'.rows]
        obtain ⟨y', e1, e2⟩ := C17_value g (hk.gn g hg) _ hcp'.wf alpha beta x y (by rw [hm.2]; exact hx)
          (by rw [hm.1]; exact hy)
        refine ⟨.success, y', by
          change done (csrmvGn g (c'.csr (userRows ta A) (userCols ta A)).base _ _ (c'.csr (userRows ta A) (userCols ta A)).val (c'.csr (userRows ta A) (userCols ta A)).ind (c'.csr (userRows ta A) (userCols ta A)).ptr _ _ _) = _
          rw [e1]; rfl, by simp, ?_, by simp⟩
        intro _
        rw [hm.1, hm.2] at e2
        refine e2.congr ?_
        intro i j hi hj
        obtain ⟨D', hD1, hD2⟩ := hcp'.elems
        have : D' = D := by
          rw [hdiag] at hD1
          cases D <;> cases D' <;> simp [Diag.code] at hD1 ⊢
        rw [hD2 i j (by rw [hm.1]; exact hi) (by rw [hm.2]; exact hj), this, hcd, hex,
          C02_getDoid_meaning k.real t f op D (userMat ta A) hk.real hUh]
    dsimp only
    by_cases hD : D.code ≠ c.mtxDiag
    · rw [if_pos hD]
      obtain ⟨c', s1, s2, s3, s4, s5, -⟩ := setMatDiag_ok hcp h4 D
      rw [hum]
      simp only [s1, Option.bind_eq_bind, Option.bind_some]
      rw [if_neg (by simp)]
      obtain ⟨st, y', e1, e2, e3, e4⟩ := core c' s4 s2 s3
      simp only [e1, Option.bind_some]
      refine ⟨st, y', _, rfl, hH.set hi h4 ⟨s4, ?_, fun hlt => absurd hlt (by omega), ?_⟩, e2, e3,
        fun hs _ => e4 hs.1⟩
      · have h1 : c'.n = c.n := by rw [s5]
        rw [h1, hn]
        simp only [MCopy.csr, s2]
      · intro hopt
        have := (ho hopt).1
        have h2 := raw_doid_le A ta
        omega
    · rw [if_neg hD]
      obtain ⟨st, y', e1, e2, e3, e4⟩ := core c hcp rfl (by simpa using (not_not.1 hD).symm)
      simp only [e1, Option.bind_eq_bind, Option.bind_some]
      exact ⟨st, y', H, rfl, hH, e2, e3, fun hs _ => e4 hs.1⟩

theorem findHyb_some : ∀ (L : List (Stored R)) {i : Nat} {b w em : Int} {ec : List Int} {ev : List R}
    {map : List Int}, L[i]? = some (.hyb b w em ec ev map) →
    ∃ b' w' em' ec' ev' map', Stored.hyb b' w' em' ec' ev' map' ∈ L ∧
      findHyb L = some (w', em', ec', ev', map')
  | [], _, _, _, _, _, _, _, h => by simp at h
  | s :: L, i, b, w, em, ec, ev, map, h => by
    cases s with
    | hyb b' w' em' ec' ev' map' => exact ⟨b', w', em', ec', ev', map', by simp, rfl⟩
    | csr _ _ _ | blk _ _ _ _ _ _ | br4 _ _ =>
      cases i with
      | zero => simp at h
      | succ i =>
        obtain ⟨b', w', em', ec', ev', map', h1, h2⟩ := findHyb_some L (i := i) (by simpa using h)
        exact ⟨b', w', em', ec', ev', map', List.mem_cons_of_mem _ h1, h2⟩

theorem findBr4_some : ∀ (L : List (Stored R)) {i : Nat} {b : Int} {B : Br4 R},
    L[i]? = some (.br4 b B) → ∃ b' B', Stored.br4 b' B' ∈ L ∧ findBr4 L = some (b', B')
  | [], _, _, _, h => by simp at h
  | s :: L, i, b, B, h => by
    cases s with
    | br4 b' B' => exact ⟨b', B', by simp, rfl⟩
    | csr _ _ _ | blk _ _ _ _ _ _ | hyb _ _ _ _ _ _ =>
      cases i with
      | zero => simp at h
      | succ i =>
        obtain ⟨b', B', h1, h2⟩ := findBr4_some L (i := i) (by simpa using h)
        exact ⟨b', B', List.mem_cons_of_mem _ h1, h2⟩

/-- mv on the object chosen; objects in other formats are chosen for the plain product only -/
theorem mvOn_spec (hk : k.Ok) (h : MvCall k ta A t f D op x y)
    (hsq : t = .symmetric ∨ t = .hermitian → A.m = A.n) (hH : HandleOk ta A H) {i : Nat} {s : Stored R}
    (hm0 : A.m ≠ 0) (hz : t = .general → A.nnz ≠ 0)
    (hi : H.mats[i]? = some s)
    (hcsr : ∀ c opt iu, s = .csr c opt iu →
      (t ≠ .general → opt = true ∨ c.doid = getDoid k.real t.code f.code op.code) ∧
      (4 ≤ c.doid → c.doid = getDoid k.real t.code f.code op.code))
    (hother : s.fmt ≠ 0 → getDoid k.real t.code f.code op.code = gn ∧ k.dbl = true) {opc : Nat} :
    MvOut isa k ta A t f D op alpha beta x y
      (archScore isa k.real k.dbl s.fmt (effDoid s.doid (getDoid k.real t.code f.code op.code)) ≠ 0)
      (mvOn isa k (getDoid k.real t.code f.code op.code) opc alpha H
        ⟨t.code, f.code, D.code, A.base⟩ i x beta y) := by
  have hs := hH.all _ (List.mem_of_getElem? hi)
  have hA := h.wf
  unfold mvOn
  rw [hi]
  by_cases hf0 : s.fmt = 0
  · cases s with
    | csr c opt iu => exact mvCsr_spec hk h hsq hH hi (hcsr c opt iu rfl).1 (hcsr c opt iu rfl).2
    | blk _ _ _ _ _ _ | hyb _ _ _ _ _ _ | br4 _ _ => simp [Stored.fmt] at hf0
  · obtain ⟨hq, hdb⟩ := hother hf0
    have hta : ta = false := by
      cases s with
      | csr c opt iu => exact absurd rfl hf0
      | blk _ _ _ _ _ _ | hyb _ _ _ _ _ _ | br4 _ _ => exact hs.1
    subst hta
    have htop : t = .general ∧ op = .none := by
      revert hq
      cases k.real <;> cases t <;> cases f <;> cases op <;> decide
    obtain ⟨rfl, rfl⟩ := htop
    have hx : A.n ≤ x.length := h.xlen
    have hy : A.m ≤ y.length := h.ylen
    have hum : H.raw.um = (A.m : Int) := by rw [hH.raw]; rfl
    have hun : H.raw.un = (A.n : Int) := by rw [hH.raw]; rfl
    have hnz : H.raw.nnz = (A.nnz : Int) := by rw [hH.raw]; rfl
    -- all three deliver the plain product
    have fin : ∀ {r : Option (List R)}, (∃ y', r = some y' ∧ IsMv alpha beta A.mat A.m A.n x y y') →
        ∀ g, MvOut isa k false A .general f D .none alpha beta x y g
          ((done r).bind fun q => some (q.1, q.2, H)) := by
      rintro r ⟨y', e1, e2⟩ g
      refine ⟨.success, y', H, by rw [e1]; rfl, hH, by simp, fun _ => e2, fun _ _ => rfl⟩
    cases s with
    | csr c opt iu => exact absurd rfl hf0
    | br4 b B =>
      obtain ⟨b', B', hmem, hfind⟩ := findBr4_some H.mats hi
      obtain ⟨-, hb, hB, hp⟩ := hH.all _ hmem
      dsimp only
      unfold mvBr4
      rw [hfind]
      dsimp only
      rw [hb, hum]
      obtain ⟨y', e1, e2⟩ := br4Mv_spec hA hp hB hx (alpha := alpha) (beta := beta) (Rep.of_list y 0) hy
      exact fin ⟨y', e1, isMv_of_rep hy (fun i _ => rowDot_eq hA x i) e2⟩ _
    | hyb b w em ec ev map =>
      obtain ⟨b', w', em', ec', ev', map', hmem, hfind⟩ := findHyb_some H.mats hi
      obtain ⟨-, -, w0, pad, rest, hw, hem, hmap, hcont, hpad⟩ := hH.all _ hmem
      obtain ⟨-, hb, -⟩ := hs
      obtain ⟨idl, o, iu, rst, hfst⟩ := hH.first
      dsimp only
      unfold mvHyb
      rw [hfind, hfst]
      dsimp only
      rw [hb, hum, hw, hem, hmap]
      refine fin ?_ _
      by_cases h5 : isa.avx512 = true
      · rw [if_pos h5]
        obtain ⟨y', e1, e2⟩ := ellthybmvAvx512_spec hA hcont hx (fun i hi _ => hpad i hi) (alpha := alpha)
          (beta := beta) (Rep.of_list y 0) hy rest
        exact ⟨y', e1, isMv_of_rep hy (fun i _ => rowDot_eq hA x i) e2⟩
      · rw [if_neg h5]
        exact C11_ellthybmv A hA w0 ec' ev' pad rest hcont hpad alpha beta x y hx hy
    | blk b nR ptr ind masks val =>
      obtain ⟨-, hb, nR', hnR, hn124, hn8, hwf, hrow⟩ := hs
      dsimp only
      unfold mvBlk
      rw [if_neg (by simp [hdb]), if_pos hq, hum, hun, hnz, hb, hnR]
      by_cases hvl : isa.vl = true
      · obtain ⟨y', e1, e2⟩ := C14_blkcsrmv _ hwf hn124 hm0 hn8 A.nnz (hz rfl) alpha beta
          ⟨if getDoid k.real MType.general.code f.code Op.none.code = gn then 0 else 0, f.code, D.code, A.base⟩
          rfl (by simp) x y hx hy
        rw [hvl]
        refine ⟨.success, y', H, ?_, hH, by simp, ?_, fun _ _ => rfl⟩
        · have e1' := e1
          simp only at e1'
          simp only [MType.code] at e1' ⊢
          simp only [e1', Option.bind_eq_bind, Option.bind_some, Option.getD_some]
        · intro _
          refine IsMv.congr e2 ?_
          intro i j hi hj
          show A.mat i j = _
          unfold BlkCsr.mat Csr.mat Csr.entry
          rw [hrow i hi]
      · have : isa.vl = false := by simpa using hvl
        rw [this]
        refine ⟨.notImplemented, y, H, ?_, hH, fun _ => rfl, by simp, ?_⟩
        · simp [blkcsrmv]
        · rintro ⟨-, -, -, h1, -⟩
          exact absurd h1 hvl

end call
end Verif
