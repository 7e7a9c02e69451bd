/-
C28  Sparse matrix product in one or two stages.
-/
import Verif.Proofs.Sp2m4
import Mathlib.Data.Rat.Star

namespace Verif
open Model Finset

variable {R : Type} [CommSemiring R] [StarRing R]

/-! ### the effective operations -/

/-- the stored arrays have to be transposed -/
def trOf (ta : Bool) (op : Op) : Bool := ta != decide (op ≠ .none)

/-- the map applied to the values -/
def cjOf (R : Type) [CommSemiring R] [StarRing R] (isReal : Bool) (op : Op) : R →+* R :=
  if op = .conjTrans ∧ isReal = false then starRingEnd R else RingHom.id R

theorem eff_bits (isReal ta : Bool) (fm : Nat) (op : Op) :
    (effDoid (if ta then gt else gn) (getDoid isReal 0 fm op.code) &&& 2 ≠ 0 ↔ trOf ta op = true) ∧
    (effDoid (if ta then gt else gn) (getDoid isReal 0 fm op.code) &&& 1 ≠ 0 ↔
      op = .conjTrans ∧ isReal = false) := by
  have h : getDoid isReal 0 fm op.code = getDoid isReal 0 0 op.code := by
    simp [getDoid]
  rw [h]
  cases isReal <;> cases ta <;> cases op <;> decide

theorem effMat (isReal ta : Bool) (op : Op) (A : Csr R) (hreal : isReal = true → ∀ x : R, star x = x)
    (i j : Nat) : applyOp op (userMat ta A) i j
      = cjOf R isReal op (if trOf ta op then A.mat j i else A.mat i j) := by
  have hs : isReal = true → ∀ x : R, star x = x := hreal
  cases ta <;> cases op <;> cases isReal <;>
    simp [applyOp, userMat, transM, cjOf, trOf, starRingEnd_apply, hs]

omit [CommSemiring R] [StarRing R] in
theorem effStored (ta : Bool) (op : Op) (A : Csr R) (i j : Nat) :
    opStored op ta A i j ↔ if trOf ta op then (i : Int) ∈ A.cols j else (j : Int) ∈ A.cols i := by
  cases ta <;> cases op <;> simp [opStored, userStored, trOf, Csr.cols]

omit [CommSemiring R] [StarRing R] in
theorem effRows (ta : Bool) (op : Op) (A : Csr R) :
    opRows op ta A = (if trOf ta op then A.n else A.m) ∧
    opCols op ta A = (if trOf ta op then A.m else A.n) := by
  cases ta <;> cases op <;> simp [opRows, opCols, userRows, userCols, trOf]

theorem orientG_ok {A : Csr R} (h : A.WF) (tr isT : Bool) (g : Garb R) :
    ∃ A', orientG tr g (A.raw isT) = some (.ok A'.arrs) ∧ Oriented tr A A' := by
  cases tr
  · exact ⟨A, rfl, oriented_refl h⟩
  · obtain ⟨B, he, h1, h2, h3, hwf, hrow, hp⟩ := C05_csr2csc A h A.base h.base01
      (alloc (A.n + 1) g.p) (alloc A.nnz g.i) (alloc A.nnz g.v)
      (by simp) (by simp) (by simp)
    refine ⟨B, ?_, oriented_trans h h1 h2 h3 hwf hrow hp⟩
    unfold orientG
    simp only [Csr.raw, if_true]
    rw [show ((A.n : Int) + 1).toNat = A.n + 1 by omega, Int.toNat_natCast, he]
    simp [Csr.arrs, h3]

/-- both stored arrays would have to be transposed: the product is computed as (B·A)ᵀ -/
def bothT (ta : Bool) (opA : Op) (tb : Bool) (opB : Op) : Bool := trOf ta opA && trOf tb opB

/-- the factors of the computed product -/
def Eff (opA : Op) (ta : Bool) (A : Csr R) (opB : Op) (tb : Bool) (B X Y : Csr R) : Prop :=
  if bothT ta opA tb opB then X = B ∧ Y = A
  else Oriented (trOf ta opA) A X ∧ Oriented (trOf tb opB) B Y

/-- the internal operation flag -/
def effFlag (ta : Bool) (opA : Op) (tb : Bool) (opB : Op) : Int :=
  if bothT ta opA tb opB then 3
  else (if trOf ta opA then 1 else 0) + (if trOf tb opB then 2 else 0)

theorem effFlag_three (ta : Bool) (opA : Op) (tb : Bool) (opB : Op) :
    decide (effFlag ta opA tb opB = 3) = bothT ta opA tb opB := by
  cases ta <;> cases tb <;> cases opA <;> cases opB <;> decide

theorem Eff.wf {opA : Op} {ta : Bool} {A : Csr R} {opB : Op} {tb : Bool} {B X Y : Csr R}
    (h : Eff opA ta A opB tb B X Y) (hA : A.WF) (hB : B.WF)
    (hdim : opCols opA ta A = opRows opB tb B) : X.WF ∧ Y.WF ∧ X.n = Y.m := by
  rw [(effRows ta opA A).2, (effRows tb opB B).1] at hdim
  unfold Eff at h
  split at h
  · rename_i hb
    simp only [bothT, Bool.and_eq_true] at hb
    obtain ⟨rfl, rfl⟩ := h
    rw [if_pos hb.1, if_pos hb.2] at hdim
    exact ⟨hB, hA, hdim.symm⟩
  · exact ⟨h.1.wf, h.2.wf, by rw [h.1.n, h.2.m, hdim]⟩

/-- dispatch of a call with general descriptors -/
theorem sp2mRun_eq {w : Nat} (isReal : Bool) (tm : Teams) (g : Nat → Garb R) (opA : Op)
    (dA : Descr) (ta : Bool) (A : Csr R) (opB : Op) (dB : Descr) (tb : Bool) (B : Csr R)
    (hA : A.WF) (hB : B.WF) (hda : dA.type = 0) (hdb : dB.type = 0) :
    ∃ X Y, Eff opA ta A opB tb B X Y ∧
      ∀ req C, sp2mRun w isReal tm g star opA.code dA (A.raw ta) opB.code dB (B.raw tb) req C
        = mmDispatch w tm g
          (cjOf R isReal (if bothT ta opA tb opB then opB else opA))
          (cjOf R isReal (if bothT ta opA tb opB then opA else opB))
          X.m Y.n X.arrs Y.arrs C (effFlag ta opA tb opB) req := by
  have b1 := eff_bits isReal ta dA.fill opA
  have b2 := eff_bits isReal tb dB.fill opB
  have hcj : ∀ op : Op, (if op = .conjTrans ∧ isReal = false then (star : R → R) else id)
      = cjOf R isReal op := by
    intro op
    unfold cjOf
    split <;> rfl
  have d1 : (A.raw ta).doid = if ta then gt else gn := rfl
  have d2 : (B.raw tb).doid = if tb then gt else gn := rfl
  unfold Eff effFlag
  by_cases hb : bothT ta opA tb opB = true
  · have hb' : trOf ta opA = true ∧ trOf tb opB = true := by
      simpa [bothT] using hb
    refine ⟨B, A, by rw [if_pos hb]; exact ⟨rfl, rfl⟩, ?_⟩
    intro req C
    unfold sp2mRun
    simp only [d1, d2, hda, hdb, b1.1, b1.2, b2.1, b2.2, hcj, hb, hb'.1, hb'.2, if_true,
      Bool.decide_eq_true, and_self]
    rfl
  · obtain ⟨X, ea, oa⟩ := orientG_ok hA (trOf ta opA) ta (g 0)
    obtain ⟨Y, eb, ob⟩ := orientG_ok hB (trOf tb opB) tb (g 1)
    refine ⟨X, Y, by rw [if_neg hb]; exact ⟨oa, ob⟩, ?_⟩
    intro req C
    have hb' : ¬ (trOf ta opA = true ∧ trOf tb opB = true) := by
      simpa [bothT] using hb
    unfold sp2mRun
    simp only [d1, d2, hda, hdb, b1.1, b1.2, b2.1, b2.2, hcj, hb, hb',
      Bool.decide_eq_true, if_false]
    rw [ea, Option.bind_some]
    simp only
    rw [eb, Option.bind_some]
    simp only
    rw [oa.m, ob.n]
    congr 1
    · simp only [Csr.raw]; split <;> rfl
    · simp only [Csr.raw]; split <;> rfl

/-- The handle holds the product op(A)·op(B): its CSR arrays are those of a well-formed zero-based
matrix without duplicates that has the right dimensions and elements and stores exactly the
positions with at least one stored product; a second internal copy, if any, holds the transpose. -/
def IsProduct (opA : Op) (ta : Bool) (A : Csr R) (opB : Op) (tb : Bool) (B : Csr R)
    (H : Sp2mH R) : Prop :=
  ∃ C : Csr R, H.m = C.m ∧ H.n = C.n ∧ H.nnz = C.nnz ∧ H.csr = C.arrs ∧ C.base = 0 ∧ C.WF ∧
    C.NoDup ∧ C.m = opRows opA ta A ∧ C.n = opCols opB tb B ∧
    (∀ i j, i < C.m → j < C.n → C.mat i j
      = matMul (opCols opA ta A) (applyOp opA (userMat ta A)) (applyOp opB (userMat tb B)) i j) ∧
    (∀ i j, i < C.m → j < C.n → (userStored false C i j ↔ prodStored opA ta A opB tb B i j)) ∧
    (∀ c, H.csc = some c → ∃ D : Csr R, c = D.arrs ∧ D.WF ∧ D.m = C.n ∧ D.n = C.m ∧
      ∀ i j, i < C.m → j < C.n → D.mat j i = C.mat i j)

/-- what the computed arrays denote -/
theorem eff_product (isReal : Bool) (hreal : isReal = true → ∀ x : R, star x = x)
    {opA : Op} {ta : Bool} {A : Csr R} {opB : Op} {tb : Bool} {B X Y C : Csr R}
    (h : Eff opA ta A opB tb B X Y) (hA : A.WF) (hB : B.WF)
    (hdim : opCols opA ta A = opRows opB tb B)
    (hC : Oriented (bothT ta opA tb opB) (mmCsr
      (cjOf R isReal (if bothT ta opA tb opB then opB else opA))
      (cjOf R isReal (if bothT ta opA tb opB then opA else opB)) X Y) C) :
    C.m = opRows opA ta A ∧ C.n = opCols opB tb B ∧
    (∀ i j, i < C.m → j < C.n → C.mat i j
      = matMul (opCols opA ta A) (applyOp opA (userMat ta A)) (applyOp opB (userMat tb B)) i j) ∧
    (∀ i j, i < C.m → j < C.n → (userStored false C i j ↔ prodStored opA ta A opB tb B i j)) := by
  obtain ⟨hX, hY, hXY⟩ := h.wf hA hB hdim
  have rA := effRows ta opA A
  have rB := effRows tb opB B
  have hm := hC.m
  have hn := hC.n
  have ms : ∀ i j, userStored false C i j ↔ (j : Int) ∈ C.cols i := by
    intro i j; simp [userStored, Csr.cols]
  simp only [mmCsr, mkCsr] at hm hn
  unfold Eff at h
  by_cases hb : bothT ta opA tb opB = true
  · have hb' : trOf ta opA = true ∧ trOf tb opB = true := by simpa [bothT] using hb
    rw [if_pos hb] at h hm hn
    obtain ⟨rfl, rfl⟩ := h
    simp only [hb'.1, hb'.2, if_true] at rA rB
    refine ⟨by rw [hm, rA.1], by rw [hn, rB.2], ?_, ?_⟩
    · intro i j hi hj
      show C.entry i j = _
      rw [hC.entry i j hi hj, if_pos hb]
      have := mmCsr_mat (cjOf R isReal (if bothT ta opA tb opB = true then opB else opA))
        (cjOf R isReal (if bothT ta opA tb opB = true then opA else opB)) (A := X) (B := Y) hX
        (i := j) (by omega) i
      refine Eq.trans this ?_
      unfold matMul
      rw [rA.2, hXY]
      apply Finset.sum_congr rfl
      intro k _
      rw [effMat isReal ta opA Y hreal i k, effMat isReal tb opB X hreal k j, hb'.1, hb'.2, hb]
      simp only [if_true]
      ring
    · intro i j hi hj
      rw [ms, hC.stored i j hi hj, if_pos hb, mmCsr_cols _ _ (by omega), mem_firsts,
        mmCols_mem hX]
      unfold prodStored
      rw [rA.2, hXY]
      apply exists_congr
      intro k
      rw [effStored, effStored, hb'.1, hb'.2]
      simp only [if_true]
      exact and_congr_right fun _ => and_comm
  · have hb' : bothT ta opA tb opB = false := by simpa using hb
    rw [if_neg hb] at h hm hn
    rw [hb'] at hC
    simp only [Bool.false_eq_true, if_false] at hC
    obtain ⟨oa, ob⟩ := h
    have h1 : X.m = opRows opA ta A := by rw [oa.m, rA.1]
    have h2 : Y.n = opCols opB tb B := by rw [ob.n, rB.2]
    have h3 : X.n = opCols opA ta A := by rw [oa.n, rA.2]
    refine ⟨by rw [hm, h1], by rw [hn, h2], ?_, ?_⟩
    · intro i j hi hj
      show C.entry i j = _
      rw [hC.entry i j hi hj]
      simp only [Bool.false_eq_true, if_false]
      refine Eq.trans (mmCsr_mat (cjOf R isReal opA) (cjOf R isReal opB) hX (i := i) (by omega) j) ?_
      unfold matMul
      rw [← h3]
      apply Finset.sum_congr rfl
      intro k hk
      have hk := Finset.mem_range.mp hk
      rw [effMat isReal ta opA A hreal i k, effMat isReal tb opB B hreal k j]
      have e1 := oa.entry i k (by omega) hk
      have e2 := ob.entry k j (by omega) (by omega)
      rw [show X.mat i k = _ from e1, show Y.mat k j = _ from e2]
      rfl
    · intro i j hi hj
      rw [ms, hC.stored i j hi hj]
      simp only [Bool.false_eq_true, if_false]
      rw [mmCsr_cols _ _ (by omega), mem_firsts, mmCols_mem hX]
      unfold prodStored
      rw [h3]
      apply exists_congr
      intro k
      apply and_congr_right
      intro hk
      rw [effStored, effStored, oa.stored i k (by omega) (by omega),
        ob.stored k j (by omega) (by omega)]


theorem eff_count {opA : Op} {ta : Bool} {A : Csr R} {opB : Op} {tb : Bool} {B X Y : Csr R}
    (h : Eff opA ta A opB tb B X Y) (hA : A.WF) (hB : B.WF)
    (hdim : opCols opA ta A = opRows opB tb B) :
    mmOff X Y X.m = prodCount opA ta A opB tb B := by
  obtain ⟨hX, hY, hXY⟩ := h.wf hA hB hdim
  have hwf := mmCsr_wf (RingHom.id R) (RingHom.id R) (A := X) hY
  -- the statement is about patterns only: use the identity conjugation of `isReal = false`
  have hw2 := mmCsr_wf (cjOf R false (if bothT ta opA tb opB then opB else opA))
    (cjOf R false (if bothT ta opA tb opB then opA else opB)) (A := X) hY
  obtain ⟨C, -, hC⟩ := orient_ok hw2 (bothT ta opA tb opB) false
  obtain ⟨h1, h2, -, h4⟩ := eff_product false (by simp) h hA hB hdim hC
  have hn := Csr.nnz_eq_ncard hC.wf (hC.nodup (mmCsr_nodup _ _))
  rw [← mmCsr_nnz (cjOf R false (if bothT ta opA tb opB then opB else opA))
    (cjOf R false (if bothT ta opA tb opB then opA else opB)), ← hC.nnz, hn]
  unfold prodCount
  rw [← h1, ← h2]
  congr 1
  ext p
  simp only [Set.mem_setOf_eq]
  constructor
  · rintro ⟨a, b, c⟩
    exact ⟨a, b, (h4 _ _ a b).mp (by simpa [userStored, Csr.cols] using c)⟩
  · rintro ⟨a, b, c⟩
    exact ⟨a, b, by simpa [userStored, Csr.cols] using (h4 _ _ a b).mpr c⟩

/-- the thread teams of a call can be given the rows (or, if both stored arrays are transposed,
the columns) of the product -/
def Model.Teams.Ok (tm : Teams) (w m n : Nat) : Prop :=
  TeamOk w m tm.t1 tm.ord1 ∧ TeamOk w m tm.t2 tm.ord2 ∧
  TeamOk w n tm.t1 tm.ord1 ∧ TeamOk w n tm.t2 tm.ord2

theorem Eff.team {opA : Op} {ta : Bool} {A : Csr R} {opB : Op} {tb : Bool} {B X Y : Csr R}
    (h : Eff opA ta A opB tb B X Y) {tm : Teams} {w : Nat}
    (ht : tm.Ok w (opRows opA ta A) (opCols opB tb B)) :
    TeamOk w X.m tm.t1 tm.ord1 ∧ TeamOk w X.m tm.t2 tm.ord2 := by
  have rA := (effRows ta opA A).1
  have rB := (effRows tb opB B).2
  unfold Eff at h
  split at h
  · rename_i hb
    simp only [bothT, Bool.and_eq_true] at hb
    obtain ⟨rfl, rfl⟩ := h
    rw [if_pos hb.2] at rB
    rw [← rB]
    exact ht.2.2
  · rw [h.1.m, ← rA]
    exact ⟨ht.1, ht.2.1⟩

omit [CommSemiring R] [StarRing R] in
theorem cols_range {A : Csr R} (h : A.WF) {i : Nat} {c : Int} (hc : c ∈ A.cols i) :
    i < A.m ∧ 0 ≤ c ∧ c < A.n := by
  by_cases hi : i < A.m
  · simp only [Csr.cols, List.mem_map] at hc
    obtain ⟨e, he, rfl⟩ := hc
    have := Csr.row_range h he
    exact ⟨hi, this⟩
  · simp [Csr.cols, Csr.row_of_ge h (by omega : A.m ≤ i)] at hc

theorem Oriented.samePat {tr : Bool} {A A' X X' : Csr R} (h : SamePat A A')
    (o : Oriented tr A X) (o' : Oriented tr A' X') : SamePat X X' := by
  refine ⟨by rw [o.m, o'.m, h.1, h.2.1], by rw [o.n, o'.n, h.1, h.2.1], ?_⟩
  have hm : X'.m = X.m := by rw [o.m, o'.m, h.1, h.2.1]
  have hn : X'.n = X.n := by rw [o.n, o'.n, h.1, h.2.1]
  intro i c
  have key : ∀ j : Nat, i < X.m → j < X.n → ((j : Int) ∈ X'.cols i ↔ (j : Int) ∈ X.cols i) := by
    intro j hi hj
    rw [o.stored i j hi hj, o'.stored i j (by omega) (by omega)]
    split
    · exact h.2.2 _ _
    · exact h.2.2 _ _
  constructor
  · intro hc
    obtain ⟨h1, h2, h3⟩ := cols_range o'.wf hc
    obtain ⟨j, rfl⟩ := Int.eq_ofNat_of_zero_le h2
    exact (key j (by omega) (by omega)).mp hc
  · intro hc
    obtain ⟨h1, h2, h3⟩ := cols_range o.wf hc
    obtain ⟨j, rfl⟩ := Int.eq_ofNat_of_zero_le h2
    exact (key j (by omega) (by omega)).mpr hc

theorem Eff.samePat {opA : Op} {ta : Bool} {opB : Op} {tb : Bool} {A A' B B' X Y X' Y' : Csr R}
    (h : Eff opA ta A opB tb B X Y) (h' : Eff opA ta A' opB tb B' X' Y') (hA : SamePat A A')
    (hB : SamePat B B') : SamePat X X' ∧ SamePat Y Y' := by
  unfold Eff at h h'
  split at h
  · rename_i hb
    rw [if_pos hb] at h'
    obtain ⟨rfl, rfl⟩ := h
    obtain ⟨rfl, rfl⟩ := h'
    exact ⟨hB, hA⟩
  · rename_i hb
    rw [if_neg hb] at h'
    exact ⟨h.1.samePat hA h'.1, h.2.samePat hB h'.2⟩

omit [CommSemiring R] [StarRing R] in
theorem nnz_zero_iff {A : Csr R} (h : A.WF) : A.nnz = 0 ↔ ∀ i c, c ∉ A.cols i := by
  rw [← Csr.entries_length h, List.length_eq_zero_iff]
  constructor
  · intro he i c hc
    obtain ⟨hi, -⟩ := cols_range h hc
    simp only [Csr.cols, List.mem_map] at hc
    obtain ⟨e, he', rfl⟩ := hc
    have : (i, e) ∈ A.entries := (Csr.mem_entries ..).mpr ⟨hi, he'⟩
    rw [he] at this
    simp at this
  · intro hn
    rw [List.eq_nil_iff_forall_not_mem]
    rintro ⟨i, e⟩ hm
    have := (Csr.mem_entries ..).mp hm
    exact hn i e.1 (by simp only [Csr.cols, List.mem_map]; exact ⟨e, this.2, rfl⟩)

/-- an empty product -/
def QuickC (opA : Op) (ta : Bool) (A : Csr R) (opB : Op) (tb : Bool) (B : Csr R) : Prop :=
  opRows opA ta A = 0 ∨ opCols opA ta A = 0 ∨ opCols opB tb B = 0 ∨ A.nnz = 0 ∨ B.nnz = 0

/-- the handle of an empty product -/
def zeroH (R : Type) (m n : Nat) : Sp2mH R := ⟨m, n, 0, none, ⟨0, List.replicate (m + 1) 0, [], []⟩⟩

omit [CommSemiring R] [StarRing R] in
/-- the checks of a call with general descriptors of the right base -/
theorem sp2m_checks [Zero R] [Add R] [Mul R] {cj : R → R} {w : Nat} (isReal : Bool) (tm : Teams) (g : Nat → Garb R) (opA : Op)
    {dA : Descr} (ta : Bool) {A : Csr R} (opB : Op) {dB : Descr} (tb : Bool) {B : Csr R}
    (hA : A.WF) (hB : B.WF) (hda : dA.type = 0 ∧ dA.base = A.base)
    (hdb : dB.type = 0 ∧ dB.base = B.base) (req : Int) (C : Option (Sp2mH R)) :
    sp2m w isReal tm g cj opA.code (some dA) (some (A.raw ta)) opB.code (some dB)
        (some (B.raw tb)) req C
      = if opCols opA ta A ≠ opRows opB tb B then
          some (.invalidSize, if req ≠ 1 then none else C)
        else if opRows opA ta A = 0 ∨ opCols opA ta A = 0 ∨ opCols opB tb B = 0 ∨ A.nnz = 0 ∨
            B.nnz = 0 then
          some (.success, some ((if req ≠ 1 then none else C).getD
            (zeroH R (opRows opA ta A) (opCols opB tb B))))
        else sp2mRun w isReal tm g cj opA.code dA (A.raw ta) opB.code dB (B.raw tb) req
          (if req ≠ 1 then none else C) := by
  have u1 : (A.raw ta).um = (userRows ta A : Int) := by cases ta <;> rfl
  have u2 : (A.raw ta).un = (userCols ta A : Int) := by cases ta <;> rfl
  have u3 : (B.raw tb).um = (userRows tb B : Int) := by cases tb <;> rfl
  have u4 : (B.raw tb).un = (userCols tb B : Int) := by cases tb <;> rfl
  have r1 : (if opA.code = 111 then (A.raw ta).um else (A.raw ta).un) = (opRows opA ta A : Int) := by
    rw [u1, u2]; unfold opRows; cases opA <;> simp [Op.code]
  have r2 : (if opA.code = 111 then (A.raw ta).un else (A.raw ta).um) = (opCols opA ta A : Int) := by
    rw [u1, u2]; unfold opCols; cases opA <;> simp [Op.code]
  have r3 : (if opB.code = 111 then (B.raw tb).um else (B.raw tb).un) = (opRows opB tb B : Int) := by
    rw [u3, u4]; unfold opRows; cases opB <;> simp [Op.code]
  have r4 : (if opB.code = 111 then (B.raw tb).un else (B.raw tb).um) = (opCols opB tb B : Int) := by
    rw [u3, u4]; unfold opCols; cases opB <;> simp [Op.code]
  have c1 : ¬ ((A.raw ta).fmt ≠ 0 ∨ (B.raw tb).fmt ≠ 0) := by simp [Csr.raw]
  have c2 : ¬ (¬ (dA.base = 0 ∨ dA.base = 1) ∨ ¬ (dB.base = 0 ∨ dB.base = 1)) := by
    rw [hda.2, hdb.2]
    have := hA.base01
    have := hB.base01
    omega
  have c3 : ¬ ((A.raw ta).base ≠ dA.base ∨ (B.raw tb).base ≠ dB.base) := by
    rw [hda.2, hdb.2]; simp [Csr.raw]
  have c4 : ¬ (dA.type ≠ 0 ∨ dB.type ≠ 0) := by simp [hda.1, hdb.1]
  have c5 : ¬ (¬ isOp opA.code ∨ ¬ isOp opB.code) := by
    cases opA <;> cases opB <;> decide
  have n1 : (A.raw ta).nnz = (A.nnz : Int) := rfl
  have n2 : (B.raw tb).nnz = (B.nnz : Int) := rfl
  unfold sp2m
  dsimp only
  rw [if_neg c1, if_neg c2, if_neg c3, if_neg c4, if_neg c5]
  simp only [r1, r2, r3, r4, n1, n2]
  by_cases hd : opCols opA ta A ≠ opRows opB tb B
  · rw [if_pos hd, if_pos (by omega)]
  · rw [if_neg hd, if_neg (by omega)]
    by_cases hq : opRows opA ta A = 0 ∨ opCols opA ta A = 0 ∨ opCols opB tb B = 0 ∨ A.nnz = 0 ∨
            B.nnz = 0
    · rw [if_pos hq, if_pos (by omega)]
      generalize (if req ≠ 1 then none else C) = D
      cases D
      · simp only [zeroH, Option.getD_none]
        rw [show ((opRows opA ta A : Int) + 1).toNat = opRows opA ta A + 1 by omega]
      · rfl
    · rw [if_neg hq, if_neg (by omega)]

/-- an empty product is represented by the handle of an empty product -/
theorem zero_product {opA : Op} {ta : Bool} {A : Csr R} {opB : Op} {tb : Bool} {B : Csr R}
    (hA : A.WF) (hB : B.WF) (hq : QuickC opA ta A opB tb B) :
    IsProduct opA ta A opB tb B (zeroH R (opRows opA ta A) (opCols opB tb B)) ∧
      prodCount opA ta A opB tb B = 0 := by
  have hrow : ∀ i, (mkCsr (opRows opA ta A) (opCols opB tb B) 0 (fun _ => [] : Nat → List (Int × R))).row i
      = [] := by
    intro i
    by_cases hi : i < opRows opA ta A
    · exact mkCsr_row hi
    · have hwf : (mkCsr (opRows opA ta A) (opCols opB tb B) 0 (fun _ => [] : Nat → List (Int × R))).WF :=
        mkCsr_wf (.inl rfl) (by simp)
      exact Csr.row_of_ge hwf (by simpa [mkCsr] using hi)
  have hno : ∀ i j, i < opRows opA ta A → j < opCols opB tb B →
      ¬ prodStored opA ta A opB tb B i j := by
    rintro i j hi hj ⟨k, hk, s1, s2⟩
    rw [effStored] at s1 s2
    rcases hq with h | h | h | h | h
    · omega
    · omega
    · omega
    · have := (nnz_zero_iff hA).mp h
      split at s1
      · exact this _ _ s1
      · exact this _ _ s1
    · have := (nnz_zero_iff hB).mp h
      split at s2
      · exact this _ _ s2
      · exact this _ _ s2
  refine ⟨⟨mkCsr (opRows opA ta A) (opCols opB tb B) 0 (fun _ => []), rfl, rfl, ?_, ?_, rfl,
    mkCsr_wf (.inl rfl) (by simp), ?_, rfl, rfl, ?_, ?_, ?_⟩, ?_⟩
  · simp [zeroH, Csr.nnz, mkCsr]
  · simp [zeroH, Csr.arrs, mkCsr, offs, List.map_const']
  · intro i _
    simp [Csr.cols, hrow]
  · intro i j hi hj
    have hz : matMul (opCols opA ta A) (applyOp opA (userMat ta A)) (applyOp opB (userMat tb B)) i j
        = 0 := by
      unfold matMul
      have zero : ∀ (M : Csr R), M.WF → M.nnz = 0 → ∀ a b, M.mat a b = 0 := by
        intro M hM h0 a b
        rw [mat_eq_colSum]
        have : M.row a = [] := by
          rw [List.eq_nil_iff_forall_not_mem]
          intro e he
          exact (nnz_zero_iff hM).mp h0 a e.1 (List.mem_map.mpr ⟨e, he, rfl⟩)
        simp [this, colSum]
      have zero' : ∀ (M : Csr R) (op : Op) (t : Bool), M.WF → M.nnz = 0 → ∀ a b,
          applyOp op (userMat t M) a b = 0 := by
        intro M op t hM h0 a b
        cases op <;> cases t <;> simp [applyOp, userMat, transM, zero M hM h0]
      rcases hq with h | h | h | h | h
      · simp only [mkCsr] at hi; omega
      · rw [h]; rfl
      · simp only [mkCsr] at hj; omega
      · exact Finset.sum_eq_zero fun k _ => by rw [zero' A opA ta hA h, zero_mul]
      · exact Finset.sum_eq_zero fun k _ => by rw [zero' B opB tb hB h, mul_zero]
    rw [hz, mat_eq_colSum, hrow]
    rfl
  · intro i j hi hj
    constructor
    · intro hs
      simp [userStored, hrow, Csr.cols] at hs
    · intro hs
      exact absurd hs (hno i j hi hj)
  · intro c hc
    simp [zeroH] at hc
  · unfold prodCount
    convert Set.ncard_empty (α := Nat × Nat)
    rw [Set.eq_empty_iff_forall_notMem]
    rintro ⟨i, j⟩ ⟨h1, h2, h3⟩
    exact hno i j h1 h2 h3

/-! ### the theorems -/

/-- the number of entries of the product fits the integer type -/
def ProdFits (w : Nat) (opA : Op) (ta : Bool) (A : Csr R) (opB : Op) (tb : Bool) (B : Csr R) : Prop :=
  64 ≤ w ∨ (prodCount opA ta A opB tb B : Int) ≤ intMax w

/-- Handles that a history of calls on matrices with the patterns of `A` and `B` produces: a count
stage or a full call, then any number of finalize stages with current values. -/
inductive Reach (w : Nat) (isReal : Bool) (opA : Op) (ta : Bool) (A : Csr R) (opB : Op) (tb : Bool)
    (B : Csr R) : Sp2mH R → Prop
  | start (tm : Teams) (g : Nat → Garb R) (dA dB : Descr) (A' B' : Csr R) (req : Int)
      (C : Option (Sp2mH R)) (H : Sp2mH R) (hA : A'.WF) (hB : B'.WF) (pA : SamePat A A')
      (pB : SamePat B B') (hda : dA.type = 0 ∧ dA.base = A'.base)
      (hdb : dB.type = 0 ∧ dB.base = B'.base)
      (ht : tm.Ok w (opRows opA ta A) (opCols opB tb B)) (hreq : req = 0 ∨ req = 2)
      (he : sp2m w isReal tm g star opA.code (some dA) (some (A'.raw ta)) opB.code (some dB)
        (some (B'.raw tb)) req C = some (.success, some H)) : Reach w isReal opA ta A opB tb B H
  | next (tm : Teams) (g : Nat → Garb R) (dA dB : Descr) (A' B' : Csr R) (H H' : Sp2mH R)
      (hr : Reach w isReal opA ta A opB tb B H) (hA : A'.WF) (hB : B'.WF) (pA : SamePat A A')
      (pB : SamePat B B') (hda : dA.type = 0 ∧ dA.base = A'.base)
      (hdb : dB.type = 0 ∧ dB.base = B'.base)
      (ht : tm.Ok w (opRows opA ta A) (opCols opB tb B))
      (he : sp2m w isReal tm g star opA.code (some dA) (some (A'.raw ta)) opB.code (some dB)
        (some (B'.raw tb)) 1 (some H) = some (.success, some H')) :
      Reach w isReal opA ta A opB tb B H'

omit [CommSemiring R] [StarRing R] in
theorem SamePat.refl (A : Csr R) : SamePat A A := ⟨rfl, rfl, fun _ _ => Iff.rfl⟩
omit [CommSemiring R] [StarRing R] in
theorem SamePat.symm {A B : Csr R} (h : SamePat A B) : SamePat B A :=
  ⟨h.1.symm, h.2.1.symm, fun i c => (h.2.2 i c).symm⟩
omit [CommSemiring R] [StarRing R] in
theorem SamePat.trans {A B C : Csr R} (h : SamePat A B) (h' : SamePat B C) : SamePat A C :=
  ⟨h'.1.trans h.1, h'.2.1.trans h.2.1, fun i c => (h'.2.2 i c).trans (h.2.2 i c)⟩

omit [CommSemiring R] [StarRing R] in
theorem SamePat.dims {A A' : Csr R} (h : SamePat A A') (op : Op) (t : Bool) :
    opRows op t A' = opRows op t A ∧ opCols op t A' = opCols op t A := by
  have h1 := effRows t op A
  have h2 := effRows t op A'
  rw [h1.1, h1.2, h2.1, h2.2, h.1, h.2.1]
  exact ⟨rfl, rfl⟩

omit [CommSemiring R] [StarRing R] in
theorem SamePat.quick {A A' B B' : Csr R} (hA : A.WF) (hB : B.WF) (hA' : A'.WF) (hB' : B'.WF)
    (pA : SamePat A A') (pB : SamePat B B') {opA : Op} {ta : Bool} {opB : Op} {tb : Bool} :
    QuickC opA ta A' opB tb B' ↔ QuickC opA ta A opB tb B := by
  have z : ∀ {X X' : Csr R}, X.WF → X'.WF → SamePat X X' → (X'.nnz = 0 ↔ X.nnz = 0) := by
    intro X X' h h' p
    rw [nnz_zero_iff h, nnz_zero_iff h']
    exact forall_congr' fun i => forall_congr' fun c => not_congr (p.2.2 i c)
  unfold QuickC
  rw [(pA.dims opA ta).1, (pA.dims opA ta).2, (pB.dims opB tb).2, z hA hA' pA, z hB hB' pB]

omit [CommSemiring R] [StarRing R] in
theorem SamePat.count {A A' B B' : Csr R} (pA : SamePat A A') (pB : SamePat B B') (opA : Op)
    (ta : Bool) (opB : Op) (tb : Bool) :
    prodCount opA ta A' opB tb B' = prodCount opA ta A opB tb B := by
  unfold prodCount prodStored
  simp only [(pA.dims opA ta).1, (pA.dims opA ta).2, (pB.dims opB tb).2, effStored, pA.2.2, pB.2.2]

/-- the invariant of a two-stage computation -/
def Ready (opA : Op) (ta : Bool) (A : Csr R) (opB : Op) (tb : Bool) (B : Csr R) (H : Sp2mH R) : Prop :=
  (QuickC opA ta A opB tb B ∧ H = zeroH R (opRows opA ta A) (opCols opB tb B)) ∨
  (¬ QuickC opA ta A opB tb B ∧
    ∃ X Y, Eff opA ta A opB tb B X Y ∧ Counted X Y (effFlag ta opA tb opB) H)

theorem ready_dims {opA : Op} {ta : Bool} {A : Csr R} {opB : Op} {tb : Bool} {B : Csr R}
    {H : Sp2mH R} (hA : A.WF) (hB : B.WF) (hdim : opCols opA ta A = opRows opB tb B)
    (h : Ready opA ta A opB tb B H) :
    H.m = opRows opA ta A ∧ H.n = opCols opB tb B ∧ H.nnz = prodCount opA ta A opB tb B := by
  rcases h with ⟨hq, rfl⟩ | ⟨-, X, Y, he, hc⟩
  · rw [(zero_product hA hB hq).2]
    exact ⟨rfl, rfl, rfl⟩
  · have hn := eff_count he hA hB hdim
    have rA := (effRows ta opA A).1
    have rB := (effRows tb opB B).2
    refine ⟨?_, ?_, by rw [hc.1, hn]⟩ <;>
    · have h3 := effFlag_three ta opA tb opB
      have hc2 := hc.2
      unfold Eff at he
      by_cases hb : bothT ta opA tb opB = true
      · rw [hb] at h3
        rw [if_pos (of_decide_eq_true h3)] at hc2
        rw [if_pos hb] at he
        simp only [bothT, Bool.and_eq_true] at hb
        rw [if_pos hb.1] at rA
        rw [if_pos hb.2] at rB
        obtain ⟨rfl, rfl⟩ := he
        first
          | rw [hc2.1, rA]
          | rw [hc2.2.1, rB]
      · have hb' : bothT ta opA tb opB = false := by simpa using hb
        rw [hb'] at h3
        rw [if_neg (of_decide_eq_false h3)] at hc2
        rw [if_neg hb] at he
        first
          | rw [hc2.1, he.1.m, rA]
          | rw [hc2.2.1, he.2.n, rB]

/-- the finalize stage on the structure of a finished count -/
theorem finalize_core {w : Nat} (isReal : Bool) (hreal : isReal = true → ∀ x : R, star x = x)
    {tm : Teams} {opA : Op} {ta : Bool} {A : Csr R} {opB : Op} {tb : Bool} {B X Y : Csr R}
    (hA : A.WF) (hB : B.WF) (hdim : opCols opA ta A = opRows opB tb B)
    (ht : tm.Ok w (opRows opA ta A) (opCols opB tb B))
    (he : Eff opA ta A opB tb B X Y) {H : Sp2mH R} (hc : Counted X Y (effFlag ta opA tb opB) H) :
    ∃ H', mmFinalize w tm (cjOf R isReal (if bothT ta opA tb opB then opB else opA))
          (cjOf R isReal (if bothT ta opA tb opB then opA else opB))
          X.m Y.n X.arrs Y.arrs (some H) (effFlag ta opA tb opB) = some (.success, some H') ∧
      IsProduct opA ta A opB tb B H' ∧ Counted X Y (effFlag ta opA tb opB) H' := by
  obtain ⟨hX, hY, hXY⟩ := he.wf hA hB hdim
  obtain ⟨H', C, e, hc', hor, h1, h2, h3, h4⟩ := mmFinalize_ok
    (cjOf R isReal (if bothT ta opA tb opB then opB else opA))
    (cjOf R isReal (if bothT ta opA tb opB then opA else opB)) hX hY hXY (he.team ht).2 hc
  refine ⟨H', e, ?_, hc'⟩
  rw [effFlag_three] at hor
  obtain ⟨p1, p2, p3, p4⟩ := eff_product isReal hreal he hA hB hdim hor
  have hcb : C.base = 0 := by rw [hor.base]; rfl
  refine ⟨C, h1, h2, ?_, h3, hcb, hor.wf, hor.nodup (mmCsr_nodup _ _), p1, p2, p3, p4, ?_⟩
  · rw [hc'.1, hor.nnz, mmCsr_nnz]
  · intro c hcs
    rw [h4] at hcs
    have h3' := effFlag_three ta opA tb opB
    split at hcs
    · rename_i h3f
      rw [decide_eq_true h3f] at h3'
      obtain rfl := (Option.some.inj hcs).symm
      refine ⟨_, rfl, mmCsr_wf _ _ hY, ?_, ?_, ?_⟩
      · rw [hor.n, ← h3']; rfl
      · rw [hor.m, ← h3']; rfl
      · intro i j hi hj
        have := hor.entry i j hi hj
        rw [← h3', if_pos rfl] at this
        rw [← h3']
        exact this.symm
    · simp at hcs

/-- a count or full call establishes the invariant -/
theorem start_core {w : Nat} (isReal : Bool) (hreal : isReal = true → ∀ x : R, star x = x)
    (tm : Teams) (g : Nat → Garb R) (opA : Op) {dA : Descr} (ta : Bool) {A : Csr R} (opB : Op)
    {dB : Descr} (tb : Bool) {B : Csr R} (hA : A.WF) (hB : B.WF)
    (hda : dA.type = 0 ∧ dA.base = A.base) (hdb : dB.type = 0 ∧ dB.base = B.base)
    (hdim : opCols opA ta A = opRows opB tb B)
    (ht : tm.Ok w (opRows opA ta A) (opCols opB tb B)) (req : Int) (hreq : req = 0 ∨ req = 2)
    (C : Option (Sp2mH R)) :
    (ProdFits w opA ta A opB tb B → ∃ H,
      sp2m w isReal tm g star opA.code (some dA) (some (A.raw ta)) opB.code (some dB)
        (some (B.raw tb)) req C = some (.success, some H) ∧ Ready opA ta A opB tb B H ∧
      (req = 2 → IsProduct opA ta A opB tb B H)) ∧
    (¬ ProdFits w opA ta A opB tb B → 0 ≤ intMax w →
      sp2m w isReal tm g star opA.code (some dA) (some (A.raw ta)) opB.code (some dB)
        (some (B.raw tb)) req C = some (.invalidSize, none)) := by
  rw [sp2m_checks isReal tm g opA ta opB tb hA hB hda hdb, if_neg (by simp [hdim]),
    if_pos (show req ≠ 1 by omega)]
  by_cases hq : QuickC opA ta A opB tb B
  · have hz := zero_product hA hB hq
    constructor
    · intro _
      refine ⟨_, by unfold QuickC at hq; rw [if_pos hq]; rfl, .inl ⟨hq, rfl⟩, fun _ => hz.1⟩
    · intro hf h0
      exact absurd (.inr (by rw [hz.2]; exact_mod_cast h0)) hf
  · have hq0 := hq
    unfold QuickC at hq0
    rw [if_neg hq0]
    obtain ⟨X, Y, he, hrun⟩ := sp2mRun_eq (w := w) isReal tm g opA dA ta A opB dB tb B hA hB
      hda.1 hdb.1
    obtain ⟨hX, hY, hXY⟩ := he.wf hA hB hdim
    obtain ⟨H, hc, ec⟩ := mmCount_ok (w := w) (tm := tm) g hX hY hXY (he.team ht).1
      (effFlag ta opA tb opB)
    rw [eff_count he hA hB hdim] at ec
    rw [hrun]
    constructor
    · intro hf
      have : sumOverflow 64 w (prodCount opA ta A opB tb B : Int) = false := by
        unfold sumOverflow
        rcases hf with h | h
        · rw [if_neg (by omega)]
        · split
          · rw [decide_eq_false_iff_not]; omega
          · rfl
      rw [this] at ec
      simp only [Bool.false_eq_true, if_false] at ec
      rcases hreq with rfl | rfl
      · refine ⟨H, ?_, .inr ⟨hq, X, Y, he, hc⟩, by simp⟩
        unfold mmDispatch
        rw [if_pos rfl, ec]
        rfl
      · obtain ⟨H', ef, hp, hc'⟩ := finalize_core isReal hreal hA hB hdim ht he hc
        refine ⟨H', ?_, .inr ⟨hq, X, Y, he, hc'⟩, fun _ => hp⟩
        unfold mmDispatch
        rw [if_neg (by decide), if_neg (by decide), if_pos rfl, ec, Option.bind_some]
        exact ef
    · intro hf h0
      have : sumOverflow 64 w (prodCount opA ta A opB tb B : Int) = true := by
        unfold ProdFits at hf
        unfold sumOverflow
        rw [if_pos (by omega), decide_eq_true_iff]
        omega
      rw [this, if_pos rfl] at ec
      unfold mmDispatch
      rcases hreq with rfl | rfl
      · rw [if_pos rfl, ec]; rfl
      · rw [if_neg (by decide), if_neg (by decide), if_pos rfl, ec]; rfl

theorem next_core {w : Nat} (isReal : Bool) (hreal : isReal = true → ∀ x : R, star x = x)
    (tm : Teams) (g : Nat → Garb R) {opA : Op} {dA : Descr} {ta : Bool} {A A' : Csr R} {opB : Op}
    {dB : Descr} {tb : Bool} {B B' : Csr R} (hA : A.WF) (hB : B.WF) (hA' : A'.WF) (hB' : B'.WF)
    (pA : SamePat A A') (pB : SamePat B B')
    (hda : dA.type = 0 ∧ dA.base = A'.base) (hdb : dB.type = 0 ∧ dB.base = B'.base)
    (hdim : opCols opA ta A = opRows opB tb B)
    (ht : tm.Ok w (opRows opA ta A) (opCols opB tb B)) {H : Sp2mH R}
    (hr : Ready opA ta A opB tb B H) :
    ∃ H', sp2m w isReal tm g star opA.code (some dA) (some (A'.raw ta)) opB.code (some dB)
        (some (B'.raw tb)) 1 (some H) = some (.success, some H') ∧
      IsProduct opA ta A' opB tb B' H' ∧ Ready opA ta A opB tb B H' := by
  have dA' := pA.dims opA ta
  have dB' := pB.dims opB tb
  have hdim' : opCols opA ta A' = opRows opB tb B' := by rw [dA'.2, dB'.1, hdim]
  have hqq := SamePat.quick hA hB hA' hB' pA pB (opA := opA) (ta := ta) (opB := opB) (tb := tb)
  rw [sp2m_checks isReal tm g opA ta opB tb hA' hB' hda hdb, if_neg (by simp [hdim'])]
  rcases hr with ⟨hq, rfl⟩ | ⟨hq, X, Y, he, hc⟩
  · have hq' := hqq.mpr hq
    refine ⟨zeroH R (opRows opA ta A) (opCols opB tb B), by unfold QuickC at hq'; rw [if_pos hq']; rfl, ?_, .inl ⟨hq, rfl⟩⟩
    have := (zero_product hA' hB' hq').1
    rw [dA'.1, dB'.2] at this
    exact this
  · have hq' : ¬ QuickC opA ta A' opB tb B' := fun h => hq (hqq.mp h)
    have hq0 := hq'
    unfold QuickC at hq0
    rw [if_neg hq0]
    obtain ⟨X', Y', he', hrun⟩ := sp2mRun_eq (w := w) isReal tm g opA dA ta A' opB dB tb B' hA' hB'
      hda.1 hdb.1
    obtain ⟨s1, s2⟩ := he.samePat he' pA pB
    obtain ⟨H', ef, hp, hc'⟩ := finalize_core (w := w) (tm := tm) isReal hreal hA' hB' hdim'
      (by rw [dA'.1, dB'.2]; exact ht) he' (hc.congr s1 s2)
    refine ⟨H', ?_, hp, .inr ⟨hq, X, Y, he, hc'.congr s1.symm s2.symm⟩⟩
    rw [hrun]
    unfold mmDispatch
    rw [if_neg (by decide), if_pos rfl]
    exact ef

theorem Reach.ready {w : Nat} {isReal : Bool} (hreal : isReal = true → ∀ x : R, star x = x)
    {opA : Op} {ta : Bool} {A : Csr R} {opB : Op} {tb : Bool} {B : Csr R} {H : Sp2mH R}
    (hw : 0 ≤ intMax w) (hA : A.WF) (hB : B.WF) (hdim : opCols opA ta A = opRows opB tb B)
    (h : Reach w isReal opA ta A opB tb B H) : Ready opA ta A opB tb B H := by
  induction h with
  | start tm g dA dB A' B' req C H hA' hB' pA pB hda hdb ht hreq he =>
    have dA' := pA.dims opA ta
    have dB' := pB.dims opB tb
    have hdim' : opCols opA ta A' = opRows opB tb B' := by rw [dA'.2, dB'.1, hdim]
    have hs := start_core isReal hreal tm g opA (dA := dA) ta opB (dB := dB) tb hA' hB' hda hdb
      hdim' (w := w) (by rw [dA'.1, dB'.2]; exact ht) req hreq C
    by_cases hf : ProdFits w opA ta A' opB tb B'
    · obtain ⟨H1, e1, hr, -⟩ := hs.1 hf
      rw [he] at e1
      simp only [Option.some.injEq, Prod.mk.injEq, true_and] at e1
      subst e1
      rcases hr with ⟨hq, rfl⟩ | ⟨hq, X, Y, hef, hc⟩
      · exact .inl ⟨(SamePat.quick hA hB hA' hB' pA pB).mp hq, by rw [dA'.1, dB'.2]⟩
      · have hq' : ¬ QuickC opA ta A opB tb B := fun h => hq ((SamePat.quick hA hB hA' hB' pA pB).mpr h)
        obtain ⟨X', Y', he', -⟩ := sp2mRun_eq (w := w) isReal tm g opA ⟨0, 0, 0, 0⟩ ta A opB
          ⟨0, 0, 0, 0⟩ tb B hA hB rfl rfl
        obtain ⟨s1, s2⟩ := he'.samePat hef pA pB
        exact .inr ⟨hq', X', Y', he', hc.congr s1.symm s2.symm⟩
    · rw [hs.2 hf hw] at he
      simp at he
  | next tm g dA dB A' B' H H' hr hA' hB' pA pB hda hdb ht he ih =>
    obtain ⟨H1, e1, -, hr1⟩ := next_core isReal hreal tm g hA hB hA' hB' pA pB hda hdb hdim ht ih
    rw [he] at e1
    simp only [Option.some.injEq, Prod.mk.injEq, true_and] at e1
    exact e1 ▸ hr1

/-- C28 (a): one call with the full-computation request returns op(A)·op(B), for every team size,
execution order and content of fresh memory, every combination of operations, index bases and CSR or
CSC handles. -/
theorem C28_full {w : Nat} (isReal : Bool) (hreal : isReal = true → ∀ x : R, star x = x)
    (tm : Teams) (g : Nat → Garb R) (opA : Op) (dA : Descr) (ta : Bool) (A : Csr R) (opB : Op)
    (dB : Descr) (tb : Bool) (B : Csr R) (hA : A.WF) (hB : B.WF)
    (hda : dA.type = 0 ∧ dA.base = A.base) (hdb : dB.type = 0 ∧ dB.base = B.base)
    (hdim : opCols opA ta A = opRows opB tb B)
    (ht : tm.Ok w (opRows opA ta A) (opCols opB tb B)) (hfit : ProdFits w opA ta A opB tb B)
    (C : Option (Sp2mH R)) :
    ∃ H, sp2m w isReal tm g star opA.code (some dA) (some (A.raw ta)) opB.code (some dB)
        (some (B.raw tb)) 2 C = some (.success, some H) ∧ IsProduct opA ta A opB tb B H := by
  obtain ⟨H, e, -, hp⟩ := (start_core isReal hreal tm g opA ta opB tb hA hB hda hdb hdim ht 2
    (.inr rfl) C).1 hfit
  exact ⟨H, e, hp rfl⟩

/-- C28 (b): the count stage reports the dimensions and the exact number of stored entries of the
product. -/
theorem C28_count {w : Nat} (isReal : Bool) (hreal : isReal = true → ∀ x : R, star x = x)
    (tm : Teams) (g : Nat → Garb R) (opA : Op) (dA : Descr) (ta : Bool) (A : Csr R) (opB : Op)
    (dB : Descr) (tb : Bool) (B : Csr R) (hA : A.WF) (hB : B.WF)
    (hda : dA.type = 0 ∧ dA.base = A.base) (hdb : dB.type = 0 ∧ dB.base = B.base)
    (hdim : opCols opA ta A = opRows opB tb B)
    (ht : tm.Ok w (opRows opA ta A) (opCols opB tb B)) (hfit : ProdFits w opA ta A opB tb B)
    (C : Option (Sp2mH R)) :
    ∃ H, sp2m w isReal tm g star opA.code (some dA) (some (A.raw ta)) opB.code (some dB)
        (some (B.raw tb)) 0 C = some (.success, some H) ∧ H.m = opRows opA ta A ∧
      H.n = opCols opB tb B ∧ H.nnz = prodCount opA ta A opB tb B := by
  obtain ⟨H, e, hr, -⟩ := (start_core isReal hreal tm g opA ta opB tb hA hB hda hdb hdim ht 0
    (.inl rfl) C).1 hfit
  exact ⟨H, e, ready_dims hA hB hdim hr⟩

/-- C28 (c): after a count (or full) stage and any number of finalize stages, a finalize stage with
the current values of matrices of the same pattern succeeds and returns their product; nothing of
the earlier values remains.  Thread teams, descriptors and memory contents may differ from call to
call. -/
theorem C28_two_stage {w : Nat} (hw : 0 ≤ intMax w) (isReal : Bool)
    (hreal : isReal = true → ∀ x : R, star x = x)
    (opA : Op) (ta : Bool) (A : Csr R) (opB : Op) (tb : Bool) (B : Csr R) (hA : A.WF) (hB : B.WF)
    (hdim : opCols opA ta A = opRows opB tb B) (H : Sp2mH R)
    (hr : Reach w isReal opA ta A opB tb B H)
    (tm : Teams) (g : Nat → Garb R) (dA dB : Descr) (A' B' : Csr R) (hA' : A'.WF) (hB' : B'.WF)
    (pA : SamePat A A') (pB : SamePat B B')
    (hda : dA.type = 0 ∧ dA.base = A'.base) (hdb : dB.type = 0 ∧ dB.base = B'.base)
    (ht : tm.Ok w (opRows opA ta A) (opCols opB tb B)) :
    ∃ H', sp2m w isReal tm g star opA.code (some dA) (some (A'.raw ta)) opB.code (some dB)
        (some (B'.raw tb)) 1 (some H) = some (.success, some H') ∧
      IsProduct opA ta A' opB tb B' H' ∧ Reach w isReal opA ta A opB tb B H' := by
  obtain ⟨H', e, hp, -⟩ := next_core isReal hreal tm g hA hB hA' hB' pA pB hda hdb hdim ht
    (hr.ready hreal hw hA hB hdim)
  exact ⟨H', e, hp, .next tm g dA dB A' B' H H' hr hA' hB' pA pB hda hdb ht e⟩

/-- C28 (d): a product with more entries than the integer type can count is refused. -/
theorem C28_too_large {w : Nat} (hw : 0 ≤ intMax w) (isReal : Bool)
    (hreal : isReal = true → ∀ x : R, star x = x)
    (tm : Teams) (g : Nat → Garb R) (opA : Op) (dA : Descr) (ta : Bool) (A : Csr R) (opB : Op)
    (dB : Descr) (tb : Bool) (B : Csr R) (hA : A.WF) (hB : B.WF)
    (hda : dA.type = 0 ∧ dA.base = A.base) (hdb : dB.type = 0 ∧ dB.base = B.base)
    (hdim : opCols opA ta A = opRows opB tb B)
    (ht : tm.Ok w (opRows opA ta A) (opCols opB tb B)) (hw64 : w < 64)
    (hbig : intMax w < prodCount opA ta A opB tb B) (req : Int) (hreq : req = 0 ∨ req = 2)
    (C : Option (Sp2mH R)) :
    sp2m w isReal tm g star opA.code (some dA) (some (A.raw ta)) opB.code (some dB)
        (some (B.raw tb)) req C = some (.invalidSize, none) :=
  (start_core isReal hreal tm g opA ta opB tb hA hB hda hdb hdim ht req hreq C).2
    (by unfold ProdFits; omega) hw

/-- C28 (e): factors whose inner dimensions differ are refused. -/
theorem C28_size {w : Nat} (isReal : Bool) (tm : Teams) (g : Nat → Garb R) (opA : Op) (dA : Descr)
    (ta : Bool) (A : Csr R) (opB : Op) (dB : Descr) (tb : Bool) (B : Csr R) (hA : A.WF) (hB : B.WF)
    (hda : dA.type = 0 ∧ dA.base = A.base) (hdb : dB.type = 0 ∧ dB.base = B.base)
    (hdim : opCols opA ta A ≠ opRows opB tb B) (req : Int) (C : Option (Sp2mH R)) :
    ∃ C', sp2m w isReal tm g star opA.code (some dA) (some (A.raw ta)) opB.code (some dB)
        (some (B.raw tb)) req C = some (.invalidSize, C') ∧ (req = 1 → C' = C) := by
  rw [sp2m_checks isReal tm g opA ta opB tb hA hB hda hdb, if_pos hdim]
  exact ⟨_, rfl, fun h => by simp [h]⟩

/-! ### Non-vacuity and what the preconditions exclude -/

omit [CommSemiring R] [StarRing R] in
/-- the product has at most rows × columns entries -/
theorem prodCount_le (opA : Op) (ta : Bool) (A : Csr R) (opB : Op) (tb : Bool) (B : Csr R) :
    prodCount opA ta A opB tb B ≤ opRows opA ta A * opCols opB tb B := by
  unfold prodCount
  have h : opRows opA ta A * opCols opB tb B = Set.ncard
      (((range (opRows opA ta A)) ×ˢ (range (opCols opB tb B)) : Finset (Nat × Nat)) : Set (Nat × Nat)) := by
    rw [Set.ncard_coe_finset, Finset.card_product, Finset.card_range, Finset.card_range]
  rw [h]
  apply Set.ncard_le_ncard _ (Finset.finite_toSet _)
  rintro ⟨i, j⟩ ⟨h1, h2, -⟩
  simpa using ⟨h1, h2⟩

section witness

/-- 2×3, one-based CSR, unsorted with a repeated entry: `[[1,0,2+5],[0,3,0]]` -/
def mmA : Csr Rat := ⟨2, 3, 1, [1, 4, 5], [3, 1, 3, 2], [2, 1, 5, 3]⟩
/-- 2×3, zero-based CSC (stored as the 3×2 arrays): columns `[4,·]`, `[·,5]`, `[6,7]` -/
def mmB : Csr Rat := ⟨3, 2, 0, [0, 1, 2, 4], [0, 1, 0, 1], [4, 5, 6, 7]⟩
/-- the same patterns with other values -/
def mmA' : Csr Rat := ⟨2, 3, 1, [1, 4, 5], [3, 1, 3, 2], [-2, 0, 1, 1]⟩
def mmB' : Csr Rat := ⟨3, 2, 0, [0, 1, 2, 4], [0, 1, 0, 1], [0, 1, 1, -1]⟩
def mmTm : Teams := ⟨2, [1, 0], 3, [2, 0, 1]⟩
def mmG : Nat → Garb Rat := fun k => ⟨fun _ => 70 + k, fun _ => 80 + k, fun _ => 90 + k⟩

theorem mmTm_ok (n : Nat) (h : n ≤ 9) : TeamOk 32 n 2 [1, 0] ∧ TeamOk 32 n 3 [2, 0, 1] := by
  have e : intMax 32 = 2147483647 := by decide +kernel
  exact ⟨⟨by decide, by decide, by rw [e]; omega⟩, ⟨by decide, by decide, by rw [e]; omega⟩⟩

/-- the hypotheses of `C28_full`, `C28_count` and `C28_two_stage` hold for op(A) = Aᵀ (3×2) and
op(B) = B (2×3, CSC), and both copies of the operands have the same pattern -/
example : mmA.WF ∧ mmB.WF ∧ mmA'.WF ∧ mmB'.WF ∧
    opCols .trans false mmA = opRows .none true mmB ∧
    mmTm.Ok 32 (opRows .trans false mmA) (opCols .none true mmB) ∧
    ProdFits 32 .trans false mmA .none true mmB :=
  ⟨by decide +kernel, by decide +kernel, by decide +kernel, by decide +kernel, by decide,
    ⟨(mmTm_ok _ (by decide)).1, (mmTm_ok _ (by decide)).2, (mmTm_ok _ (by decide)).1,
      (mmTm_ok _ (by decide)).2⟩,
    .inr (le_trans (by exact_mod_cast prodCount_le ..) (show ((9 : Nat) : Int) ≤ intMax 32 by
      decide +kernel))⟩

theorem samePat_of_ind {A A' : Csr Rat} (hm : A'.m = A.m) (hn : A'.n = A.n)
    (h : ∀ i, A'.cols i = A.cols i) : SamePat A A' :=
  ⟨hm, hn, fun i c => by rw [h i]⟩

example : SamePat mmA mmA' ∧ SamePat mmB mmB' := by
  constructor
  · refine samePat_of_ind rfl rfl fun i => ?_
    rcases i with _ | _ | i
    · decide +kernel
    · decide +kernel
    · have h1 : mmA.WF := by decide +kernel
      have h2 : mmA'.WF := by decide +kernel
      rw [Csr.cols, Csr.cols, Csr.row_of_ge h1 (by simp [mmA]), Csr.row_of_ge h2 (by simp [mmA'])]
  · refine samePat_of_ind rfl rfl fun i => ?_
    rcases i with _ | _ | _ | i
    · decide +kernel
    · decide +kernel
    · decide +kernel
    · have h1 : mmB.WF := by decide +kernel
      have h2 : mmB'.WF := by decide +kernel
      rw [Csr.cols, Csr.cols, Csr.row_of_ge h1 (by simp [mmB]), Csr.row_of_ge h2 (by simp [mmB'])]

/-- the handle of a result -/
def mmShow (r : Option (Status × Option (Sp2mH Rat))) :
    Option (Option (List Int × List Int × List Int × List Rat)) :=
  r.map fun r => if r.1 = .success then
    r.2.map fun h => ([h.m, h.n, h.nnz, h.csr.base], h.csr.ptr, h.csr.ind, h.csr.val) else none

/-- one stage, both stored arrays transposed: (B·A)ᵀ is computed and transposed back -/
example : mmShow (sp2m 32 true mmTm mmG star 112 (some ⟨0, 0, 0, 1⟩) (some (mmA.raw false)) 111
    (some ⟨0, 0, 0, 0⟩) (some (mmB.raw true)) 2 none)
    = some (some ([3, 3, 6, 0], [0, 2, 4, 6], [0, 2, 1, 2, 0, 2], [4, 6, 15, 21, 28, 42])) := by
  decide +kernel

/-- count, finalize, then a second finalize stage with new values -/
example :
    mmShow ((sp2m 32 true mmTm mmG star 112 (some ⟨0, 0, 0, 1⟩) (some (mmA.raw false)) 111
      (some ⟨0, 0, 0, 0⟩) (some (mmB.raw true)) 0 none).bind fun r1 =>
      (sp2m 32 true ⟨1, [0], 1, [0]⟩ mmG star 112 (some ⟨0, 0, 0, 1⟩) (some (mmA.raw false)) 111
        (some ⟨0, 0, 0, 0⟩) (some (mmB.raw true)) 1 r1.2).bind fun r2 =>
        sp2m 32 true mmTm mmG star 112 (some ⟨0, 0, 0, 1⟩) (some (mmA'.raw false)) 111
          (some ⟨0, 0, 0, 0⟩) (some (mmB'.raw true)) 1 r2.2)
    = some (some ([3, 3, 6, 0], [0, 2, 4, 6], [0, 2, 1, 2, 0, 2], [0, 0, 1, -1, 0, -1])) := by
  decide +kernel

/-- only one stored array transposed: AᵀA from a CSR and a CSC handle on the same arrays -/
example : mmShow (sp2m 32 true mmTm mmG star 112 (some ⟨0, 0, 0, 1⟩) (some (mmA.raw false)) 112
      (some ⟨0, 0, 0, 1⟩) (some (mmA.raw true)) 2 none)
    = some (some ([3, 3, 5, 0], [0, 2, 3, 5], [2, 0, 1, 2, 0], [7, 1, 9, 49, 7])) := by
  decide +kernel

/-- F25: the finalize stage checks only the dimensions.  If an operand has more entries than at the
count stage (here 2 instead of 1) it writes past the end of the arrays of the result. -/
theorem C28_needs_same_pattern :
    (⟨1, 2, 0, [0, 1], [0], [1]⟩ : Csr Rat).WF ∧ (⟨1, 2, 0, [0, 2], [0, 1], [1, 1]⟩ : Csr Rat).WF ∧
    (⟨2, 2, 0, [0, 1, 2], [0, 1], [1, 1]⟩ : Csr Rat).WF ∧
    ((sp2m 32 true ⟨1, [0], 1, [0]⟩ mmG star 111 (some ⟨0, 0, 0, 0⟩)
        (some ((⟨1, 2, 0, [0, 1], [0], [1]⟩ : Csr Rat).raw false)) 111 (some ⟨0, 0, 0, 0⟩)
        (some ((⟨2, 2, 0, [0, 1, 2], [0, 1], [1, 1]⟩ : Csr Rat).raw false)) 0 none).isSome = true) ∧
    mmShow ((sp2m 32 true ⟨1, [0], 1, [0]⟩ mmG star 111 (some ⟨0, 0, 0, 0⟩)
        (some ((⟨1, 2, 0, [0, 1], [0], [1]⟩ : Csr Rat).raw false)) 111 (some ⟨0, 0, 0, 0⟩)
        (some ((⟨2, 2, 0, [0, 1, 2], [0, 1], [1, 1]⟩ : Csr Rat).raw false)) 0 none).bind fun r =>
      sp2m 32 true ⟨1, [0], 1, [0]⟩ mmG star 111 (some ⟨0, 0, 0, 0⟩)
        (some ((⟨1, 2, 0, [0, 2], [0, 1], [1, 1]⟩ : Csr Rat).raw false)) 111 (some ⟨0, 0, 0, 0⟩)
        (some ((⟨2, 2, 0, [0, 1, 2], [0, 1], [1, 1]⟩ : Csr Rat).raw false)) 1 r.2) = none := by
  decide +kernel

end witness

/-- F24 also holds of the product: with rows × threads above the range of the integer type the call
is undefined. -/
theorem C28_thread_overflow {w : Nat} (isReal : Bool) {tm : Teams} (g : Nat → Garb R)
    (dA : Descr) (A : Csr R) (dB : Descr) (B : Csr R) (hA : A.WF) (hB : B.WF)
    (hda : dA.type = 0 ∧ dA.base = A.base) (hdb : dB.type = 0 ∧ dB.base = B.base)
    (hdim : A.n = B.m) (hne : 0 < A.m ∧ 0 < A.n ∧ 0 < B.n ∧ 0 < A.nnz ∧ 0 < B.nnz)
    (hteam : 0 < tm.t1) (hord : tm.ord1.Perm (List.range tm.t1))
    (hov : intMax w < (A.m : Int) * tm.t1) (C : Option (Sp2mH R)) :
    sp2m w isReal tm g star 111 (some dA) (some (A.raw false)) 111 (some dB) (some (B.raw false))
      2 C = none := by
  have h := sp2m_checks (cj := star) (w := w) isReal tm g .none (dA := dA) false .none (dB := dB) false hA hB hda
    hdb 2 C
  have o1 : opCols .none false A = A.n := rfl
  have o2 : opRows .none false B = B.m := rfl
  have o3 : opRows .none false A = A.m := rfl
  have o4 : opCols .none false B = B.n := rfl
  rw [o1, o2, o3, o4, if_neg (by simp [hdim]), if_neg (by omega)] at h
  obtain ⟨X, Y, he, hrun⟩ := sp2mRun_eq (w := w) isReal tm g .none dA false A .none dB false B hA hB
    hda.1 hdb.1
  rw [hrun] at h
  refine h.trans ?_
  have hX : X.m = A.m := (show Oriented false A X from he.1).m
  unfold mmDispatch
  rw [if_neg (by decide), if_neg (by decide), if_pos rfl]
  unfold mmCount
  cases e0 : wr (alloc ((X.m : Int) + 1).toNat (g 2).p) 0 0 with
  | none => rfl
  | some p0 =>
    rw [Option.bind_eq_bind, Option.bind_some, hX, team_overflow hteam hov
      (hord.mem_iff.mpr (List.mem_range.mpr (by omega)))]
    rfl

end Verif
