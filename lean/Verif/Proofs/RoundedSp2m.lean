/-
The sparse product in an arithmetic without algebraic laws.
-/
import Verif.Props.Sp2m
import Verif.Spec.RoundedMm

namespace Verif
open Model

variable {R S : Type}

/-! ### maps of the values -/

theorem mapTo_row (f : R → S) (A : Csr R) (i : Nat) :
    (A.mapTo f).row i = (A.row i).map fun e => (e.1, f e.2) := by
  unfold Csr.row Csr.mapTo
  rw [List.map_map]
  simp only [List.zip_map_right, ← List.map_drop, ← List.map_take, List.map_map]
  rfl

theorem mapTo_wf (f : R → S) {A : Csr R} (h : A.WF) : (A.mapTo f).WF :=
  ⟨h.base01, h.ptr_len, h.ptr_first, h.ptr_mono, h.ptr_last, by simpa [Csr.mapTo] using h.val_len,
    h.ind_range⟩

theorem mapTo_cols (f : R → S) (A : Csr R) (i : Nat) : (A.mapTo f).cols i = A.cols i := by
  simp [Csr.cols, mapTo_row]

theorem mapTo_entries (f : R → S) (A : Csr R) :
    (A.mapTo f).entries = A.entries.map fun e => (e.1, e.2.1, f e.2.2) := by
  unfold Csr.entries
  rw [List.map_flatMap]
  simp only [mapTo_row, List.map_map]
  rfl

theorem mkCsr_mapTo (f : R → S) (m n : Nat) (base : Int) (rows : Nat → List (Int × R)) :
    (mkCsr m n base rows).mapTo f = mkCsr m n base fun i => (rows i).map fun e => (e.1, f e.2) := by
  simp [mkCsr, Csr.mapTo, offs, List.flatMap_map, List.map_flatMap, Function.comp_def]

theorem flipC_mapTo (f : R → S) (tr : Bool) (A : Csr R) :
    flipC tr (A.mapTo f) = (flipC tr A).mapTo f := by
  cases tr
  · rfl
  · unfold flipC
    rw [if_pos rfl, if_pos rfl, mkCsr_mapTo]
    refine mkCsr_congr fun j _ => ?_
    rw [mapTo_entries, List.filter_map, List.map_map, List.map_map]
    rfl

/-! ### the transpose -/

theorem flipC_row {A : Csr R} {i : Nat} (hi : i < A.n) : (flipC true A).row i
    = (A.entries.filter (fun e => e.2.1 = (i : Int))).map (fun e => ((e.1 : Int), e.2.2)) :=
  mkCsr_row hi

theorem flipC_mem {A : Csr R} {i j : Nat} (hi : i < A.n) (v : R) :
    ((j : Int), v) ∈ (flipC true A).row i ↔ j < A.m ∧ ((i : Int), v) ∈ A.row j := by
  rw [flipC_row hi]
  simp only [List.mem_map, List.mem_filter, Csr.mem_entries, Prod.mk.injEq, decide_eq_true_eq]
  constructor
  · rintro ⟨⟨r, c, v'⟩, ⟨⟨h1, h2⟩, h3⟩, h4, h5⟩
    simp only at h1 h2 h3 h4 h5
    obtain rfl : r = j := by omega
    subst h3 h5
    exact ⟨h1, h2⟩
  · rintro ⟨h1, h2⟩
    exact ⟨(j, (i : Int), v), ⟨⟨h1, h2⟩, rfl⟩, rfl, rfl⟩

theorem flipC_nodup {A : Csr R} (h : A.NoDup) (tr : Bool) : (flipC tr A).NoDup := by
  cases tr
  · exact h
  · intro i hi
    rw [flipC_row hi]
    exact colRow_nodup h i

theorem flipC_stored {A : Csr R} (h : A.WF) (tr : Bool) {i j : Nat} (hi : i < (flipC tr A).m)
    (hj : j < (flipC tr A).n) :
    ((j : Int) ∈ (flipC tr A).cols i ↔ if tr then (i : Int) ∈ A.cols j else (j : Int) ∈ A.cols i) := by
  cases tr
  · exact Iff.rfl
  · rw [if_pos rfl]
    simp only [Csr.cols, List.mem_map]
    constructor
    · rintro ⟨⟨c, v⟩, hm, rfl⟩
      exact ⟨_, ((flipC_mem hi v).mp hm).2, rfl⟩
    · rintro ⟨⟨c, v⟩, hm, rfl⟩
      exact ⟨(j, v), (flipC_mem hi v).mpr ⟨hj, hm⟩, rfl⟩

theorem flipC_samePat {A A' : Csr R} (hA : A.WF) (hA' : A'.WF) (h : SamePat A A') (tr : Bool) :
    SamePat (flipC tr A) (flipC tr A') := by
  obtain ⟨w1, -, m1, n1, -⟩ := flipC_wf hA tr
  obtain ⟨w2, -, m2, n2, -⟩ := flipC_wf hA' tr
  have hm : (flipC tr A').m = (flipC tr A).m := by rw [m1, m2, h.1, h.2.1]
  have hn : (flipC tr A').n = (flipC tr A).n := by rw [n1, n2, h.1, h.2.1]
  refine ⟨hm, hn, ?_⟩
  intro i c
  have key : ∀ j : Nat, i < (flipC tr A).m → j < (flipC tr A).n →
      ((j : Int) ∈ (flipC tr A').cols i ↔ (j : Int) ∈ (flipC tr A).cols i) := by
    intro j hi hj
    rw [flipC_stored hA tr hi hj, flipC_stored hA' tr (by omega) (by omega)]
    split
    · exact h.2.2 _ _
    · exact h.2.2 _ _
  constructor
  · intro hc
    obtain ⟨h1, h2, h3⟩ := cols_range w2 hc
    obtain ⟨j, rfl⟩ := Int.eq_ofNat_of_zero_le h2
    exact (key j (by omega) (by omega)).mp hc
  · intro hc
    obtain ⟨h1, h2, h3⟩ := cols_range w1 hc
    obtain ⟨j, rfl⟩ := Int.eq_ofNat_of_zero_le h2
    exact (key j (by omega) (by omega)).mpr hc

theorem orientG_flip {A : Csr R} (h : A.WF) (tr isT : Bool) (g : Garb R) :
    orientG tr g (A.raw isT) = some (.ok (flipC tr A).arrs) := by
  cases tr
  · rfl
  · obtain ⟨he, -⟩ := csr2csc_flip h (cp := alloc (A.n + 1) g.p) (ri := alloc A.nnz g.i)
      (cv := alloc A.nnz g.v) (by simp) (by simp) (by simp)
    unfold orientG
    simp only [Csr.raw, if_true]
    rw [show ((A.n : Int) + 1).toNat = A.n + 1 by omega, Int.toNat_natCast, he]
    rfl

/-! ### the factors and the result of a call -/

/-- the first factor of the computed product -/
def facX (opA : Op) (ta : Bool) (A : Csr R) (opB : Op) (tb : Bool) (B : Csr R) : Csr R :=
  if bothT ta opA tb opB then B else flipC (trOf ta opA) A

/-- the second factor of the computed product -/
def facY (opA : Op) (ta : Bool) (A : Csr R) (opB : Op) (tb : Bool) (B : Csr R) : Csr R :=
  if bothT ta opA tb opB then A else flipC (trOf tb opB) B

/-- the map applied to the values -/
def cjF (cj : R → R) (isReal : Bool) (op : Op) : R → R :=
  if op = .conjTrans ∧ isReal = false then cj else id

theorem fac_wf {opA : Op} {ta : Bool} {A : Csr R} {opB : Op} {tb : Bool} {B : Csr R}
    (hA : A.WF) (hB : B.WF) (hdim : opCols opA ta A = opRows opB tb B) :
    (facX opA ta A opB tb B).WF ∧ (facY opA ta A opB tb B).WF ∧
      (facX opA ta A opB tb B).n = (facY opA ta A opB tb B).m := by
  rw [(effRows ta opA A).2, (effRows tb opB B).1] at hdim
  unfold facX facY
  split
  · rename_i hb
    simp only [bothT, Bool.and_eq_true] at hb
    rw [if_pos hb.1, if_pos hb.2] at hdim
    exact ⟨hB, hA, hdim.symm⟩
  · obtain ⟨w1, -, m1, n1, -⟩ := flipC_wf hA (trOf ta opA)
    obtain ⟨w2, -, m2, n2, -⟩ := flipC_wf hB (trOf tb opB)
    exact ⟨w1, w2, by rw [n1, m2, hdim]⟩

theorem fac_mapTo (f : R → S) (opA : Op) (ta : Bool) (A : Csr R) (opB : Op) (tb : Bool) (B : Csr R) :
    facX opA ta (A.mapTo f) opB tb (B.mapTo f) = (facX opA ta A opB tb B).mapTo f ∧
    facY opA ta (A.mapTo f) opB tb (B.mapTo f) = (facY opA ta A opB tb B).mapTo f := by
  unfold facX facY
  constructor <;> split
  · rfl
  · exact flipC_mapTo f _ A
  · rfl
  · exact flipC_mapTo f _ B

theorem fac_samePat {opA : Op} {ta : Bool} {opB : Op} {tb : Bool} {A A' B B' : Csr R}
    (hA : A.WF) (hB : B.WF) (hA' : A'.WF) (hB' : B'.WF) (pA : SamePat A A') (pB : SamePat B B') :
    SamePat (facX opA ta A opB tb B) (facX opA ta A' opB tb B') ∧
    SamePat (facY opA ta A opB tb B) (facY opA ta A' opB tb B') := by
  unfold facX facY
  constructor <;> split
  · exact pB
  · exact flipC_samePat hA hA' pA _
  · exact pA
  · exact flipC_samePat hB hB' pB _

theorem fac_eff [CommSemiring R] {opA : Op} {ta : Bool} {A : Csr R} {opB : Op} {tb : Bool} {B : Csr R}
    (hA : A.WF) (hB : B.WF) :
    Eff opA ta A opB tb B (facX opA ta A opB tb B) (facY opA ta A opB tb B) := by
  unfold Eff facX facY
  split
  · exact ⟨rfl, rfl⟩
  · exact ⟨flipC_oriented hA _, flipC_oriented hB _⟩

theorem fac_team {opA : Op} {ta : Bool} {A : Csr R} {opB : Op} {tb : Bool} {B : Csr R} (hA : A.WF)
    {tm : Teams} {w : Nat}
    (ht : tm.Ok w (opRows opA ta A) (opCols opB tb B)) :
    TeamOk w (facX opA ta A opB tb B).m tm.t1 tm.ord1 ∧
    TeamOk w (facX opA ta A opB tb B).m tm.t2 tm.ord2 := by
  have rA := (effRows ta opA A).1
  have rB := (effRows tb opB B).2
  unfold facX
  split
  · rename_i hb
    simp only [bothT, Bool.and_eq_true] at hb
    rw [if_pos hb.2] at rB
    rw [← rB]
    exact ht.2.2
  · rw [(flipC_wf hA _).2.2.1, ← rA]
    exact ⟨ht.1, ht.2.1⟩

section
variable [Zero R] [Add R] [Mul R]

/-- dispatch of a call with general descriptors -/
theorem sp2mRun_law {w : Nat} (isReal : Bool) (tm : Teams) (g : Nat → Garb R) (cj : R → R) (opA : Op)
    (dA : Descr) (ta : Bool) {A : Csr R} (opB : Op) (dB : Descr) (tb : Bool) {B : Csr R}
    (hA : A.WF) (hB : B.WF) (hda : dA.type = 0) (hdb : dB.type = 0) (req : Int)
    (C : Option (Sp2mH R)) :
    sp2mRun w isReal tm g cj opA.code dA (A.raw ta) opB.code dB (B.raw tb) req C
        = mmDispatch w tm g
          (cjF cj isReal (if bothT ta opA tb opB then opB else opA))
          (cjF cj isReal (if bothT ta opA tb opB then opA else opB))
          (facX opA ta A opB tb B).m (facY opA ta A opB tb B).n (facX opA ta A opB tb B).arrs
          (facY opA ta A opB tb B).arrs C (effFlag ta opA tb opB) req := by
  have b1 := eff_bits isReal ta dA.fill opA
  have b2 := eff_bits isReal tb dB.fill opB
  have d1 : (A.raw ta).doid = if ta then gt else gn := rfl
  have d2 : (B.raw tb).doid = if tb then gt else gn := rfl
  have hcj : ∀ op : Op, (if op = .conjTrans ∧ isReal = false then cj else id) = cjF cj isReal op :=
    fun _ => rfl
  unfold facX facY effFlag
  by_cases hb : bothT ta opA tb opB = true
  · have hb' : trOf ta opA = true ∧ trOf tb opB = true := by
      simpa [bothT] using hb
    unfold sp2mRun
    simp only [d1, d2, hda, hdb, b1.1, b1.2, b2.1, b2.2, hcj, hb, hb'.1, hb'.2, if_true,
      Bool.decide_eq_true, and_self]
    rfl
  · have ea := orientG_flip hA (trOf ta opA) ta (g 0)
    have eb := orientG_flip hB (trOf tb opB) tb (g 1)
    have hb' : ¬ (trOf ta opA = true ∧ trOf tb opB = true) := by
      simpa [bothT] using hb
    unfold sp2mRun
    simp only [d1, d2, hda, hdb, b1.1, b1.2, b2.1, b2.2, hcj, hb, hb',
      Bool.decide_eq_true, if_false]
    rw [ea, Option.bind_some]
    simp only
    rw [eb, Option.bind_some]
    simp only [Bool.false_eq_true, if_false]
    rw [(flipC_wf hA _).2.2.1, (flipC_wf hB _).2.2.2.1]
    congr 1
    · simp only [Csr.raw]; split <;> rfl
    · simp only [Csr.raw]; split <;> rfl

/-- the matrix a call computes -/
def resC (cj : R → R) (isReal : Bool) (opA : Op) (ta : Bool) (A : Csr R) (opB : Op) (tb : Bool)
    (B : Csr R) : Csr R :=
  flipC (bothT ta opA tb opB) (mmCsr
    (cjF cj isReal (if bothT ta opA tb opB then opB else opA))
    (cjF cj isReal (if bothT ta opA tb opB then opA else opB))
    (facX opA ta A opB tb B) (facY opA ta A opB tb B))

theorem resC_ok (cj : R → R) (isReal : Bool) {opA : Op} {ta : Bool} {A : Csr R} {opB : Op} {tb : Bool}
    {B : Csr R} (hA : A.WF) (hB : B.WF) (hdim : opCols opA ta A = opRows opB tb B) :
    (resC cj isReal opA ta A opB tb B).WF ∧ (resC cj isReal opA ta A opB tb B).NoDup ∧
    (resC cj isReal opA ta A opB tb B).base = 0 ∧
    (resC cj isReal opA ta A opB tb B).m = opRows opA ta A ∧
    (resC cj isReal opA ta A opB tb B).n = opCols opB tb B ∧
    (∀ i j, i < opRows opA ta A → j < opCols opB tb B →
      (userStored false (resC cj isReal opA ta A opB tb B) i j ↔ prodStored opA ta A opB tb B i j)) := by
  obtain ⟨hX, hY, hXY⟩ := fac_wf (opA := opA) (ta := ta) (opB := opB) (tb := tb) hA hB hdim
  have rA := effRows ta opA A
  have rB := effRows tb opB B
  have hwf := mmCsr_wf (cjF cj isReal (if bothT ta opA tb opB then opB else opA))
    (cjF cj isReal (if bothT ta opA tb opB then opA else opB)) (A := facX opA ta A opB tb B) hY
  obtain ⟨w1, w2, w3, w4, w5⟩ := flipC_wf hwf (bothT ta opA tb opB)
  have hnd := flipC_nodup (mmCsr_nodup (cjF cj isReal (if bothT ta opA tb opB then opB else opA))
    (cjF cj isReal (if bothT ta opA tb opB then opA else opB)) (A := facX opA ta A opB tb B)
    (B := facY opA ta A opB tb B)) (bothT ta opA tb opB)
  have ms : ∀ (C : Csr R) i j, userStored false C i j ↔ (j : Int) ∈ C.cols i := by
    intro C i j; simp [userStored, Csr.cols]
  have hst := fun i j => flipC_stored hwf (bothT ta opA tb opB) (i := i) (j := j)
  have hfold : flipC (bothT ta opA tb opB) (mmCsr
      (cjF cj isReal (if bothT ta opA tb opB then opB else opA))
      (cjF cj isReal (if bothT ta opA tb opB then opA else opB))
      (facX opA ta A opB tb B) (facY opA ta A opB tb B)) = resC cj isReal opA ta A opB tb B := rfl
  rw [hfold] at w1 w2 w3 w4 w5 hnd
  simp only [hfold] at hst
  simp only [mmCsr, mkCsr] at w3 w4 w5
  rw [w3, w4] at hst
  have hdims : (if bothT ta opA tb opB = true then (facY opA ta A opB tb B).n
      else (facX opA ta A opB tb B).m) = opRows opA ta A ∧
      (if bothT ta opA tb opB = true then (facX opA ta A opB tb B).m
      else (facY opA ta A opB tb B).n) = opCols opB tb B := by
    unfold facX facY
    by_cases hb : bothT ta opA tb opB = true
    · have hb' : trOf ta opA = true ∧ trOf tb opB = true := by simpa [bothT] using hb
      simp only [hb, if_true, rA.1, rB.2, hb'.1, hb'.2, and_self]
    · rw [if_neg hb, if_neg hb, if_neg hb, if_neg hb, rA.1, rB.2]
      exact ⟨(flipC_wf hA (trOf ta opA)).2.2.1, (flipC_wf hB (trOf tb opB)).2.2.2.1⟩
  rw [hdims.1] at w3
  rw [hdims.2] at w4
  refine ⟨w1, hnd, w5, w3, w4, ?_⟩
  intro i j hi hj
  rw [ms, hst i j (by rw [hdims.1]; exact hi) (by rw [hdims.2]; exact hj)]
  unfold prodStored
  by_cases hb : bothT ta opA tb opB = true
  · have hb' : trOf ta opA = true ∧ trOf tb opB = true := by simpa [bothT] using hb
    rw [if_pos hb] at hdims ⊢
    rw [if_pos hb] at hdims
    rw [mmCsr_cols _ _ (by rw [hdims.2]; exact hj), mem_firsts, mmCols_mem hX]
    have hfX : facX opA ta A opB tb B = B := by unfold facX; rw [if_pos hb]
    have hfY : facY opA ta A opB tb B = A := by unfold facY; rw [if_pos hb]
    rw [hXY, hfX, hfY, rA.2, if_pos hb'.1]
    apply exists_congr
    intro k
    rw [effStored, effStored, hb'.1, hb'.2]
    simp only [if_true]
    exact and_congr_right fun _ => and_comm
  · rw [if_neg hb] at hdims ⊢
    rw [if_neg hb] at hdims
    rw [mmCsr_cols _ _ (by rw [hdims.1]; exact hi), mem_firsts, mmCols_mem hX]
    have hfX : facX opA ta A opB tb B = flipC (trOf ta opA) A := by unfold facX; rw [if_neg hb]
    have hfY : facY opA ta A opB tb B = flipC (trOf tb opB) B := by unfold facY; rw [if_neg hb]
    have hn : (facX opA ta A opB tb B).n = opCols opA ta A := by
      rw [hfX, (flipC_wf hA _).2.2.2.1, rA.2]
    rw [hn]
    apply exists_congr
    intro k
    apply and_congr_right
    intro hk
    rw [effStored, effStored]
    rw [hXY] at hn
    rw [hfX] at hdims
    rw [hfY] at hdims hn
    rw [hfX, hfY, flipC_stored hA (trOf ta opA) (by omega) (by
        rw [(flipC_wf hA _).2.2.2.1, ← rA.2]; exact hk),
      flipC_stored hB (trOf tb opB) (by omega) (by omega)]

theorem fac_count {opA : Op} {ta : Bool} {A : Csr R} {opB : Op} {tb : Bool} {B : Csr R}
    (hA : A.WF) (hB : B.WF) (hdim : opCols opA ta A = opRows opB tb B) :
    mmOff (facX opA ta A opB tb B) (facY opA ta A opB tb B) (facX opA ta A opB tb B).m
      = prodCount opA ta A opB tb B := by
  obtain ⟨hX, hY, hXY⟩ := fac_wf (opA := opA) (ta := ta) (opB := opB) (tb := tb) hA hB hdim
  obtain ⟨w, nd, -, h1, h2, h4⟩ := resC_ok id true hA hB hdim
  have hn := Csr.nnz_eq_ncard w nd
  have hwf := mmCsr_wf (cjF id true (if bothT ta opA tb opB then opB else opA))
    (cjF id true (if bothT ta opA tb opB then opA else opB)) (A := facX opA ta A opB tb B) hY
  rw [← mmCsr_nnz (cjF id true (if bothT ta opA tb opB then opB else opA))
    (cjF id true (if bothT ta opA tb opB then opA else opB)),
    ← (flipC_wf hwf (bothT ta opA tb opB)).2.1]
  refine Eq.trans hn ?_
  unfold prodCount
  rw [h1, h2]
  congr 1
  ext p
  simp only [Set.mem_setOf_eq]
  constructor
  · rintro ⟨a, b, c⟩
    exact ⟨a, b, (h4 _ _ a b).mp (by simpa [userStored, Csr.cols] using c)⟩
  · rintro ⟨a, b, c⟩
    exact ⟨a, b, by simpa [userStored, Csr.cols] using (h4 _ _ a b).mpr c⟩

omit [Zero R] [Add R] [Mul R] in
/-- nothing is stored in an empty product -/
theorem quick_stored {opA : Op} {ta : Bool} {A : Csr R} {opB : Op} {tb : Bool} {B : Csr R}
    (hA : A.WF) (hB : B.WF) (hq : QuickC opA ta A opB tb B) {i j : Nat} (hi : i < opRows opA ta A)
    (hj : j < opCols opB tb B) : ¬ prodStored opA ta A opB tb B i j := by
  rintro ⟨k, hk, s1, s2⟩
  rw [effStored] at s1 s2
  rcases hq with h | h | h | h | h
  · omega
  · omega
  · omega
  · have := (nnz_zero_iff hA).mp h
    split at s1
    · exact this _ _ s1
    · exact this _ _ s1
  · have := (nnz_zero_iff hB).mp h
    split at s2
    · exact this _ _ s2
    · exact this _ _ s2

omit [Zero R] [Add R] [Mul R] in
theorem quick_count {opA : Op} {ta : Bool} {A : Csr R} {opB : Op} {tb : Bool} {B : Csr R}
    (hA : A.WF) (hB : B.WF) (hq : QuickC opA ta A opB tb B) : prodCount opA ta A opB tb B = 0 := by
  unfold prodCount
  convert Set.ncard_empty (α := Nat × Nat)
  rw [Set.eq_empty_iff_forall_notMem]
  rintro ⟨i, j⟩ ⟨h1, h2, h3⟩
  exact quick_stored hA hB hq h1 h2 h3

open Classical in
/-- the handle a call computes -/
noncomputable def resH (cj : R → R) (isReal : Bool) (opA : Op) (ta : Bool) (A : Csr R) (opB : Op)
    (tb : Bool) (B : Csr R) : Sp2mH R :=
  if QuickC opA ta A opB tb B then zeroH R (opRows opA ta A) (opCols opB tb B)
  else mmH (cjF cj isReal (if bothT ta opA tb opB then opB else opA))
    (cjF cj isReal (if bothT ta opA tb opB then opA else opB))
    (facX opA ta A opB tb B) (facY opA ta A opB tb B) (effFlag ta opA tb opB)

/-- an empty product is the zero matrix in CSR form -/
theorem quick_zero (cj : R → R) (isReal : Bool) {opA : Op} {ta : Bool} {A : Csr R} {opB : Op}
    {tb : Bool} {B : Csr R} (hA : A.WF) (hB : B.WF) (hdim : opCols opA ta A = opRows opB tb B)
    (hq : QuickC opA ta A opB tb B) :
    (resC cj isReal opA ta A opB tb B).arrs = (zeroH R (opRows opA ta A) (opCols opB tb B)).csr ∧
    (resC cj isReal opA ta A opB tb B).nnz = 0 := by
  obtain ⟨w, nd, h0, h1, h2, h4⟩ := resC_ok cj isReal (opA := opA) (ta := ta) (opB := opB) (tb := tb)
    hA hB hdim
  have hn : (resC cj isReal opA ta A opB tb B).nnz = 0 := by
    rw [nnz_zero_iff w]
    intro i c hc
    obtain ⟨a, b, d⟩ := cols_range w hc
    obtain ⟨j, rfl⟩ := Int.eq_ofNat_of_zero_le b
    refine quick_stored hA hB hq (i := i) (j := j) (by omega) (by omega) ?_
    rw [← h4 i j (by omega) (by omega)]
    simpa [userStored, Csr.cols] using hc
  refine ⟨?_, hn⟩
  have hrow : ∀ i, (resC cj isReal opA ta A opB tb B).row i = [] := by
    intro i
    rw [List.eq_nil_iff_forall_not_mem]
    intro e he
    exact (nnz_zero_iff w).mp hn i e.1 (List.mem_map.mpr ⟨e, he, rfl⟩)
  rw [w.eq_mkCsr, h0, h1, h2]
  simp [zeroH, Csr.arrs, mkCsr, offs, hrow, List.map_const']

/-- what the handle holds -/
theorem resH_ok (cj : R → R) (isReal : Bool) {opA : Op} {ta : Bool} {A : Csr R} {opB : Op} {tb : Bool}
    {B : Csr R} (hA : A.WF) (hB : B.WF) (hdim : opCols opA ta A = opRows opB tb B) :
    (resH cj isReal opA ta A opB tb B).m = opRows opA ta A ∧
    (resH cj isReal opA ta A opB tb B).n = opCols opB tb B ∧
    (resH cj isReal opA ta A opB tb B).nnz = (resC cj isReal opA ta A opB tb B).nnz ∧
    (resH cj isReal opA ta A opB tb B).csr = (resC cj isReal opA ta A opB tb B).arrs := by
  obtain ⟨hX, hY, hXY⟩ := fac_wf (opA := opA) (ta := ta) (opB := opB) (tb := tb) hA hB hdim
  obtain ⟨w, nd, h0, h1, h2, h4⟩ := resC_ok cj isReal (opA := opA) (ta := ta) (opB := opB) (tb := tb)
    hA hB hdim
  unfold resH
  split
  · rename_i hq
    have hz := quick_zero cj isReal hA hB hdim hq
    refine ⟨rfl, rfl, ?_, hz.1.symm⟩
    rw [hz.2]; rfl
  · have hwf := mmCsr_wf (cjF cj isReal (if bothT ta opA tb opB then opB else opA))
      (cjF cj isReal (if bothT ta opA tb opB then opA else opB)) (A := facX opA ta A opB tb B) hY
    have hz := (flipC_wf hwf (bothT ta opA tb opB)).2.1
    unfold mmH
    simp only [effFlag_three]
    unfold resC at h1 h2 ⊢
    refine ⟨by rw [← h1], by rw [← h2], by rw [hz], rfl⟩

/-- the state of a two-stage computation -/
def ReadyL (opA : Op) (ta : Bool) (A : Csr R) (opB : Op) (tb : Bool) (B : Csr R) (H : Sp2mH R) : Prop :=
  (QuickC opA ta A opB tb B ∧ H = zeroH R (opRows opA ta A) (opCols opB tb B)) ∨
  (¬ QuickC opA ta A opB tb B ∧ Counted (facX opA ta A opB tb B) (facY opA ta A opB tb B)
    (effFlag ta opA tb opB) H)

omit [Zero R] [Add R] [Mul R] in
theorem ReadyL.congr {opA : Op} {ta : Bool} {A A' : Csr R} {opB : Op} {tb : Bool} {B B' : Csr R}
    (hA : A.WF) (hB : B.WF) (hA' : A'.WF) (hB' : B'.WF) (pA : SamePat A A') (pB : SamePat B B')
    {H : Sp2mH R} (h : ReadyL opA ta A opB tb B H) : ReadyL opA ta A' opB tb B' H := by
  have hqq := SamePat.quick hA hB hA' hB' pA pB (opA := opA) (ta := ta) (opB := opB) (tb := tb)
  have dA' := pA.dims opA ta
  have dB' := pB.dims opB tb
  rcases h with ⟨hq, rfl⟩ | ⟨hq, hc⟩
  · exact .inl ⟨hqq.mpr hq, by rw [dA'.1, dB'.2]⟩
  · obtain ⟨s1, s2⟩ := fac_samePat (opA := opA) (ta := ta) (opB := opB) (tb := tb) hA hB hA' hB' pA pB
    exact .inr ⟨fun h => hq (hqq.mp h), hc.congr s1 s2⟩

/-- a finalize stage -/
theorem next_law {w : Nat} (isReal : Bool) (tm : Teams) (g : Nat → Garb R) (cj : R → R) {opA : Op}
    {dA : Descr} {ta : Bool} {A : Csr R} {opB : Op} {dB : Descr} {tb : Bool} {B : Csr R}
    (hA : A.WF) (hB : B.WF)
    (hda : dA.type = 0 ∧ dA.base = A.base) (hdb : dB.type = 0 ∧ dB.base = B.base)
    (hdim : opCols opA ta A = opRows opB tb B)
    (ht : tm.Ok w (opRows opA ta A) (opCols opB tb B)) {H : Sp2mH R}
    (hr : ReadyL opA ta A opB tb B H) :
    sp2m w isReal tm g cj opA.code (some dA) (some (A.raw ta)) opB.code (some dB)
        (some (B.raw tb)) 1 (some H) = some (.success, some (resH cj isReal opA ta A opB tb B)) ∧
      ReadyL opA ta A opB tb B (resH cj isReal opA ta A opB tb B) := by
  rw [sp2m_checks isReal tm g opA ta opB tb hA hB hda hdb, if_neg (by simp [hdim])]
  obtain ⟨hX, hY, hXY⟩ := fac_wf (opA := opA) (ta := ta) (opB := opB) (tb := tb) hA hB hdim
  unfold resH
  rcases hr with ⟨hq, rfl⟩ | ⟨hq, hc⟩
  · rw [if_pos hq]
    unfold QuickC at hq
    rw [if_pos hq]
    exact ⟨rfl, .inl ⟨hq, rfl⟩⟩
  · rw [if_neg hq]
    have hq0 := hq
    unfold QuickC at hq0
    rw [if_neg hq0, sp2mRun_law isReal tm g cj opA dA ta opB dB tb hA hB hda.1 hdb.1]
    obtain ⟨ef, hc'⟩ := mmFinalize_law (w := w) (tm := tm)
      (cjF cj isReal (if bothT ta opA tb opB then opB else opA))
      (cjF cj isReal (if bothT ta opA tb opB then opA else opB)) hX hY hXY
      (fac_team (ta := ta) hA ht).2 hc
    refine ⟨?_, .inr ⟨hq, hc'⟩⟩
    unfold mmDispatch
    rw [if_neg (by decide), if_pos rfl]
    exact ef

/-- a count stage or a full call -/
theorem start_law {w : Nat} (isReal : Bool) (tm : Teams) (g : Nat → Garb R) (cj : R → R) {opA : Op}
    {dA : Descr} {ta : Bool} {A : Csr R} {opB : Op} {dB : Descr} {tb : Bool} {B : Csr R}
    (hA : A.WF) (hB : B.WF)
    (hda : dA.type = 0 ∧ dA.base = A.base) (hdb : dB.type = 0 ∧ dB.base = B.base)
    (hdim : opCols opA ta A = opRows opB tb B)
    (ht : tm.Ok w (opRows opA ta A) (opCols opB tb B)) (req : Int) (hreq : req = 0 ∨ req = 2)
    (C : Option (Sp2mH R)) :
    (ProdFits w opA ta A opB tb B → ∃ H,
      sp2m w isReal tm g cj opA.code (some dA) (some (A.raw ta)) opB.code (some dB)
        (some (B.raw tb)) req C = some (.success, some H) ∧ ReadyL opA ta A opB tb B H ∧
      (req = 2 → H = resH cj isReal opA ta A opB tb B)) ∧
    (¬ ProdFits w opA ta A opB tb B → 0 ≤ intMax w →
      sp2m w isReal tm g cj opA.code (some dA) (some (A.raw ta)) opB.code (some dB)
        (some (B.raw tb)) req C = some (.invalidSize, none)) := by
  rw [sp2m_checks isReal tm g opA ta opB tb hA hB hda hdb, if_neg (by simp [hdim]),
    if_pos (show req ≠ 1 by omega)]
  obtain ⟨hX, hY, hXY⟩ := fac_wf (opA := opA) (ta := ta) (opB := opB) (tb := tb) hA hB hdim
  by_cases hq : QuickC opA ta A opB tb B
  · constructor
    · intro _
      refine ⟨zeroH R (opRows opA ta A) (opCols opB tb B), ?_, .inl ⟨hq, rfl⟩, fun _ => ?_⟩
      · unfold QuickC at hq; rw [if_pos hq]; rfl
      · rw [resH, if_pos hq]
    · intro hf h0
      exact absurd (.inr (by rw [quick_count hA hB hq]; exact_mod_cast h0)) hf
  · have hq0 := hq
    unfold QuickC at hq0
    rw [if_neg hq0, sp2mRun_law isReal tm g cj opA dA ta opB dB tb hA hB hda.1 hdb.1]
    obtain ⟨H, hc, ec⟩ := mmCount_ok (w := w) (tm := tm) g hX hY hXY (fac_team (ta := ta) hA ht).1
      (effFlag ta opA tb opB)
    rw [fac_count hA hB hdim] at ec
    constructor
    · intro hf
      have : sumOverflow 64 w (prodCount opA ta A opB tb B : Int) = false := by
        unfold sumOverflow
        rcases hf with h | h
        · rw [if_neg (by omega)]
        · split
          · rw [decide_eq_false_iff_not]; omega
          · rfl
      rw [this] at ec
      simp only [Bool.false_eq_true, if_false] at ec
      rcases hreq with rfl | rfl
      · refine ⟨H, ?_, .inr ⟨hq, hc⟩, by simp⟩
        unfold mmDispatch
        rw [if_pos rfl, ec]
        rfl
      · obtain ⟨ef, hc'⟩ := mmFinalize_law (w := w) (tm := tm)
          (cjF cj isReal (if bothT ta opA tb opB then opB else opA))
          (cjF cj isReal (if bothT ta opA tb opB then opA else opB)) hX hY hXY
          (fac_team (ta := ta) hA ht).2 hc
        refine ⟨_, ?_, .inr ⟨hq, hc'⟩, fun _ => by rw [resH, if_neg hq]⟩
        unfold mmDispatch
        rw [if_neg (by decide), if_neg (by decide), if_pos rfl, ec, Option.bind_some]
        exact ef
    · intro hf h0
      have : sumOverflow 64 w (prodCount opA ta A opB tb B : Int) = true := by
        unfold ProdFits at hf
        unfold sumOverflow
        rw [if_pos (by omega), decide_eq_true_iff]
        omega
      rw [this, if_pos rfl] at ec
      unfold mmDispatch
      rcases hreq with rfl | rfl
      · rw [if_pos rfl, ec]; rfl
      · rw [if_neg (by decide), if_neg (by decide), if_pos rfl, ec]; rfl

end
end Verif
