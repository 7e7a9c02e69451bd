import Verif.Model.Tcsr
import Verif.Spec.Tcsr
import Verif.Spec.Clean
import Verif.Props.MatCheck
import Verif.Props.CsrmvSym

namespace Verif
open Model Finset
variable {R : Type}

/-! ### what creation accepts -/

theorem lower_accept {L : Csr R} (hv : L.val.length = L.ind.length) (hsq : L.m = L.n)
    (hlast : L.p L.m = L.base + L.ind.length) :
    (Accept L .lower ∧ L.Grouped ∧ L.FullDiag) ↔ IsLowerPart L := by
  constructor
  · rintro ⟨h, hg, hf⟩
    refine ⟨h.first, h.mono, ?_⟩
    intro i hi
    obtain ⟨l1, l2, e⟩ := List.append_of_mem (hf i hi (by omega))
    have hc := h.diag i hi
    have hgi := hg i hi
    have hidx := h.idx i hi
    rw [e] at hc hgi hidx
    rw [List.count_append, List.count_cons_self] at hc
    have c1 : (i : Int) ∉ l1 := fun hm => by have := List.count_pos_iff.2 hm; omega
    have c2 : (i : Int) ∉ l2 := fun hm => by have := List.count_pos_iff.2 hm; omega
    have hl2 : l2 = [] := by
      rw [List.eq_nil_iff_forall_not_mem]
      intro j hj
      have h1 := hidx j (by simp [hj])
      simp only [jminOf, jmaxOf, reduceCtorEq, if_false, if_true] at h1
      have h2 : Csr.grp i i ≤ Csr.grp i j := by
        have := (List.pairwise_append.1 hgi).2.1
        exact (List.pairwise_cons.1 this).1 j hj
      have h3 : j ≠ i := fun h => c2 (h ▸ hj)
      unfold Csr.grp at h2
      rw [if_neg (by omega), if_pos rfl, if_pos (by omega)] at h2
      omega
    subst hl2
    refine ⟨l1, e, ?_⟩
    intro j hj
    have h1 := hidx j (by simp [hj])
    simp only [jminOf, jmaxOf, reduceCtorEq, if_false, if_true] at h1
    have h3 : j ≠ i := fun h => c1 (h ▸ hj)
    omega
  · intro h
    refine ⟨⟨h.first, hlast, h.mono, ?_, ?_⟩, ?_, ?_⟩
    · intro i hi j hj
      obtain ⟨l, e, hl⟩ := h.rows i hi
      simp only [jminOf, jmaxOf, reduceCtorEq, if_false, if_true]
      rw [e] at hj
      rcases List.mem_append.1 hj with hj | hj
      · have := hl j hj; omega
      · simp at hj; omega
    · intro i hi
      obtain ⟨l, e, hl⟩ := h.rows i hi
      rw [e, List.count_append, List.count_eq_zero.2 (fun hm => by have := hl _ hm; omega)]
      simp
    · intro i hi
      obtain ⟨l, e, hl⟩ := h.rows i hi
      rw [e, List.pairwise_append]
      refine ⟨List.pairwise_of_forall_mem_list ?_, by simp, ?_⟩
      · intro a ha b hb
        have := hl a ha
        have := hl b hb
        unfold Csr.grp
        rw [if_pos (by omega), if_pos (by omega)]
      · intro a ha b hb
        have := hl a ha
        unfold Csr.grp
        rw [if_pos (by omega)]
        omega
    · intro i hi _
      obtain ⟨l, e, hl⟩ := h.rows i hi
      rw [e]; simp

theorem upper_accept {U : Csr R} (hv : U.val.length = U.ind.length) (hsq : U.m = U.n)
    (hlast : U.p U.m = U.base + U.ind.length) :
    (Accept U .upper ∧ U.Grouped ∧ U.FullDiag) ↔ IsUpperPart U := by
  constructor
  · rintro ⟨h, hg, hf⟩
    refine ⟨h.first, h.mono, ?_⟩
    intro i hi
    obtain ⟨l1, l2, e⟩ := List.append_of_mem (hf i hi (by omega))
    have hc := h.diag i hi
    have hgi := hg i hi
    have hidx := h.idx i hi
    rw [e] at hc hgi hidx
    rw [List.count_append, List.count_cons_self] at hc
    have c1 : (i : Int) ∉ l1 := fun hm => by have := List.count_pos_iff.2 hm; omega
    have c2 : (i : Int) ∉ l2 := fun hm => by have := List.count_pos_iff.2 hm; omega
    have hl1 : l1 = [] := by
      rw [List.eq_nil_iff_forall_not_mem]
      intro j hj
      have h1 := hidx j (by simp [hj])
      simp only [jminOf, jmaxOf, reduceCtorEq, if_false, if_true] at h1
      have h2 : Csr.grp i j ≤ Csr.grp i i :=
        (List.pairwise_append.1 hgi).2.2 j hj i (by simp)
      have h3 : j ≠ i := fun h => c1 (h ▸ hj)
      unfold Csr.grp at h2
      rw [if_neg (by omega), if_neg (by omega), if_neg (by omega), if_pos rfl] at h2
      omega
    subst hl1
    refine ⟨l2, e, ?_⟩
    intro j hj
    have h1 := hidx j (by simp [hj])
    simp only [jminOf, jmaxOf, reduceCtorEq, if_false, if_true] at h1
    have h3 : j ≠ i := fun h => c2 (h ▸ hj)
    omega
  · intro h
    refine ⟨⟨h.first, hlast, h.mono, ?_, ?_⟩, ?_, ?_⟩
    · intro i hi j hj
      obtain ⟨l, e, hl⟩ := h.rows i hi
      simp only [jminOf, jmaxOf, reduceCtorEq, if_false, if_true]
      rw [e] at hj
      rcases List.mem_cons.1 hj with hj | hj
      · omega
      · have := hl j hj; omega
    · intro i hi
      obtain ⟨l, e, hl⟩ := h.rows i hi
      rw [e, List.count_cons_self, List.count_eq_zero.2 (fun hm => by have := hl _ hm; omega)]
    · intro i hi
      obtain ⟨l, e, hl⟩ := h.rows i hi
      rw [e, List.pairwise_cons]
      refine ⟨?_, List.pairwise_of_forall_mem_list ?_⟩
      · intro b hb
        have := hl b hb
        unfold Csr.grp
        rw [if_neg (by omega), if_pos rfl, if_neg (by omega), if_neg (by omega)]
        omega
      · intro a ha b hb
        have := hl a ha
        have := hl b hb
        unfold Csr.grp
        rw [if_neg (by omega), if_neg (by omega), if_neg (by omega), if_neg (by omega)]
    · intro i hi _
      obtain ⟨l, e, hl⟩ := h.rows i hi
      rw [e]; simp

theorem Accept.general {A : Csr R} {s : Shape} (hsq : A.m = A.n) (h : Accept A s) :
    Accept A .general := by
  refine ⟨h.first, h.last, h.mono, ?_, h.diag⟩
  intro i hi j hj
  have := h.idx i hi j hj
  simp only [jminOf, jmaxOf, reduceCtorEq, if_false] at this ⊢
  revert this
  split_ifs <;> omega

theorem accept_wf {A : Csr R} {s : Shape} (hb : A.base = 0 ∨ A.base = 1) (hs : Sized A)
    (hsq : A.m = A.n) (h : Accept A s) : A.WF :=
  (C03_valid_iff_wf A hb hs.ptr hs.val).1 ((accept_general_iff A hs.val).1 (h.general hsq)).1

/-- one triangle: checked without reading outside, accepted iff it has the required form -/
theorem tcsrPart_spec {A : Csr R} (hs : Sized A) (shape : Shape) :
    (∃ st, tcsrPart A.m A.n (A.p A.m - A.base) A.ptr A.ind A.val shape A.base = some (.ok st) ∧
      (Accept A shape ∧ A.Grouped ∧ A.FullDiag) ∧ (st = .fully ∨ st = .partially) ∧
      (st = .fully ↔ A.Sorted)) ∨
    (∃ e, tcsrPart A.m A.n (A.p A.m - A.base) A.ptr A.ind A.val shape A.base = some (.error e) ∧
      ¬ (Accept A shape ∧ A.Grouped ∧ A.FullDiag) ∧
      (e = .invalidValue ∨ e = .invalidIndexValue ∨ e = .unsortedInput)) := by
  have hn : A.p A.m - A.base = (A.ind.length : Int) := by have := hs.ind; omega
  unfold tcsrPart
  rw [hn]
  have e0 : A.Sorted ↔ maxRank A A.m = 0 := (maxRank_zero A A.m).symm
  have e2 : ¬ A.Grouped ↔ maxRank A A.m = 2 := (maxRank_two A A.m).symm
  have hle := maxRank_le A A.m
  rcases matCheck_spec A shape hs.ptr hs.val with ⟨s, fd, h1, h2, h3, h4⟩ | ⟨e, h1, h2, h3⟩
  · rw [h1]
    rw [← h3] at e0 e2 hle
    simp only [Option.map_some]
    by_cases hu : s = .unsorted
    · rw [if_pos hu]
      subst hu
      exact .inr ⟨_, rfl, fun h => (e2.2 rfl) h.2.1, by simp⟩
    · rw [if_neg hu]
      by_cases hf : fd = false
      · rw [if_pos hf]
        refine .inr ⟨_, rfl, fun h => ?_, by simp⟩
        have := h4.2 h.2.2
        rw [hf] at this
        cases this
      · rw [if_neg hf]
        have hg : A.Grouped := by
          by_contra hg
          have := e2.1 hg
          cases s <;> simp_all [sortRank]
        refine .inl ⟨s, rfl, ⟨h2, hg, h4.1 (by simpa using hf)⟩, ?_, ?_⟩
        · cases s <;> simp_all [sortRank]
        · rw [e0]; cases s <;> simp [sortRank]
  · rw [h1]
    refine .inr ⟨e, rfl, fun h => h2 h.1, ?_⟩
    rcases h3 with h | h <;> simp [h]

theorem tcsrBuild_spec (gd gu : Nat → Int) {L U : Csr R} (hL : L.ptr.length = L.m + 1)
    (hU : U.ptr.length = L.m + 1) (base N nnz : Int) (sL sU : MatSort) :
    ∃ idiag iurow, tcsrBuild gd gu base L.m N nnz L.ptr U.ptr L.ind U.ind L.val U.val sL sU
        = some (.ok (⟨L.m, N, nnz, base, L.ptr, U.ptr, L.ind, U.ind, L.val, U.val, idiag, iurow⟩,
          if sL = .partially ∨ sU = .partially then .partially else .fully)) ∧
      idiag.length = L.m ∧ iurow.length = L.m ∧
      ∀ i : Nat, i < L.m → rd idiag i = some (L.p (i + 1) - 1) ∧ rd iurow i = some (U.p i + 1) := by
  have rL : Rep L.ptr (L.m + 1) L.p := by
    have := Rep.of_list L.ptr 0; rw [hL] at this; exact this
  have rU : Rep U.ptr (L.m + 1) U.p := by
    have := Rep.of_list U.ptr 0; rw [hU] at this; exact this
  obtain ⟨s, h1, h2, h3, h4⟩ := forC_inv_nat (n := L.m) (f := tcsrPosStep L.ptr U.ptr)
    (s := (alloc L.m gd, alloc L.m gu))
    (fun i s => s.1.length = L.m ∧ s.2.length = L.m ∧ ∀ k : Nat, k < i →
      rd s.1 k = some (L.p (k + 1) - 1) ∧ rd s.2 k = some (U.p k + 1)) (by simp) (by
      rintro i s hi ⟨p1, p2, p3⟩
      have hw1 := wr_ofNat (a := s.1) (i := i) (v := L.p (i + 1) - 1) (by omega)
      have hw2 := wr_ofNat (a := s.2) (i := i) (v := U.p i + 1) (by omega)
      refine ⟨(s.1.set i (L.p (i + 1) - 1), s.2.set i (U.p i + 1)), ?_, by simpa using p1,
        by simpa using p2, ?_⟩
      · unfold tcsrPosStep
        have e1 : rd L.ptr ((i : Int) + 1) = some (L.p (i + 1)) := by
          have := rL.rd_nat (i := i + 1) (by omega); push_cast at this; exact this
        simp only [e1, rU.rd_nat (i := i) (by omega), Option.bind_eq_bind, Option.bind_some, hw1, hw2]
      · intro k hk
        rw [rd_wr hw1, rd_wr hw2]
        by_cases hki : k = i
        · subst hki; simp
        · have : ¬ ((k : Int) = (i : Int)) := by omega
          rw [if_neg this, if_neg this]
          exact p3 k (by omega))
  refine ⟨s.1, s.2, ?_, h2, h3, h4⟩
  unfold tcsrBuild
  simp only [Int.toNat_natCast, h1, Option.bind_eq_bind, Option.bind_some]

/-- a TCSR object built from two accepted triangles -/
structure TcsrOk (T : Tcsr R) (L U : Csr R) : Prop where
  wfL : L.WF
  wfU : U.WF
  lower : IsLowerPart L
  upper : IsUpperPart U
  sq : L.m = L.n
  um : U.m = L.m
  un : U.n = L.n
  ub : U.base = L.base
  base : T.base = L.base
  m : T.m = L.m
  n : T.n = L.n
  nnz : T.nnz = L.ind.length + U.ind.length - L.m
  ptrL : T.ptrL = L.ptr
  ptrU : T.ptrU = U.ptr
  indL : T.indL = L.ind
  indU : T.indU = U.ind
  valL : T.valL = L.val
  valU : T.valU = U.val
  idiag : ∀ i : Nat, i < L.m → rd T.idiag i = some (L.p (i + 1) - 1)
  iurow : ∀ i : Nat, i < L.m → rd T.iurow i = some (U.p i + 1)

theorem rd_drop_one (p : List Int) (i : Nat) : rd (p.drop 1) (i : Int) = rd p ((i : Int) + 1) := by
  have := rd_ofNat p (i + 1)
  push_cast at this
  rw [rd_ofNat, this, List.getElem?_drop, Nat.add_comm]

theorem lower_row {L : Csr R} (h : IsLowerPart L) {i : Nat} (hi : i < L.m) :
    ∃ (S : List (Int × R)) (v : R), L.row i = S ++ [((i : Int), v)] ∧ ∀ e ∈ S, 0 ≤ e.1 ∧ e.1 < i := by
  obtain ⟨l, e, hl⟩ := h.rows i hi
  unfold Csr.cols at e
  obtain ⟨S, D, e1, e2, e3⟩ := List.map_eq_append_iff.1 e
  obtain ⟨⟨c, v⟩, rfl, e4⟩ := List.map_eq_singleton_iff.1 e3
  simp only at e4
  subst e4
  refine ⟨S, v, e1, ?_⟩
  intro e he
  exact hl _ (e2 ▸ List.mem_map_of_mem he)

theorem upper_row {U : Csr R} (h : IsUpperPart U) {i : Nat} (hi : i < U.m) :
    ∃ (S : List (Int × R)) (v : R), U.row i = ((i : Int), v) :: S ∧ ∀ e ∈ S, (i : Int) < e.1 := by
  obtain ⟨l, e, hl⟩ := h.rows i hi
  unfold Csr.cols at e
  obtain ⟨⟨c, v⟩, S, e1, e2, e3⟩ := List.map_eq_cons_iff.1 e
  simp only at e2
  subst e2
  refine ⟨S, v, e1, ?_⟩
  intro e he
  exact (hl _ (e3 ▸ List.mem_map_of_mem he)).1

namespace TcsrOk
variable {T : Tcsr R} {L U : Csr R}

theorem cleanL (h : TcsrOk T L U) : Clean L T.idiag (L.ptr.drop 1) := by
  intro i hi
  obtain ⟨S, v, e, hS⟩ := lower_row h.lower hi
  have hl := Csr.row_length h.wfL hi
  rw [e] at hl
  simp at hl
  refine ⟨S, [((i : Int), v)], [], by rw [e]; simp, fun e he => (hS e he).2, by simp, by simp, ?_, ?_,
    fun _ => rfl⟩
  · rw [h.idiag i hi]; congr 1; omega
  · rw [rd_drop_one]
    have := h.wfL.rd_ptr (i := i + 1) (by omega)
    push_cast at this
    rw [this]; congr 1; simp; omega

theorem cleanU (h : TcsrOk T L U) : Clean U U.ptr T.iurow := by
  intro i hi
  have hi' : i < L.m := by have := h.um; omega
  obtain ⟨S, v, e, hS⟩ := upper_row h.upper hi
  refine ⟨[], [((i : Int), v)], S, by rw [e]; simp, by simp, by simp, hS, ?_, ?_, fun _ => rfl⟩
  · rw [h.wfU.rd_ptr (by omega)]; simp
  · rw [h.iurow i hi']; simp

end TcsrOk

/-! ### the general product -/

section mv
variable [CommSemiring R] [DecidableEq R]

theorem tcsrBlocks_seg {V : Vec R} {K : Nat} (hK : 0 < K) {Inv : V.σ → Prop}
    (i2 : ∀ L s, L.length = K → Inv s → Inv (V.fma L s) ∧
      V.hsum (V.fma L s) = V.hsum s + (L.map fun ab => ab.1 * ab.2).sum)
    {ind : List Int} {val : List R} {base lo hi : Int} {S : List (Int × R)}
    (h : Seg ind val base lo hi S) {x : List R}
    (hr : ∀ e ∈ S, 0 ≤ e.1 ∧ e.1 < x.length) {v : V.σ} (hv : Inv v) :
    ∃ v', tcsrBlocks V K ind val x base lo hi v = some v' ∧ Inv v' ∧
      V.hsum v' = V.hsum v + segDot x (S.take (K * (S.length / K))) := by
  have hdiv := Nat.div_add_mod S.length K
  have hl := h.1
  have e2 : (hi - lo).tmod (K : Int) = ((S.length % K : Nat) : Int) := by
    rw [hl, show lo + (S.length : Int) - lo = S.length by ring, Int.tmod_eq_emod_of_nonneg (by omega)]
    rfl
  unfold tcsrBlocks
  rw [e2]
  exact forS_inv (lo := lo) (hi := hi - ((S.length % K : Nat) : Int)) (K := K)
    (k := S.length / K) hK (by omega)
    (P := fun k v' => Inv v' ∧ V.hsum v' = V.hsum v + segDot x (S.take (K * k)))
    ⟨hv, by simp [segDot]⟩ (by
      rintro k v' hk ⟨p1, p2⟩
      have hle : K * (k + 1) ≤ K * (S.length / K) := Nat.mul_le_mul_left K hk
      rw [Nat.mul_succ] at hle
      have hq : K * k + K ≤ S.length := by omega
      have htake : S.take (K * (k + 1)) = S.take (K * k) ++ (S.drop (K * k)).take K := by
        rw [Nat.mul_succ, List.take_add]
      obtain ⟨j1, j2⟩ := i2 (((S.drop (K * k)).take K).map fun e => (e.2, x.getD e.1.toNat 0)) v'
        (by simp; omega) p1
      refine ⟨V.fma (((S.drop (K * k)).take K).map fun e => (e.2, x.getD e.1.toNat 0)) v', ?_, j1, ?_⟩
      · rw [lanesAt_seg h hr hq]; rfl
      · rw [j2, htake, segDot_append, p2, add_assoc]
        simp only [segDot, List.map_map, Function.comp_def])

theorem seg_tail {ind : List Int} {val x : List R} {base lo hi : Int} {S : List (Int × R)} {K : Nat}
    (hK : 0 < K) (h : Seg ind val base lo hi S) (hr : ∀ e ∈ S, 0 ≤ e.1 ∧ e.1 < x.length) (init : R) :
    dotSeq ind val x base (hi - (hi - lo).tmod K) hi init
      = some (init + segDot x (S.drop (K * (S.length / K)))) := by
  have hdiv := Nat.div_add_mod S.length K
  have hl := h.1
  have e2 : (hi - lo).tmod (K : Int) = ((S.length % K : Nat) : Int) := by
    rw [hl, show lo + (S.length : Int) - lo = S.length by ring, Int.tmod_eq_emod_of_nonneg (by omega)]
    rfl
  have hS : S = S.take (K * (S.length / K)) ++ S.drop (K * (S.length / K)) :=
    (List.take_append_drop _ _).symm
  have hsr : Seg ind val base (lo + ((K * (S.length / K) : Nat) : Int)) hi
      (S.drop (K * (S.length / K))) := by
    rw [hS] at h
    have := h.append_right
    rwa [List.length_take, Nat.min_eq_left (by omega)] at this
  rw [e2, show hi - ((S.length % K : Nat) : Int) = lo + ((K * (S.length / K) : Nat) : Int) by omega]
  exact dotSeq_seg hsr (fun e he => hr e (List.mem_of_mem_drop he)) init

theorem tcsrRow_spec {V : Vec R} {K : Nat} (hV : V.Ok K) {T : Tcsr R} {L U : Csr R}
    (h : TcsrOk T L U) {x : List R} (hx : L.n ≤ x.length) {i : Nat} (hi : i < L.m) :
    tcsrRow V K L.base T x i = some (segDot x (L.row i) + segDot x (U.row i).tail) := by
  obtain ⟨hK, Inv, i0, i1, i2⟩ := hV
  have hiU : i < U.m := by have := h.um; omega
  obtain ⟨S, v, e, hS⟩ := upper_row h.upper hiU
  have sL := Csr.seg_row h.wfL hi
  have sU := Csr.seg_row h.wfU hiU
  have hrL : ∀ e ∈ L.row i, 0 ≤ e.1 ∧ e.1 < x.length := fun e he => by
    have := Csr.row_range h.wfL he; omega
  have hrU : ∀ e ∈ U.row i, 0 ≤ e.1 ∧ e.1 < x.length := fun e he => by
    have := Csr.row_range h.wfU he; have := h.un; omega
  rw [e] at sU hrU ⊢
  have sU' : Seg U.ind U.val L.base (U.p i + 1) (U.p (i + 1)) S := by
    have := Seg.append_right (S1 := [((i : Int), v)]) (S2 := S) sU
    rw [h.ub] at this
    simpa using this
  have hrS : ∀ e ∈ S, 0 ≤ e.1 ∧ e.1 < x.length := fun e he => hrU e (List.mem_cons_of_mem _ he)
  have r1 := h.wfL.rd_ptr (i := i) (by omega)
  have r2 := h.wfL.rd_ptr (i := i + 1) (by omega)
  have r3 := h.wfU.rd_ptr (i := i) (by omega)
  have r4 := h.wfU.rd_ptr (i := i + 1) (by omega)
  push_cast at r2 r4
  obtain ⟨v1, b1, b2, b3⟩ := tcsrBlocks_seg hK i2 sL hrL i0
  obtain ⟨v2, c1, c2, c3⟩ := tcsrBlocks_seg hK i2 sU' hrS b2
  unfold tcsrRow
  simp only [h.ptrL, h.ptrU, h.indL, h.indU, h.valL, h.valU, r1, r2, r3, r4, b1, c1,
    Option.bind_eq_bind, Option.bind_some]
  rw [seg_tail hK sL hrL]
  simp only [Option.bind_some]
  rw [seg_tail hK sU' hrS]
  congr 1
  have hfin : tcsrFin V K (L.p (i + 1) - L.p i) (U.p (i + 1) - (U.p i + 1)) v2
      (0 + segDot x ((L.row i).drop (K * ((L.row i).length / K))))
      = segDot x (L.row i) + segDot x (S.take (K * (S.length / K))) := by
    have dL : (L.p (i + 1) - L.p i).tdiv (K : Int) = (((L.row i).length / K : Nat) : Int) := by
      rw [sL.1, show L.p i + ((L.row i).length : Int) - L.p i = (L.row i).length by ring,
        Int.tdiv_eq_ediv_of_nonneg (by omega)]
      rfl
    have dU : (U.p (i + 1) - (U.p i + 1)).tdiv (K : Int) = ((S.length / K : Nat) : Int) := by
      rw [sU'.1, show U.p i + 1 + (S.length : Int) - (U.p i + 1) = S.length by ring,
        Int.tdiv_eq_ediv_of_nonneg (by omega)]
      rfl
    unfold tcsrFin
    rw [dL, dU]
    have hsp : segDot x (L.row i) = segDot x ((L.row i).take (K * ((L.row i).length / K)))
        + segDot x ((L.row i).drop (K * ((L.row i).length / K))) := by
      rw [← segDot_append, List.take_append_drop]
    by_cases h0 : ((((L.row i).length / K : Nat) : Int) ≠ 0 ∨ ((S.length / K : Nat) : Int) ≠ 0)
    · rw [if_pos h0, c3, b3, i1, hsp]
      abel
    · rw [if_neg h0]
      have z1 : (L.row i).length / K = 0 := by omega
      have z2 : S.length / K = 0 := by omega
      rw [z1, z2]
      simp [segDot]
  rw [hfin, add_assoc, ← segDot_append, List.take_append_drop]
  rfl

theorem lower_mat_zero {L : Csr R} (h : IsLowerPart L) {i j : Nat} (hi : i < L.m) (hj : i < j) :
    L.mat i j = 0 := by
  obtain ⟨S, v, e, hS⟩ := lower_row h hi
  unfold Csr.mat Csr.entry
  rw [List.filter_eq_nil_iff.2]
  · rfl
  · intro a ha
    rw [e] at ha
    rcases List.mem_append.1 ha with ha | ha
    · have := hS a ha; simp; omega
    · simp at ha; subst ha; simp; omega

theorem upper_mat_zero {U : Csr R} (h : IsUpperPart U) {i j : Nat} (hi : i < U.m) (hj : j < i) :
    U.mat i j = 0 := by
  obtain ⟨S, v, e, hS⟩ := upper_row h hi
  unfold Csr.mat Csr.entry
  rw [List.filter_eq_nil_iff.2]
  · rfl
  · intro a ha
    rw [e] at ha
    rcases List.mem_cons.1 ha with ha | ha
    · subst ha; simp; omega
    · have := hS a ha; simp; omega

theorem pair_dot {T : Tcsr R} {L U : Csr R} (h : TcsrOk T L U) (x : List R) {i : Nat} (hi : i < L.m) :
    segDot x (L.row i) + segDot x (U.row i).tail = matVec (pairMat L U) L.n x i := by
  have hiU : i < U.m := by have := h.um; omega
  obtain ⟨S, v, e, hS⟩ := upper_row h.upper hiU
  have hrS : ∀ a ∈ S, 0 ≤ a.1 ∧ a.1 < (L.n : Int) := fun a ha => by
    have := Csr.row_range h.wfU (i := i) (e := a) (by rw [e]; simp [ha])
    have := h.un; omega
  have e1 : segDot x (L.row i) = ∑ j ∈ range L.n, L.mat i j * x.getD j 0 := by
    rw [← rowDot_eq_segDot, rowDot_eq h.wfL]; rfl
  have e2 : segDot x S = ∑ j ∈ range L.n,
      ((S.filter fun e => decide (e.1 = (j : Int))).map (·.2)).sum * x.getD j 0 :=
    filter_sum_mul S L.n (fun j => x.getD j 0) hrS
  rw [e1, e, List.tail_cons, e2, ← Finset.sum_add_distrib]
  unfold matVec
  apply sum_congr rfl
  intro j hj
  rw [← add_mul]
  congr 1
  unfold pairMat
  by_cases hji : j ≤ i
  · rw [if_pos hji, List.filter_eq_nil_iff.2 (fun a ha => by have := hS a ha; simp; omega)]
    simp
  · rw [if_neg hji, lower_mat_zero h.lower hi (by omega), zero_add]
    unfold Csr.mat Csr.entry
    rw [e, List.filter_cons_of_neg (by simp; omega)]

theorem dtcsrmv_spec {T : Tcsr R} {L U : Csr R} (h : TcsrOk T L U) (alpha beta : R) {x y : List R}
    (hx : L.n ≤ x.length) (hy : L.m ≤ y.length) :
    ∃ y', dtcsrmv L.base alpha T x beta y = some y' ∧
      IsMv alpha beta (pairMat L U) L.m L.n x y y' := by
  have hV : (vecLanes (R := R) 4 hsum4l).Ok 4 := vecLanes_ok (by omega) (by
    intro v hv
    match v, hv with
    | [a, b, c, d], _ => simp [hsum4l]; abel)
  obtain ⟨y', h1, h2⟩ := rows_spec (Rep.of_list y 0) hy
    (fun i v => alpha * matVec (pairMat L U) L.n x i + beta * v)
    (fun i y => do
      let r ← tcsrRow (vecLanes 4 hsum4l) 4 L.base T x i
      storeRowA alpha beta r i y) (by
      intro i y f hi hy
      simp only [tcsrRow_spec hV h hx hi, pair_dot h x hi, Option.bind_eq_bind, Option.bind_some]
      exact storeRowA_spec hy (by omega))
  refine ⟨y', ?_, isMv_of_rep hy (fun i _ => rfl) (h2.congr ?_)⟩
  · unfold dtcsrmv; rw [h.m]; exact h1
  · intro i _
    simp only [comb_eq]

end mv

end Verif
