/-
Lemmas for the calls that change values: what depends on the positions only, and the scans.
-/
import Verif.Model.Update
import Verif.Spec.Update
import Verif.Props.Symgs
import Verif.Props.Ilu

namespace Verif
open Model Finset

variable {R : Type}

/-! ### what depends on the positions only -/

theorem Csr.cols_eq {A : Csr R} (h : A.val.length = A.ind.length) (i : Nat) :
    A.cols i = ((A.ind.drop (A.p i - A.base).toNat).take (A.p (i + 1) - A.p i).toNat).map (· - A.base) := by
  have hz : (A.ind.zip A.val).map Prod.fst = A.ind := List.map_fst_zip (by omega)
  unfold Csr.cols Csr.row
  rw [List.map_map]
  conv_rhs => rw [← hz]
  rw [← List.map_drop, ← List.map_take, List.map_map]
  rfl

/-- `A` with other values -/
def Csr.withVals (A : Csr R) (v : List R) : Csr R := { A with val := v }

section
variable {A : Csr R} {v : List R}

theorem withVals_wf (hA : A.WF) (hv : v.length = A.ind.length) : (A.withVals v).WF :=
  ⟨hA.base01, hA.ptr_len, hA.ptr_first, hA.ptr_mono, hA.ptr_last, hv, hA.ind_range⟩

theorem withVals_cols (hA : A.WF) (hv : v.length = A.ind.length) (i : Nat) :
    (A.withVals v).cols i = A.cols i := by
  rw [Csr.cols_eq (A := A.withVals v) hv, Csr.cols_eq hA.val_len]
  rfl

theorem withVals_oneDiag (hA : A.WF) (hv : v.length = A.ind.length) :
    (A.withVals v).OneDiag ↔ A.OneDiag := by
  unfold Csr.OneDiag
  simp only [withVals_cols hA hv]
  rfl

theorem withVals_fullDiag (hA : A.WF) (hv : v.length = A.ind.length) :
    (A.withVals v).FullDiag ↔ A.FullDiag := by
  unfold Csr.FullDiag
  simp only [withVals_cols hA hv]
  rfl

theorem withVals_grouped (hA : A.WF) (hv : v.length = A.ind.length) :
    (A.withVals v).Grouped ↔ A.Grouped := by
  unfold Csr.Grouped
  simp only [withVals_cols hA hv]
  rfl

theorem withVals_noDup (hA : A.WF) (hv : v.length = A.ind.length) :
    (A.withVals v).NoDup ↔ A.NoDup := by
  have : ∀ i, ((A.withVals v).row i).map (·.1) = (A.row i).map (·.1) := withVals_cols hA hv
  unfold Csr.NoDup
  simp only [this]
  rfl

theorem withVals_sorted (hA : A.WF) (hv : v.length = A.ind.length) :
    (A.withVals v).Sorted ↔ A.Sorted := by
  have : ∀ i, ((A.withVals v).row i).map (·.1) = (A.row i).map (·.1) := withVals_cols hA hv
  unfold Csr.Sorted
  simp only [this]
  rfl

theorem withVals_clean (hA : A.WF) (hv : v.length = A.ind.length) {idl iul : List Int}
    (h : Clean A idl iul) : Clean (A.withVals v) idl iul := by
  intro i hi
  obtain ⟨L, D, U, h1, h2, h3, h4, h5, h6, h7⟩ := h i hi
  have hc := withVals_cols hA hv i
  unfold Csr.cols at hc
  rw [h1, List.map_append, List.map_append, List.map_eq_append_iff] at hc
  obtain ⟨LD, U', e1, e2, e3⟩ := hc
  rw [List.map_eq_append_iff] at e2
  obtain ⟨L', D', e4, e5, e6⟩ := e2
  have len1 : L'.length = L.length := by simpa using congrArg List.length e5
  have len2 : D'.length = D.length := by simpa using congrArg List.length e6
  have tr : ∀ {X Y : List (Int × R)} (p : Int → Prop), X.map (·.1) = Y.map (·.1) →
      (∀ e ∈ Y, p e.1) → ∀ e ∈ X, p e.1 := by
    intro X Y p hXY hY e he
    have : e.1 ∈ Y.map (·.1) := by rw [← hXY]; exact List.mem_map_of_mem he
    obtain ⟨e', he', h⟩ := List.mem_map.1 this
    rw [← h]
    exact hY e' he'
  refine ⟨L', D', U', by rw [e1, e4], tr (· < (i : Int)) e5 h2, tr (· = (i : Int)) e6 h3,
    tr ((i : Int) < ·) e3 h4, ?_, ?_, ?_⟩
  · rw [len1]; exact h5
  · rw [len1, len2]; exact h6
  · rw [len2]; exact h7

end

/-! ### the rows after one value changed -/

theorem row_set_other {A : Csr R} (hA : A.WF) {i k : Nat} (hi : i < A.m) {v : R}
    (hk : (k : Int) < A.p i - A.base ∨ A.p (i + 1) - A.base ≤ k) :
    (A.withVals (A.val.set k v)).row i = A.row i := by
  have hl := Csr.row_length hA hi
  refine Csr.row_eq_of_get (A := A.withVals (A.val.set k v)) ?_ (hA.lo (by omega)) ?_ ?_
  · show (A.val.set k v).length = A.ind.length
    rw [List.length_set, hA.val_len]
  · show A.p (i + 1) = A.p i + _
    omega
  · intro t ht
    obtain ⟨c, w, h1, h2, h3⟩ := Csr.row_getElem? hA hi (t := t) (by omega)
    have hlo := hA.lo (i := i) (by omega)
    rw [List.getElem?_eq_getElem ht] at h3
    rw [show A.p i - A.base + t = (((A.p i - A.base).toNat + t : Nat) : Int) by omega] at h1 h2
    rw [rd_ofNat] at h1 h2
    refine ⟨?_, ?_⟩
    · show A.ind[(A.p i - A.base).toNat + t]? = some ((A.row i)[t].1 + A.base)
      rw [h1, Option.some.inj h3]
      simp
    · show (A.val.set k v)[(A.p i - A.base).toNat + t]? = some (A.row i)[t].2
      rw [List.getElem?_set_ne (by omega), h2, Option.some.inj h3]

theorem row_set_here {A : Csr R} (hA : A.WF) {i k t : Nat} (hi : i < A.m) {v : R} {c : Int}
    (hk : A.p i - A.base + t = (k : Int)) (ht : (k : Int) < A.p (i + 1) - A.base)
    (hc : A.ind[k]? = some c) :
    (A.withVals (A.val.set k v)).row i = (A.row i).set t (c - A.base, v) := by
  have hl := Csr.row_length hA hi
  have hlo := hA.lo (i := i) (by omega)
  have hhi := hA.hi (i := i + 1) (by omega)
  have hvl := hA.val_len
  refine Csr.row_eq_of_get (A := A.withVals (A.val.set k v)) ?_ (hA.lo (by omega)) ?_ ?_
  · show (A.val.set k v).length = A.ind.length
    rw [List.length_set, hA.val_len]
  · show A.p (i + 1) = A.p i + _
    rw [List.length_set]; omega
  · intro s hs
    rw [List.length_set] at hs
    rw [List.getElem_set]
    by_cases hst : t = s
    · subst hst
      rw [if_pos rfl]
      have hkk : (A.p i - A.base).toNat + t = k := by omega
      refine ⟨?_, ?_⟩
      · show A.ind[(A.p i - A.base).toNat + t]? = some (c - A.base + A.base)
        rw [hkk, hc]; simp
      · show (A.val.set k v)[(A.p i - A.base).toNat + t]? = some v
        rw [hkk, List.getElem?_set_self (by omega)]
    · rw [if_neg hst]
      obtain ⟨c', w, h1, h2, h3⟩ := Csr.row_getElem? hA hi (t := s) (by omega)
      rw [List.getElem?_eq_getElem hs] at h3
      rw [show A.p i - A.base + s = (((A.p i - A.base).toNat + s : Nat) : Int) by omega] at h1 h2
      rw [rd_ofNat] at h1 h2
      refine ⟨?_, ?_⟩
      · show A.ind[(A.p i - A.base).toNat + s]? = some ((A.row i)[s].1 + A.base)
        rw [h1, Option.some.inj h3]
        simp
      · show (A.val.set k v)[(A.p i - A.base).toNat + s]? = some (A.row i)[s].2
        rw [List.getElem?_set_ne (by omega), h2, Option.some.inj h3]

/-! ### the scan of a row -/

/-- set_csr_value: either the column is not stored and nothing changes, or the first stored one is
changed -/
theorem setCsrValue_spec {A : Csr R} (hA : A.WF) {i j : Nat} (hi : i < A.m) (v : R) :
    ((j : Int) ∉ A.cols i ∧ setCsrValue A.base A.ptr A.ind A.val (i + A.base) (j + A.base) v
        = some (.invalidIndexValue, A.val)) ∨
    ((j : Int) ∈ A.cols i ∧ ∃ w, setCsrValue A.base A.ptr A.ind A.val (i + A.base) (j + A.base) v
        = some (.success, w) ∧ w.length = A.ind.length ∧ IsSet A (A.withVals w) i j v) := by
  have hl := Csr.row_length hA hi
  have hlo := hA.lo (i := i) (by omega)
  have hhi := hA.hi (i := i + 1) (by omega)
  have hmono := hA.ptr_mono i hi
  have hvl := hA.val_len
  have hget : ∀ t, t < (A.row i).length → ∃ c w, A.ind[(A.p i - A.base).toNat + t]? = some c ∧
      A.val[(A.p i - A.base).toNat + t]? = some w ∧ (A.row i)[t]? = some (c - A.base, w) := by
    intro t ht
    obtain ⟨c, w, h1, h2, h3⟩ := Csr.row_getElem? hA hi (t := t) (by omega)
    rw [show A.p i - A.base + t = (((A.p i - A.base).toNat + t : Nat) : Int) by omega] at h1 h2
    rw [rd_ofNat] at h1 h2
    exact ⟨c, w, h1, h2, h3⟩
  have hb : ¬ (A.base ≠ 1 ∧ A.base ≠ 0) := by rcases hA.base01 with h | h <;> simp [h]
  unfold setCsrValue
  rw [if_neg hb, show (i : Int) + A.base - A.base = (i : Int) by omega,
    show (i : Int) + 1 = ((i + 1 : Nat) : Int) by push_cast; rfl, hA.rd_ptr (by omega), hA.rd_ptr (by omega)]
  simp only [Option.bind_eq_bind, Option.bind_some]
  rcases forE_inv (lo := A.p i - A.base) (hi := A.p (i + 1) - A.base)
    (f := setCsrScan A.ind (j + A.base) v) (s := A.val)
    (P := fun k s => s = A.val ∧ ∀ t, t < (A.row i).length → A.p i - A.base + t < k →
      ((A.row i)[t]?.map (·.1)) ≠ some (j : Int))
    (Q := fun e => ∃ t, t < (A.row i).length ∧ ((A.row i)[t]?.map (·.1)) = some (j : Int) ∧
      (∀ s, s < t → ((A.row i)[s]?.map (·.1)) ≠ some (j : Int)) ∧
      e = A.val.set ((A.p i - A.base).toNat + t) v) (by omega)
    ⟨rfl, fun t _ h => by omega⟩ (by
      rintro k s h1 h2 ⟨rfl, h3⟩
      obtain ⟨t, rfl⟩ : ∃ t : Nat, k = (((A.p i - A.base).toNat + t : Nat) : Int) :=
        ⟨(k - (A.p i - A.base)).toNat, by omega⟩
      have ht : t < (A.row i).length := by omega
      obtain ⟨c, w, g1, g2, g3⟩ := hget t ht
      unfold setCsrScan
      rw [rd_ofNat, g1]
      simp only [Option.bind_eq_bind, Option.bind_some]
      by_cases hc : c = (j : Int) + A.base
      · right
        rw [if_pos hc, wr_ofNat (by omega)]
        refine ⟨_, rfl, t, ht, ?_, ?_, rfl⟩
        · rw [g3, hc]; simp
        · intro s hs
          exact h3 s (by omega) (by omega)
      · left
        rw [if_neg hc]
        refine ⟨_, rfl, rfl, ?_⟩
        intro s hs hsk
        by_cases hst : s = t
        · subst hst
          rw [g3]
          simp only [Option.map_some, ne_eq, Option.some.injEq]
          omega
        · exact h3 s hs (by omega)) with ⟨s, e, rfl, hP⟩ | ⟨w, e, t, ht, h1, h2, rfl⟩
  · left
    refine ⟨?_, ?_⟩
    · intro hj
      unfold Csr.cols at hj
      obtain ⟨t, ht, hjt⟩ := List.getElem_of_mem hj
      rw [List.length_map] at ht
      refine hP t ht (by omega) ?_
      rw [List.getElem?_eq_getElem ht, Option.map_some, ← hjt, List.getElem_map]
    · rw [e]
      rfl
  · right
    obtain ⟨c, u, g1, g2, g3⟩ := hget t ht
    rw [g3, Option.map_some, Option.some.injEq] at h1
    have hc : c = (j : Int) + A.base := by dsimp only at h1; omega
    refine ⟨?_, _, by rw [e]; rfl, by rw [List.length_set]; omega, ?_⟩
    · unfold Csr.cols
      refine List.mem_map.2 ⟨_, List.mem_of_getElem? g3, h1⟩
    · refine ⟨rfl, rfl, rfl, rfl, rfl, by simp [Csr.withVals], ?_, ?_⟩
      · intro k hk hki
        refine row_set_other hA hk ?_
        rcases Nat.lt_or_gt_of_ne hki with h | h
        · right
          have := hA.mono (i := k + 1) (j := i) (by omega) (by omega)
          omega
        · left
          have := hA.mono (i := i + 1) (j := k) (by omega) (by omega)
          omega
      · refine ⟨(A.row i).take t, u, (A.row i).drop (t + 1), ?_, ?_, ?_⟩
        · rw [List.getElem?_eq_getElem ht, Option.some.injEq] at g3
          conv_lhs => rw [← List.take_append_drop t (A.row i)]
          rw [List.drop_eq_getElem_cons ht, g3, hc]
          simp
        · intro e' he'
          obtain ⟨s, hs, hse⟩ := List.getElem_of_mem he'
          rw [List.length_take] at hs
          have := h2 s (by omega)
          rw [List.getElem?_eq_getElem (by omega), Option.map_some, ne_eq, Option.some.injEq] at this
          rw [← hse, List.getElem_take]
          exact this
        · rw [row_set_here hA hi (t := t) (c := c) (by omega) (by omega) g1,
            List.set_eq_take_append_cons_drop, if_pos ht, hc]
          simp

/-- the result of a change is determined -/
theorem IsSet.unique {A A1 A2 : Csr R} {i j : Nat} {v : R} (hA : A.WF) (hi : i < A.m)
    (h1 : IsSet A A1 i j v) (h2 : IsSet A A2 i j v) : A1 = A2 := by
  have hwf : ∀ {B : Csr R}, IsSet A B i j v → B.WF := by
    rintro ⟨m, n, base, ptr, ind, val⟩ h
    obtain ⟨rfl, rfl, rfl, rfl, rfl, hl, -, -⟩ := h
    exact withVals_wf hA (hl.trans hA.val_len)
  have e1 := (hwf h1).eq_mkCsr
  have e2 := (hwf h2).eq_mkCsr
  have hrow : ∀ k, k < A.m → A1.row k = A2.row k := by
    intro k hk
    by_cases hki : k = i
    · subst hki
      obtain ⟨L, u, L', a1, a2, a3⟩ := h1.here
      obtain ⟨M, w, M', b1, b2, b3⟩ := h2.here
      have key : ∀ (L M : List (Int × R)) (L' M' : List (Int × R)),
          L ++ ((j : Int), u) :: L' = M ++ ((j : Int), w) :: M' → (∀ e ∈ L, e.1 ≠ (j : Int)) →
          (∀ e ∈ M, e.1 ≠ (j : Int)) → L = M ∧ L' = M' := by
        intro L
        induction L with
        | nil =>
          intro M L' M' h _ hM
          cases M with
          | nil => simp only [List.nil_append, List.cons.injEq] at h; exact ⟨rfl, h.2⟩
          | cons a M =>
            simp only [List.nil_append, List.cons_append, List.cons.injEq] at h
            exact absurd (by rw [← h.1]) (hM a (by simp))
        | cons b L ih =>
          intro M L' M' h hL hM
          cases M with
          | nil =>
            simp only [List.nil_append, List.cons_append, List.cons.injEq] at h
            exact absurd (by rw [h.1]) (hL b (by simp))
          | cons a M =>
            simp only [List.cons_append, List.cons.injEq] at h
            obtain ⟨q1, q2⟩ := ih M L' M' h.2 (fun e he => hL e (by simp [he])) (fun e he => hM e (by simp [he]))
            exact ⟨by rw [h.1, q1], q2⟩
      obtain ⟨q1, q2⟩ := key L M L' M' (a1.symm.trans b1) a2 b2
      rw [a3, b3, q1, q2]
    · rw [h1.other k hk hki, h2.other k hk hki]
  rw [e1, e2, h1.m, h1.n, h1.base, h2.m, h2.n, h2.base]
  unfold mkCsr
  have : (List.range A.m).flatMap A1.row = (List.range A.m).flatMap A2.row := by
    rw [List.flatMap_def, List.flatMap_def, List.map_congr_left (fun k hk => hrow k (List.mem_range.1 hk))]
  have ho : ∀ k ≤ A.m, offs A1.row k = offs A2.row k := fun k hk => offs_congr (fun q hq => by rw [hrow q (by omega)])
  rw [this]
  congr 1
  apply List.map_congr_left
  intro k hk
  rw [ho k (by have := List.mem_range.1 hk; omega)]

/-! ### the handle -/

section
variable [CommRing R] [StarRing R] {A : Csr R} {ta : Bool} {H : MvHandle R}

theorem HandleOk.newVals (hA : A.WF) (hH : HandleOk ta A H) {v : List R} (hv : v.length = A.ind.length) :
    HandleOk ta (A.withVals v) (H.newVals v) := by
  obtain ⟨idl, o, iu, rest, hf⟩ := hH.first
  have hwf := withVals_wf hA hv
  have hst := hH.all (.csr { (A.raw ta).copy0 with idiag := idl } o iu) (by rw [hf]; simp)
  obtain ⟨k1, k2⟩ := copy0_idiag_ok hwf ta idl
  have k2' := (copy0_idiag_ok hA ta idl).2
  have hnew : H.newVals v = { H with
      raw := (A.withVals v).raw ta
      mats := [.csr { ((A.withVals v).raw ta).copy0 with idiag := idl } o iu]
      nulls := H.nulls + rest.length } := by
    unfold MvHandle.newVals
    rw [hf, hH.raw]
    cases ta <;> rfl
  rw [hnew]
  refine ⟨rfl, ⟨idl, o, iu, [], rfl⟩, ?_, ?_, ?_⟩
  · intro s hs
    rw [List.mem_singleton.1 hs]
    refine ⟨k1, ?_, ?_, ?_⟩
    · rw [k2]; cases ta <;> rfl
    · intro _; cases ta <;> exact ⟨rfl, rfl⟩
    · intro ho
      obtain ⟨-, -, -, hst⟩ := hst
      obtain ⟨-, -, -, -, il, ul, q1, q2, q3⟩ := hst ho
      refine ⟨by cases ta <;> rfl, .inr (by cases ta <;> rfl), fun i _ => by rw [k2], fun h => by rw [k2]; exact h, il, ul, ?_, q2, ?_⟩
      · exact q1
      · rw [k2]
        rw [k2'] at q3
        exact withVals_clean hA hv q3
  · intro h
    exact (withVals_sorted hA hv).2 (hH.sorted h)
  · intro s hs ho
    rw [List.mem_singleton.1 hs] at ho
    rw [withVals_fullDiag hA hv]
    exact hH.full (.csr { (A.raw ta).copy0 with idiag := idl } o iu) (by rw [hf]; exact List.mem_cons_self) ho

end

end Verif
