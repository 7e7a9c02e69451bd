/-
The clean copy: copying, sorting and filling of the rows.
-/
import Verif.Proofs.CsrOpt
import Verif.Spec.StdSort

namespace Verif
open Model

variable {R : Type}

/-! ### base correction -/

theorem copyZeroBased_spec {A : Csr R} (hA : A.WF) (gi : Nat → Int) (gv : Nat → R) :
    copyZeroBased gi gv A.m A.nnz A.base A.ptr A.ind A.val
      = some ((mkCsr A.m A.n 0 A.row).ptr, (mkCsr A.m A.n 0 A.row).ind,
          (mkCsr A.m A.n 0 A.row).val) := by
  unfold copyZeroBased
  have hp : forC 0 ((A.m : Int) + 1) (fun i p => do
      let x ← rd A.ptr i
      wr p i (x - A.base)) (alloc ((A.m : Int) + 1).toNat gi)
      = some ((List.range (A.m + 1)).map fun i => (0 : Int) + (offs A.row i : Int)) := by
    rw [show ((A.m : Int) + 1) = ((A.m + 1 : Nat) : Int) by push_cast; rfl]
    refine fill_pre (by simp) _ ?_
    intro i s hi
    rw [hA.rd_ptr (by omega), hA.offs_row (by omega)]
    simp
  have heq := hA.eq_mkCsr
  have hlen : A.val.length = A.ind.length := hA.val_len
  have hs : ∃ s, forC 0 (A.ind.length : Int) (fun i (s : List Int × List R) => do
      let c ← rd A.ind i
      let a ← wr s.1 i (c - A.base)
      let v ← rd A.val i
      let b ← wr s.2 i v
      some (a, b)) (alloc (A.ind.length : Int).toNat gi, alloc (A.ind.length : Int).toNat gv)
      = some s ∧ Pre s.1 A.ind.length ((A.ind.take A.ind.length).map (· - A.base)) ∧
        Pre s.2 A.ind.length (A.val.take A.ind.length) := by
    refine forC_inv_nat (n := A.ind.length)
      (P := fun i (s : List Int × List R) => Pre s.1 A.ind.length ((A.ind.take i).map (· - A.base)) ∧
        Pre s.2 A.ind.length (A.val.take i))
      ⟨by simpa using alloc_pre A.ind.length gi, by simpa using alloc_pre A.ind.length gv⟩ ?_
    rintro i ⟨a, b⟩ hi ⟨p1, p2⟩
    have e1 : rd A.ind (i : Int) = some A.ind[i] := by
      rw [rd_ofNat, List.getElem?_eq_getElem hi]
    have e2 : rd A.val (i : Int) = some A.val[i] := by
      rw [rd_ofNat, List.getElem?_eq_getElem (by omega)]
    obtain ⟨a', q1, q2⟩ := p1.wr (A.ind[i] - A.base) (k := i) (by simp; omega) (by simp; omega)
    obtain ⟨b', r1, r2⟩ := p2.wr (A.val[i]) (k := i) (by simp; omega) (by simp; omega)
    refine ⟨(a', b'), by simp [e1, e2, q1, r1], ?_, ?_⟩
    · rw [List.take_add_one, List.getElem?_eq_getElem hi]
      simpa only [List.map_append, Option.toList_some, List.map_cons, List.map_nil] using q2
    · rw [List.take_add_one, List.getElem?_eq_getElem (by omega)]
      simpa using r2
  obtain ⟨s, h1, h2, h3⟩ := hs
  simp only [Csr.nnz, Option.bind_eq_bind] at h1 hp ⊢
  rw [hp]
  simp only [Option.bind_some, h1]
  rw [h2.full (by simp), h3.full (by simp; omega)]
  congr 1
  have e1 : A.ind = ((List.range A.m).flatMap A.row).map fun e => e.1 + A.base := by
    conv_lhs => rw [heq]
    rfl
  have e2 : A.val = ((List.range A.m).flatMap A.row).map fun e => e.2 := by
    conv_lhs => rw [heq]
    rfl
  congr 2
  · simp only [mkCsr, List.take_length]
    conv_lhs => rw [e1]
    rw [List.map_map]
    apply List.map_congr_left
    intro e _
    simp
  · simp only [mkCsr]
    rw [← hlen, List.take_length]
    exact e2

/-! ### sorting -/

/-- the entries stored at the given positions -/
theorem sortIdxVal_spec {A : Csr R} (hA : A.WF)
    (hnd : ∀ i, i < A.m → (A.cols i).Nodup)
    {srt : (Int → Int → Bool) → List Int → List Int} (hsrt : StdSort srt)
    {db : Int} (hdb : (if A.base ≠ db then (1 : Int) else 0) = A.base - db)
    {dind : List Int} {dval : List R} (h1 : dind.length = A.ind.length)
    (h2 : dval.length = A.ind.length) :
    ∃ rows : Nat → List (Int × R),
      sortIdxVal srt A.m A.nnz A.base A.ptr A.ind A.val db dind dval
        = some ((mkCsr A.m A.n db rows).ind, (mkCsr A.m A.n db rows).val) ∧
      ∀ i, i < A.m → (rows i).Perm (A.row i) ∧ ((rows i).map (·.1)).Pairwise (· ≤ ·) := by
  have hvl : A.val.length = A.ind.length := hA.val_len
  unfold sortIdxVal
  by_cases h0 : (A.m : Int) = 0 ∨ (A.nnz : Int) = 0
  · rw [if_pos h0]
    refine ⟨A.row, ?_, ?_⟩
    · have hnn : A.ind.length = 0 := by
        rcases h0 with h | h
        · have e := hA.ptr_last
          have e2 := hA.ptr_first
          rw [show A.m = 0 by omega] at e
          omega
        · simpa [Csr.nnz] using h
      have hz := Csr.rows_flatten hA
      have : (List.range A.m).flatMap A.row = [] := by
        rw [hz, List.length_eq_zero_iff.mp hnn]; rfl
      have d1 : dind = [] := List.length_eq_zero_iff.mp (by omega)
      have d2 : dval = [] := List.length_eq_zero_iff.mp (by omega)
      simp [mkCsr, this, d1, d2]
    · intro i hi
      refine ⟨List.Perm.refl _, ?_⟩
      have hnn : A.ind.length = 0 := by
        rcases h0 with h | h
        · omega
        · simpa [Csr.nnz] using h
      have hr := Csr.row_length hA hi
      have b1 := hA.lo (i := i) (by omega)
      have b2 := hA.hi (i := i + 1) (by omega)
      have : (A.row i).length = 0 := by
        have b3 := hA.mono (i := i) (j := i + 1) (by omega) (by omega)
        omega
      rw [List.length_eq_zero_iff.mp this]
      simp
  rw [if_neg h0]
  -- positions of row i and the order chosen for them
  let pos : Nat → List Int := fun i =>
    (List.range' (offs A.row i) (A.row i).length).map fun (j : Nat) => (j : Int)
  let ord : Nat → List Int := fun i => srt (sortCmp A.ind) (pos i)
  let ent : Int → Option (Int × R) := fun q =>
    match rd A.ind q, rd A.val q with
    | some c, some v => some (c - A.base, v)
    | _, _ => none
  let rows : Nat → List (Int × R) := fun i => (ord i).filterMap ent
  -- facts on one row
  have hent : ∀ i, i < A.m → ∀ t (ht : t < (A.row i).length),
      rd A.ind ((offs A.row i + t : Nat) : Int) = some ((A.row i)[t].1 + A.base) ∧
      rd A.val ((offs A.row i + t : Nat) : Int) = some ((A.row i)[t].2) := by
    intro i hi t ht
    have := (A.seg_row hA hi).2 t ht
    rw [hA.offs_row (by omega)] at this
    rw [show A.base + (offs A.row i : Int) - A.base + (t : Int)
      = ((offs A.row i + t : Nat) : Int) by push_cast; ring] at this
    exact this
  have hposmem : ∀ i, ∀ q ∈ pos i, ∃ t, t < (A.row i).length ∧ q = ((offs A.row i + t : Nat) : Int) := by
    intro i q hq
    simp only [pos, List.mem_map, List.mem_range'] at hq
    obtain ⟨j, ⟨t, h1, h2⟩, rfl⟩ := hq
    exact ⟨t, h1, by rw [h2]; simp⟩
  have hposmap : ∀ i, i < A.m → (pos i).filterMap ent = A.row i := by
    intro i hi
    have : pos i = (List.range (A.row i).length).map fun t => ((offs A.row i + t : Nat) : Int) := by
      simp only [pos]
      rw [List.range'_eq_map_range, List.map_map]
      rfl
    rw [this, List.filterMap_map]
    apply List.ext_getElem?
    intro t
    have hsome : (List.range (A.row i).length).filterMap
        (ent ∘ fun t => ((offs A.row i + t : Nat) : Int))
        = (List.range (A.row i).length).filterMap (fun t => (A.row i)[t]?) := by
      apply List.filterMap_congr
      intro t ht
      have ht := List.mem_range.mp ht
      obtain ⟨g1, g2⟩ := hent i hi t ht
      simp only [Function.comp, ent]
      rw [g1, g2, List.getElem?_eq_getElem ht]
      simp
    rw [hsome]
    congr 1
    clear hsome this
    generalize A.row i = S
    have : ∀ (S T : List (Int × R)), (List.range S.length).filterMap (fun t => (S ++ T)[t]?) = S := by
      intro S
      induction S using List.reverseRecOn with
      | nil => intro T; rfl
      | append_singleton S x ih =>
        intro T
        rw [List.length_append, List.length_singleton, List.range_succ, List.filterMap_append]
        rw [List.append_assoc, ih ([x] ++ T)]
        simp
    simpa using this S []
  have hsorted : ∀ i, i < A.m → (ord i).Perm (pos i) ∧
      (ord i).Pairwise (fun a b => sortCmp A.ind a b = true) := by
    intro i hi
    have hpn : (pos i).Nodup := by
      refine List.Nodup.map ?_ List.nodup_range'
      intro a b h
      simp only at h
      exact_mod_cast h
    refine hsrt (sortCmp A.ind) (pos i) hpn ?_ ?_
    · intro a ha b hb hab
      obtain ⟨t, ht, rfl⟩ := hposmem i a ha
      obtain ⟨u, hu, rfl⟩ := hposmem i b hb
      have g1 := (hent i hi t ht).1
      have g2 := (hent i hi u hu).1
      have hne : (A.row i)[t].1 ≠ (A.row i)[u].1 := by
        intro h
        have hn := hnd i hi
        unfold Csr.cols at hn
        have := (List.nodup_iff_injective_get.mp hn) (a₁ := ⟨t, by simpa using ht⟩)
          (a₂ := ⟨u, by simpa using hu⟩) (by simpa using h)
        simp at this
        apply hab
        rw [this]
      simp only [sortCmp, g1, g2, decide_eq_true_eq, decide_eq_false_iff_not]
      omega
    · intro a ha b hb c hc
      obtain ⟨t, ht, rfl⟩ := hposmem i a ha
      obtain ⟨u, hu, rfl⟩ := hposmem i b hb
      obtain ⟨w, hw, rfl⟩ := hposmem i c hc
      simp only [sortCmp, (hent i hi t ht).1, (hent i hi u hu).1, (hent i hi w hw).1,
        decide_eq_true_eq]
      omega
  have hordlen : ∀ i, i < A.m → (ord i).length = (A.row i).length := by
    intro i hi
    rw [(hsorted i hi).1.length_eq]
    simp [pos]
  have hordent : ∀ i, i < A.m → ∀ q ∈ ord i, ∃ c v, rd A.ind q = some c ∧ rd A.val q = some v ∧
      ent q = some (c - A.base, v) := by
    intro i hi q hq
    have := (hsorted i hi).1.mem_iff.mp hq
    obtain ⟨t, ht, rfl⟩ := hposmem i q this
    obtain ⟨g1, g2⟩ := hent i hi t ht
    refine ⟨_, _, g1, g2, ?_⟩
    simp only [ent]
    rw [g1, g2]
  have hrowperm : ∀ i, i < A.m → (rows i).Perm (A.row i) := by
    intro i hi
    rw [← hposmap i hi]
    exact (hsorted i hi).1.filterMap ent
  have hrowlen : ∀ i, i < A.m → (rows i).length = (A.row i).length :=
    fun i hi => (hrowperm i hi).length_eq
  have hoffs : ∀ i, i ≤ A.m → offs rows i = offs A.row i := by
    intro i hi
    induction i with
    | zero => rfl
    | succ i ih => rw [offs_succ, offs_succ, ih (by omega), hrowlen i (by omega)]
  have htot : offs A.row A.m = A.ind.length := by
    have e1 := hA.offs_row (i := A.m) (by omega)
    have e2 := hA.ptr_last
    omega
  refine ⟨rows, ?_, fun i hi => ⟨hrowperm i hi, ?_⟩⟩
  swap
  · -- sortedness
    rw [List.pairwise_map]
    have := (hsorted i hi).2
    simp only [rows]
    rw [List.pairwise_filterMap]
    refine List.Pairwise.imp_of_mem ?_ this
    intro a b ha hb hab x hx y hy
    obtain ⟨c, v, q1, q2, q3⟩ := hordent i hi a ha
    obtain ⟨d, w, r1, r2, r3⟩ := hordent i hi b hb
    rw [q3] at hx
    rw [r3] at hy
    simp only [Option.some.injEq] at hx hy
    subst hx hy
    simp only [sortCmp, q1, r1, decide_eq_true_eq] at hab
    simpa using hab
  -- the loop
  obtain ⟨s, hs1, -, hs2, hs3, hs4⟩ := forC_inv_nat (n := A.m)
    (f := sortRow srt A.base A.ptr A.ind A.val db)
    (s := ((List.range (A.nnz : Int).toNat).map fun (j : Nat) => (j : Int), dind, dval))
    (P := fun i s => s.1.length = A.ind.length ∧
      (∀ j, offs A.row i ≤ j → j < A.ind.length → s.1[j]? = some (j : Int)) ∧
      Pre s.2.1 A.ind.length (((List.range i).flatMap rows).map fun e => e.1 + db) ∧
      Pre s.2.2 A.ind.length (((List.range i).flatMap rows).map (·.2)))
    ⟨by simp [Csr.nnz], by
      intro j _ hj
      simp only [Csr.nnz, Int.toNat_natCast, List.getElem?_map]
      rw [List.getElem?_range hj]; rfl,
      by simpa using Pre.nil h1, by simpa using Pre.nil h2⟩ (by
      rintro i ⟨perm, di, dv⟩ hi ⟨p1, p2, p3, p4⟩
      simp only at p1 p2 p3 p4
      have e1 := hA.rd_ptr (i := i) (by omega)
      have e2 := hA.rd_ptr (i := i + 1) (by omega)
      rw [show ((i + 1 : Nat) : Int) = (i : Int) + 1 by push_cast; rfl] at e2
      rw [hA.offs_row (by omega)] at e1 e2
      rw [offs_succ] at e2
      have hb : offs A.row i + (A.row i).length ≤ A.ind.length := by
        rw [← htot, ← offs_succ]
        exact offs_mono _ (by omega)
      have hslice : (perm.drop (offs A.row i)).take (A.row i).length = pos i := by
        apply List.ext_getElem?
        intro t
        by_cases ht : t < (A.row i).length
        · rw [List.getElem?_take_of_lt ht, List.getElem?_drop, p2 _ (by omega) (by omega)]
          simp only [pos, List.getElem?_map]
          rw [List.getElem?_range' ht]
          simp
        · rw [List.getElem?_eq_none (by simp; omega), List.getElem?_eq_none (by simp [pos]; omega)]
      have hsr : sortRange srt (sortCmp A.ind) perm (offs A.row i : Int) ((A.row i).length : Int)
          = some (perm.take (offs A.row i) ++ ord i
              ++ perm.drop (offs A.row i + (A.row i).length)) := by
        unfold sortRange
        rw [if_pos ⟨by omega, by omega, by rw [p1]; exact_mod_cast hb⟩]
        simp only [Int.toNat_natCast]
        rw [hslice]
      have hol := hordlen i hi
      obtain ⟨d, hd1, hd2, hd3⟩ := forC_inv_off
        (a := (offs A.row i : Int)) (b := (offs A.row i : Int) + ((A.row i).length : Int))
        (n := (A.row i).length)
        (f := sortPut A.base db (perm.take (offs A.row i) ++ ord i
              ++ perm.drop (offs A.row i + (A.row i).length)) A.ind A.val) (s := (di, dv))
        (P := fun t s =>
          Pre s.1 A.ind.length (((List.range i).flatMap rows ++ ((ord i).take t).filterMap ent).map fun e => e.1 + db) ∧
          Pre s.2 A.ind.length (((List.range i).flatMap rows ++ ((ord i).take t).filterMap ent).map (·.2)))
        rfl ⟨by simpa using p3, by simpa using p4⟩ (by
          rintro t ⟨a, b⟩ ht ⟨q1, q2⟩
          have hto : t < (ord i).length := by omega
          have htl : (perm.take (offs A.row i)).length = offs A.row i := by
            rw [List.length_take]; omega
          have hq : rd (perm.take (offs A.row i) ++ ord i
              ++ perm.drop (offs A.row i + (A.row i).length)) ((offs A.row i : Int) + t)
              = some (ord i)[t] := by
            rw [show (offs A.row i : Int) + t = ((offs A.row i + t : Nat) : Int) by push_cast; rfl,
              rd_ofNat, List.getElem?_append_left (by rw [List.length_append, htl]; omega),
              List.getElem?_append_right (by omega), htl, Nat.add_sub_cancel_left,
              List.getElem?_eq_getElem hto]
          obtain ⟨c, v, g1, g2, g3⟩ := hordent i hi _ (List.getElem_mem hto)
          have hlenpre : ∀ t, t ≤ (A.row i).length →
              ((List.range i).flatMap rows ++ ((ord i).take t).filterMap ent).length
              = offs A.row i + t := by
            intro t ht
            rw [List.length_append, ← offs_eq, hoffs i (by omega)]
            congr 1
            have : (((ord i).take t).filterMap ent).length = ((ord i).take t).length := by
              rw [List.length_filterMap_eq_countP, List.countP_eq_length]
              intro q hq
              obtain ⟨c, v, _, _, g3⟩ := hordent i hi q (List.mem_of_mem_take hq)
              rw [g3]; rfl
            rw [this, List.length_take]; omega
          have hl := hlenpre t (by omega)
          obtain ⟨a', w1, w2⟩ := q1.wr (c - A.base + db) (k := (offs A.row i : Int) + t)
            (by rw [List.length_map, hl]; push_cast; rfl) (by rw [List.length_map, hl]; omega)
          obtain ⟨b', u1, u2⟩ := q2.wr v (k := (offs A.row i : Int) + t)
            (by rw [List.length_map, hl]; push_cast; rfl) (by rw [List.length_map, hl]; omega)
          have hbase : c - (if A.base ≠ db then 1 else 0) = c - A.base + db := by
            rw [hdb]; ring
          have htake : ((ord i).take (t + 1)).filterMap ent
              = ((ord i).take t).filterMap ent ++ [(c - A.base, v)] := by
            rw [List.take_add_one, List.getElem?_eq_getElem hto, List.filterMap_append]
            simp [g3]
          refine ⟨(a', b'), ?_, ?_, ?_⟩
          · unfold sortPut
            rw [hq]
            simp only [Option.bind_eq_bind, Option.bind_some, g1, g2, hbase, w1, u1]
          · rw [htake, ← List.append_assoc, List.map_append]; exact w2
          · rw [htake, ← List.append_assoc, List.map_append]; exact u2)
      refine ⟨(perm.take (offs A.row i) ++ ord i
              ++ perm.drop (offs A.row i + (A.row i).length), d), ?_, ?_⟩
      · unfold sortRow
        simp only [e1, e2, Option.bind_eq_bind, Option.bind_some]
        rw [show A.base + (offs A.row i : Int) - A.base = (offs A.row i : Int) by ring]
        rw [show A.base + ((offs A.row i + (A.row i).length : Nat) : Int) - A.base
          - (offs A.row i : Int) = ((A.row i).length : Int) by push_cast; ring]
        rw [hsr]
        simp only [Option.bind_some, hd1]
      · have hfull : (ord i).take (A.row i).length = ord i := by
          rw [← hol, List.take_length]
        rw [hfull] at hd2 hd3
        refine ⟨?_, ?_, ?_, ?_⟩
        · simp only [List.length_append, List.length_take, List.length_drop]; omega
        · intro j hj hj2
          rw [offs_succ] at hj
          rw [List.getElem?_append_right (by
            simp only [List.length_append, List.length_take]; omega), List.getElem?_drop]
          simp only [List.length_append, List.length_take, hol]
          rw [show offs A.row i + (A.row i).length + (j - (min (offs A.row i) perm.length +
            (A.row i).length)) = j by omega]
          exact p2 j (by omega) hj2
        · rw [List.range_succ]; simpa [List.flatMap_append] using hd2
        · rw [List.range_succ]; simpa [List.flatMap_append] using hd3)
  have hm : (A.m : Int) ≠ 0 := fun h => h0 (.inl h)
  simp only [Option.bind_eq_bind] at hs1 ⊢
  rw [hs1]
  simp only [Option.bind_some]
  have hl : ((List.range A.m).flatMap rows).length = A.ind.length := by
    rw [← offs_eq, hoffs _ (le_refl _), htot]
  have f1 := hs3.full (by rw [List.length_map, hl])
  have f2 := hs4.full (by rw [List.length_map, hl])
  simp only [mkCsr, add_zero, ← f1, ← f2]

end Verif
