/-
C45: changing one value.  C26: ordering the entries.  C24: giving the arrays back.  C25: copying.
-/
import Verif.Proofs.Order

namespace Verif
open Model Finset

variable {R : Type}

/-! ### C45, coordinate storage -/

theorem setCooValue_spec {C : Coo R} (hC : C.WF) (i j : Nat) (v : R) :
    ((∀ e ∈ C.entries, ¬ (e.1 = (i : Int) ∧ e.2.1 = (j : Int))) ∧
      setCooValue C.row.length C.row C.col C.val (i + C.base) (j + C.base) v
        = some (.invalidIndexValue, C.val)) ∨
    (∃ w, setCooValue C.row.length C.row C.col C.val (i + C.base) (j + C.base) v = some (.success, w) ∧
      IsSetCoo C { C with val := w } i j v) := by
  have hcl := hC.col_len
  have hvl := hC.val_len
  have hlen : C.entries.length = C.row.length := by
    simp only [Coo.entries, List.length_map, List.length_zip]; omega
  have hget : ∀ (w : List R) (hw : w.length = C.row.length) k (hk : k < C.row.length),
      ({ C with val := w } : Coo R).entries[k]? = some (C.row[k] - C.base, C.col[k]'(by omega) - C.base, w[k]'(by omega)) := by
    intro w hw k hk
    simp only [Coo.entries, List.getElem?_map]
    rw [List.getElem?_eq_getElem (by simp only [List.length_zip]; omega)]
    simp [List.getElem_zip]
  have hpos : ∀ k (hk : k < C.row.length), (C.row[k] = (i : Int) + C.base ∧ C.col[k]'(by omega) = (j : Int) + C.base) ↔
      ((C.entries[k]'(by omega)).1 = (i : Int) ∧ (C.entries[k]'(by omega)).2.1 = (j : Int)) := by
    intro k hk
    have h1 := hget C.val hvl k hk
    have h2 : C.entries[k]'(by omega) = (C.row[k] - C.base, C.col[k]'(by omega) - C.base, C.val[k]'(by omega)) := by
      have h3 := List.getElem?_eq_getElem (l := C.entries) (i := k) (by omega)
      exact Option.some.inj (h3.symm.trans h1)
    rw [h2]
    dsimp only
    omega
  unfold setCooValue
  rcases forE_inv (lo := 0) (hi := (C.row.length : Int))
    (f := setCooScan C.row C.col (i + C.base) (j + C.base) v) (s := C.val)
    (P := fun k s => s = C.val ∧ ∀ t (ht : t < C.row.length), (t : Int) < k →
      ¬ ((C.entries[t]'(by omega)).1 = (i : Int) ∧ (C.entries[t]'(by omega)).2.1 = (j : Int)))
    (Q := fun e => ∃ t, ∃ ht : t < C.row.length,
      ((C.entries[t]'(by omega)).1 = (i : Int) ∧ (C.entries[t]'(by omega)).2.1 = (j : Int)) ∧
      (∀ s (hs : s < t), ¬ ((C.entries[s]'(by omega)).1 = (i : Int) ∧ (C.entries[s]'(by omega)).2.1 = (j : Int))) ∧
      e = C.val.set t v) (by omega)
    ⟨rfl, fun t _ h => by omega⟩ (by
      rintro k s h1 h2 ⟨rfl, h3⟩
      obtain ⟨t, rfl⟩ : ∃ t : Nat, k = (t : Int) := ⟨k.toNat, by omega⟩
      have ht : t < C.row.length := by omega
      unfold setCooScan
      simp only [rd_ofNat, List.getElem?_eq_getElem ht, List.getElem?_eq_getElem (show t < C.col.length by omega),
        Option.bind_eq_bind, Option.bind_some]
      have hq := hpos t ht
      by_cases hr : C.row[t] = (i : Int) + C.base
      · rw [if_pos hr]
        by_cases hc : C.col[t] = (j : Int) + C.base
        · right
          rw [if_pos hc, wr_ofNat (by omega)]
          exact ⟨_, rfl, t, ht, hq.1 ⟨hr, hc⟩, fun s hs => h3 s (by omega) (by omega), rfl⟩
        · left
          rw [if_neg hc]
          refine ⟨_, rfl, rfl, fun s hs hst => ?_⟩
          by_cases hse : s = t
          · subst hse; exact fun h => hc (hq.2 h).2
          · exact h3 s hs (by omega)
      · left
        rw [if_neg hr]
        refine ⟨_, rfl, rfl, fun s hs hst => ?_⟩
        by_cases hse : s = t
        · subst hse; exact fun h => hr (hq.2 h).1
        · exact h3 s hs (by omega)) with ⟨s, e, rfl, hP⟩ | ⟨w, e, t, ht, h1, h2, rfl⟩
  · left
    refine ⟨?_, by rw [e]; rfl⟩
    intro e' he'
    obtain ⟨t, ht, rfl⟩ := List.getElem_of_mem he'
    exact hP t (by omega) (by omega)
  · right
    refine ⟨C.val.set t v, by rw [e]; rfl, rfl, rfl, rfl, rfl, rfl, by simp, C.entries.take t, C.val[t],
      C.entries.drop (t + 1), ?_, ?_, ?_⟩
    · conv_lhs => rw [← List.take_append_drop t C.entries]
      rw [List.drop_eq_getElem_cons (by omega)]
      congr 2
      have h3 := List.getElem?_eq_getElem (l := C.entries) (i := t) (by omega)
      have h4 := Option.some.inj (h3.symm.trans (hget C.val hvl t ht))
      rw [h4] at h1 ⊢
      dsimp only at h1
      rw [h1.1, h1.2]
    · intro e' he'
      obtain ⟨s, hs, rfl⟩ := List.getElem_of_mem he'
      rw [List.length_take] at hs
      rw [List.getElem_take]
      exact h2 s (by omega)
    · have hset : ({ C with val := C.val.set t v } : Coo R).entries = C.entries.set t ((i : Int), (j : Int), v) := by
        apply List.ext_getElem?
        intro k
        by_cases hk : k < C.row.length
        · rw [hget (C.val.set t v) (by rw [List.length_set]; omega) k hk, List.getElem?_set]
          have h4 := hget C.val hvl k hk
          by_cases hkt : t = k
          · subst hkt
            have h5 := List.getElem?_eq_getElem (l := C.entries) (i := t) (by omega)
            have h6 := Option.some.inj (h5.symm.trans h4)
            rw [h6] at h1
            dsimp only at h1
            rw [if_pos rfl, if_pos (by omega), h1.1, h1.2, List.getElem_set_self]
          · rw [if_neg hkt, List.getElem_set_ne hkt]
            exact h4.symm
        · rw [List.getElem?_eq_none, List.getElem?_eq_none]
          · rw [List.length_set]; omega
          · simp only [Coo.entries, List.length_map, List.length_zip]; omega
      rw [hset, List.set_eq_take_append_cons_drop, if_pos (by omega)]

/-- **C45, coordinate handles.**  A coordinate outside the matrix and one that is not stored are reported
and nothing changes; otherwise the first stored entry at that coordinate, and nothing else, gets the new
value.  `row` and `col` are in the index base of the matrix. -/
theorem C45_set_coo {C : Coo R} (hC : C.WF) (row col : Int) (v : R) :
    ((row < C.base ∨ C.m + C.base ≤ row ∨ col < C.base ∨ C.n + C.base ≤ col) →
      setValueCoo true (some C) row col v = some (.invalidValue, some C)) ∧
    (∀ i j : Nat, i < C.m → j < C.n → row = i + C.base → col = j + C.base →
      ((∀ e ∈ C.entries, ¬ (e.1 = (i : Int) ∧ e.2.1 = (j : Int))) →
        setValueCoo true (some C) row col v = some (.invalidIndexValue, some C)) ∧
      ((∃ e ∈ C.entries, e.1 = (i : Int) ∧ e.2.1 = (j : Int)) →
        ∃ C', setValueCoo true (some C) row col v = some (.success, some C') ∧ IsSetCoo C C' i j v)) := by
  refine ⟨?_, ?_⟩
  · intro h
    have ho : outOfRange C.m C.n C.base row col = true := by unfold outOfRange; simp; omega
    unfold setValueCoo
    dsimp only
    rw [if_pos ho]
  · rintro i j hi hj rfl rfl
    have hin : outOfRange C.m C.n C.base (i + C.base) (j + C.base) = false := by
      unfold outOfRange; simp; omega
    unfold setValueCoo
    simp only [hin, Bool.false_eq_true, if_false, Bool.true_eq_false, Option.bind_eq_bind]
    rcases setCooValue_spec hC i j v with ⟨h1, h2⟩ | ⟨w, h2, h3⟩
    · rw [h2]
      refine ⟨fun _ => rfl, ?_⟩
      rintro ⟨e, he, hc⟩
      exact absurd hc (h1 e he)
    · rw [h2]
      refine ⟨?_, fun _ => ⟨_, rfl, h3⟩⟩
      intro hno
      exfalso
      obtain ⟨L, u, L', e1, -, -⟩ := h3.here
      exact hno ((i : Int), (j : Int), u) (by rw [e1]; simp) ⟨rfl, rfl⟩

/-! ### C45, CSR and CSC -/

section
variable [CommRing R] [StarRing R] {A : Csr R} {ta : Bool} {H : MvHandle R}

/-- **C45, coordinates outside the matrix**: reported as invalid values; nothing changes. -/
theorem C45_range (hH : HandleOk ta A H) (row col : Int) (v : R)
    (h : row < A.base ∨ userRows ta A + A.base ≤ row ∨ col < A.base ∨ userCols ta A + A.base ≤ col) :
    setValue true (some H) row col v = some (.invalidValue, some H) := by
  obtain ⟨idl, o, iu, rest, hf⟩ := hH.first
  have hum : H.raw.um = (userRows ta A : Int) := by rw [hH.raw]; cases ta <;> rfl
  have hun : H.raw.un = (userCols ta A : Int) := by rw [hH.raw]; cases ta <;> rfl
  unfold setValue
  simp only [hf]
  rw [if_pos]
  unfold outOfRange
  have hb : ({ (A.raw ta).copy0 with idiag := idl } : MCopy R).base = A.base := rfl
  rw [hum, hun, hb]
  simp
  omega

/-- **C45.**  For a handle with any copies and a coordinate inside the matrix: if the coordinate is not
stored, this is reported and nothing changes; otherwise the call succeeds, the first stored entry at the
coordinate gets the new value, no other entry changes, and the handle is a correct handle of the changed
matrix: no object with old values is left.  Rows and columns are exchanged for CSC arrays. -/
theorem C45_set (hA : A.WF) (hH : HandleOk ta A H) {i j : Nat} (hi : i < userRows ta A)
    (hj : j < userCols ta A) (v : R) :
    (¬ userStored ta A i j →
      setValue true (some H) (i + A.base) (j + A.base) v = some (.invalidIndexValue, some H)) ∧
    (userStored ta A i j → ∃ A' H',
      setValue true (some H) (i + A.base) (j + A.base) v = some (.success, some H') ∧
      IsSet A A' (if ta then j else i) (if ta then i else j) v ∧ A'.WF ∧ HandleOk ta A' H' ∧
      (H.mats.length = 1 → H'.nulls = H.nulls)) := by
  obtain ⟨idl, o, iu, rest, hf⟩ := hH.first
  have hum : H.raw.um = (userRows ta A : Int) := by rw [hH.raw]; cases ta <;> rfl
  have hun : H.raw.un = (userCols ta A : Int) := by rw [hH.raw]; cases ta <;> rfl
  have hin : outOfRange H.raw.um H.raw.un A.base (i + A.base) (j + A.base) = false := by
    unfold outOfRange; rw [hum, hun]; simp; omega
  have hnulls : ∀ w, H.mats.length = 1 → (H.newVals w).nulls = H.nulls := by
    intro w hl
    unfold MvHandle.newVals
    rw [hf] at hl ⊢
    simp only [List.length_cons] at hl
    have : rest.length = 0 := by omega
    simp [this]
  have hexp : ∀ row col, setValue true (some H) row col v
      = (if outOfRange H.raw.um H.raw.un A.base row col then some (.invalidValue, some H)
        else do
          let r ← setCsrValue A.base A.ptr A.ind A.val (if ta then col else row) (if ta then row else col) v
          if r.1 ≠ .success then some (r.1, some H) else some (.success, some (H.newVals r.2))) := by
    intro row col
    unfold setValue
    simp only [hf]
    cases ta <;> rfl
  rw [hexp, hin]
  simp only [Bool.false_eq_true, if_false, Option.bind_eq_bind]
  have main : ∀ i' j' : Nat, i' < A.m →
      (¬ (j' : Int) ∈ A.cols i' → ((setCsrValue A.base A.ptr A.ind A.val (i' + A.base) (j' + A.base) v).bind
        fun r => if r.1 ≠ .success then some (r.1, some H) else some (.success, some (H.newVals r.2)))
          = some (.invalidIndexValue, some H)) ∧
      ((j' : Int) ∈ A.cols i' → ∃ A' H',
        ((setCsrValue A.base A.ptr A.ind A.val (i' + A.base) (j' + A.base) v).bind
          fun r => if r.1 ≠ .success then some (r.1, some H) else some (.success, some (H.newVals r.2)))
          = some (.success, some H') ∧ IsSet A A' i' j' v ∧ A'.WF ∧ HandleOk ta A' H' ∧
          (H.mats.length = 1 → H'.nulls = H.nulls)) := by
    intro i' j' hi'
    rcases setCsrValue_spec hA hi' (j := j') v with ⟨h1, h2⟩ | ⟨h1, w, h2, h3, h4⟩
    · rw [h2]
      exact ⟨fun _ => rfl, fun h => absurd h h1⟩
    · rw [h2]
      exact ⟨fun h => absurd h1 h, fun _ => ⟨A.withVals w, H.newVals w, rfl, h4, withVals_wf hA h3,
        hH.newVals hA h3, hnulls w⟩⟩
  cases ta
  · exact main i j hi
  · exact main j i hj

omit [CommRing R] [StarRing R] in
/-- **C45, rejected calls**: no handle, or values of another type. -/
theorem C45_rejected (row col : Int) (v : R) (H : MvHandle R) :
    setValue true (none : Option (MvHandle R)) row col v = some (.invalidPointer, none) ∧
    ∃ st, st ≠ .success ∧ setValue false (some H) row col v = some (st, some H) := by
  refine ⟨rfl, ?_⟩
  unfold setValue
  dsimp only
  split
  · exact ⟨_, by simp, rfl⟩
  · split
    · exact ⟨_, by simp, rfl⟩
    · exact ⟨_, by simp, rfl⟩
  · exact ⟨_, by simp, rfl⟩

omit [StarRing R] in
/-- **C45, the matrix.**  If no coordinate is stored twice, the matrix has the new value at the coordinate
and the old values everywhere else. -/
theorem C45_matrix {A A' : Csr R} {i j : Nat} {v : R} (hA : A.WF) (hA' : A'.WF) (hnd : A.NoDup) (hi : i < A.m)
    (h : IsSet A A' i j v) (k l : Nat) :
    A'.mat k l = if k = i ∧ l = j then v else A.mat k l := by
  by_cases hk : k < A.m
  · by_cases hki : k = i
    · subst hki
      obtain ⟨L, u, L', e1, e2, e3⟩ := h.here
      have hn := hnd k hk
      rw [e1, List.map_append, List.map_cons, List.nodup_append, List.nodup_cons] at hn
      have hL' : ∀ e ∈ L', e.1 ≠ (j : Int) := by
        intro e he hc
        exact hn.2.1.1 (hc ▸ List.mem_map_of_mem (f := (·.1)) he)
      have f1 : (L.filter fun e => decide (e.1 = (j : Int))) = [] :=
        List.filter_eq_nil_iff.2 (fun e he => by simpa using e2 e he)
      have f2 : (L'.filter fun e => decide (e.1 = (j : Int))) = [] :=
        List.filter_eq_nil_iff.2 (fun e he => by simpa using hL' e he)
      unfold Csr.mat Csr.entry
      rw [e1, e3]
      by_cases hl : l = j
      · subst hl
        rw [if_pos ⟨rfl, rfl⟩, List.filter_append, List.filter_cons_of_pos (by simp), f1, f2]
        simp
      · rw [if_neg (fun h => hl h.2), List.filter_append, List.filter_append,
          List.filter_cons_of_neg (by simp; omega), List.filter_cons_of_neg (by simp; omega)]
    · rw [if_neg (fun h => hki h.1)]
      unfold Csr.mat Csr.entry
      rw [h.other k hk hki]
  · rw [if_neg (show ¬ (k = i ∧ l = j) from fun h => hk (h.1 ▸ hi)), Csr.mat_out hA (by omega), Csr.mat_out hA' (by rw [h.m]; omega)]

/-! ### C26 -/

/-- **C26.**  Ordering a CSR handle of any shape, or a CSC handle of a square matrix, that stores no
coordinate twice: the call succeeds, the user's arrays hold in every row the same entries, sorted by
column; and if no copy in another format was made the handle is a correct handle of the new arrays. -/
theorem C26_order {srt : (Int → Int → Bool) → List Int → List Int} (hsrt : StdSort srt) (hA : A.WF)
    (hnd : A.NoDup) (hsq : ta = true → A.m = A.n) (hH : HandleOk ta A H) :
    ∃ A' H', orderMat srt (some H) = some (.success, some H') ∧ A'.WF ∧ IsOrdered A A' ∧
      H'.raw = A'.raw ta ∧ H'.nulls = H.nulls ∧
      ((∀ s ∈ H.mats, s.isCsr) → HandleOk ta A' H') := by
  obtain ⟨idl, o, iu, rest, hf⟩ := hH.first
  have hum : H.raw.um = (A.m : Int) := by
    rw [hH.raw]; cases ta
    · rfl
    · show (A.n : Int) = A.m
      rw [hsq rfl]
  have hnz : H.raw.nnz = (A.nnz : Int) := by rw [hH.raw]; rfl
  have hun : H.raw.un = (A.n : Int) := by
    rw [hH.raw]; cases ta
    · rfl
    · show (A.m : Int) = A.n
      rw [hsq rfl]
  unfold orderMat
  dsimp only
  rw [if_neg (by rw [hum, hun, hnz]; omega), if_neg (by rw [hH.raw]; cases ta <;> simp [Csr.raw])]
  by_cases h0 : H.raw.um = 0 ∨ H.raw.un = 0 ∨ H.raw.nnz = 0
  · rw [if_pos h0]
    have hz : A.ind.length = 0 := by
      rw [hum, hun, hnz] at h0
      rcases h0 with h | h | h
      · have h1 := hA.ptr_last
        have h2 := hA.ptr_first
        rw [show A.m = 0 by omega] at h1
        omega
      · rcases hl : A.ind with _ | ⟨c, l⟩
        · rfl
        · have := hA.ind_range c (by rw [hl]; simp)
          omega
      · simpa [Csr.nnz] using h
    have hrow : ∀ i, A.row i = [] := by
      intro i
      unfold Csr.row
      rw [List.length_eq_zero_iff.1 hz]; simp
    exact ⟨A, H, rfl, hA, ⟨rfl, rfl, rfl, rfl, fun _ _ => List.Perm.refl _, fun i _ => by rw [hrow i]; simp⟩, hH.raw,
      rfl, fun _ => hH⟩
  · rw [if_neg h0, hf]
    dsimp only
    obtain ⟨A', e, hA', hord⟩ := sortMat_spec hA hnd hsrt
    have e' : sortMat srt H.raw.um H.raw.nnz ({ (A.raw ta).copy0 with idiag := idl } : MCopy R).base
        ({ (A.raw ta).copy0 with idiag := idl } : MCopy R).ptr
        ({ (A.raw ta).copy0 with idiag := idl } : MCopy R).ind
        ({ (A.raw ta).copy0 with idiag := idl } : MCopy R).val = some (A'.ind, A'.val) := by
      rw [hum, hnz]; cases ta <;> exact e
    have hraw : ({ H.raw with ind := A'.ind, val := A'.val } : RawMat R) = A'.raw ta := by
      rw [hH.raw]
      have q1 := hord.m
      have q2 := hord.n
      have q3 := hord.base
      have q4 := hord.ptr
      have q5 : A'.nnz = A.nnz := by
        have h1 := hA.ptr_last
        have h2 := hA'.ptr_last
        rw [hord.p_eq, q1, q3] at h2
        unfold Csr.nnz
        omega
      cases ta <;> simp [Csr.raw, q1, q2, q3, q4, q5]
    have hcp : ({ ({ (A.raw ta).copy0 with idiag := idl } : MCopy R) with ind := A'.ind, val := A'.val } : MCopy R)
        = { (A'.raw ta).copy0 with idiag := idl } := by
      rw [← hraw, hH.raw]
      cases ta <;> rfl
    simp only [e', Option.bind_eq_bind, Option.bind_some]
    refine ⟨A', _, rfl, hA', hord, hraw, rfl, ?_⟩
    intro hcsr
    have := hH.ordered hA hA' hord hnd hf (fun s hs => hcsr s (List.mem_cons_of_mem _ hs))
    rw [← hcp, ← hraw] at this
    exact this

omit [StarRing R] in
/-- the matrix is the same -/
theorem C26_matrix {A A' : Csr R} (hA : A.WF) (hA' : A'.WF) (h : IsOrdered A A') : A'.mat = A.mat :=
  h.mat hA hA'

/-! ### C24 -/

/-- the object is not a CSR object of another operator than the matrix or its transpose -/
def Model.Stored.plain : Stored R → Prop
  | .csr c _ _ => c.doid = 0 ∨ c.doid = 2
  | .br4 _ _ => False
  | _ => True

omit [CommRing R] [StarRing R] in
theorem exportFrom_spec (want : MCopy R → Bool) (mats : List (Stored R)) :
    ∀ (l : List (Stored R)) (i : Nat) (best : Option (Nat × MCopy R)),
      (∀ s ∈ l, s.plain) → (∀ t, l[t]? = mats[i + t]?) →
      (∀ b, best = some b → ∃ o iu, mats[b.1]? = some (.csr b.2 o iu) ∧ want b.2 = true) →
      (∀ b, exportFrom want l i best = some b → ∃ o iu, mats[b.1]? = some (.csr b.2 o iu) ∧ want b.2 = true) ∧
      (exportFrom want l i best = none → best = none ∧ ∀ c o iu, .csr c o iu ∈ l → want c = false) := by
  intro l
  induction l with
  | nil =>
    intro i best _ _ hb
    exact ⟨hb, fun h => ⟨h, by simp⟩⟩
  | cons s l ih =>
    intro i best hp hl hb
    have hl' : ∀ t, l[t]? = mats[i + 1 + t]? := by
      intro t
      have := hl (t + 1)
      rw [List.getElem?_cons_succ] at this
      rw [this]; congr 1; omega
    have hp' : ∀ s ∈ l, s.plain := fun s hs => hp s (List.mem_cons_of_mem _ hs)
    cases s with
    | csr c o iu =>
      have h0 : mats[i]? = some (.csr c o iu) := by
        have := hl 0
        simpa using this.symm
      unfold exportFrom
      by_cases hw : want c = true
      · rw [if_pos hw]
        by_cases ho : o = true
        · rw [if_pos ho]
          refine ⟨?_, by simp⟩
          intro b hb'
          cases hb'
          exact ⟨o, iu, h0, hw⟩
        · rw [if_neg ho]
          have := ih (i + 1) (some (i, c)) hp' hl' (by
            intro b hb'; cases hb'; exact ⟨o, iu, h0, hw⟩)
          exact ⟨this.1, fun h => absurd (this.2 h).1 (by simp)⟩
      · rw [if_neg hw]
        have := ih (i + 1) best hp' hl' hb
        refine ⟨this.1, fun h => ⟨(this.2 h).1, ?_⟩⟩
        intro c' o' iu' hm
        rcases List.mem_cons.1 hm with hm | hm
        · cases hm; simpa using hw
        · exact (this.2 h).2 c' o' iu' hm
    | br4 b B => exact absurd (hp _ List.mem_cons_self) (by simp [Model.Stored.plain])
    | hyb b w em ec ev mp =>
      have := ih (i + 1) best hp' hl' hb
      refine ⟨this.1, fun h => ⟨(this.2 h).1, ?_⟩⟩
      intro c' o' iu' hm
      rcases List.mem_cons.1 hm with hm | hm
      · cases hm
      · exact (this.2 h).2 c' o' iu' hm
    | blk b nR p i' mk v =>
      have := ih (i + 1) best hp' hl' hb
      refine ⟨this.1, fun h => ⟨(this.2 h).1, ?_⟩⟩
      intro c' o' iu' hm
      rcases List.mem_cons.1 hm with hm | hm
      · cases hm
      · exact (this.2 h).2 c' o' iu' hm

/-- what an export is expected to return: well-formed arrays of the user's matrix (of its transpose for
CSC), with the right sizes and number of entries -/
structure ExportOk (isT : Bool) (U : Mat R) (M N : Nat) (e : Exported R) : Prop where
  rows : e.m = M
  cols : e.n = N
  nnz : e.nnz = e.ind.length
  wf : (⟨if isT then N else M, if isT then M else N, e.base, e.ptr, e.ind, e.val⟩ : Csr R).WF
  elems : ∀ i j, i < M → j < N → (userMat isT
    (⟨if isT then N else M, if isT then M else N, e.base, e.ptr, e.ind, e.val⟩ : Csr R)) i j = U i j

/-- **C24, CSR.**  If the handle holds no copy of another operator (and no four-row copy), an export in
CSR returns the user's matrix, for handles created from CSR and for handles created from CSC that hold a
CSR copy; without one the call says so. -/
theorem C24_csr (hH : HandleOk ta A H) (hp : ∀ s ∈ H.mats, s.plain) :
    (∃ e, exportCsr true true (some H) = some (.success, some e) ∧
      ExportOk false (userMat ta A) (userRows ta A) (userCols ta A) e) ∨
    (ta = true ∧ (∀ c o iu, .csr c o iu ∈ H.mats → c.doid = 2) ∧
      exportCsr true true (some H) = some (.invalidValue, none)) := by
  obtain ⟨idl, o, iu, rest, hf⟩ := hH.first
  have hum : H.raw.um = (userRows ta A : Int) := by rw [hH.raw]; cases ta <;> rfl
  have hun : H.raw.un = (userCols ta A : Int) := by rw [hH.raw]; cases ta <;> rfl
  have hne : H.mats ≠ [] := by rw [hf]; simp
  have hx := exportFrom_spec (fun c => decide (c.doid ≠ gt)) H.mats H.mats 0 none hp (by simp) (by simp)
  unfold exportCsr
  dsimp only
  rw [if_neg (by simp), if_neg (by simp), if_neg hne]
  rcases hr : exportFrom (fun c => decide (c.doid ≠ gt)) H.mats 0 none with _ | ⟨i, c⟩
  · right
    have hall : ∀ c o iu, .csr c o iu ∈ H.mats → c.doid = 2 := by
      intro c o iu hm
      have := of_decide_eq_false ((hx.2 hr).2 c o iu hm)
      exact not_not.1 this
    refine ⟨?_, hall, rfl⟩
    have := hall _ o iu (by rw [hf]; exact List.mem_cons_self)
    cases ta
    · cases this
    · rfl
  · left
    obtain ⟨o', iu', hm, hw⟩ := hx.1 _ hr
    dsimp only at hm hw
    have hmem := List.mem_of_getElem? hm
    have hd : c.doid = 0 := by
      have h1 := hp _ hmem
      have h2 : c.doid ≠ 2 := of_decide_eq_true hw
      rcases h1 with h | h
      · exact h
      · exact absurd h h2
    obtain ⟨k1, k2, k3, -⟩ := hH.all _ hmem
    have hcsr : c.csr (userRows ta A) (userCols ta A) = ⟨userRows ta A, userCols ta A, c.base, c.ptr, c.ind, c.val⟩ := by
      unfold Model.MCopy.csr kindT
      rw [hd]; rfl
    have hwf := k1.wf
    have hel := k1.elems
    rw [hcsr] at hwf hel
    have hrd := hwf.rd_ptr (le_refl _)
    have hlast := hwf.ptr_last
    dsimp only at hrd hlast
    simp only [Option.bind_eq_bind]
    rw [hum, hrd]
    refine ⟨_, rfl, rfl, hun, ?_, hwf, ?_⟩
    · show Csr.p _ _ - c.base = _
      rw [hlast]; ring
    · intro i' j' hi' hj'
      obtain ⟨D, -, q⟩ := hel
      have := q i' j' hi' hj'
      rw [hd] at this
      exact this.trans (by simp [doidOp, doidMeaning, structured])

/-- **C24, CSC.** -/
theorem C24_csc (hH : HandleOk ta A H) (hp : ∀ s ∈ H.mats, s.plain) :
    (∃ e, exportCsc true true (some H) = some (.success, some e) ∧
      ExportOk true (userMat ta A) (userRows ta A) (userCols ta A) e) ∨
    (ta = false ∧ (∀ c o iu, .csr c o iu ∈ H.mats → c.doid = 0) ∧
      exportCsc true true (some H) = some (.invalidValue, none)) := by
  obtain ⟨idl, o, iu, rest, hf⟩ := hH.first
  have hum : H.raw.um = (userRows ta A : Int) := by rw [hH.raw]; cases ta <;> rfl
  have hun : H.raw.un = (userCols ta A : Int) := by rw [hH.raw]; cases ta <;> rfl
  have hne : H.mats ≠ [] := by rw [hf]; simp
  have hx := exportFrom_spec (fun c => decide (c.doid = gt)) H.mats H.mats 0 none hp (by simp) (by simp)
  unfold exportCsc
  dsimp only
  rw [if_neg (by simp), if_neg (by simp), if_neg hne]
  rcases hr : exportFrom (fun c => decide (c.doid = gt)) H.mats 0 none with _ | ⟨i, c⟩
  · right
    have hall : ∀ c o iu, .csr c o iu ∈ H.mats → c.doid = 0 := by
      intro c o iu hm
      have h1 := (hx.2 hr).2 c o iu hm
      have h2 := hp _ hm
      have h3 : c.doid ≠ 2 := of_decide_eq_false h1
      rcases h2 with h | h
      · exact h
      · exact absurd h h3
    refine ⟨?_, hall, rfl⟩
    have := hall _ o iu (by rw [hf]; exact List.mem_cons_self)
    cases ta
    · rfl
    · cases this
  · left
    obtain ⟨o', iu', hm, hw⟩ := hx.1 _ hr
    dsimp only at hm hw
    have hmem := List.mem_of_getElem? hm
    have hd : c.doid = 2 := of_decide_eq_true hw
    obtain ⟨k1, k2, k3, -⟩ := hH.all _ hmem
    have hcsr : c.csr (userRows ta A) (userCols ta A) = ⟨userCols ta A, userRows ta A, c.base, c.ptr, c.ind, c.val⟩ := by
      unfold Model.MCopy.csr kindT
      rw [hd]; rfl
    have hwf := k1.wf
    have hel := k1.elems
    rw [hcsr] at hwf hel
    dsimp only
    refine ⟨_, rfl, hum, hun, ?_, hwf, ?_⟩
    · show exportNnz H c i = _
      unfold exportNnz
      by_cases hi : i = 0
      · rw [if_pos hi]
        subst hi
        rw [hf] at hm
        simp only [List.getElem?_cons_zero, Option.some.injEq, Stored.csr.injEq] at hm
        rw [← hm.1, hH.raw]
        cases ta <;> rfl
      · rw [if_neg hi]
    · intro i' j' hi' hj'
      obtain ⟨D, -, q⟩ := hel
      have := q j' i' hj' hi'
      rw [hd] at this
      exact this.trans (by simp [doidOp, doidMeaning, structured, transM])

/-! ### C25 -/

/-- **C25, one copy.**  A copy of a CSR or CSC handle, whatever objects it holds, is a fresh handle of
the same arrays. -/
theorem C25_copy (hA : A.WF) (hH : HandleOk ta A H) :
    copyH false (some H) = some (.success, some (.fresh (A.raw ta) false)) := by
  obtain ⟨idl, o, iu, rest, hf⟩ := hH.first
  have hum : 0 ≤ H.raw.um := by rw [hH.raw]; cases ta <;> exact Int.natCast_nonneg _
  have hun : 0 ≤ H.raw.un := by rw [hH.raw]; cases ta <;> exact Int.natCast_nonneg _
  have hnz : H.raw.nnz = (A.ind.length : Int) := by rw [hH.raw]; rfl
  unfold copyH
  dsimp only
  rw [if_neg (by rw [hnz]; omega), if_neg (by simp), hf]
  dsimp only
  have hp : copyFront ((A.m : Int) + 1) A.ptr = some A.ptr := by
    unfold copyFront
    rw [if_pos (by rw [hA.ptr_len]; push_cast; omega)]
    rw [show ((A.m : Int) + 1).toNat = A.ptr.length by rw [hA.ptr_len]; omega, List.take_length]
  have hi : copyFront (A.ind.length : Int) A.ind = some A.ind := by
    unfold copyFront
    rw [if_pos (by omega), Int.toNat_natCast, List.take_length]
  have hv : copyFront (A.ind.length : Int) A.val = some A.val := by
    unfold copyFront
    rw [if_pos (by rw [hA.val_len]; omega), Int.toNat_natCast, ← hA.val_len, List.take_length]
  have e : copyCsr ({ (A.raw ta).copy0 with idiag := idl } : MCopy R).m H.raw.nnz
      ({ (A.raw ta).copy0 with idiag := idl } : MCopy R).ptr ({ (A.raw ta).copy0 with idiag := idl } : MCopy R).ind
      ({ (A.raw ta).copy0 with idiag := idl } : MCopy R).val = some (A.ptr, A.ind, A.val) := by
    unfold copyCsr
    rw [hnz]
    have q : copyFront (({ (A.raw ta).copy0 with idiag := idl } : MCopy R).m + 1)
        ({ (A.raw ta).copy0 with idiag := idl } : MCopy R).ptr = some A.ptr := hp
    have q2 : copyFront (A.ind.length : Int) ({ (A.raw ta).copy0 with idiag := idl } : MCopy R).ind = some A.ind := hi
    have q3 : copyFront (A.ind.length : Int) ({ (A.raw ta).copy0 with idiag := idl } : MCopy R).val = some A.val := hv
    rw [q, q2, q3]
    rfl
  simp only [e, Option.bind_eq_bind, Option.bind_some]
  rw [hH.raw]
  rfl

end

end Verif
