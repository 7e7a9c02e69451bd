/-
The dense product op(A)·op(A)ᵀ in an arithmetic without algebraic laws: the values that are added to each element
of C.
-/
import Verif.Proofs.SyprdExact
import Verif.Proofs.RoundedSp2m3
import Verif.Proofs.Oft3

namespace Verif
open Model

variable {R : Type} [Zero R] [Add R] [Mul R]

/-- the elements of column `j` with their rows, each once -/
structure ColElems (A : Csr R) (W : Nat → List (R × Nat)) : Prop where
  nodup : ∀ j, j < A.n → ((W j).map (·.2)).Nodup
  mem : ∀ j, j < A.n → ∀ v x, (v, x) ∈ W j ↔ x < A.m ∧ ((j : Int), v) ∈ A.row x

omit [Add R] [Mul R] in
/-- the transposition on the fly visits the elements of every column -/
theorem atb_elems {A : Csr R} (hA : A.WF) (hs : A.Strict) :
    ∃ (O : Nat → Oft) (W : Nat → List (R × Nat)), ColElems A W ∧
      oftInit (atbCfg A.arrs) A.m A.n A.ptr A.base = some (O 0) ∧
      ∀ (σ : Type) (cA : R → R) (step : Int → R → Int → σ → Option σ) (i : Nat), i < A.n → ∀ s : σ,
        atbVisit cA A.arrs A.m step (i : Int) (O i, s)
          = ((W i).foldlM (fun s e => step (i : Int) (cA e.1) (e.2 : Int) s) s).map fun t => (O (i + 1), t) := by
  have hr := atb_rows hA hs
  obtain ⟨O, V, e, h⟩ := oft_trace hr (irstart := A.ptr) (sOff := A.base)
    (fun x hx => by rw [hA.rd_ptr (by omega)]; congr 1; omega)
  refine ⟨O, fun j => (V j).map fun p => (((A.row p.1).getD p.2 (0, 0)).2, p.1), ⟨?_, ?_⟩, e, ?_⟩
  · intro j hj
    rw [List.map_map]
    exact (h j hj).1.nodup
  · intro j hj v x
    obtain ⟨hv, -⟩ := h j hj
    rw [List.mem_map]
    constructor
    · rintro ⟨⟨y, t⟩, hm, hp⟩
      obtain ⟨h1, h2⟩ := (hv.mem y t).mp hm
      obtain ⟨h3, h4⟩ := List.getElem?_eq_some_iff.mp h2
      have h3' : t < (A.row y).length := by simpa using h3
      rw [List.getElem_map] at h4
      simp only [List.getD_eq_getElem?_getD, List.getElem?_eq_getElem h3', Option.getD_some, Prod.mk.injEq] at hp
      obtain ⟨rfl, rfl⟩ := hp
      refine ⟨h1, ?_⟩
      rw [← h4]
      exact List.getElem_mem h3'
    · rintro ⟨h1, h2⟩
      obtain ⟨t, ht⟩ := List.getElem?_of_mem h2
      refine ⟨(x, t), (hv.mem x t).mpr ⟨h1, by rw [List.getElem?_map, ht]; rfl⟩, ?_⟩
      simp [List.getD_eq_getElem?_getD, ht]
  · intro σ cA step i hi s
    obtain ⟨hv, hw⟩ := h i hi
    unfold atbVisit
    simp only [Csr.arrs]
    have := hw σ (fun row idx t => do
      let v ← rd A.val idx
      step i (cA v) row t) s
    refine this.trans ?_
    rw [foldlM_map']
    congr 1
    apply foldlM_congr'
    rintro s ⟨x, t⟩ hm
    obtain ⟨h1, h2⟩ := (hv.mem x t).mp hm
    obtain ⟨h3, h4⟩ := List.getElem?_eq_some_iff.mp h2
    have h3' : t < (A.row x).length := by simpa using h3
    simp only [Option.bind_eq_bind]
    rw [(row_rd hA h1 h3').2, Option.bind_some, List.getD_eq_getElem?_getD, List.getElem?_eq_getElem h3',
      Option.getD_some]

/-- what `a` times row `x` adds to cell `p` of row `i` -/
def sdVals (col : Bool) (ldc : Nat) (A : Csr R) (i : Nat) (a : R) (x p : Nat) : List R :=
  (A.row x).flatMap fun e => if (i : Int) ≤ e.1 ∧ (p : Int) = denseOff col ldc i e.1.toNat then [a * e.2] else []

omit [Zero R] in
theorem sdRow_vals {col cjl : Bool} {ldc len : Nat} {A : Csr R} (hA : A.WF) {i x : Nat}
    (hx : x < A.m) (hlen : ∀ j, i ≤ j → j < A.n → denseOff col ldc i j < len) (a : R) :
    AddsL len (sdRow col cjl id A.arrs ldc i a x) (sdVals col ldc A i a x) := by
  have h := addsL_foldlM (len := len) (L := A.row x)
    (body := fun C e => if e.1 < (i : Int) then some C else addAt C (mdOff col ldc i e.1) (a * e.2))
    (D := fun e p => if (i : Int) ≤ e.1 ∧ (p : Int) = denseOff col ldc i e.1.toNat then [a * e.2] else []) (by
      intro e he
      obtain ⟨h0, h1⟩ := Csr.row_range hA he
      by_cases hlt : e.1 < (i : Int)
      · simp only [if_pos hlt]
        exact (addsL_id len).congr (fun _ => rfl) (fun p _ => by rw [if_neg (by omega)])
      · simp only [if_neg hlt]
        have hoff : mdOff col ldc i e.1 = ((denseOff col ldc i e.1.toNat : Nat) : Int) := by
          rw [← mdOff_nat, Int.toNat_of_nonneg h0]
        rw [hoff]
        refine (addsL_addAt (i := ((denseOff col ldc i e.1.toNat : Nat) : Int)) (by omega)
          (by have := hlen e.1.toNat (by omega) (by omega); omega) _).congr (fun _ => rfl) (fun p _ => ?_)
        refine if_congr ?_ rfl rfl
        omega)
  refine h.congr (fun C => ?_) (fun p _ => rfl)
  obtain ⟨p1, p2⟩ := rd_ptr2 hA hx
  unfold sdRow
  simp only [Csr.arrs, p1, p2, Option.bind_eq_bind, Option.bind_some]
  refine Csr.forC_row' hA hx (G := fun c v C => if c < (i : Int) then some C
      else addAt C (mdOff col ldc i c) (a * v)) ?_ C
  intro k c v s h1 h2 _
  unfold sdElem
  simp only [h1, h2, Option.bind_eq_bind, Option.bind_some, Int.add_sub_cancel, id_eq, ite_self]

/-- what the columns below `t` add to cell `p` -/
def sdCells (col : Bool) (ldc : Nat) (A : Csr R) (W : Nat → List (R × Nat)) (alpha : R) (t p : Nat) : List R :=
  (List.range t).flatMap fun i => (W i).flatMap fun e => sdVals col ldc A i (alpha * e.1) e.2 p

theorem sdAtb_vals {col cjl : Bool} {ldc len : Nat} {A : Csr R} (hA : A.WF) (hs : A.Strict)
    (alpha : R) (hlen : ∀ i j, i ≤ j → j < A.n → denseOff col ldc i j < len) :
    ∃ W, ColElems A W ∧ AddsL len (sdAtb col cjl id A.m A.n alpha A.arrs ldc) (sdCells col ldc A W alpha A.n) := by
  obtain ⟨O, W, hW, e, hv⟩ := atb_elems hA hs
  refine ⟨W, hW, ?_⟩
  intro C f hC
  unfold sdAtb
  rw [show oftInit (atbCfg A.arrs) A.m A.n A.arrs.ptr A.arrs.base = some (O 0) from e]
  simp only [Option.bind_eq_bind, Option.bind_some, Int.toNat_natCast, id_eq, ite_self]
  have hvis := hv (List R) (fun v => alpha * v) (sdRow col cjl id A.arrs ldc)
  obtain ⟨⟨o, C'⟩, e1, ho, hC'⟩ := forC_inv_nat (n := A.n) (s := (O 0, C))
    (f := atbVisit (fun v => alpha * v) A.arrs A.m (sdRow col cjl id A.arrs ldc))
    (P := fun t s => s.1 = O t ∧ Rep s.2 len (fun p => (sdCells col ldc A W alpha t p).foldl (· + ·) (f p)))
    ⟨rfl, hC.congr (by simp [sdCells])⟩
    (by
      rintro i ⟨o, C1⟩ hi ⟨rfl, hC1⟩
      rw [hvis i hi]
      have ha := addsL_foldlM (len := len) (L := W i)
        (body := fun C e => sdRow col cjl id A.arrs ldc (i : Int) (alpha * e.1) (e.2 : Int) C)
        (D := fun e p => sdVals col ldc A i (alpha * e.1) e.2 p) (by
          intro e he
          exact sdRow_vals hA ((hW.mem i hi e.1 e.2).mp he).1 (fun j h1 h2 => hlen i j h1 h2) _)
      obtain ⟨C2, e2, r2⟩ := ha C1 _ hC1
      dsimp only at e2 ⊢
      refine ⟨(O (i + 1), C2), by rw [e2]; rfl, rfl, r2.congr (fun p _ => ?_)⟩
      unfold sdCells
      rw [List.range_succ, List.flatMap_append, List.foldl_append]
      simp)
  rw [e1, Option.bind_some]
  exact ⟨C', rfl, hC'⟩

/-- the values of column `c` stored in row `x` -/
def valsAt (A : Csr R) (x c : Nat) : List R := ((A.row x).filter fun e => e.1 = (c : Int)).map (·.2)

omit [Zero R] [Add R] in
theorem sdVals_eq {col : Bool} {ldc : Nat} {A : Csr R} (hA : A.WF) {i x i' j : Nat} (a : R)
    (hld : A.n ≤ ldc) (hi : i < A.n) (hij : i' ≤ j) (hj : j < A.n) :
    sdVals col ldc A i a x (denseOff col ldc i' j) = if i = i' then (valsAt A x j).map (a * ·) else [] := by
  have key : sdVals col ldc A i a x (denseOff col ldc i' j)
      = (A.row x).flatMap fun e => if e.1 = (j : Int) ∧ i = i' then [a * e.2] else [] := by
    unfold sdVals
    refine flatMap_congr' fun e he => ?_
    obtain ⟨h0, hn⟩ := Csr.row_range hA he
    by_cases hle : (i : Int) ≤ e.1
    · have hinj := denseOff_ij_inj (col := col) (ld := ldc) (i := i') (j := j) (i' := i) (j' := e.1.toNat)
        (mnr_lt hld hij hj) (mnr_lt hld (by omega) (by omega))
      refine if_congr ?_ rfl rfl
      rw [Nat.cast_inj, hinj]
      omega
    · rw [if_neg (by omega), if_neg (by omega)]
  rw [key]
  unfold valsAt
  by_cases hr : i = i'
  · rw [if_pos hr]
    simp only [hr, and_true]
    induction A.row x with
    | nil => rfl
    | cons e L ih =>
      rw [List.flatMap_cons, ih, List.filter_cons]
      by_cases h : e.1 = (j : Int) <;> simp [h]
  · rw [if_neg hr]
    simp [hr]

omit [Zero R] [Add R] in
theorem sdCells_at {col : Bool} {ldc : Nat} {A : Csr R} (hA : A.WF) (W : Nat → List (R × Nat)) (alpha : R)
    (hld : A.n ≤ ldc) {i j : Nat} (hij : i ≤ j) (hj : j < A.n) :
    sdCells col ldc A W alpha A.n (denseOff col ldc i j)
      = (W i).flatMap fun e => (valsAt A e.2 j).map (alpha * e.1 * ·) := by
  unfold sdCells
  rw [flatMap_range_single (i := i) (by omega)]
  · refine flatMap_congr' fun e _ => ?_
    rw [sdVals_eq hA _ hld (by omega) hij hj, if_pos rfl]
  · intro k hk hne
    rw [List.flatMap_eq_nil_iff]
    intro e _
    rw [sdVals_eq hA _ hld hk hij hj, if_neg hne]

omit [Zero R] [Add R] in
theorem sdCells_none {col : Bool} {ldc : Nat} {A : Csr R} (hA : A.WF) (W : Nat → List (R × Nat)) (alpha : R)
    {p : Nat} (hp : ∀ i j, i ≤ j → j < A.n → p ≠ denseOff col ldc i j) :
    sdCells col ldc A W alpha A.n p = [] := by
  apply flatMap_range_none
  intro i hi
  rw [List.flatMap_eq_nil_iff]
  intro e _
  unfold sdVals
  rw [List.flatMap_eq_nil_iff]
  intro y hy
  obtain ⟨h0, hn⟩ := Csr.row_range hA hy
  refine if_neg (fun h => ?_)
  exact hp i y.1.toNat (by omega) (by omega) (by exact_mod_cast h.2)

omit [Zero R] [Add R] [Mul R] in
/-- the elements of a column, in the order of the rows -/
theorem colElems_perm {A : Csr R} (hA : A.WF) (hn : A.NoDup) {W : Nat → List (R × Nat)} (hW : ColElems A W) {i : Nat}
    (hi : i < A.n) : (W i).Perm ((List.range A.m).flatMap fun k => (valsAt A k i).map fun a => (a, k)) := by
  have hv : ∀ k, valsAt A k i = (A.stored k i).toList := fun k => stored_toList hA hn k i
  have e1 : ((List.range A.m).flatMap fun k => (valsAt A k i).map fun a => (a, k))
      = (List.range A.m).filterMap fun k => (A.stored k i).map fun a => (a, k) := by
    simp only [hv]
    generalize List.range A.m = l
    induction l with
    | nil => rfl
    | cons k l ih =>
      rw [List.flatMap_cons, List.filterMap_cons, ih]
      cases A.stored k i <;> rfl
  rw [e1]
  refine (List.perm_ext_iff_of_nodup (List.Nodup.of_map _ (hW.nodup i hi)) ?_).mpr ?_
  · unfold List.Nodup
    rw [List.pairwise_filterMap]
    refine List.nodup_range.imp ?_
    intro a b hab x hx y hy
    rw [Option.map_eq_some_iff] at hx hy
    obtain ⟨_, -, rfl⟩ := hx
    obtain ⟨_, -, rfl⟩ := hy
    intro h
    exact hab (Prod.mk.inj h).2
  · rintro ⟨v, x⟩
    rw [hW.mem i hi, List.mem_filterMap]
    constructor
    · rintro ⟨h1, h2⟩
      exact ⟨x, List.mem_range.mpr h1, by rw [(stored_iff hn h1).mpr h2]; rfl⟩
    · rintro ⟨k, hk, h⟩
      rw [Option.map_eq_some_iff] at h
      obtain ⟨a, ha, h⟩ := h
      obtain ⟨rfl, rfl⟩ := Prod.mk.inj h
      exact ⟨List.mem_range.mp hk, (stored_iff hn (List.mem_range.mp hk)).mp ha⟩

end Verif
