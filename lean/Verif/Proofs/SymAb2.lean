import Verif.Proofs.SymAb
import Verif.Spec.Sypr

namespace Verif
open Model Finset

variable {R : Type} [CommRing R] [DecidableEq R]

/-- the part of a row used as it is: the triangle with the diagonal -/
def ownPart {R : Type} (f : Fill) (L D U : List (Int × R)) : List (Int × R) :=
  match f with
  | .lower => L ++ D
  | .upper => D ++ U

/-- where the strict triangle of a row begins -/
def symSt {R : Type} (f : Fill) (Y : Csr R) (L : Nat → List (Int × R)) (x : Nat) : Int :=
  match f with
  | .lower => Y.p x - Y.base
  | .upper => Y.p x + (L x).length + 1 - Y.base

section
variable {Y : Csr R} {idiag iurow : List Int} {L D U : Nat → List (Int × R)}

theorem CleanRow.own_seg (hY : Y.WF) {i : Nat} (hi : i < Y.m) (hin : i < Y.n)
    (h : CleanRow Y idiag iurow i (L i) (D i) (U i)) (f : Fill) :
    ∃ lo hi : Int, rd (symStart (decide (f = .lower)) Y.arrs idiag) i = some lo ∧
      rd (symEnd (decide (f = .lower)) Y.arrs idiag) i
        = some (hi - Y.base + symOffE (decide (f = .lower)) Y.arrs) ∧
      Seg Y.ind Y.val Y.base lo hi (ownPart f (L i) (D i) (U i)) := by
  have hs := Y.seg_row hY hi
  have hD := h.2.2.2.2.2.2 hin
  rw [h.1] at hs
  have hid := h.2.2.2.2.1
  have h1 := hY.rd_ptr (i := i) (by omega)
  have h2 := hY.rd_ptr (i := i + 1) (by omega)
  cases f
  · refine ⟨Y.p i, _, ?_, ?_, hs.append_left⟩
    · simpa [symStart, Csr.arrs] using h1
    · simp only [symEnd, symOffE, decide_true, if_true, Csr.arrs]
      rw [hid]
      congr 1
      simp only [List.length_append, hD]
      push_cast
      ring
  · refine ⟨Y.p i + (L i).length, Y.p (i + 1), ?_, ?_, ?_⟩
    · simpa [symStart, Csr.arrs] using hid
    · rw [rd_ofNat] at h2
      simp only [symEnd, symOffE, Csr.arrs, reduceCtorEq, decide_false, Bool.false_eq_true, if_false]
      rw [rd_ofNat, List.getElem?_drop, Nat.add_comm 1 i, h2]
      congr 1
      ring
    · rw [List.append_assoc] at hs
      exact hs.append_right

theorem sym_rows (hY : Y.WF) (hst : Y.Strict) (hsq : Y.m = Y.n)
    (hc : ∀ i, i < Y.m → CleanRow Y idiag iurow i (L i) (D i) (U i)) (f : Fill) :
    OftRows (symCfg (decide (f = .lower)) Y.arrs idiag) Y.m Y.m (symSt f Y L)
      (fun x => (strictPart f (L x) (U x)).map (·.1)) ∧
    (∀ x t, x < Y.m → (h : t < (strictPart f (L x) (U x)).length) →
      rd Y.val (symSt f Y L x + t) = some (strictPart f (L x) (U x))[t].2) ∧
    ∀ x, x < Y.m → rd (symStart (decide (f = .lower)) Y.arrs idiag) x
      = some (symSt f Y L x + symOffT (decide (f = .lower)) Y.arrs) := by
  have hseg : ∀ x, x < Y.m → ∀ t, (h : t < (strictPart f (L x) (U x)).length) →
      rd Y.ind (symSt f Y L x + t) = some ((strictPart f (L x) (U x))[t].1 + Y.base) ∧
      rd Y.val (symSt f Y L x + t) = some (strictPart f (L x) (U x))[t].2 := by
    intro x hx t ht
    have hs := (hc x hx).segs hY hx
    have hD := (hc x hx).2.2.2.2.2.2 (by omega)
    cases f
    · exact hs.1.2 t ht
    · have := hs.2.2.2 t ht
      rw [hD] at this
      exact this
  refine ⟨⟨?_, ?_, ?_, ?_⟩, ?_, ?_⟩
  · intro x hx
    have hs := (hc x hx).segs hY hx
    have hD := (hc x hx).2.2.2.2.2.2 (by omega)
    rw [List.length_map]
    cases f
    · simp only [symCfg, symEnd, decide_true, if_true, symSt, strictPart, Csr.arrs]
      rw [(hc x hx).2.2.2.2.1]
      congr 1; ring
    · have h2 := hY.rd_ptr (i := x + 1) (by omega)
      rw [rd_ofNat] at h2
      simp only [symCfg, symEnd, symSt, strictPart, Csr.arrs, reduceCtorEq, decide_false,
        Bool.false_eq_true, if_false]
      rw [rd_ofNat, List.getElem?_drop, Nat.add_comm 1 x, h2, hs.2.2.1, hD]
      congr 1; push_cast; ring
  · intro x t hx ht
    rw [List.getElem_map]
    exact (hseg x hx t (by simpa using ht)).1
  · intro x hx v hv
    obtain ⟨e, he, rfl⟩ := List.mem_map.mp hv
    have := (hc x hx).strict hY f e he
    exact ⟨this.1, by rw [hsq]; exact this.2.1⟩
  · intro x hx
    have := hst x hx
    rw [(hc x hx).1, List.map_append, List.map_append, List.append_assoc, List.pairwise_append,
      List.pairwise_append] at this
    cases f
    · exact this.1
    · exact this.2.1.2.1
  · intro x t hx ht
    exact (hseg x hx t ht).2
  · intro x hx
    cases f
    · have h1 := hY.rd_ptr (i := x) (by omega)
      simp only [symStart, symOffT, decide_true, if_true, symSt, Csr.arrs]
      rw [h1]
      congr 1; ring
    · simp only [symStart, symOffT, symSt, Csr.arrs, reduceCtorEq, decide_false, Bool.false_eq_true, if_false]
      rw [(hc x hx).2.2.2.2.1]
      congr 1; ring

/-- the multiples of rows added to row `i` of sym(Y)·M -/
def symW {R : Type} [AddMonoid R] (cj : R → R) (f : Fill) (L D U : Nat → List (Int × R)) (X : Nat → List Nat)
    (i : Nat) : List (R × Nat) :=
  (ownPart f (L i) (D i) (U i)).map (fun e => (e.2, e.1.toNat)) ++
    (X i).map fun x => (cj (colSum (strictPart f (L x) (U x)) i), x)

theorem CleanRow.own_mem {i : Nat} (h : CleanRow Y idiag iurow i (L i) (D i) (U i)) (f : Fill) :
    ∀ e ∈ ownPart f (L i) (D i) (U i), e ∈ Y.row i := by
  intro e he
  rw [h.1]
  cases f <;> simp only [ownPart, List.mem_append] at he <;> simp only [List.mem_append] <;> tauto

theorem sym_visits (hY : Y.WF) (hst : Y.Strict) (hsq : Y.m = Y.n)
    (hc : ∀ i, i < Y.m → CleanRow Y idiag iurow i (L i) (D i) (U i)) (f : Fill) :
    ∃ (O : Nat → Oft) (X : Nat → List Nat),
      (∀ j, j < Y.m → (X j).Nodup ∧
        ∀ x, x ∈ X j ↔ x < Y.m ∧ (j : Int) ∈ (strictPart f (L x) (U x)).map (·.1)) ∧
      oftInit (symCfg (decide (f = .lower)) Y.arrs idiag) Y.m Y.m
        (symStart (decide (f = .lower)) Y.arrs idiag) (symOffT (decide (f = .lower)) Y.arrs) = some (O 0) ∧
      ∀ (σ : Type) (cj : R → R) (step : Int → R → Int → σ → Option σ),
        VisitsBy Y.m O (symW cj f L D U X) (symVisit (decide (f = .lower)) cj Y.arrs idiag Y.m step) step := by
  obtain ⟨h1, h2, h3⟩ := sym_rows hY hst hsq hc f
  obtain ⟨O, X, e, h⟩ := oft_rows h1 h2 h3
  refine ⟨O, X, fun j hj => ⟨(h j hj).1, (h j hj).2.1⟩, e, ?_⟩
  intro σ cj step i hi s
  obtain ⟨lo, hi', e1, e2, hseg⟩ := (hc i hi).own_seg hY hi (by omega) f
  unfold symVisit
  simp only [Option.bind_eq_bind]
  rw [e1, Option.bind_some, e2, Option.bind_some, show hi' - Y.base + symOffE (decide (f = .lower)) Y.arrs
    - symOffE (decide (f = .lower)) Y.arrs = hi' - Y.base by ring]
  have hloop := hseg.forC0 (σ := σ) (fun c v t => step i v (c - Y.base) t) s
  have hloop' : forC (lo - Y.arrs.base) (hi' - Y.base) (fun idx t => (rd Y.arrs.ind idx).bind fun col =>
      (rd Y.arrs.val idx).bind fun v => step i v (col - Y.arrs.base) t) s
      = (ownPart f (L i) (D i) (U i)).foldlM (fun s e => step i e.2 (e.1.toNat : Int) s) s := by
    refine Eq.trans hloop ?_
    apply foldlM_congr'
    intro t e he
    have hr := Csr.row_range hY ((hc i hi).own_mem f e he)
    rw [show e.1 + Y.base - Y.base = (e.1.toNat : Int) by omega]
  rw [hloop', symW, List.foldlM_append, foldlM_map']
  simp only [Option.bind_eq_bind]
  cases hm : (ownPart f (L i) (D i) (U i)).foldlM (fun s e => step i e.2 (e.1.toNat : Int) s) s with
  | none => rfl
  | some t =>
    simp only [Option.bind_some]
    rw [foldlM_map']
    exact (h i hi).2.2 σ (fun v row t => step i (cj v) row t) t

end

/-- sums over the visited rows -/
theorem visits_sum {K : Nat} {X : List Nat} (hnd : X.Nodup) {P : Nat → Prop}
    (hX : ∀ x, x ∈ X ↔ x < K ∧ P x) (g : Nat → R) (hg : ∀ x, x < K → ¬ P x → g x = 0) :
    (X.map g).sum = ∑ x ∈ range K, g x := by
  rw [← List.sum_toFinset g hnd]
  apply Finset.sum_subset
  · intro x hx
    rw [List.mem_toFinset, hX] at hx
    exact Finset.mem_range.mpr hx.1
  · intro x hx hn
    rw [List.mem_toFinset, hX] at hn
    exact hg x (Finset.mem_range.mp hx) fun h => hn ⟨Finset.mem_range.mp hx, h⟩

section
variable [StarRing R] {Y : Csr R} {idiag iurow : List Int} {L D U : Nat → List (Int × R)}

theorem CleanRow.own_colSum (hY : Y.WF) {i : Nat} (hi : i < Y.m) (hin : i < Y.n)
    (h : CleanRow Y idiag iurow i (L i) (D i) (U i)) (f : Fill) (l : Nat) :
    colSum (ownPart f (L i) (D i) (U i)) l
      = colSum (strictPart f (L i) (U i)) l + if l = i then Y.mat i i else 0 := by
  have hD := (h.diag hY hi hin).1
  have hd : colSum (D i) l = if l = i then Y.mat i i else 0 := by
    rw [hD]
    unfold colSum
    by_cases e : l = i
    · simp [e]
    · rw [List.filter_cons_of_neg (by simp; omega), if_neg e]
      rfl
  cases f
  · simp only [ownPart, strictPart]
    rw [colSum_append, hd]
  · simp only [ownPart, strictPart]
    rw [colSum_append, hd, add_comm]

theorem sym_sum (hY : Y.WF) (hsq : Y.m = Y.n)
    (hc : ∀ i, i < Y.m → CleanRow Y idiag iurow i (L i) (D i) (U i)) (f : Fill) {X : Nat → List Nat}
    (hX : ∀ j, j < Y.m → (X j).Nodup ∧
        ∀ x, x ∈ X j ↔ x < Y.m ∧ (j : Int) ∈ (strictPart f (L x) (U x)).map (·.1)) {i : Nat} (hi : i < Y.m)
    (g : Nat → R) :
    ((symW star f L D U X i).map fun e => e.1 * g e.2).sum
      = ∑ l ∈ range Y.m, structured .hermitian f .nonUnit Y.mat i l * g l := by
  unfold symW
  rw [List.map_append, List.sum_append, List.map_map, List.map_map]
  have h1 := filter_sum_map (AddMonoidHom.id R) (ownPart f (L i) (D i) (U i)) Y.m g (fun e he => by
    rw [hsq]; exact Csr.row_range hY ((hc i hi).own_mem f e he))
  have h1' : ((ownPart f (L i) (D i) (U i)).map ((fun e : R × Nat => e.1 * g e.2) ∘ fun e => (e.2, e.1.toNat))).sum
      = ∑ j ∈ range Y.m, colSum (ownPart f (L i) (D i) (U i)) j * g j := h1
  have h2 := visits_sum (K := Y.m) (hX i hi).1 (hX i hi).2
    (fun x => star (colSum (strictPart f (L x) (U x)) i) * g x) (by
      intro x _ hn
      rw [colSum_zero, star_zero, zero_mul]
      intro e he hee
      exact hn (List.mem_map.mpr ⟨e, he, hee⟩))
  have h2' : ((X i).map ((fun e : R × Nat => e.1 * g e.2) ∘ fun x =>
      (star (colSum (strictPart f (L x) (U x)) i), x))).sum
      = ∑ x ∈ range Y.m, star (colSum (strictPart f (L x) (U x)) i) * g x := h2
  rw [h1', h2', ← Finset.sum_add_distrib]
  apply Finset.sum_congr rfl
  intro l hl
  have hl := Finset.mem_range.mp hl
  rw [← add_mul]
  congr 1
  rw [(hc i hi).own_colSum hY hi (by omega)]
  unfold structured
  by_cases e : l = i
  · subst e
    have hn : ¬ strictTri f l l := by cases f <;> simp [strictTri]
    rw [(hc l hi).mat_strict_zero hY hn]
    simp [diagVal]
  · simp only
    rw [if_neg e, if_neg (Ne.symm e)]
    by_cases hs : strictTri f i l
    · have hn : ¬ strictTri f l i := by cases f <;> simp only [strictTri] at hs ⊢ <;> omega
      rw [if_pos hs, (hc i hi).mat_strict hs, (hc l hl).mat_strict_zero hY hn]
      simp
    · have hn : strictTri f l i := by cases f <;> simp only [strictTri] at hs ⊢ <;> omega
      rw [if_neg hs, (hc i hi).mat_strict_zero hY hs, (hc l hl).mat_strict hn]
      simp

omit [StarRing R] in
theorem CleanRow.strict_mem (hY : Y.WF) {i : Nat} (h : CleanRow Y idiag iurow i (L i) (D i) (U i))
    (f : Fill) (l : Nat) :
    (l : Int) ∈ (strictPart f (L i) (U i)).map (·.1) ↔ strictTri f i l ∧ (l : Int) ∈ Y.cols i := by
  constructor
  · intro hm
    obtain ⟨e, he, hee⟩ := List.mem_map.mp hm
    have := (h.strict hY f e he).2.2
    refine ⟨by rwa [hee, Int.toNat_natCast] at this, mem_cols_iff.mpr ⟨e, h.mem f e he, hee⟩⟩
  · rintro ⟨hs, hm⟩
    obtain ⟨e, he, hee⟩ := mem_cols_iff.mp hm
    rw [h.1, List.mem_append, List.mem_append] at he
    refine List.mem_map.mpr ⟨e, ?_, hee⟩
    cases f
    · simp only [strictTri] at hs
      rcases he with (he | he) | he
      · exact he
      · have := h.2.2.1 e he; omega
      · have := h.2.2.2.1 e he; omega
    · simp only [strictTri] at hs
      rcases he with (he | he) | he
      · have := h.2.1 e he; omega
      · have := h.2.2.1 e he; omega
      · exact he

omit [StarRing R] in
theorem sym_mem (hY : Y.WF) (hsq : Y.m = Y.n)
    (hc : ∀ i, i < Y.m → CleanRow Y idiag iurow i (L i) (D i) (U i)) (f : Fill) {X : Nat → List Nat}
    (hX : ∀ j, j < Y.m → (X j).Nodup ∧
        ∀ x, x ∈ X j ↔ x < Y.m ∧ (j : Int) ∈ (strictPart f (L x) (U x)).map (·.1)) (cj : R → R) {i : Nat}
    (hi : i < Y.m) (l : Nat) :
    (∃ e ∈ symW cj f L D U X i, e.2 = l) ↔ l < Y.m ∧ symStored f Y i l := by
  have hD := ((hc i hi).diag hY hi (by omega)).1
  have hown : (∃ e ∈ ownPart f (L i) (D i) (U i), e.1.toNat = l) ↔
      l = i ∨ (l : Int) ∈ (strictPart f (L i) (U i)).map (·.1) := by
    constructor
    · rintro ⟨e, he, rfl⟩
      have hr := Csr.row_range hY ((hc i hi).own_mem f e he)
      have hcase : e ∈ D i ∨ e ∈ strictPart f (L i) (U i) := by
        cases f <;> simp only [ownPart, strictPart, List.mem_append] at he ⊢ <;> tauto
      rcases hcase with h | h
      · rw [hD, List.mem_singleton] at h
        subst h
        left; simp
      · right
        exact List.mem_map.mpr ⟨e, h, by omega⟩
    · rintro (rfl | h)
      · refine ⟨((l : Int), Y.mat l l), ?_, by simp⟩
        cases f <;> simp [ownPart, hD]
      · obtain ⟨e, he, hee⟩ := List.mem_map.mp h
        refine ⟨e, ?_, by omega⟩
        cases f <;> simp only [ownPart, strictPart, List.mem_append] at he ⊢ <;> tauto
  have hsplit : (∃ e ∈ symW cj f L D U X i, e.2 = l) ↔
      (∃ e ∈ ownPart f (L i) (D i) (U i), e.1.toNat = l) ∨ l ∈ X i := by
    simp only [symW, List.mem_append, List.mem_map]
    constructor
    · rintro ⟨e, ⟨a, ha, rfl⟩ | ⟨x, hx, rfl⟩, rfl⟩
      · exact .inl ⟨a, ha, rfl⟩
      · exact .inr hx
    · rintro (⟨a, ha, h⟩ | hx)
      · exact ⟨_, .inl ⟨a, ha, rfl⟩, h⟩
      · exact ⟨_, .inr ⟨l, hx, rfl⟩, rfl⟩
  rw [hsplit, hown, (hX i hi).2, (hc i hi).strict_mem hY]
  unfold symStored
  constructor
  · rintro ((rfl | ⟨h1, h2⟩) | ⟨h1, h2⟩)
    · exact ⟨hi, .inl rfl⟩
    · obtain ⟨e, he, hee⟩ := mem_cols_iff.mp h2
      have := Csr.row_range hY he
      exact ⟨by omega, .inr (.inl ⟨h1, h2⟩)⟩
    · rw [(hc l h1).strict_mem hY] at h2
      exact ⟨h1, .inr (.inr h2)⟩
  · rintro ⟨h1, rfl | h | h⟩
    · exact .inl (.inl rfl)
    · exact .inl (.inr h)
    · exact .inr ⟨h1, ((hc l h1).strict_mem hY f i).mpr h⟩

end

/-- the result of sym(Y)·M, given the visits -/
def symCsr {R : Type} [Semiring R] (cB : R → R) (K : Nat) (M : Csr R) (W : Nat → List (R × Nat)) : Csr R :=
  mkCsr K M.n 0 (spOut false cB M W)

/-- sym(Y)·M: both stages, with the same visits -/
theorem sym_ok [StarRing R] {Y : Csr R} {idiag iurow : List Int} (hY : Y.WF) (hst : Y.Strict)
    (hsq : Y.m = Y.n) (hcl : Clean Y idiag iurow) (f : Fill) :
    ∃ W : Nat → List (R × Nat),
      (∀ i, i < Y.m → ∀ g : Nat → R, ((W i).map fun e => e.1 * g e.2).sum
        = ∑ l ∈ range Y.m, structured .hermitian f .nonUnit Y.mat i l * g l) ∧
      (∀ i, i < Y.m → ∀ l, (∃ e ∈ W i, e.2 = l) ↔ l < Y.m ∧ symStored f Y i l) ∧
      ∀ {M : Csr R} (_ : M.WF) (_ : M.m = Y.m) (cB : R → R),
        (∀ (w : Nat) (ptr : List Int) (_ : ptr.length = Y.m + 1),
          symCount w (decide (f = .lower)) star Y.m Y.m M.n Y.arrs idiag M.arrs ptr
            = some (if sumOverflow 64 w ((symCsr cB Y.m M W).nnz : Int) then .invalidSize else .success,
                (symCsr cB Y.m M W).ptr, ((symCsr cB Y.m M W).nnz : Int))) ∧
        ∀ (ptr ind : List Int) (val : List R) (_ : ptr.length = Y.m + 1)
          (_ : ind.length = (symCsr cB Y.m M W).nnz) (_ : val.length = (symCsr cB Y.m M W).nnz),
          symFill (decide (f = .lower)) star cB Y.m Y.m M.n Y.arrs idiag M.arrs ptr ind val
            = some ((symCsr cB Y.m M W).ptr, (symCsr cB Y.m M W).ind, (symCsr cB Y.m M W).val,
                ((symCsr cB Y.m M W).nnz : Int)) := by
  obtain ⟨L, D, U, hc⟩ := hcl.choose'
  obtain ⟨O, X, hX, e, hv⟩ := sym_visits hY hst hsq hc f
  refine ⟨symW star f L D U X, fun i hi g => sym_sum hY hsq hc f hX hi g,
    fun i hi l => sym_mem hY hsq hc f hX star hi l, ?_⟩
  intro M hM hm cB
  have hW : ∀ i, i < Y.m → ∀ e ∈ symW star f L D U X i, e.2 < M.m := by
    intro i hi e he
    rw [hm]
    exact ((sym_mem hY hsq hc f hX star hi e.2).mp ⟨e, he, rfl⟩).1
  have hpt : (List.range (Y.m + 1)).map (fun i => ((offs (spOut false cB M (symW star f L D U X)) i : Nat) : Int))
      = (symCsr cB Y.m M (symW star f L D U X)).ptr := by
    simp [symCsr, mkCsr]
  constructor
  · intro w ptr hp
    unfold symCount
    simp only [Option.bind_eq_bind, Int.toNat_natCast]
    rw [e, Option.bind_some, countRows_ok hM false cB (k := Y.m) (w := w) (O := O) hW (hv _ star _) hp]
    rw [hpt]
    simp only [symCsr, mkCsr_nnz]
  · intro ptr ind val hp hi hl
    simp only [symCsr, mkCsr_nnz] at hi hl
    obtain ⟨ind', val', ef, l1, l2, w1, w2⟩ := fillRows_ok hM false cB (k := Y.m) (O := O) hW
      (visit := symVisit (decide (f = .lower)) star Y.arrs idiag Y.m (spRowAdd false cB M.arrs)) (hv _ star _)
      hp (le_of_eq hi.symm) (le_of_eq hl.symm)
    have hm2 := fill_mkCsr (B := M) (k := Y.m) (by rw [l1, hi]) (by rw [l2, hl]) w1 w2
    rw [List.take_of_length_le (by rw [l1, hi]), List.take_of_length_le (by rw [l2, hl])] at hm2
    unfold symFill
    simp only [Option.bind_eq_bind, Int.toNat_natCast]
    rw [e, Option.bind_some, ef, hpt]
    unfold symCsr
    rw [← hm2]
    have hn : offs (spOut false cB M (symW star f L D U X)) Y.m = ind'.length := by rw [l1, hi]
    simp only [Csr.nnz, hn]

end Verif
