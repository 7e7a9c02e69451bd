import Verif.Model.Syrkd
import Verif.Spec.Dense2
import Verif.Proofs.Syrk3

namespace Verif
open Model Finset

/-! ### the upper triangle -/

section
variable {R : Type}

/-- major index `a` and minor index `b` are in the upper triangle of a `K × K` matrix -/
def upS (col : Bool) (K a b : Nat) : Prop := if col then b ≤ a ∧ a < K else a ≤ b ∧ b < K

theorem upS_ij {col : Bool} {K i j : Nat} : upS col K (maj col i j) (mnr col i j) ↔ i ≤ j ∧ j < K := by
  cases col <;> simp [upS, maj, mnr]

theorem mnr_lt {col : Bool} {K ld i j : Nat} (hK : K ≤ ld) (hi : i ≤ j) (hj : j < K) : mnr col i j < ld := by
  cases col <;> simp [mnr] <;> omega

theorem upLoops_ok {col : Bool} {K ldc len : Nat} (hK : K ≤ ldc)
    (hlen : ∀ i j, i ≤ j → j < K → denseOff col ldc i j < len) (g : R → R)
    {cell : Int → List R → Option (List R)}
    (hcell : ∀ (p : Nat) C v, p < len → rd C (p : Int) = some v → cell p C = wr C p (g v))
    {C : List R} {f : Nat → R} (hC : Rep C len f) :
    ∃ C', upLoops col K ldc cell C = some C' ∧
      Rep C' len (doneF ldc (upS col K) (fun _ _ v => g v) f) := by
  unfold upLoops
  obtain ⟨C', e, r⟩ := forC_inv_nat (n := K) (s := C)
    (f := fun i C => forC i (K : Int) (fun j C => cell (mdOff col ldc i j) C) C)
    (P := fun t C => Rep C len (doneF ldc (fun a b => upS col K a b ∧ (if col then b else a) < t)
      (fun _ _ v => g v) f))
    (hC.congr (fun k _ => by unfold doneF; rw [if_neg (fun h => Nat.not_lt_zero _ h.2)]))
    (by
      intro t C1 ht hC1
      obtain ⟨C2, e2, r2⟩ := forC_inv_off (a := (t : Int)) (b := K) (n := K - t) (s := C1)
        (f := fun j C => cell (mdOff col ldc t j) C)
        (P := fun u C => Rep C len (doneF ldc (fun a b => upS col K a b ∧ ((if col then b else a) < t ∨
          ((if col then b else a) = t ∧ (if col then a else b) < t + u))) (fun _ _ v => g v) f))
        (by omega)
        (hC1.congr (fun k _ => doneF_congr (by
          intro a b
          unfold upS
          cases col <;> simp <;> omega) k))
        (by
          intro u C3 hu h3
          have hij : t ≤ t + u ∧ t + u < K := by omega
          have hp : mdOff col ldc t ((t : Int) + u) = ((maj col t (t + u) * ldc + mnr col t (t + u) : Nat) : Int) := by
            rw [show ((t : Int) + u) = ((t + u : Nat) : Int) by omega, mdOff_nat, denseOff_mm]
          have hl := hlen t (t + u) hij.1 hij.2
          rw [denseOff_mm] at hl
          obtain ⟨hr, hw⟩ := doneF_step (mnr_lt hK hij.1 hij.2) hl h3 (by
            cases col <;> simp [maj, mnr]) hp
          obtain ⟨C4, e4, r4⟩ := hw _ rfl
          refine ⟨C4, ?_, r4.congr (fun k _ => doneF_congr (by
            intro a b
            unfold upS
            cases col <;> simp [maj, mnr] <;> omega) k)⟩
          rw [hp] at hr e4 ⊢
          rw [hcell _ _ _ hl hr]
          exact e4)
      refine ⟨C2, e2, r2.congr (fun k _ => doneF_congr (by
        intro a b
        unfold upS
        cases col <;> simp <;> omega) k)⟩)
  exact ⟨C', e, r.congr (fun k _ => doneF_congr (by
    intro a b
    unfold upS
    cases col <;> simp <;> omega) k)⟩

theorem upScale_ok [Semiring R] [DecidableEq R] {col : Bool} {K ldc len : Nat} (beta : R) (hK : K ≤ ldc)
    (hlen : ∀ i j, i ≤ j → j < K → denseOff col ldc i j < len) {C : List R} {f : Nat → R}
    (hC : Rep C len f) :
    ∃ C', upScale col beta K ldc C = some C' ∧
      Rep C' len (doneF ldc (upS col K) (fun _ _ v => beta * v) f) := by
  unfold upScale
  by_cases h0 : beta = 0
  · rw [if_neg (not_not.mpr h0)]
    exact upLoops_ok hK hlen (fun v => beta * v) (fun p C v _ _ => by rw [h0, zero_mul]) hC
  · rw [if_pos h0]
    exact upLoops_ok hK hlen (fun v => beta * v) (fun p C v _ hv => by simp [upMul, hv]) hC

/-- scaling followed by additions in the upper triangle -/
theorem upper_final [Semiring R] {col : Bool} {K ldc : Nat} {beta : R} (hK : K ≤ ldc) {C C' : List R}
    {D : Nat → R} {V : Nat → Nat → R} (hlen : ∀ i j, i ≤ j → j < K → denseOff col ldc i j < C.length)
    (hC : Rep C' C.length (fun p => doneF ldc (upS col K) (fun _ _ v => beta * v) (fun k => C.getD k 0) p
      + D p))
    (hD : ∀ i j, i ≤ j → j < K → D (denseOff col ldc i j) = V i j)
    (hD0 : ∀ p, (∀ i j, i ≤ j → j < K → p ≠ denseOff col ldc i j) → D p = 0) :
    IsUpCells col K ldc (fun i j c => V i j + beta * c) C C' := by
  refine ⟨hC.1, ?_, ?_⟩
  · intro i j hi hj
    have hl := hlen i j hi hj
    rw [hC.2 _ hl]
    dsimp only
    rw [hD i j hi hj]
    congr 1
    rw [denseOff_mm, doneF_in (mnr_lt hK hi hj) (upS_ij.mpr ⟨hi, hj⟩), add_comm]
  · intro p hp
    by_cases hl : p < C.length
    · rw [hC.2 p hl]
      dsimp only
      rw [hD0 p hp, add_zero]
      have : ¬ upS col K (p / ldc) (p % ldc) := by
        intro h
        have hpe : p = p / ldc * ldc + p % ldc := by
          rw [Nat.mul_comm]; exact (Nat.div_add_mod p ldc).symm
        cases col
        · simp only [upS, Bool.false_eq_true, if_false] at h
          exact hp (p / ldc) (p % ldc) h.1 h.2 (by rw [denseOff_mm]; exact hpe)
        · simp only [upS, if_true] at h
          exact hp (p % ldc) (p / ldc) h.1 h.2 (by rw [denseOff_mm]; exact hpe)
      unfold doneF
      rw [if_neg this]
      dsimp only
      rw [List.getD_eq_getElem?_getD, List.getElem?_eq_getElem hl]
      rfl
    · have := hC.1
      rw [List.getElem?_eq_none (by omega), List.getElem?_eq_none (by omega)]

end

/-! ### syrkd -/

section
variable {R : Type} [CommSemiring R]

/-- the additions of `a` times row `x` to row `i` of the upper triangle -/
def sdTerm (col : Bool) (ldc : Nat) (cR : R → R) (A : Csr R) (i : Nat) (a : R) (x p : Nat) : R :=
  ((A.row x).map fun e =>
    if (i : Int) ≤ e.1 ∧ (p : Int) = denseOff col ldc i e.1.toNat then a * cR e.2 else 0).sum

/-- the conjugation of the right factor -/
def rightC (cjl : Bool) (cj : R → R) : R → R := fun v => if cjl then v else cj v

theorem sdRow_ok {col cjl : Bool} {ldc len : Nat} {A : Csr R} (hA : A.WF) (cj : R → R) {i x : Nat}
    (hx : x < A.m) (hlen : ∀ j, i ≤ j → j < A.n → denseOff col ldc i j < len) (a : R) :
    Adds len (sdRow col cjl cj A.arrs ldc i a x) (sdTerm col ldc (rightC cjl cj) A i a x) := by
  have h := adds_foldlM (len := len) (L := A.row x)
    (body := fun C e => if e.1 < (i : Int) then some C
      else addAt C (mdOff col ldc i e.1) (a * rightC cjl cj e.2))
    (D := fun e p => if (i : Int) ≤ e.1 ∧ (p : Int) = denseOff col ldc i e.1.toNat
      then a * rightC cjl cj e.2 else 0) (by
      intro e he
      obtain ⟨h0, h1⟩ := Csr.row_range hA he
      by_cases hlt : e.1 < (i : Int)
      · simp only [if_pos hlt]
        refine (adds_id len).congr (fun _ => rfl) (fun p _ => if_neg ?_)
        omega
      · simp only [if_neg hlt]
        have hoff : mdOff col ldc i e.1 = ((denseOff col ldc i e.1.toNat : Nat) : Int) := by
          rw [← mdOff_nat, Int.toNat_of_nonneg h0]
        rw [hoff]
        refine (adds_addAt (by omega) (by have := hlen e.1.toNat (by omega) (by omega); omega) _).congr
          (fun _ => rfl) (fun p _ => ?_)
        refine if_congr ?_ rfl rfl
        exact ⟨fun h => h.2, fun h => ⟨by omega, h⟩⟩)
  refine h.congr (fun C => ?_) (fun p _ => rfl)
  obtain ⟨p1, p2⟩ := rd_ptr2 hA hx
  unfold sdRow
  simp only [Csr.arrs, p1, p2, Option.bind_eq_bind, Option.bind_some]
  refine Csr.forC_row' hA hx (G := fun c v C => if c < (i : Int) then some C
      else addAt C (mdOff col ldc i c) (a * rightC cjl cj v)) ?_ C
  intro k c v s h1 h2 _
  unfold sdElem
  simp only [h1, h2, Option.bind_eq_bind, Option.bind_some, Int.add_sub_cancel]
  rfl

theorem sdTerm_eq {col : Bool} {ldc : Nat} {A : Csr R} (hA : A.WF) (cR : R →+* R) {i x i' j : Nat} (a : R)
    (hld : A.n ≤ ldc) (hi : i < A.n) (hij : i' ≤ j) (hj : j < A.n) :
    sdTerm col ldc cR A i a x (denseOff col ldc i' j) = if i = i' then a * cR (A.mat x j) else 0 := by
  have : sdTerm col ldc cR A i a x (denseOff col ldc i' j)
      = ((A.row x).map fun e => if (j : Int) = e.1 then (if i = i' then a * cR e.2 else 0) else 0).sum := by
    unfold sdTerm
    congr 1
    refine List.map_congr_left (fun e he => ?_)
    obtain ⟨h0, hn⟩ := Csr.row_range hA he
    have hinj := denseOff_ij_inj (col := col) (ld := ldc) (i := i') (j := j) (i' := i) (j' := e.1.toNat)
      (mnr_lt hld hij hj) (by cases col <;> simp [mnr] <;> omega)
    by_cases hc : i' = i ∧ j = e.1.toNat
    · rw [if_pos ⟨by omega, by exact_mod_cast hinj.mpr hc⟩, if_pos (by omega), if_pos hc.1.symm]
    · rw [if_neg (by intro h; exact hc (hinj.mp (by exact_mod_cast h.2)))]
      by_cases hr : i = i'
      · rw [if_neg (by omega)]
      · simp [hr]
  rw [this]
  by_cases hr : i = i'
  · simp only [hr, if_true]
    have := sum_ite_filter (A.row x) ((AddMonoidHom.mulLeft a).comp cR.toAddMonoidHom) j
    simp only [AddMonoidHom.coe_comp, Function.comp, AddMonoidHom.coe_mulLeft] at this
    rw [mat_eq_colSum]
    exact this
  · simp [hr]

/-- the additions of the kernel -/
def sdTotal (col : Bool) (ldc : Nat) (cL cR : R → R) (A : Csr R) (X : Nat → List Nat) (alpha : R) (p : Nat) : R :=
  ∑ i ∈ range A.n, ((X i).map fun x => sdTerm col ldc cR A i (alpha * cL (A.mat x i)) x p).sum

/-- the conjugation of the left factor -/
def leftC (cjl : Bool) (cj : R → R) : R → R := fun v => if cjl then cj v else v

theorem sdAtb_ok {col cjl : Bool} {ldc len : Nat} {A : Csr R} (hA : A.WF) (hs : A.Strict) (cj : R → R)
    (alpha : R) (hlen : ∀ i j, i ≤ j → j < A.n → denseOff col ldc i j < len) :
    ∃ X, ColVisits A X ∧ Adds len (sdAtb col cjl cj A.m A.n alpha A.arrs ldc)
      (sdTotal col ldc (leftC cjl cj) (rightC cjl cj) A X alpha) := by
  obtain ⟨O, X, hX, e, hv⟩ := atb_visits hA hs
  refine ⟨X, hX, ?_⟩
  intro C f hC
  unfold sdAtb
  rw [show oftInit (atbCfg A.arrs) A.m A.n A.arrs.ptr A.arrs.base = some (O 0) from e]
  simp only [Option.bind_eq_bind, Option.bind_some, Int.toNat_natCast]
  have hvis := hv (List R) (fun v => alpha * leftC cjl cj v) (sdRow col cjl cj A.arrs ldc)
  obtain ⟨⟨o, C'⟩, e1, ho, hC'⟩ := forC_inv_nat (n := A.n) (s := (O 0, C))
    (f := atbVisit (fun v => alpha * leftC cjl cj v) A.arrs A.m (sdRow col cjl cj A.arrs ldc))
    (P := fun t s => s.1 = O t ∧ Rep s.2 len (fun p => f p + ∑ i ∈ range t, ((X i).map fun x =>
      sdTerm col ldc (rightC cjl cj) A i (alpha * leftC cjl cj (A.mat x i)) x p).sum))
    ⟨rfl, hC.congr (by simp)⟩
    (by
      rintro i ⟨o, C1⟩ hi ⟨rfl, hC1⟩
      rw [hvis i hi]
      have ha := adds_foldlM (len := len) (L := atbW (fun v => alpha * leftC cjl cj v) A X i)
        (body := fun C e => sdRow col cjl cj A.arrs ldc (i : Int) e.1 (e.2 : Int) C)
        (D := fun e p => sdTerm col ldc (rightC cjl cj) A i e.1 e.2 p) (by
          intro e he
          obtain ⟨x, hx, rfl⟩ := List.mem_map.mp he
          exact sdRow_ok hA cj ((hX.mem i hi x).mp hx).1 (fun j h1 h2 => hlen i j h1 h2) _)
      obtain ⟨C2, e2, r2⟩ := ha C1 _ hC1
      dsimp only at e2 ⊢
      refine ⟨(O (i + 1), C2), by rw [e2]; rfl, rfl, r2.congr (fun p _ => ?_)⟩
      dsimp only
      rw [sum_range_succ, add_assoc, atbW, List.map_map]
      rfl)
  have e1' : forC 0 (A.n : Int) (atbVisit (fun v => alpha * if cjl = true then cj v else v) A.arrs A.m
      (sdRow col cjl cj A.arrs ldc)) (O 0, C) = some (o, C') := e1
  rw [e1', Option.bind_some]
  exact ⟨C', rfl, hC'⟩

theorem sdTotal_eq {col : Bool} {ldc : Nat} {A : Csr R} (hA : A.WF) {X : Nat → List Nat}
    (hX : ColVisits A X) (cL cR : R →+* R) (alpha : R) (hld : A.n ≤ ldc) {i j : Nat} (hij : i ≤ j)
    (hj : j < A.n) :
    sdTotal col ldc cL cR A X alpha (denseOff col ldc i j)
      = alpha * ∑ x ∈ range A.m, cL (A.mat x i) * cR (A.mat x j) := by
  unfold sdTotal
  rw [sum_eq_single i]
  · rw [List.map_congr_left (g := fun x => alpha * cL (A.mat x i) * cR (A.mat x j)) (by
      intro x _
      rw [sdTerm_eq hA cR _ hld (by omega) hij hj, if_pos rfl])]
    rw [hX.sum (by omega) (fun x => alpha * cL (A.mat x i) * cR (A.mat x j)) (by
      intro x _ hn
      simp only [mat_zero_of_not_mem hn, map_zero, mul_zero, zero_mul]), mul_sum]
    exact sum_congr rfl fun x _ => by ring
  · intro b hb hne
    apply List.sum_eq_zero
    intro y hy
    obtain ⟨x, _, rfl⟩ := List.mem_map.mp hy
    rw [sdTerm_eq hA cR _ hld (mem_range.mp hb) hij hj, if_neg hne]
  · intro h
    exact absurd (mem_range.mpr (show i < A.n by omega)) h

theorem sdTotal_rest {col : Bool} {ldc : Nat} {A : Csr R} (hA : A.WF) {X : Nat → List Nat}
    (cL cR : R → R) (alpha : R) {p : Nat} (hp : ∀ i j, i ≤ j → j < A.n → p ≠ denseOff col ldc i j) :
    sdTotal col ldc cL cR A X alpha p = 0 := by
  unfold sdTotal
  refine sum_eq_zero (fun i _ => List.sum_eq_zero ?_)
  intro y hy
  obtain ⟨x, _, rfl⟩ := List.mem_map.mp hy
  unfold sdTerm
  apply List.sum_eq_zero
  intro z hz
  obtain ⟨e, he, rfl⟩ := List.mem_map.mp hz
  obtain ⟨h0, hn⟩ := Csr.row_range hA he
  refine if_neg ?_
  rintro ⟨h1, h2⟩
  exact hp i e.1.toNat (by omega) (by omega) (by exact_mod_cast h2)

end

end Verif
