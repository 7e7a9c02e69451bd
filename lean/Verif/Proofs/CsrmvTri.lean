/-
Triangular CSR products on a matrix split at its diagonal, and the symmetric product of the
public csrmv.
-/
import Verif.Proofs.CsrmvSym

namespace Verif
open Model Finset

variable {R : Type} [CommSemiring R] [DecidableEq R]

/-! ### public symmetric product -/

theorem Seg.forC0 {ind : List Int} {val : List R} {base lo hi : Int} {S : List (Int × R)}
    {σ : Type} (h : Seg ind val base lo hi S) (g : Int → R → σ → Option σ) (s : σ) :
    Verif.forC (lo - base) (hi - base) (fun j s => (rd ind j).bind fun c =>
      (rd val j).bind fun v => g c v s) s
      = S.foldlM (fun s e => g (e.1 + base) e.2 s) s := by
  induction S generalizing lo s with
  | nil => rw [forC_ge (by have := h.1; simp at this; omega)]; rfl
  | cons e S ih =>
    have hl := h.1
    simp only [List.length_cons] at hl
    obtain ⟨h1, h2⟩ := h.2 0 (by simp)
    simp only [Nat.cast_zero, add_zero, List.getElem_cons_zero] at h1 h2
    rw [forC_lt (by omega), h1, h2, List.foldlM_cons]
    simp only [Option.bind_some]
    have hr : Seg ind val base (lo + 1) hi S := by
      have := append_right (S1 := [e]) (S2 := S) h
      simpa using this
    congr 1
    funext s'
    rw [show lo - base + 1 = lo + 1 - base by ring]
    exact ih hr s'

/-- Row `i` of a lower triangular matrix, the diagonal entry last if present. -/
def LowRow (A : Csr R) (i : Nat) (L D : List (Int × R)) : Prop :=
  A.row i = L ++ D ∧ (∀ e ∈ L, e.1 < i) ∧ (D = [] ∨ ∃ v, D = [((i : Int), v)])

/-- the last position filled when row `i` ends, when the first row is not empty -/
theorem low_last {A : Csr R} (hA : A.WF) {L D : Nat → List (Int × R)}
    (hc : ∀ i, i < A.m → LowRow A i (L i) (D i)) (h0 : 0 < A.m → A.row 0 ≠ []) :
    ∀ i, i < A.m → ∃ c v, rd A.ind (A.p (i + 1) - A.base - 1) = some (c + A.base) ∧
      rd A.val (A.p (i + 1) - A.base - 1) = some v ∧ c ≤ i ∧
      (D i = [] → c < i) ∧ (D i ≠ [] → c = i ∧ D i = [((i : Int), v)]) := by
  intro i
  induction i with
  | zero =>
    intro hi
    exact go 0 hi (h0 hi)
  | succ i ih =>
    intro hi
    by_cases hr : A.row (i + 1) = []
    · obtain ⟨c, v, a1, a2, a3, _⟩ := ih (by omega)
      have hs := (A.seg_row hA hi).1
      rw [hr] at hs
      simp only [List.length_nil, Nat.cast_zero, add_zero] at hs
      rw [hs]
      have hrow := (hc (i + 1) hi).1
      rw [hr] at hrow
      have hD : D (i + 1) = [] := (List.append_eq_nil_iff.mp hrow.symm).2
      refine ⟨c, v, a1, a2, by omega, fun _ => by omega, fun h => absurd hD h⟩
    · exact go _ hi hr
where
  go (i : Nat) (hi : i < A.m) (hr : A.row i ≠ []) :
      ∃ c v, rd A.ind (A.p (i + 1) - A.base - 1) = some (c + A.base) ∧
      rd A.val (A.p (i + 1) - A.base - 1) = some v ∧ c ≤ i ∧
      (D i = [] → c < i) ∧ (D i ≠ [] → c = i ∧ D i = [((i : Int), v)]) := by
    have hs := A.seg_row hA hi
    have hpos : 0 < (A.row i).length := List.length_pos_iff.mpr hr
    obtain ⟨e1, e2⟩ := hs.2 ((A.row i).length - 1) (by omega)
    have hl := hs.1
    rw [show A.p i - A.base + (((A.row i).length - 1 : Nat) : Int) = A.p (i + 1) - A.base - 1 by
      omega] at e1 e2
    obtain ⟨h1, h2, h3⟩ := hc i hi
    refine ⟨_, _, e1, e2, ?_⟩
    have hlast : (A.row i)[(A.row i).length - 1]'(by omega) = (A.row i).getLast hr := by
      rw [List.getLast_eq_getElem]
    rw [hlast]
    rcases h3 with h3 | ⟨v, h3⟩
    · have hm : (A.row i).getLast hr ∈ L i := by
        have := List.getLast_mem hr
        rw [h3, List.append_nil] at h1
        rwa [← h1]
      have := h2 _ hm
      exact ⟨by omega, fun _ => this, fun h => absurd h3 h⟩
    · have hg : (A.row i).getLast hr = ((i : Int), v) := by
        have : (A.row i).getLast hr = (L i ++ [((i : Int), v)]).getLast (by simp) := by
          congr 1
          rw [h1, h3]
        rw [this, List.getLast_append_singleton]
      rw [hg]
      exact ⟨le_refl _, fun h => by rw [h3] at h; simp at h, fun _ => ⟨rfl, h3⟩⟩

theorem LowRow.diag_val {A : Csr R} {i : Nat} {L D : List (Int × R)} (h : LowRow A i L D) :
    A.mat i i = (D.map (·.2)).sum := by
  obtain ⟨h1, h2, h3⟩ := h
  rw [mat_eq_colSum, h1, colSum_append, colSum_zero (S := L) (fun e he => by
    have := h2 e he; omega), zero_add]
  rcases h3 with rfl | ⟨v, rfl⟩ <;> simp [colSum]

theorem csrmvSymm_spec {A : Csr R} (hA : A.WF) (hsq : A.m = A.n)
    {L D : Nat → List (Int × R)} (hc : ∀ i, i < A.m → LowRow A i (L i) (D i))
    (h0 : 0 < A.m → A.row 0 ≠ []) (alpha beta : R) {x y : List R} (hx : A.n ≤ x.length)
    (hy : A.m ≤ y.length) :
    ∃ y', csrmvSymm A.base alpha A.m A.val A.ind A.ptr x beta y = some y' ∧
      IsMv alpha beta (fun i j => if i = j then A.mat i i
        else if strictTri .lower i j then A.mat i j else A.mat j i) A.m A.m x y y' := by
  have hS : ∀ i, i < A.m → ∀ e ∈ L i, 0 ≤ e.1 ∧ e.1 < (A.m : Int) := by
    intro i hi e he
    have := Csr.row_range hA (i := i) (e := e) (by rw [(hc i hi).1]; simp [he])
    omega
  have hL : ∀ i j, i < A.m → j < i → colSum (L i) j = A.mat i j := by
    intro i j hi hj
    rw [mat_eq_colSum, (hc i hi).1, colSum_append, colSum_zero (S := D i), add_zero]
    intro e he
    rcases (hc i hi).2.2 with h | ⟨v, h⟩
    · rw [h] at he; simp at he
    · rw [h] at he
      simp only [List.mem_singleton] at he
      rw [he]; simp only; omega
  have hL0 : ∀ i j, i < A.m → i ≤ j → colSum (L i) j = 0 := by
    intro i j hi hj
    apply colSum_zero
    intro e he
    have := (hc i hi).2.1 e he
    omega
  have hadd : ∀ i : Nat, i < A.m → Adds y.length (fun (y : List R) => do
        let hi ← rd A.ptr ((i : Int) + 1)
        let diag_idx := hi - A.base - 1
        let c ← rd A.ind diag_idx
        let last_ele_diag : Int := if c - A.base = i then 1 else 0
        let v ← rd A.val diag_idx
        let xi ← rd x i
        let y ← addAt y i ((if last_ele_diag = 1 then 1 else 0) * alpha * v * xi)
        let lo ← rd A.ptr i
        forC (lo - A.base) (hi - A.base - last_ele_diag) (fun j y => do
          let v ← rd A.val j
          let c ← rd A.ind j
          let xc ← rd x (c - A.base)
          let y ← addAt y i (alpha * v * xc)
          addAt y (c - A.base) (alpha * v * xi)) y)
      (symRow (AddMonoidHom.id R) (AddMonoidHom.id R) alpha x (L i) (A.mat i i) i) := by
    intro i hi
    obtain ⟨c, v, a1, a2, a3, a4, a5⟩ := low_last hA hc h0 i hi
    have e1 := Csr.WF.rd_ptr hA (i := i) (by omega)
    have e2 := Csr.WF.rd_ptr hA (i := i + 1) (by omega)
    rw [show ((i + 1 : Nat) : Int) = (i : Int) + 1 by push_cast; rfl] at e2
    have e3 := rd_getD_lt (x := x) (i := i) (by omega)
    have hseg := A.seg_row hA hi
    rw [(hc i hi).1] at hseg
    have hsegL := hseg.append_left
    -- diagonal
    have hdg := (hc i hi).diag_val
    have hend : A.p (i + 1) - A.base - (if c = (i : Int) then 1 else 0)
        = A.p i + (L i).length - A.base := by
      have hl := hseg.1
      simp only [List.length_append] at hl
      rcases (hc i hi).2.2 with h | ⟨w, h⟩
      · have := a4 h
        rw [if_neg (by omega)]
        simp only [h, List.length_nil] at hl
        push_cast at hl
        omega
      · have := a5 (by simp [h])
        rw [if_pos this.1]
        simp only [h, List.length_singleton] at hl
        push_cast at hl
        omega
    have hdval : ((if c = (i : Int) then 1 else 0 : R)) * alpha * v * x.getD i 0
        = alpha * (A.mat i i * x.getD i 0) := by
      rcases (hc i hi).2.2 with h | ⟨w, h⟩
      · have := a4 h
        rw [if_neg (by omega), hdg, h]; simp
      · have := a5 (by simp [h])
        rw [if_pos this.1, hdg, this.2]; simp; ring
    have hforC := fun y => hsegL.forC0 (σ := List R) (fun c v y =>
      (rd x (c - A.base)).bind fun xc => (addAt y i (alpha * v * xc)).bind fun y =>
        addAt y (c - A.base) (alpha * v * x.getD i 0)) y
    have hrow := adds_foldlM (L := L i) (len := y.length)
      (body := fun y e => (rd x (e.1 + A.base - A.base)).bind fun xc =>
        (addAt y i (alpha * e.2 * xc)).bind fun y =>
          addAt y (e.1 + A.base - A.base) (alpha * e.2 * x.getD i 0))
      (D := fun e k => (if (k : Int) = (i : Int) then alpha * e.2 * x.getD e.1.toNat 0 else 0)
        + (if (k : Int) = e.1 then alpha * e.2 * x.getD i 0 else 0)) (by
        intro e he
        have hle := hS i hi e he
        refine ((adds_addAt (i := (i : Int)) (by omega) (by omega)
          (alpha * e.2 * x.getD e.1.toNat 0)).comp
          (adds_addAt (i := e.1) hle.1 (by omega) (alpha * e.2 * x.getD i 0))).congr ?_
          (fun _ _ => rfl)
        intro y
        have e3 := rd_col (x := x) hle.1 (by omega)
        simp only [e3, Option.bind_some, add_sub_cancel_right])
    refine ((adds_addAt (i := (i : Int)) (len := y.length) (by omega) (by omega)
      (alpha * (A.mat i i * x.getD i 0))).comp hrow).congr ?_ ?_
    · intro y
      simp only [e1, e2, e3, a1, a2, Option.bind_eq_bind, Option.bind_some, add_sub_cancel_right]
      have hif : (if (if c = (i : Int) then (1 : Int) else 0) = 1 then (1 : R) else 0)
          = if c = (i : Int) then 1 else 0 := by
        by_cases h : c = (i : Int) <;> simp [h]
      rw [hif, hdval, hend]
      congr 1
      funext y
      refine Eq.trans ?_ ((hforC y).trans (by simp only [add_sub_cancel_right]))
      congr 1
      funext j s
      cases rd A.ind j <;> cases rd A.val j <;> rfl
    · intro k _
      rw [List.sum_map_add]
      simp only [symRow, Nat.cast_inj, AddMonoidHom.id_apply, scat]
      rw [← add_assoc]
      congr 1
      · by_cases hk : k = i
        · simp only [hk, if_true]
          rw [mul_add, add_comm]
          congr 1
          rw [← List.sum_map_mul_left]
          simp only [mul_assoc]
        · simp [hk]
      · congr 2
        funext e
        split
        · ring
        · rfl
  obtain ⟨y', h1, h2⟩ := isMv_of_adds (M := fun i j => (if i = j then A.mat i i else 0)
      + (AddMonoidHom.id R) (colSum (L i) j) + (AddMonoidHom.id R) (colSum (L j) i))
    (n := A.m) (alpha := alpha) (x := x) (beta := beta) hy (adds_forC (n := A.m)
      (D := fun i => symRow (AddMonoidHom.id R) (AddMonoidHom.id R) alpha x (L i) (A.mat i i) i)
      (body := fun i y => do
        let hi ← rd A.ptr (i + 1)
        let diag_idx := hi - A.base - 1
        let c ← rd A.ind diag_idx
        let last_ele_diag : Int := if c - A.base = i then 1 else 0
        let v ← rd A.val diag_idx
        let xi ← rd x i
        let y ← addAt y i ((if last_ele_diag = 1 then 1 else 0) * alpha * v * xi)
        let lo ← rd A.ptr i
        forC (lo - A.base) (hi - A.base - last_ele_diag) (fun j y => do
          let v ← rd A.val j
          let c ← rd A.ind j
          let xc ← rd x (c - A.base)
          let y ← addAt y i (alpha * v * xc)
          addAt y (c - A.base) (alpha * v * xi)) y) hadd)
    (fun k hk => symm_total (AddMonoidHom.id R) (AddMonoidHom.id R) alpha x A.m L
      (fun i => A.mat i i) hS hk)
    (fun k hk => symm_total_zero (AddMonoidHom.id R) (AddMonoidHom.id R) alpha x A.m L
      (fun i => A.mat i i) hS hk)
  refine ⟨y', h1, h2.congr ?_⟩
  intro i j hi hj
  simp only [AddMonoidHom.id_apply]
  by_cases hij : i = j
  · subst hij
    simp [hL0 i i hi (le_refl _)]
  · rw [if_neg hij, if_neg hij]
    by_cases hs : j < i
    · rw [if_pos (show strictTri .lower i j from hs), hL i j hi hs, hL0 j i hj (by omega)]; simp
    · rw [if_neg (show ¬ strictTri .lower i j from hs), hL0 i j hi (by omega),
        hL j i hj (by omega)]; simp

/-! ### triangular -/

/-- the entries a triangular kernel visits in a row -/
def triPart (f : Fill) (Dg : Diag) (L D U : List (Int × R)) : List (Int × R) :=
  match f, Dg with
  | .lower, .nonUnit => L ++ D
  | .upper, .nonUnit => D ++ U
  | .lower, _ => L
  | .upper, _ => U

/-- 1 for a unit diagonal -/
def unitC (Dg : Diag) : R := match Dg with | .unit => 1 | _ => 0

theorem triBounds_spec {A : Csr R} (hA : A.WF) {idiag iurow : List Int} {i : Nat} (hi : i < A.m)
    {L D U : List (Int × R)} (h : CleanRow A idiag iurow i L D U) (f : Fill) (Dg : Diag)
    (hsh : Dg = .nonUnit ∨ i < A.n) :
    ∃ b, triBounds f.code A.ptr idiag iurow i = some b ∧
      Seg A.ind A.val A.base (b.1 + triStart f.code Dg.code) (b.2 + triEnd f.code Dg.code)
        (triPart f Dg L D U) := by
  obtain ⟨s1, s2, s3⟩ := h.segs hA hi
  have hs := A.seg_row hA hi
  have e1 := Csr.WF.rd_ptr hA (i := i) (by omega)
  have e2 := Csr.WF.rd_ptr hA (i := i + 1) (by omega)
  rw [show ((i + 1 : Nat) : Int) = (i : Int) + 1 by push_cast; rfl] at e2
  obtain ⟨h0, h1, h2, h3, h4, h5, h6⟩ := h
  rw [h0] at hs
  have sLD := hs.append_left
  rw [List.append_assoc] at hs
  have sDU := hs.append_right
  have hlen : A.p i + ((L ++ D).length : Int) = A.p i + L.length + D.length := by
    simp; ring
  rw [hlen] at sLD
  cases f
  · refine ⟨(A.p i, A.p i + L.length + D.length), by simp [triBounds, Fill.code, e1, h5], ?_⟩
    cases Dg
    · simpa [triStart, triEnd, Fill.code, Diag.code, triPart] using sLD
    all_goals
      have hD := h6 (by rcases hsh with h | h; · simp at h
                        · exact h)
      simp only [triStart, triEnd, Fill.code, Diag.code, triPart, hD]
      simpa using s1
  · refine ⟨(A.p i + L.length, A.p (i + 1)), by simp [triBounds, Fill.code, e2, h4], ?_⟩
    cases Dg
    · simpa [triStart, triEnd, Fill.code, Diag.code, triPart] using sDU
    all_goals
      have hD := h6 (by rcases hsh with h | h; · simp at h
                        · exact h)
      rw [hD] at s3
      simp only [triStart, triEnd, Fill.code, Diag.code, triPart]
      simpa using s3

theorem triPart_mem {A : Csr R} {idiag iurow : List Int} {i : Nat}
    {L D U : List (Int × R)} (h : CleanRow A idiag iurow i L D U) (f : Fill) (Dg : Diag) :
    ∀ e ∈ triPart f Dg L D U, e ∈ A.row i := by
  intro e he
  rw [h.1]
  cases f <;> cases Dg <;> simp only [triPart, List.mem_append] at he <;>
    simp only [List.mem_append] <;> tauto

/-- the visited entries and the unit diagonal make up row `i` of the triangular matrix -/
theorem triPart_col [Star R] {A : Csr R} (hA : A.WF) {idiag iurow : List Int} {i : Nat}
    (him : i < A.m) {L D U : List (Int × R)} (h : CleanRow A idiag iurow i L D U) (f : Fill)
    (Dg : Diag) {j : Nat} (hj : j < A.n) :
    (colSum (triPart f Dg L D U) j + if i = j then unitC Dg else 0)
      = structured .triangular f Dg A.mat i j := by
  have hL := h.2.1
  have hD := h.2.2.1
  have hU := h.2.2.2.1
  unfold structured
  by_cases hij : i = j
  · subst hij
    obtain ⟨d1, _, _⟩ := h.diag hA him hj
    have zL : colSum L i = 0 := colSum_zero (fun e he => by have := hL e he; omega)
    have zU : colSum U i = 0 := colSum_zero (fun e he => by have := hU e he; omega)
    have zD : colSum D i = A.mat i i := by rw [d1]; simp [colSum]
    cases f <;> cases Dg <;> simp [triPart, unitC, diagVal, colSum_append, zL, zU, zD]
  · have zD : colSum D j = 0 := colSum_zero (fun e he => by have := hD e he; omega)
    have hlow : j < i → colSum L j = A.mat i j := fun hs => h.mat_strict (f := .lower) hs
    have hup : i < j → colSum U j = A.mat i j := fun hs => h.mat_strict (f := .upper) hs
    have hlow0 : ¬ j < i → colSum L j = 0 := fun hs => h.mat_strict_zero hA (f := .lower) hs
    have hup0 : ¬ i < j → colSum U j = 0 := fun hs => h.mat_strict_zero hA (f := .upper) hs
    simp only [hij, if_false, add_zero]
    cases f
    · by_cases hs : j < i
      · cases Dg <;> simp [triPart, colSum_append, zD, strictTri, hs, hlow hs]
      · cases Dg <;> simp [triPart, colSum_append, zD, strictTri, hs, hlow0 hs]
    · by_cases hs : i < j
      · cases Dg <;> simp [triPart, colSum_append, zD, strictTri, hs, hup hs]
      · cases Dg <;> simp [triPart, colSum_append, zD, strictTri, hs, hup0 hs]

theorem tri_dot [Star R] {A : Csr R} (hA : A.WF) {idiag iurow : List Int} {i : Nat}
    (him : i < A.m) {L D U : List (Int × R)} (h : CleanRow A idiag iurow i L D U) (f : Fill)
    (Dg : Diag) (hsh : Dg = .nonUnit ∨ i < A.n) (x : List R) :
    segDot x (triPart f Dg L D U) + unitC Dg * x.getD i 0
      = matVec (structured .triangular f Dg A.mat) A.n x i := by
  unfold segDot
  rw [filter_sum_mul _ A.n (fun j => x.getD j 0) (fun e he =>
    Csr.row_range hA (triPart_mem h f Dg e he))]
  unfold matVec
  have hu : unitC Dg * x.getD i 0
      = ∑ j ∈ range A.n, (if i = j then unitC Dg else 0) * x.getD j 0 := by
    simp only [ite_mul, zero_mul]
    rw [sum_ite_eq]
    rcases hsh with h | h
    · rw [h]; simp [unitC]
    · rw [if_pos (mem_range.mpr h)]
  rw [hu, ← sum_add_distrib]
  apply sum_congr rfl
  intro j hj
  rw [← add_mul]
  congr 1
  exact triPart_col hA him h f Dg (mem_range.mp hj)

theorem addIf_first {x : List R} {i : Nat} (f : Fill) (Dg : Diag) (hi : Dg = .unit → i < x.length)
    (r : R) :
    addIf (triStart f.code Dg.code ≠ 0 ∧ Dg.code = 1) x i r
      = some (r + if f = .upper then unitC Dg * x.getD i 0 else 0) := by
  cases f <;> cases Dg <;> simp [addIf, triStart, Fill.code, Diag.code, unitC]
  rw [rd_ofNat, List.getElem?_eq_getElem (hi rfl)]
  simp

theorem addIf_last {x : List R} {i : Nat} (f : Fill) (Dg : Diag) (hi : Dg = .unit → i < x.length)
    (r : R) :
    addIf (triEnd f.code Dg.code ≠ 0 ∧ Dg.code = 1) x i r
      = some (r + if f = .lower then unitC Dg * x.getD i 0 else 0) := by
  cases f <;> cases Dg <;> simp [addIf, triEnd, Fill.code, Diag.code, unitC]
  rw [rd_ofNat, List.getElem?_eq_getElem (hi rfl)]
  simp

theorem csrmvTri_spec [Star R] {A : Csr R} (hA : A.WF) {idiag iurow : List Int}
    (hcl : Clean A idiag iurow) (f : Fill) (Dg : Diag) (hsh : Dg = .nonUnit ∨ A.m ≤ A.n)
    (alpha beta : R) {x y : List R} (hx : A.n ≤ x.length) (hy : A.m ≤ y.length) :
    ∃ y', csrmvTri A.base alpha A.m Dg.code f.code A.val A.ind A.ptr idiag iurow x beta y
        = some y' ∧
      IsMv alpha beta (structured .triangular f Dg A.mat) A.m A.n x y y' := by
  obtain ⟨L, D, U, hc⟩ := hcl.choose'
  refine isMv_of_adds hy (adds_forC (n := A.m)
    (D := fun i k => if (k : Int) = (i : Int) then
      alpha * matVec (structured .triangular f Dg A.mat) A.n x i else 0) ?_) ?_ ?_
  · intro i hi
    have hsh' : Dg = .nonUnit ∨ i < A.n := by rcases hsh with h | h <;> [left; right] <;> [exact h; omega]
    obtain ⟨b, b1, b2⟩ := triBounds_spec hA hi (hc i hi) f Dg hsh'
    refine (adds_addAt (i := (i : Int)) (len := y.length) (by omega) (by omega)
      (alpha * matVec (structured .triangular f Dg A.mat) A.n x i)).congr ?_ (fun _ _ => rfl)
    intro y
    have hxi : Dg = .unit → i < x.length := by
      intro h; rcases hsh' with h' | h'
      · rw [h] at h'; simp at h'
      · omega
    simp only [b1, Option.bind_eq_bind, Option.bind_some, addIf_first f Dg hxi,
      addIf_last f Dg hxi]
    rw [dotSeq_seg b2 (fun e he => by
      have := Csr.row_range hA (triPart_mem (hc i hi) f Dg e he); omega)]
    simp only [Option.bind_some, addIf_last f Dg hxi]
    rw [← tri_dot hA hi (hc i hi) f Dg hsh' x]
    congr 2
    cases f <;> simp [add_comm]
  · intro k hk
    simp only [Nat.cast_inj]
    rw [sum_ite_eq, if_pos (mem_range.mpr hk)]
  · intro k hk
    simp only [Nat.cast_inj]
    rw [sum_ite_eq, if_neg (by simp; omega)]

theorem csrmvTriTh_spec [Star R] (cj : R →+ R) (hcj : cj 1 = 1) {A : Csr R} (hA : A.WF)
    {idiag iurow : List Int}
    (hcl : Clean A idiag iurow) (f : Fill) (Dg : Diag) (hsh : Dg = .nonUnit ∨ A.m ≤ A.n)
    (alpha beta : R) {x y : List R} (hx : A.m ≤ x.length) (hy : A.n ≤ y.length) :
    ∃ y', csrmvTriTh cj A.base alpha A.m A.n Dg.code f.code A.val A.ind A.ptr idiag iurow x beta y
        = some y' ∧
      IsMv alpha beta (fun i j => cj (structured .triangular f Dg A.mat j i)) A.n A.m x y y' := by
  obtain ⟨L, D, U, hc⟩ := hcl.choose'
  have hadd : ∀ i, i < A.m → Adds y.length (fun y => do
      let b ← triBounds f.code A.ptr idiag iurow i
      let xi ← rd x i
      let axi := alpha * xi
      let y ← addAtIf (triStart f.code Dg.code ≠ 0 ∧ Dg.code = 1) y i axi
      let y ← forC (b.1 + triStart f.code Dg.code) (b.2 + triEnd f.code Dg.code) (fun j y => do
        let c ← rd A.ind (j - A.base)
        let v ← rd A.val (j - A.base)
        addAt y (c - A.base) (cj v * axi)) y
      addAtIf (triEnd f.code Dg.code ≠ 0 ∧ Dg.code = 1) y i axi)
      (fun k => cj (colSum (triPart f Dg (L i) (D i) (U i)) k + if i = k then unitC Dg else 0)
        * (alpha * x.getD i 0)) := by
    intro i hi
    have hsh' : Dg = .nonUnit ∨ i < A.n := by rcases hsh with h | h <;> [left; right] <;> [exact h; omega]
    obtain ⟨b, b1, b2⟩ := triBounds_spec hA hi (hc i hi) f Dg hsh'
    have hmid := adds_seg b2 (len := y.length) (fun e he => by
      have := Csr.row_range hA (triPart_mem (hc i hi) f Dg e he); omega)
      (fun v => cj v * (alpha * x.getD i 0))
    have hmid' := scat_eq ((AddMonoidHom.mulRight (alpha * x.getD i 0)).comp cj)
      (triPart f Dg (L i) (D i) (U i))
    simp only [AddMonoidHom.coe_comp, Function.comp_def, AddMonoidHom.coe_mulRight] at hmid'
    have e3 := rd_getD_lt (x := x) (i := i) (by omega)
    have hiy : Dg = .unit → i < y.length := by
      intro h; rcases hsh' with h' | h'
      · rw [h] at h'; simp at h'
      · omega
    -- the two optional additions
    have hfirst : Adds y.length (fun y => addAtIf (triStart f.code Dg.code ≠ 0 ∧ Dg.code = 1) y i
        (alpha * x.getD i 0))
        (fun k => if f = .upper then (if i = k then unitC Dg else 0) * (alpha * x.getD i 0) else 0) := by
      by_cases hu : Dg = .unit ∧ f = .upper
      · obtain ⟨rfl, rfl⟩ := hu
        refine (adds_addAt (i := (i : Int)) (by omega) (by have := hiy rfl; omega)
          (alpha * x.getD i 0)).congr
          (fun y => by simp [addAtIf, triStart, Fill.code, Diag.code]) ?_
        intro k _
        simp only [if_true, unitC, Nat.cast_inj, ite_mul, one_mul, zero_mul, eq_comm]
      · refine (adds_id _).congr (fun y => ?_) (fun k _ => ?_)
        · cases f <;> cases Dg <;> simp [addAtIf, triStart, Fill.code, Diag.code] at hu ⊢
        · cases f <;> cases Dg <;> simp [unitC] at hu ⊢
    have hlast : Adds y.length (fun y => addAtIf (triEnd f.code Dg.code ≠ 0 ∧ Dg.code = 1) y i
        (alpha * x.getD i 0))
        (fun k => if f = .lower then (if i = k then unitC Dg else 0) * (alpha * x.getD i 0) else 0) := by
      by_cases hu : Dg = .unit ∧ f = .lower
      · obtain ⟨rfl, rfl⟩ := hu
        refine (adds_addAt (i := (i : Int)) (by omega) (by have := hiy rfl; omega)
          (alpha * x.getD i 0)).congr
          (fun y => by simp [addAtIf, triEnd, Fill.code, Diag.code]) ?_
        intro k _
        simp only [if_true, unitC, Nat.cast_inj, ite_mul, one_mul, zero_mul, eq_comm]
      · refine (adds_id _).congr (fun y => ?_) (fun k _ => ?_)
        · cases f <;> cases Dg <;> simp [addAtIf, triEnd, Fill.code, Diag.code] at hu ⊢
        · cases f <;> cases Dg <;> simp [unitC] at hu ⊢
    refine (hfirst.comp (hmid.comp hlast)).congr ?_ ?_
    · intro y
      simp only [b1, e3, Option.bind_eq_bind, Option.bind_some]
    · intro k _
      rw [show ((triPart f Dg (L i) (D i) (U i)).map fun e =>
        if (k : Int) = e.1 then cj e.2 * (alpha * x.getD i 0) else 0).sum
        = cj (colSum (triPart f Dg (L i) (D i) (U i)) k) * (alpha * x.getD i 0) from hmid' k]
      rw [map_add, add_mul]
      have : cj (if i = k then unitC Dg else 0) = if i = k then unitC Dg else 0 := by
        split
        · cases Dg <;> simp [unitC, hcj]
        · simp
      rw [this]
      cases f <;> simp [add_comm]
  obtain ⟨y', h1, h2⟩ := isMv_of_adds (M := fun k i =>
      cj (colSum (triPart f Dg (L i) (D i) (U i)) k + if i = k then unitC Dg else 0))
    (n := A.m) (alpha := alpha) (beta := beta) (x := x) hy (adds_forC (n := A.m) (body := fun i y => do
      let b ← triBounds f.code A.ptr idiag iurow i
      let xi ← rd x i
      let axi := alpha * xi
      let y ← addAtIf (triStart f.code Dg.code ≠ 0 ∧ Dg.code = 1) y i axi
      let y ← forC (b.1 + triStart f.code Dg.code) (b.2 + triEnd f.code Dg.code) (fun j y => do
        let c ← rd A.ind (j - A.base)
        let v ← rd A.val (j - A.base)
        addAt y (c - A.base) (cj v * axi)) y
      addAtIf (triEnd f.code Dg.code ≠ 0 ∧ Dg.code = 1) y i axi) hadd) (by
      intro k hk
      unfold matVec
      rw [mul_sum]
      apply sum_congr rfl
      intro i _
      ring) (by
      intro k hk
      apply sum_eq_zero
      intro i hi
      have hi := mem_range.mp hi
      have hsh' : Dg = .nonUnit ∨ i < A.n := by
        rcases hsh with h | h <;> [left; right] <;> [exact h; omega]
      rw [colSum_zero (fun e he => by
        have := Csr.row_range hA (triPart_mem (hc i hi) f Dg e he); omega)]
      have : (if i = k then unitC Dg else 0 : R) = 0 := by
        rcases hsh' with h | h
        · rw [h]; simp [unitC]
        · rw [if_neg (by omega)]
      rw [this]; simp)
  refine ⟨y', h1, h2.congr ?_⟩
  intro k i hk hi
  rw [← triPart_col hA hi (hc i hi) f Dg hk]

/-- the row value of the double kernel: the unit diagonal of the upper triangle is lost when a
group of four entries was processed -/
theorem triAvx2Row_spec {A : Csr R} (hA : A.WF) {idiag iurow : List Int} {i : Nat}
    (hi : i < A.m) {L D U : List (Int × R)} (h : CleanRow A idiag iurow i L D U) (f : Fill)
    (Dg : Diag) (hsh : Dg = .nonUnit ∨ i < A.n) {x : List R} (hx : A.n ≤ x.length) :
    triAvx2Row A.base Dg.code f.code A.val A.ind A.ptr idiag iurow x i
      = some (segDot x (triPart f Dg L D U)
        + if f = .upper ∧ Dg = .unit ∧ 4 ≤ U.length then 0 else unitC Dg * x.getD i 0) := by
  obtain ⟨b, b1, b2⟩ := triBounds_spec hA hi h f Dg hsh
  have hxi : Dg = .unit → i < x.length := by
    intro h; rcases hsh with h' | h'
    · rw [h] at h'; simp at h'
    · omega
  unfold triAvx2Row
  simp only [b1, Option.bind_eq_bind, Option.bind_some, addIf_first f Dg hxi, zero_add]
  obtain ⟨v, v1, v2⟩ := dotK_seg (vecLanes_ok (R := R) (K := 4) (by omega) hsum4l_sum)
    (finIf (vecLanes 4 hsum4l) 4 (b.1 + triStart f.code Dg.code) (b.2 + triEnd f.code Dg.code)
      (if f = .upper then unitC Dg * x.getD i 0 else 0)) b2 (x := x) (fun e he => by
      have := Csr.row_range hA (triPart_mem h f Dg e he); omega)
  rw [v2]
  simp only [Option.bind_some, addIf_last f Dg hxi]
  congr 1
  have hlen : b.2 + triEnd f.code Dg.code - (b.1 + triStart f.code Dg.code)
      = ((triPart f Dg L D U).length : Int) := by have := b2.1; omega
  have hfin : finIf (vecLanes 4 hsum4l) 4 (b.1 + triStart f.code Dg.code)
      (b.2 + triEnd f.code Dg.code) (if f = .upper then unitC Dg * x.getD i 0 else 0) v
      = if 4 ≤ (triPart f Dg L D U).length then
          segDot x ((triPart f Dg L D U).take (4 * ((triPart f Dg L D U).length / 4)))
        else if f = .upper then unitC Dg * x.getD i 0 else 0 := by
    unfold finIf
    rw [hlen, Int.tdiv_eq_ediv_of_nonneg (by omega), v1]
    by_cases h4 : 4 ≤ (triPart f Dg L D U).length
    · rw [if_pos (by omega), if_pos h4]
    · rw [if_neg (by omega), if_neg h4]
  rw [hfin]
  by_cases h4 : 4 ≤ (triPart f Dg L D U).length
  · rw [if_pos h4, ← segDot_append, List.take_append_drop]
    cases f
    · simp
    · cases Dg <;> simp_all [triPart, unitC]
  · rw [if_neg h4]
    have h0 : (triPart f Dg L D U).length / 4 = 0 := by omega
    rw [h0]
    simp only [Nat.mul_zero, List.drop_zero]
    cases f
    · simp
    · cases Dg
      · simp [unitC]
      · rw [if_neg (fun h : Fill.upper = Fill.upper ∧ Diag.unit = Diag.unit ∧ 4 ≤ U.length => h4 h.2.2)]; simp [add_comm]
      · simp [unitC]

theorem storeRowA_spec {alpha beta r : R} {y : List R} {len : Nat} {f : Nat → R}
    (hy : Rep y len f) {i : Nat} (hi : i < len) :
    ∃ y', storeRowA alpha beta r i y = some y' ∧
      Rep y' len (Function.update f i (alpha * r + beta * f i)) := by
  unfold storeRowA
  by_cases hb : beta = 0
  · simp only [hb, ne_eq, not_true, if_false, zero_mul, add_zero]
    exact hy.wr_nat _ hi
  · simp only [hb, ne_eq, not_false_iff, if_true, hy.rd_nat hi, Option.bind_eq_bind,
      Option.bind_some]
    exact hy.wr_nat _ hi

/-- the diagonal type the double kernel honours in row `i` -/
def avx2Diag (A : Csr R) (f : Fill) (Dg : Diag) (i : Nat) : Diag :=
  if f = .upper ∧ Dg = .unit ∧ 4 ≤ ((A.row i).filter fun e => decide ((i : Int) < e.1)).length
  then .zero else Dg

theorem csrmvTriAvx2_spec [Star R] {A : Csr R} (hA : A.WF) {idiag iurow : List Int}
    (hcl : Clean A idiag iurow) (f : Fill) (Dg : Diag) (hsh : Dg = .nonUnit ∨ A.m ≤ A.n)
    (alpha beta : R) {x y : List R} (hx : A.n ≤ x.length) (hy : A.m ≤ y.length) :
    ∃ y', csrmvTriAvx2 A.base alpha A.m Dg.code f.code A.val A.ind A.ptr idiag iurow x beta y
        = some y' ∧
      IsMv alpha beta (fun i j => structured .triangular f (avx2Diag A f Dg i) A.mat i j)
        A.m A.n x y y' := by
  obtain ⟨L, D, U, hc⟩ := hcl.choose'
  have hrow : ∀ i, i < A.m → triAvx2Row A.base Dg.code f.code A.val A.ind A.ptr idiag iurow x i
      = some (matVec (fun i j => structured .triangular f (avx2Diag A f Dg i) A.mat i j) A.n x i) := by
    intro i hi
    have hsh' : Dg = .nonUnit ∨ i < A.n := by
      rcases hsh with h | h <;> [left; right] <;> [exact h; omega]
    rw [triAvx2Row_spec hA hi (hc i hi) f Dg hsh' hx]
    congr 1
    have hUl : ((A.row i).filter fun e => decide ((i : Int) < e.1)).length = (U i).length := by
      rw [(hc i hi).1, List.filter_append, List.filter_append,
        List.filter_eq_nil_iff.mpr (fun e he => by
          have := (hc i hi).2.1 e he; simp; omega),
        List.filter_eq_nil_iff.mpr (fun e he => by
          have := (hc i hi).2.2.1 e he; simp; omega),
        List.filter_eq_self.mpr (fun e he => by
          have := (hc i hi).2.2.2.1 e he; simp; omega)]
      simp
    by_cases hlost : f = .upper ∧ Dg = .unit ∧ 4 ≤ (U i).length
    · rw [if_pos hlost]
      have e : avx2Diag A f Dg i = .zero := by unfold avx2Diag; rw [hUl, if_pos hlost]
      obtain ⟨rfl, rfl, _⟩ := hlost
      have hsh'' : i < A.n := by simpa using hsh'
      have := tri_dot hA hi (hc i hi) .upper .zero (Or.inr hsh'') x
      unfold matVec at this ⊢
      simp only [e]
      rw [← this]
      simp [triPart, unitC]
    · rw [if_neg hlost]
      have e : avx2Diag A f Dg i = Dg := by unfold avx2Diag; rw [hUl, if_neg hlost]
      have := tri_dot hA hi (hc i hi) f Dg hsh' x
      rw [this]
      unfold matVec
      simp only [e]
  obtain ⟨y', h1, h2⟩ := rows_spec (Rep.of_list y 0) hy
    (fun i v => alpha * matVec (fun i j => structured .triangular f (avx2Diag A f Dg i) A.mat i j)
      A.n x i + beta * v)
    (fun i y => do
      let r ← triAvx2Row A.base Dg.code f.code A.val A.ind A.ptr idiag iurow x i
      storeRowA alpha beta r i y) (by
      intro i y f hi hy
      simp only [hrow i hi, Option.bind_eq_bind, Option.bind_some]
      exact storeRowA_spec hy (by omega))
  refine ⟨y', h1, isMv_of_rep hy (fun i _ => rfl) (h2.congr ?_)⟩
  intro i _
  simp only [comb_eq]

end Verif
