/-
Symmetric and Hermitian CSR products on a matrix split at its diagonal.
-/
import Verif.Proofs.CsrmvT
import Verif.Model.CsrmvSym
import Verif.Spec.Clean

namespace Verif
open Model Finset

variable {R : Type}

/-! ### sums of entries by column -/

/-- sum of the values in column `j` -/
def colSum [Zero R] [Add R] (S : List (Int × R)) (j : Nat) : R :=
  ((S.filter fun e => decide (e.1 = (j : Int))).map (·.2)).sum

theorem mat_eq_colSum [Semiring R] (A : Csr R) (i j : Nat) : A.mat i j = colSum (A.row i) j := rfl

theorem colSum_append [AddMonoid R] (S T : List (Int × R)) (j : Nat) :
    colSum (S ++ T) j = colSum S j + colSum T j := by
  simp [colSum]

theorem colSum_zero [AddMonoid R] {S : List (Int × R)} {j : Nat} (h : ∀ e ∈ S, e.1 ≠ (j : Int)) :
    colSum S j = 0 := by
  unfold colSum
  rw [List.filter_eq_nil_iff.mpr]
  · rfl
  · intro e he
    simpa using h e he

/-- contribution of the entries `S` to cell `k` -/
def scat [Zero R] [Add R] (w : R → R) (S : List (Int × R)) (k : Nat) : R :=
  (S.map fun e => if (k : Int) = e.1 then w e.2 else 0).sum

theorem scat_append [AddMonoid R] (w : R → R) (S T : List (Int × R)) (k : Nat) :
    scat w (S ++ T) k = scat w S k + scat w T k := by
  simp [scat]

theorem scat_eq [AddCommMonoid R] (w : R →+ R) (S : List (Int × R)) (k : Nat) :
    scat w S k = w (colSum S k) := sum_ite_filter S w k

theorem filter_sum_map [Semiring R] (w : R →+ R) (L : List (Int × R)) (n : Nat) (x : Nat → R)
    (h : ∀ e ∈ L, 0 ≤ e.1 ∧ e.1 < n) :
    (L.map fun e => w e.2 * x e.1.toNat).sum = ∑ j ∈ range n, w (colSum L j) * x j := by
  have := filter_sum_mul (L.map fun e => (e.1, w e.2)) n x (by
    intro e he
    obtain ⟨a, ha, rfl⟩ := List.mem_map.mp he
    exact h a ha)
  rw [List.map_map] at this
  refine this.trans (sum_congr rfl fun j _ => ?_)
  congr 1
  unfold colSum
  rw [List.filter_map, List.map_map, map_list_sum, List.map_map]
  rfl

/-! ### total of the row contributions -/

section
variable [CommSemiring R]

/-- what processing row `i` adds to cell `k`: the row's own dot product, and the transposed
contributions of its strict triangle `S` -/
def symRow (cr cc : R →+ R) (alpha : R) (x : List R) (S : List (Int × R)) (d : R) (i k : Nat) : R :=
  (if k = i then alpha * ((S.map fun e => cr e.2 * x.getD e.1.toNat 0).sum + d * x.getD i 0) else 0)
    + scat (fun v => cc v * (alpha * x.getD i 0)) S k

theorem symm_total (cr cc : R →+ R) (alpha : R) (x : List R) (m : Nat)
    (S : Nat → List (Int × R)) (d : Nat → R)
    (hS : ∀ i, i < m → ∀ e ∈ S i, 0 ≤ e.1 ∧ e.1 < (m : Int)) {k : Nat} (hk : k < m) :
    ∑ i ∈ range m, symRow cr cc alpha x (S i) (d i) i k
      = alpha * matVec (fun i j => (if i = j then d i else 0) + cr (colSum (S i) j)
          + cc (colSum (S j) i)) m x k := by
  unfold symRow matVec
  rw [sum_add_distrib, sum_ite_eq, if_pos (mem_range.mpr hk)]
  have h1 : ∀ i ∈ range m, scat (fun v => cc v * (alpha * x.getD i 0)) (S i) k
      = alpha * (cc (colSum (S i) k) * x.getD i 0) := by
    intro i _
    have := scat_eq ((AddMonoidHom.mulRight (alpha * x.getD i 0)).comp cc) (S i) k
    simp only [AddMonoidHom.coe_comp, Function.comp, AddMonoidHom.coe_mulRight] at this
    show scat (fun v => cc v * (alpha * x.getD i 0)) (S i) k = _
    rw [show (fun v => cc v * (alpha * x.getD i 0))
      = (⇑((AddMonoidHom.mulRight (alpha * x.getD i 0)).comp cc)) by
        funext v; simp, scat_eq]
    simp only [AddMonoidHom.coe_comp, Function.comp, AddMonoidHom.coe_mulRight]
    ring
  rw [sum_congr rfl h1, ← mul_sum, ← mul_add]
  congr 1
  rw [filter_sum_map cr (S k) m (fun j => x.getD j 0) (hS k hk)]
  simp only [add_mul, sum_add_distrib, ite_mul, zero_mul]
  rw [sum_ite_eq, if_pos (mem_range.mpr hk)]
  ring

theorem symm_total_zero (cr cc : R →+ R) (alpha : R) (x : List R) (m : Nat)
    (S : Nat → List (Int × R)) (d : Nat → R)
    (hS : ∀ i, i < m → ∀ e ∈ S i, 0 ≤ e.1 ∧ e.1 < (m : Int)) {k : Nat} (hk : m ≤ k) :
    ∑ i ∈ range m, symRow cr cc alpha x (S i) (d i) i k = 0 := by
  apply sum_eq_zero
  intro i hi
  have hi := mem_range.mp hi
  unfold symRow scat
  rw [if_neg (by omega), zero_add]
  apply List.sum_eq_zero
  intro v hv
  obtain ⟨e, he, rfl⟩ := List.mem_map.mp hv
  have := hS i hi e he
  rw [if_neg (by omega)]

end

/-! ### rows -/

section
variable [CommSemiring R] [DecidableEq R]
variable {ind : List Int} {val : List R} {base lo hi : Int} {S : List (Int × R)}

theorem rd_col {x : List R} {c : Int} (h0 : 0 ≤ c) (h1 : c < x.length) :
    rd x c = some (x.getD c.toNat 0) := by
  have := rd_getD_lt (x := x) (i := c.toNat) (by omega)
  rwa [show ((c.toNat : Nat) : Int) = c by omega] at this

theorem lanesAt_seg (h : Seg ind val base lo hi S) {x : List R}
    (hr : ∀ e ∈ S, 0 ≤ e.1 ∧ e.1 < x.length) {q K : Nat} (hq : q + K ≤ S.length) :
    lanesAt K ind val x base (lo + q - base)
      = some (((S.drop q).take K).map fun e => (e.2, x.getD e.1.toNat 0)) := by
  have : ((S.drop q).take K).map (fun e => (e.2, x.getD e.1.toNat 0))
      = (List.range K).map fun l => ((S.getD (q + l) (0, 0)).2,
          x.getD (S.getD (q + l) (0, 0)).1.toNat 0) := by
    apply List.ext_getElem
    · simp; omega
    · intro l h1 h2
      simp only [List.length_map, List.length_range] at h2
      have hlt : q + l < S.length := by omega
      simp [List.getElem?_eq_getElem hlt]
  rw [this]
  unfold lanesAt
  apply mapM_range_some
  intro l hl
  have hlt : q + l < S.length := by omega
  obtain ⟨e1, e2⟩ := h.2 (q + l) hlt
  have hrr := hr _ (List.getElem_mem hlt)
  rw [show lo + (q : Int) - base + (l : Int) = lo - base + ((q + l : Nat) : Int) by push_cast; ring,
    e1, e2]
  have e3 := rd_col (x := x) hrr.1 hrr.2
  simp [e3, List.getElem?_eq_getElem hlt]

theorem adds_lanes (h : Seg ind val base lo hi S) {len : Nat}
    (hr : ∀ e ∈ S, 0 ≤ e.1 ∧ e.1 < len) {q K : Nat} (hq : q + K ≤ S.length) (w : R → R) :
    Adds len (fun y => forC 0 (K : Int) (fun k y => do
      let c ← rd ind (lo + q + k - base)
      let v ← rd (((S.drop q).take K).map fun e => w e.2) k
      addAt y (c - base) v) y) (scat w ((S.drop q).take K)) := by
  have hlen : ((S.drop q).take K).length = K := by simp; omega
  refine (adds_forC (n := K) (body := fun k y => do
      let c ← rd ind (lo + q + k - base)
      let v ← rd (((S.drop q).take K).map fun e => w e.2) k
      addAt y (c - base) v) (D := fun l k => segAdd w ((S.drop q).take K) l k) ?_).congr
      (fun _ => rfl) ?_
  · intro l hl
    have hlt : q + l < S.length := by omega
    have hlt' : l < ((S.drop q).take K).length := by omega
    obtain ⟨e1, _⟩ := h.2 (q + l) hlt
    have hrr := hr _ (List.getElem_mem hlt)
    have hg : ((S.drop q).take K)[l] = S[q + l] := by simp
    refine (adds_addAt hrr.1 hrr.2 (w S[q + l].2)).congr ?_ ?_
    · intro y
      rw [show lo + (q : Int) + (l : Int) - base = lo - base + ((q + l : Nat) : Int)
        by push_cast; ring, e1, rd_ofNat, List.getElem?_map, List.getElem?_eq_getElem hlt']
      simp only [hg, Option.map_some, Option.bind_eq_bind, Option.bind_some, add_sub_cancel_right]
    · intro k _
      rw [segAdd, dif_pos hlt', hg]
  · intro k _
    unfold scat
    rw [segAdd_sum, hlen]

/-- one row of the blocked symmetric kernel -/
theorem symmKtRow_spec {V : Vec R} {K : Nat} (hV : V.Ok K) (cj : R → R)
    (h : Seg ind val base lo hi S) {x : List R} {len : Nat}
    (hr : ∀ e ∈ S, 0 ≤ e.1 ∧ e.1 < x.length) (hr' : ∀ e ∈ S, 0 ≤ e.1 ∧ e.1 < len)
    (alpha xi : R) {y : List R} {f : Nat → R} (hy : Rep y len f) :
    ∃ y', symmKtRow V K cj base alpha val ind x lo hi xi y = some (segDot x S, y') ∧
      Rep y' len (fun k => f k + scat (fun v => cj v * (alpha * xi)) S k) := by
  obtain ⟨hK, Inv, i0, i1, i2⟩ := hV
  have hlen : hi - lo = (S.length : Int) := by have := h.1; omega
  have hrem : (hi - lo).tmod K = ((S.length % K : Nat) : Int) := by
    rw [hlen, Int.tmod_eq_emod_of_nonneg (by omega)]; push_cast; rfl
  have hdm := Nat.div_add_mod S.length K
  have hend : hi - ((S.length % K : Nat) : Int) = lo + ((K * (S.length / K) : Nat) : Int) := by
    omega
  obtain ⟨s, e1, _, h3, h4⟩ := forS_inv (lo := lo) (hi := lo + ((K * (S.length / K) : Nat) : Int))
    (K := K) (k := S.length / K) hK rfl
    (f := fun j (s : V.σ × List R) => do
      let L ← lanesAt K ind val x base (j - base)
      let vy := L.map fun p => cj p.1 * (alpha * xi)
      let y ← forC 0 K (fun k y => do
        let c ← rd ind (j + k - base)
        let w ← rd vy k
        addAt y (c - base) w) s.2
      some (V.fma L s.1, y)) (s := (V.zero, y))
    (P := fun k s => Inv s.1 ∧ V.hsum s.1 = segDot x (S.take (K * k)) ∧
      Rep s.2 len (fun c => f c + scat (fun v => cj v * (alpha * xi)) (S.take (K * k)) c))
    ⟨i0, by simp [i1, segDot], hy.congr (by simp [scat])⟩ (by
      rintro k ⟨v, y⟩ hk ⟨p1, p2, p3⟩
      have hle : K * (k + 1) ≤ K * (S.length / K) := Nat.mul_le_mul_left K hk
      rw [Nat.mul_succ] at hle
      have hq : K * k + K ≤ S.length := by omega
      obtain ⟨y', a1, a2⟩ := adds_lanes h hr' hq (fun v => cj v * (alpha * xi)) y _ p3
      have htake : S.take (K * (k + 1)) = S.take (K * k) ++ (S.drop (K * k)).take K := by
        rw [Nat.mul_succ, List.take_add]
      refine ⟨(V.fma (((S.drop (K * k)).take K).map fun e => (e.2, x.getD e.1.toNat 0)) v, y'),
        ?_, ?_⟩
      · rw [lanesAt_seg h hr hq]
        simp only [Option.bind_eq_bind, Option.bind_some, List.map_map, Function.comp_def] at a1 ⊢
        rw [a1]
        rfl
      · obtain ⟨j1, j2⟩ := i2 (((S.drop (K * k)).take K).map fun e => (e.2, x.getD e.1.toNat 0)) v
          (by simp; omega) p1
        refine ⟨j1, ?_, a2.congr ?_⟩
        · rw [j2, htake, segDot_append]
          simp only at p2
          rw [p2]
          simp only [segDot, List.map_map, Function.comp_def]
        · intro c _
          rw [htake, scat_append, add_assoc])
  have hS : S = S.take (K * (S.length / K)) ++ S.drop (K * (S.length / K)) :=
    (List.take_append_drop _ _).symm
  have hsr : Seg ind val base (lo + ((K * (S.length / K) : Nat) : Int)) hi
      (S.drop (K * (S.length / K))) := by
    rw [hS] at h
    have := h.append_right
    rwa [List.length_take, Nat.min_eq_left (by omega)] at this
  -- remainder
  have hrem2 := hsr.forC (σ := R × List R) (fun c v s =>
    (rd x (c - base)).bind fun xc => (addAt s.2 (c - base) (alpha * cj v * xi)).bind fun y =>
      some (s.1 + v * xc, y)) (V.hsum s.1, s.2)
  have hfold : ∀ (T : List (Int × R)), (∀ e ∈ T, 0 ≤ e.1 ∧ e.1 < (x.length : Int)) →
      (∀ e ∈ T, 0 ≤ e.1 ∧ e.1 < (len : Int)) → ∀ (r : R) (y : List R) (g : Nat → R), Rep y len g →
      ∃ y', T.foldlM (fun (s : R × List R) e => (rd x (e.1 + base - base)).bind fun xc =>
        (addAt s.2 (e.1 + base - base) (alpha * cj e.2 * xi)).bind fun y =>
          some (s.1 + e.2 * xc, y)) (r, y) = some (r + segDot x T, y') ∧
        Rep y' len (fun k => g k + scat (fun v => cj v * (alpha * xi)) T k) := by
    intro T
    induction T with
    | nil =>
      intro _ _ r y g hy
      exact ⟨y, by simp [segDot], hy.congr (by simp [scat])⟩
    | cons e T ih =>
      intro hx hl r y g hy
      have hxe := hx e (by simp)
      have hle := hl e (by simp)
      obtain ⟨y1, b1, b2⟩ := adds_addAt hle.1 hle.2 (alpha * cj e.2 * xi) y g hy
      obtain ⟨y2, c1, c2⟩ := ih (fun e he => hx e (by simp [he])) (fun e he => hl e (by simp [he]))
        (r + e.2 * x.getD e.1.toNat 0) y1 _ b2
      refine ⟨y2, ?_, c2.congr ?_⟩
      · rw [List.foldlM_cons]
        have e3 := rd_col (x := x) hxe.1 hxe.2
        simp only at b1
        simp only [e3, Option.bind_some, add_sub_cancel_right, b1, Option.bind_eq_bind]
        simp only [add_sub_cancel_right] at c1
        rw [c1]
        simp [segDot, add_assoc]
      · intro k _
        simp only [scat, List.map_cons, List.sum_cons]
        rw [add_assoc]
        congr 2
        split
        · ring
        · rfl
  obtain ⟨y', f1, f2⟩ := hfold (S.drop (K * (S.length / K)))
    (fun e he => hr e (List.mem_of_mem_drop he)) (fun e he => hr' e (List.mem_of_mem_drop he))
    (V.hsum s.1) s.2 _ h4
  refine ⟨y', ?_, f2.congr ?_⟩
  · unfold symmKtRow
    simp only [hrem, hend]
    rw [e1]
    simp only [Option.bind_eq_bind, Option.bind_some]
    rw [hrem2, f1, h3, ← segDot_append, ← hS]
  · intro k _
    rw [add_assoc, ← scat_append, ← hS]

/-- one row of the scalar kernels -/
theorem symmRowSeq_spec (cr cc : R →+ R)
    (h : Seg ind val base lo hi S) {x : List R} {len : Nat}
    (hr : ∀ e ∈ S, 0 ≤ e.1 ∧ e.1 < x.length) (hr' : ∀ e ∈ S, 0 ≤ e.1 ∧ e.1 < len)
    (alpha xi sum : R) {y : List R} {f : Nat → R} (hy : Rep y len f) :
    ∃ y', symmRowSeq cr cc base alpha val ind x lo hi xi sum y
        = some (sum + alpha * (S.map fun e => cr e.2 * x.getD e.1.toNat 0).sum, y') ∧
      Rep y' len (fun k => f k + scat (fun v => cc v * (alpha * xi)) S k) := by
  have hforC := h.forC (σ := R × List R) (fun c v s =>
    (rd x (c - base)).bind fun xc => (addAt s.2 (c - base) (alpha * cc v * xi)).bind fun y =>
      some (s.1 + alpha * cr v * xc, y)) (sum, y)
  have hswap : symmRowSeq cr cc base alpha val ind x lo hi xi sum y
      = S.foldlM (fun (s : R × List R) e => (rd x (e.1 + base - base)).bind fun xc =>
        (addAt s.2 (e.1 + base - base) (alpha * cc e.2 * xi)).bind fun y =>
          some (s.1 + alpha * cr e.2 * xc, y)) (sum, y) := by
    rw [← hforC]
    unfold symmRowSeq
    congr 1
    funext j s
    cases rd ind (j - base) <;> cases rd val (j - base) <;> rfl
  rw [hswap]
  clear hswap hforC h
  induction S generalizing sum y f with
  | nil =>
    exact ⟨y, by simp, hy.congr (by simp [scat])⟩
  | cons e T ih =>
    have hxe := hr e (by simp)
    have hle := hr' e (by simp)
    obtain ⟨y1, b1, b2⟩ := adds_addAt hle.1 hle.2 (alpha * cc e.2 * xi) y f hy
    obtain ⟨y2, c1, c2⟩ := ih (fun e he => hr e (by simp [he])) (fun e he => hr' e (by simp [he]))
      (sum + alpha * cr e.2 * x.getD e.1.toNat 0) b2
    refine ⟨y2, ?_, c2.congr ?_⟩
    · rw [List.foldlM_cons]
      have e3 := rd_col (x := x) hxe.1 hxe.2
      simp only at b1
      simp only [e3, Option.bind_some, add_sub_cancel_right, b1, Option.bind_eq_bind]
      simp only [add_sub_cancel_right] at c1
      rw [c1]
      simp only [List.map_cons, List.sum_cons, Option.some.injEq, Prod.mk.injEq, and_true]
      ring
    · intro k _
      simp only [scat, List.map_cons, List.sum_cons]
      rw [add_assoc]
      congr 2
      split
      · ring
      · rfl

/-- one row of hermt_internal -/
theorem hermtRow_adds (cr cc : R →+ R) (hcc : ∀ v, cc v = v)
    (h : Seg ind val base lo hi S) {x : List R} {len : Nat}
    (hr : ∀ e ∈ S, 0 ≤ e.1 ∧ e.1 < x.length) (hr' : ∀ e ∈ S, 0 ≤ e.1 ∧ e.1 < len)
    {i : Nat} (hil : i < len) (alpha xi : R) :
    Adds len (hermtRow cr base alpha val ind x lo hi i xi)
      (fun k => (if k = i then alpha * (S.map fun e => cr e.2 * x.getD e.1.toNat 0).sum else 0)
        + scat (fun v => cc v * (alpha * xi)) S k) := by
  have hil' : (i : Int) < len := by omega
  have hforC := fun y => h.forC (σ := List R) (fun c v y =>
    (rd x (c - base)).bind fun xc => (addAt y i (alpha * cr v * xc)).bind fun y =>
      addAt y (c - base) (alpha * v * xi)) y
  refine (adds_foldlM (L := S) (body := fun y e => (rd x (e.1 + base - base)).bind fun xc =>
      (addAt y i (alpha * cr e.2 * xc)).bind fun y => addAt y (e.1 + base - base) (alpha * e.2 * xi))
    (D := fun e k => (if (k : Int) = (i : Int) then alpha * cr e.2 * x.getD e.1.toNat 0 else 0)
      + (if (k : Int) = e.1 then alpha * e.2 * xi else 0)) ?_).congr ?_ ?_
  · intro e he
    have hle := hr' e he
    have hxe := hr e he
    refine ((adds_addAt (i := (i : Int)) (by omega) (by omega)
      (alpha * cr e.2 * x.getD e.1.toNat 0)).comp
      (adds_addAt hle.1 hle.2 (alpha * e.2 * xi))).congr ?_ (fun _ _ => rfl)
    intro y
    have e3 := rd_col (x := x) hxe.1 hxe.2
    simp only [e3, Option.bind_some, add_sub_cancel_right]
  · intro y
    rw [← hforC]
    unfold hermtRow
    congr 1
    funext j s
    cases rd ind (j - base) <;> cases rd val (j - base) <;> rfl
  · intro k _
    unfold scat
    rw [List.sum_map_add]
    congr 1
    · simp only [Nat.cast_inj]
      by_cases hk : k = i
      · simp only [hk, if_true, mul_assoc]
        rw [List.sum_map_mul_left]
      · simp [hk]
    · congr 2
      funext e
      simp only [hcc]
      split
      · ring
      · rfl


/-! ### split rows -/

theorem CleanRow.segs {A : Csr R} (hA : A.WF) {idiag iurow : List Int} {i : Nat} (him : i < A.m)
    {L D U : List (Int × R)} (h : CleanRow A idiag iurow i L D U) :
    Seg A.ind A.val A.base (A.p i) (A.p i + L.length) L ∧
    Seg A.ind A.val A.base (A.p i + L.length) (A.p i + L.length + D.length) D ∧
    Seg A.ind A.val A.base (A.p i + L.length + D.length) (A.p (i + 1)) U := by
  have hs := A.seg_row hA him
  rw [h.1] at hs
  have h1 := hs.append_left
  have h2 := hs.append_right
  refine ⟨h1.append_left, ?_, ?_⟩
  · have := h1.append_right
    rwa [show A.p i + ((L ++ D).length : Int) = A.p i + L.length + D.length by
      simp; ring] at this
  · rwa [show A.p i + ((L ++ D).length : Int) = A.p i + L.length + D.length by
      simp; ring] at h2

/-- the strict triangle selected by a fill mode -/
def strictPart (f : Fill) (L U : List (Int × R)) : List (Int × R) :=
  match f with
  | .lower => L
  | .upper => U

theorem CleanRow.mem {A : Csr R} {idiag iurow : List Int} {i : Nat} {L D U : List (Int × R)}
    (h : CleanRow A idiag iurow i L D U) (f : Fill) :
    ∀ e ∈ strictPart f L U, e ∈ A.row i := by
  intro e he
  rw [h.1]
  cases f <;> simp only [strictPart] at he <;> simp [he]

theorem CleanRow.strict {A : Csr R} (hA : A.WF) {idiag iurow : List Int} {i : Nat}
    {L D U : List (Int × R)}
    (h : CleanRow A idiag iurow i L D U) (f : Fill) :
    ∀ e ∈ strictPart f L U, 0 ≤ e.1 ∧ e.1 < (A.n : Int) ∧ strictTri f i e.1.toNat := by
  intro e he
  have hr := Csr.row_range hA (h.mem f e he)
  refine ⟨hr.1, hr.2, ?_⟩
  cases f
  · have := h.2.1 e he
    simp only [strictTri]; omega
  · have := h.2.2.2.1 e he
    simp only [strictTri]; omega

theorem CleanRow.mat_strict {A : Csr R} {idiag iurow : List Int} {i j : Nat}
    {L D U : List (Int × R)} (h : CleanRow A idiag iurow i L D U) {f : Fill}
    (hs : strictTri f i j) : colSum (strictPart f L U) j = A.mat i j := by
  rw [mat_eq_colSum, h.1, colSum_append, colSum_append]
  obtain ⟨_, h1, h2, h3, _⟩ := h
  cases f
  · simp only [strictTri] at hs
    rw [colSum_zero (S := D) (fun e he => by have := h2 e he; omega),
      colSum_zero (S := U) (fun e he => by have := h3 e he; omega)]
    simp [strictPart]
  · simp only [strictTri] at hs
    rw [colSum_zero (S := D) (fun e he => by have := h2 e he; omega),
      colSum_zero (S := L) (fun e he => by have := h1 e he; omega)]
    simp [strictPart]

theorem CleanRow.mat_strict_zero {A : Csr R} (hA : A.WF) {idiag iurow : List Int} {i j : Nat}
    {L D U : List (Int × R)} (h : CleanRow A idiag iurow i L D U) {f : Fill}
    (hs : ¬ strictTri f i j) : colSum (strictPart f L U) j = 0 := by
  apply colSum_zero
  intro e he hej
  apply hs
  have := (h.strict hA f e he).2.2
  rwa [hej, Int.toNat_natCast] at this

/-- the stored diagonal entry -/
theorem CleanRow.diag {A : Csr R} (hA : A.WF) {idiag iurow : List Int} {i : Nat} (him : i < A.m)
    (hin : i < A.n) {L D U : List (Int × R)} (h : CleanRow A idiag iurow i L D U) :
    D = [((i : Int), A.mat i i)] ∧ rd idiag i = some (A.p i + L.length) ∧
      rd A.val (A.p i + L.length - A.base) = some (A.mat i i) := by
  have hsegs := h.segs hA him
  obtain ⟨h0, h1, h2, h3, h4, h5, h6⟩ := h
  have hD := h6 hin
  obtain ⟨e, rfl⟩ := List.length_eq_one_iff.mp hD
  have he := h2 e (by simp)
  have hv : A.mat i i = e.2 := by
    rw [mat_eq_colSum, h0, colSum_append, colSum_append,
      colSum_zero (S := L) (fun e he => by have := h1 e he; omega),
      colSum_zero (S := U) (fun e he => by have := h3 e he; omega)]
    simp [colSum, he]
  refine ⟨?_, h4, ?_⟩
  · rw [hv, ← he]
  · have := (hsegs.2.1.2 0 (by simp)).2
    simp only [Nat.cast_zero, add_zero, List.getElem_cons_zero] at this
    rw [this, hv]

/-- the diagonal value a symmetric kernel uses -/
def dv (cd : R → R) (Dg : Diag) (M : Mat R) (i : Nat) : R :=
  match Dg with
  | .nonUnit => cd (M i i)
  | .unit => 1
  | .zero => 0

theorem symmDiag_spec (cd : R → R) {A : Csr R} (hA : A.WF) {idiag iurow : List Int} {i : Nat}
    (him : i < A.m) (hin : i < A.n) {L D U : List (Int × R)} (h : CleanRow A idiag iurow i L D U)
    (Dg : Diag) (xi r : R) :
    symmDiag cd Dg.code A.base A.val idiag i xi r = some (r + dv cd Dg A.mat i * xi) := by
  obtain ⟨_, h1, h2⟩ := h.diag hA him hin
  cases Dg <;> simp [symmDiag, Diag.code, dv, h1, h2]

theorem symmDiagA_spec (cd : R → R) {A : Csr R} (hA : A.WF) {idiag iurow : List Int} {i : Nat}
    (him : i < A.m) (hin : i < A.n) {L D U : List (Int × R)} (h : CleanRow A idiag iurow i L D U)
    (Dg : Diag) (alpha xi r : R) :
    symmDiagA cd Dg.code A.base alpha A.val idiag i xi r
      = some (r + alpha * (dv cd Dg A.mat i * xi)) := by
  obtain ⟨_, h1, h2⟩ := h.diag hA him hin
  cases Dg <;> simp [symmDiagA, Diag.code, dv, h1, h2, mul_assoc]

theorem symmBounds_spec {A : Csr R} (hA : A.WF) {idiag iurow : List Int} {i : Nat}
    (him : i < A.m) {L D U : List (Int × R)} (h : CleanRow A idiag iurow i L D U) (f : Fill) :
    ∃ b, symmBounds f.code A.ptr idiag iurow i = some b ∧
      Seg A.ind A.val A.base b.1 b.2 (strictPart f L U) := by
  obtain ⟨s1, s2, s3⟩ := h.segs hA him
  have e1 := Csr.WF.rd_ptr hA (i := i) (by omega)
  have e2 := Csr.WF.rd_ptr hA (i := i + 1) (by omega)
  rw [show ((i + 1 : Nat) : Int) = (i : Int) + 1 by push_cast; rfl] at e2
  cases f
  · exact ⟨_, by simp [symmBounds, Fill.code, e1, h.2.2.2.2.1]; rfl, s1⟩
  · exact ⟨_, by simp [symmBounds, Fill.code, e2, h.2.2.2.2.2.1]; rfl, s3⟩

theorem IsMv.congr {alpha beta : R} {M M' : Mat R} {m n : Nat} {x y y' : List R}
    (h : IsMv alpha beta M m n x y y') (hM : ∀ i j, i < m → j < n → M' i j = M i j) :
    IsMv alpha beta M' m n x y y' := by
  refine ⟨h.length, ?_, h.rest⟩
  intro i hi
  rw [h.rows i hi]
  have : matVec M' n x i = matVec M n x i := by
    unfold matVec
    apply sum_congr rfl
    intro j hj
    rw [hM i j hi (mem_range.mp hj)]
  rw [this]

/-- A kernel that scales `y` and then, for each row, adds the row's contributions computes the
product with the matrix completed across the diagonal. -/
theorem sym_kernel (cr cc cd : R →+ R) {A : Csr R} (hA : A.WF) (hsq : A.m = A.n)
    {idiag iurow : List Int} (f : Fill) (Dg : Diag) (alpha beta : R) {x y : List R}
    (hy : A.m ≤ y.length) {L D U : Nat → List (Int × R)}
    (hc : ∀ i, i < A.m → CleanRow A idiag iurow i (L i) (D i) (U i))
    {body : Int → List R → Option (List R)}
    (hb : ∀ i, i < A.m → Adds y.length (body i)
      (symRow cr cc alpha x (strictPart f (L i) (U i)) (dv cd Dg A.mat i) i)) :
    ∃ y', ((scaleY beta (A.m : Int) y).bind fun y => forC 0 (A.m : Int) body y) = some y' ∧
      IsMv alpha beta (fun i j => if i = j then dv cd Dg A.mat i
        else if strictTri f i j then cr (A.mat i j) else cc (A.mat j i)) A.m A.m x y y' := by
  have hS : ∀ i, i < A.m → ∀ e ∈ strictPart f (L i) (U i), 0 ≤ e.1 ∧ e.1 < (A.m : Int) := by
    intro i hi e he
    have := (hc i hi).strict hA f e he
    omega
  obtain ⟨y', h1, h2⟩ := isMv_of_adds (M := fun i j => (if i = j then dv cd Dg A.mat i else 0)
      + cr (colSum (strictPart f (L i) (U i)) j) + cc (colSum (strictPart f (L j) (U j)) i))
    (n := A.m) (alpha := alpha) (x := x) (beta := beta) hy (adds_forC hb)
    (fun k hk => symm_total cr cc alpha x A.m (fun i => strictPart f (L i) (U i))
      (fun i => dv cd Dg A.mat i) hS hk)
    (fun k hk => symm_total_zero cr cc alpha x A.m (fun i => strictPart f (L i) (U i))
      (fun i => dv cd Dg A.mat i) hS hk)
  refine ⟨y', h1, h2.congr ?_⟩
  intro i j hi hj
  by_cases hij : i = j
  · subst hij
    have : ¬ strictTri f i i := by cases f <;> simp [strictTri]
    simp [(hc i hi).mat_strict_zero hA this]
  · rw [if_neg hij, if_neg hij]
    by_cases hs : strictTri f i j
    · have : ¬ strictTri f j i := by cases f <;> simp only [strictTri] at hs ⊢ <;> omega
      rw [if_pos hs, (hc i hi).mat_strict hs, (hc j hj).mat_strict_zero hA this]
      simp
    · have h' : strictTri f j i := by cases f <;> simp only [strictTri] at hs ⊢ <;> omega
      rw [if_neg hs, (hc i hi).mat_strict_zero hA hs, (hc j hj).mat_strict h']
      simp

theorem Clean.choose' {A : Csr R} {idiag iurow : List Int} (h : Clean A idiag iurow) :
    ∃ L D U : Nat → List (Int × R), ∀ i, i < A.m → CleanRow A idiag iurow i (L i) (D i) (U i) := by
  unfold Clean at h
  choose! L D U hc using h
  exact ⟨L, D, U, hc⟩

theorem csrmvSymmKt_spec {V : Vec R} {K : Nat} (hV : V.Ok K) (cj : R →+ R) {A : Csr R} (hA : A.WF)
    (hsq : A.m = A.n) {idiag iurow : List Int} (hcl : Clean A idiag iurow) (f : Fill) (Dg : Diag)
    (alpha beta : R) {x y : List R} (hx : A.n ≤ x.length) (hy : A.m ≤ y.length) :
    ∃ y', csrmvSymmKt V K cj A.base alpha A.m Dg.code f.code A.val A.ind A.ptr idiag iurow x beta y
        = some y' ∧
      IsMv alpha beta (fun i j => if i = j then dv id Dg A.mat i
        else if strictTri f i j then A.mat i j else cj (A.mat j i)) A.m A.m x y y' := by
  obtain ⟨L, D, U, hc⟩ := hcl.choose'
  refine sym_kernel (AddMonoidHom.id R) cj (AddMonoidHom.id R) hA hsq f Dg alpha beta hy hc ?_
  intro i hi y1 g hy1
  obtain ⟨b, hb, hseg⟩ := symmBounds_spec hA hi (hc i hi) f
  have hS := (hc i hi).strict hA f
  obtain ⟨y2, r1, r2⟩ := symmKtRow_spec hV cj hseg (x := x) (len := y.length)
    (fun e he => by have := hS e he; omega) (fun e he => by have := hS e he; omega)
    alpha (x.getD i 0) hy1
  obtain ⟨y3, a1, a2⟩ := adds_addAt (i := (i : Int)) (len := y.length) (by omega) (by omega)
    ((segDot x (strictPart f (L i) (U i)) + dv id Dg A.mat i * x.getD i 0) * alpha) y2 _ r2
  refine ⟨y3, ?_, a2.congr ?_⟩
  · simp only [hb, rd_getD_lt (x := x) (i := i) (by omega), Option.bind_eq_bind,
      Option.bind_some, r1, symmDiag_spec id hA hi (by omega) (hc i hi)]
    exact a1
  · intro k _
    simp only [symRow, Nat.cast_inj, AddMonoidHom.id_apply, segDot]
    rw [add_comm (ite _ _ _), add_assoc]
    congr 2
    split
    · exact mul_comm _ _
    · rfl

theorem csrmvSymmInternal_spec {A : Csr R} (hA : A.WF)
    (hsq : A.m = A.n) {idiag iurow : List Int} (hcl : Clean A idiag iurow) (f : Fill) (Dg : Diag)
    (alpha beta : R) {x y : List R} (hx : A.n ≤ x.length) (hy : A.m ≤ y.length) :
    ∃ y', csrmvSymmInternal A.base alpha A.m Dg.code f.code A.val A.ind A.ptr idiag iurow x beta y
        = some y' ∧
      IsMv alpha beta (fun i j => if i = j then dv id Dg A.mat i
        else if strictTri f i j then A.mat i j else A.mat j i) A.m A.m x y y' := by
  obtain ⟨L, D, U, hc⟩ := hcl.choose'
  refine sym_kernel (AddMonoidHom.id R) (AddMonoidHom.id R) (AddMonoidHom.id R) hA hsq f Dg
    alpha beta hy hc ?_
  intro i hi y1 g hy1
  obtain ⟨b, hb, hseg⟩ := symmBounds_spec hA hi (hc i hi) f
  have hS := (hc i hi).strict hA f
  obtain ⟨y2, r1, r2⟩ := symmRowSeq_spec (AddMonoidHom.id R) (AddMonoidHom.id R) hseg (x := x)
    (len := y.length) (fun e he => by have := hS e he; omega)
    (fun e he => by have := hS e he; omega) alpha (x.getD i 0) 0 hy1
  obtain ⟨y3, a1, a2⟩ := adds_addAt (i := (i : Int)) (len := y.length) (by omega) (by omega)
    (0 + alpha * ((strictPart f (L i) (U i)).map fun e =>
      (AddMonoidHom.id R) e.2 * x.getD e.1.toNat 0).sum + alpha * (dv id Dg A.mat i * x.getD i 0))
      y2 _ r2
  refine ⟨y3, ?_, a2.congr ?_⟩
  · simp only [hb, rd_getD_lt (x := x) (i := i) (by omega), Option.bind_eq_bind, Option.bind_some]
    have r1' : symmRowSeq id id A.base alpha A.val A.ind x b.1 b.2 (x.getD i 0) 0 y1 = _ := r1
    rw [r1']
    simp only [Option.bind_some, symmDiagA_spec id hA hi (by omega) (hc i hi)]
    exact a1
  · intro k _
    simp only [symRow, Nat.cast_inj, AddMonoidHom.id_apply]
    rw [add_comm (ite _ _ _), add_assoc]
    congr 2
    split
    · rw [zero_add, ← mul_add]; rfl
    · rfl

theorem csrmvSymmScalar_spec (cr cc cd : R →+ R) {A : Csr R} (hA : A.WF)
    (hsq : A.m = A.n) {idiag iurow : List Int} (hcl : Clean A idiag iurow) (f : Fill) (Dg : Diag)
    (alpha beta : R) {x y : List R} (hx : A.n ≤ x.length) (hy : A.m ≤ y.length) :
    ∃ y', csrmvSymmScalar cr cc cd A.base alpha A.m Dg.code f.code A.val A.ind A.ptr idiag x beta y
        = some y' ∧
      IsMv alpha beta (fun i j => if i = j then dv cd Dg A.mat i
        else if strictTri f i j then cr (A.mat i j) else cc (A.mat j i)) A.m A.m x y y' := by
  obtain ⟨L, D, U, hc⟩ := hcl.choose'
  have hfin : ∀ (i : Nat), i < A.m → ∀ (S : List (Int × R)) (r : R) (y2 : List R) (g : Nat → R),
      Rep y2 y.length (fun k => g k + scat (fun v => cc v * (alpha * x.getD i 0)) S k) →
      r = alpha * ((S.map fun e => cr e.2 * x.getD e.1.toNat 0).sum
        + dv cd Dg A.mat i * x.getD i 0) →
      ∃ y3, addAt y2 i r = some y3 ∧
        Rep y3 y.length (fun k => g k + symRow cr cc alpha x S (dv cd Dg A.mat i) i k) := by
    intro i hi S r y2 g r2 hr
    obtain ⟨y3, a1, a2⟩ := adds_addAt (i := (i : Int)) (len := y.length) (by omega) (by omega)
      r y2 _ r2
    refine ⟨y3, a1, a2.congr ?_⟩
    intro k _
    simp only [symRow, Nat.cast_inj, hr]
    rw [add_comm (ite _ _ _), add_assoc]
  cases f
  · -- lower
    refine sym_kernel cr cc cd hA hsq .lower Dg alpha beta hy hc (body := fun i y => do
      let lo ← rd A.ptr i
      let hi ← rd idiag i
      let xi ← rd x i
      let s ← symmRowSeq cr cc A.base alpha A.val A.ind x lo hi xi 0 y
      let r ← symmDiagA cd Dg.code A.base alpha A.val idiag i xi s.1
      addAt s.2 i r) ?_
    intro i hi y1 g hy1
    have hS := (hc i hi).strict hA .lower
    have hseg := ((hc i hi).segs hA hi).1
    obtain ⟨y2, r1, r2⟩ := symmRowSeq_spec cr cc hseg (x := x)
      (len := y.length) (fun e he => by have := hS e he; omega)
      (fun e he => by have := hS e he; omega) alpha (x.getD i 0) 0 hy1
    obtain ⟨y3, a1, a2⟩ := hfin i hi (L i) _ y2 g r2 rfl
    refine ⟨y3, ?_, a2⟩
    have e1 := Csr.WF.rd_ptr hA (i := i) (by omega)
    simp only [e1, (hc i hi).2.2.2.2.1, rd_getD_lt (x := x) (i := i) (by omega),
      Option.bind_eq_bind, Option.bind_some, r1, symmDiagA_spec cd hA hi (by omega) (hc i hi)]
    rw [← a1]
    congr 1
    ring
  · -- upper
    refine sym_kernel cr cc cd hA hsq .upper Dg alpha beta hy hc (body := fun i y => do
      let lo ← rd idiag i
      let hi ← rd A.ptr (i + 1)
      let xi ← rd x i
      let r ← symmDiagA cd Dg.code A.base alpha A.val idiag i xi 0
      let s ← symmRowSeq cr cc A.base alpha A.val A.ind x (lo + 1) hi xi r y
      addAt s.2 i s.1) ?_
    intro i hi y1 g hy1
    have hS := (hc i hi).strict hA .upper
    have hseg := ((hc i hi).segs hA hi).2.2
    have hD := (hc i hi).2.2.2.2.2.2 (by omega)
    rw [hD] at hseg
    obtain ⟨y2, r1, r2⟩ := symmRowSeq_spec cr cc hseg (x := x)
      (len := y.length) (fun e he => by have := hS e he; omega)
      (fun e he => by have := hS e he; omega) alpha (x.getD i 0)
      (0 + alpha * (dv cd Dg A.mat i * x.getD i 0)) hy1
    obtain ⟨y3, a1, a2⟩ := hfin i hi (U i) _ y2 g r2 rfl
    refine ⟨y3, ?_, a2⟩
    have e2 := Csr.WF.rd_ptr hA (i := i + 1) (by omega)
    rw [show ((i + 1 : Nat) : Int) = (i : Int) + 1 by push_cast; rfl] at e2
    simp only [Nat.cast_one] at r1
    simp only [e2, (hc i hi).2.2.2.2.1, rd_getD_lt (x := x) (i := i) (by omega),
      Option.bind_eq_bind, Option.bind_some, symmDiagA_spec cd hA hi (by omega) (hc i hi), r1]
    rw [← a1]
    congr 1
    ring

theorem hermtDiag_adds {A : Csr R} (hA : A.WF) {idiag iurow : List Int} {i : Nat}
    (him : i < A.m) (hin : i < A.n) {L D U : List (Int × R)} (h : CleanRow A idiag iurow i L D U)
    (Dg : Diag) (alpha xi : R) {len : Nat} (hl : i < len) :
    Adds len (hermtDiag Dg.code A.base alpha A.val idiag i xi)
      (fun k => if k = i then alpha * (dv id Dg A.mat i * xi) else 0) := by
  obtain ⟨_, h1, h2⟩ := h.diag hA him hin
  have hadd := fun v => adds_addAt (R := R) (i := (i : Int)) (len := len) (by omega) (by omega) v
  cases Dg
  · refine (hadd (alpha * A.mat i i * xi)).congr ?_ ?_
    · intro y; simp [hermtDiag, Diag.code, h1, h2]
    · intro k _; simp [dv, mul_assoc]
  · refine (hadd (alpha * xi)).congr ?_ ?_
    · intro y; simp [hermtDiag, Diag.code]
    · intro k _; simp [dv]
  · refine (adds_id len).congr ?_ ?_
    · intro y; simp [hermtDiag, Diag.code]
    · intro k _; simp [dv]

theorem csrmvHermt_spec (cj : R →+ R) {A : Csr R} (hA : A.WF)
    (hsq : A.m = A.n) {idiag iurow : List Int} (hcl : Clean A idiag iurow) (f : Fill) (Dg : Diag)
    (alpha beta : R) {x y : List R} (hx : A.n ≤ x.length) (hy : A.m ≤ y.length) :
    ∃ y', csrmvHermt cj A.base alpha A.m Dg.code f.code A.val A.ind A.ptr idiag x beta y
        = some y' ∧
      IsMv alpha beta (fun i j => if i = j then dv id Dg A.mat i
        else if strictTri f i j then cj (A.mat i j) else A.mat j i) A.m A.m x y y' := by
  obtain ⟨L, D, U, hc⟩ := hcl.choose'
  cases f
  · refine sym_kernel cj (AddMonoidHom.id R) (AddMonoidHom.id R) hA hsq .lower Dg alpha beta hy hc
      (body := fun i y => do
      let lo ← rd A.ptr i
      let hi ← rd idiag i
      let xi ← rd x i
      let y ← hermtRow cj A.base alpha A.val A.ind x lo hi i xi y
      hermtDiag Dg.code A.base alpha A.val idiag i xi y) ?_
    intro i hi
    have hS := (hc i hi).strict hA .lower
    have hseg := ((hc i hi).segs hA hi).1
    refine ((hermtRow_adds cj (AddMonoidHom.id R) (fun _ => rfl) hseg (x := x) (len := y.length)
      (fun e he => by have := hS e he; omega) (fun e he => by have := hS e he; omega)
      (i := i) (by omega) alpha (x.getD i 0)).comp
      (hermtDiag_adds hA hi (by omega) (hc i hi) Dg alpha (x.getD i 0) (by omega))).congr ?_ ?_
    · intro y
      have e1 := Csr.WF.rd_ptr hA (i := i) (by omega)
      simp only [e1, (hc i hi).2.2.2.2.1, rd_getD_lt (x := x) (i := i) (by omega),
        Option.bind_eq_bind, Option.bind_some]
    · intro k _
      simp only [symRow, strictPart]
      by_cases hk : k = i
      · simp only [hk, if_true]; rw [mul_add]; simp only [AddMonoidHom.coe_id]; ring
      · simp [hk]
  · refine sym_kernel cj (AddMonoidHom.id R) (AddMonoidHom.id R) hA hsq .upper Dg alpha beta hy hc
      (body := fun i y => do
      let lo ← rd idiag i
      let hi ← rd A.ptr (i + 1)
      let xi ← rd x i
      let y ← hermtDiag Dg.code A.base alpha A.val idiag i xi y
      hermtRow cj A.base alpha A.val A.ind x (lo + 1) hi i xi y) ?_
    intro i hi
    have hS := (hc i hi).strict hA .upper
    have hseg := ((hc i hi).segs hA hi).2.2
    have hD := (hc i hi).2.2.2.2.2.2 (by omega)
    rw [hD] at hseg
    refine ((hermtDiag_adds hA hi (by omega) (hc i hi) Dg alpha (x.getD i 0) (by omega)).comp
      (hermtRow_adds cj (AddMonoidHom.id R) (fun _ => rfl) hseg (x := x) (len := y.length)
      (fun e he => by have := hS e he; omega) (fun e he => by have := hS e he; omega)
      (i := i) (by omega) alpha (x.getD i 0))).congr ?_ ?_
    · intro y
      have e2 := Csr.WF.rd_ptr hA (i := i + 1) (by omega)
      rw [show ((i + 1 : Nat) : Int) = (i : Int) + 1 by push_cast; rfl] at e2
      simp only [e2, (hc i hi).2.2.2.2.1, rd_getD_lt (x := x) (i := i) (by omega),
        Option.bind_eq_bind, Option.bind_some, Nat.cast_one]
    · intro k _
      simp only [symRow, strictPart]
      by_cases hk : k = i
      · simp only [hk, if_true]; rw [mul_add]; simp only [AddMonoidHom.coe_id]; ring
      · simp [hk]

end

end Verif
