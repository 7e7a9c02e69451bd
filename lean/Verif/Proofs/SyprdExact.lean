/-
The kernels of the product op(A)·B·op(A)ᵀ in an arithmetic without algebraic laws.
-/
import Verif.Spec.SyprdExact
import Verif.Proofs.MdExact
import Verif.Proofs.Syrkd2

namespace Verif
open Model

variable {R : Type} [Zero R] [Add R] [Mul R]

/-- the elements of a stored row -/
def rowL (M : Csr R) (i : Nat) : List (Nat × R) := (M.row i).map fun e => (e.1.toNat, e.2)

omit [Zero R] in
theorem foldl_dotRight {α : Type} (r : R) (L : List α) (f : α → R × R) :
    (L.map fun e => (f e).1 * (f e).2).foldl (· + ·) r = dotRight r (L.map f) := by
  unfold dotRight
  rw [List.foldl_map, List.foldl_map]

omit [Zero R] [Mul R] in
theorem addsL_cells {len : Nat} {lo : Nat} {hi : Nat} (hlo : lo ≤ hi) (hhi : hi ≤ len) (v : Nat → R)
    {body : Int → List R → Option (List R)}
    (hb : ∀ j : Nat, lo ≤ j → j < hi → ∀ t, body j t = addAt t (j : Int) (v j)) :
    AddsL len (forC (lo : Int) (hi : Int) body) (fun p => if lo ≤ p ∧ p < hi then [v p] else []) := by
  intro y f hy
  obtain ⟨y', e, r⟩ := forC_inv_off (a := (lo : Int)) (b := (hi : Int)) (n := hi - lo) (s := y) (f := body)
    (P := fun d s => Rep s len (fun p => if lo ≤ p ∧ p < lo + d then f p + v p else f p)) (by omega)
    (hy.congr (fun p _ => by rw [if_neg (by omega)])) (by
      intro d s hd hs
      rw [show (lo : Int) + d = ((lo + d : Nat) : Int) by omega, hb _ (by omega) (by omega)]
      obtain ⟨y', e, r⟩ := addsL_addAt (i := ((lo + d : Nat) : Int)) (by omega) (by omega) (v (lo + d)) s _ hs
      refine ⟨y', e, r.congr (fun p _ => ?_)⟩
      beta_reduce
      by_cases h : p = lo + d
      · subst h
        rw [if_pos rfl, if_neg (by omega), if_pos (by omega)]
        rfl
      · rw [if_neg (by omega : ¬ ((p : Int) = ((lo + d : Nat) : Int)))]
        refine if_congr ?_ rfl rfl
        omega)
  refine ⟨y', e, r.congr (fun p _ => ?_)⟩
  beta_reduce
  by_cases h : lo ≤ p ∧ p < hi
  · rw [if_pos h, if_pos (by omega)]; rfl
  · rw [if_neg h, if_neg (by omega)]; rfl

omit [Add R] [Mul R] in
theorem rd_upper' {col : Bool} {ld K : Nat} {B : List R} (hB : UpIn col ld K B) {k l : Nat} (h1 : k ≤ l)
    (h2 : l < K) {p : Int} (hp : p = ((denseOff col ld k l : Nat) : Int)) :
    rd B p = some (B.getD (denseOff col ld k l) 0) := by
  subst hp
  have := hB k l h1 h2
  rw [rd_ofNat, List.getD_eq_getElem?_getD, List.getElem?_eq_getElem this]
  rfl

omit [Add R] [Mul R] in
theorem pdClear_val {n : Nat} {t : List R} {f : Nat → R} (ht : Rep t n f) :
    ∃ t', pdClear (n : Int) t = some t' ∧ Rep t' n (fun _ => 0) := by
  obtain ⟨t', e, r⟩ := forC_inv_nat (n := n) (s := t) (f := fun j t => wr t j (0 : R))
    (P := fun k t => Rep t n (fun q => if q < k then 0 else f q)) (ht.congr (by simp)) (by
      intro k t hk h
      obtain ⟨t', e, r⟩ := h.wr_nat 0 hk
      refine ⟨t', e, r.congr (fun q _ => ?_)⟩
      by_cases h : q = k
      · subst h; simp
      · rw [Function.update_of_ne h]
        refine if_congr ?_ rfl rfl
        omega)
  exact ⟨t', e, r.congr (fun q hq => by rw [if_pos hq])⟩

/-- the two loops over the elements of the dense row -/
theorem pdRowPair_val {N ldb : Nat} {B : List R} (hB : UpIn false ldb N B) (a : R) {c : Nat} (hc : c < N) :
    AddsL N (fun t => (forC 0 (c : Int) (fun j t => do
        let b ← rd B (j * ldb + (c : Int))
        addAt t j (b * a)) t).bind fun t =>
      forC (c : Int) N (fun j t => do
        let b ← rd B ((c : Int) * ldb + j)
        addAt t j (b * a)) t) (fun j => [symUp false ldb B c j * a]) := by
  have a1 := addsL_cells (len := N) (lo := 0) (hi := c) (by omega) (by omega)
    (fun j => B.getD (denseOff false ldb j c) 0 * a)
    (body := fun j t => do
      let b ← rd B (j * ldb + (c : Int))
      addAt t j (b * a)) (by
      intro j _ hj t
      rw [rd_upper' hB (k := j) (l := c) (by omega) hc (by simp [denseOff])]
      rfl)
  have a2 := addsL_cells (len := N) (lo := c) (hi := N) (by omega) (by omega)
    (fun j => B.getD (denseOff false ldb c j) 0 * a)
    (body := fun j t => do
      let b ← rd B ((c : Int) * ldb + j)
      addAt t j (b * a)) (by
      intro j hj hjN t
      rw [rd_upper' hB (k := c) (l := j) hj hjN (by simp [denseOff])]
      rfl)
  refine (a1.comp a2).congr (fun _ => rfl) ?_
  intro j hj
  unfold symUp
  by_cases h : c ≤ j
  · rw [if_pos h, if_neg (by omega), if_pos ⟨h, hj⟩]; rfl
  · rw [if_neg h, if_pos (by omega), if_neg (by omega)]; rfl

theorem pdTempRow_val {M : Csr R} (hM : M.WF) {ldb : Nat} {B : List R}
    (hB : UpIn false ldb M.n B) (alpha : R) {i : Nat} (hi : i < M.m) {t : List R} {f : Nat → R}
    (ht : Rep t M.n f) :
    ∃ t', pdTempRow false id M.n M.arrs B ldb alpha i t = some t' ∧
      Rep t' M.n (pdT false ldb B alpha (rowL M i)) := by
  obtain ⟨t1, e1, r1⟩ := pdClear_val ht
  have ha := addsL_foldlM (len := M.n) (L := M.row i)
    (body := fun t e => (fun t => (forC 0 e.1 (fun j t => do
        let b ← rd B (j * ldb + e.1)
        addAt t j (b * (alpha * e.2))) t).bind fun t =>
      forC e.1 M.n (fun j t => do
        let b ← rd B (e.1 * ldb + j)
        addAt t j (b * (alpha * e.2))) t) t)
    (D := fun e j => [symUp false ldb B e.1.toNat j * (alpha * e.2)]) (by
      intro e he
      obtain ⟨h0, h1⟩ := Csr.row_range hM he
      obtain ⟨c, hc⟩ : ∃ c : Nat, e.1 = (c : Int) := ⟨e.1.toNat, by omega⟩
      have := pdRowPair_val hB (alpha * e.2) (c := c) (by omega)
      rw [hc, Int.toNat_natCast]
      exact this)
  obtain ⟨t2, e2, r2⟩ := ha t1 _ r1
  refine ⟨t2, ?_, r2.congr (fun j _ => ?_)⟩
  · obtain ⟨p1, p2⟩ := rd_ptr2 hM hi
    unfold pdTempRow
    simp only [Csr.arrs, p1, p2, Option.bind_eq_bind, Option.bind_some, e1]
    rw [forC_rowB hM hi (G := fun c v t => (forC 0 c (fun j t => do
        let b ← rd B (j * ldb + c)
        addAt t j (b * (alpha * v))) t).bind fun t =>
      forC c M.n (fun j t => do
        let b ← rd B (c * ldb + j)
        addAt t j (b * (alpha * v))) t) (by
      intro k c v s h1 h2 _
      unfold pdRowElem
      simp only [h1, h2, Option.bind_eq_bind, Option.bind_some, Int.add_sub_cancel, id_eq, Bool.false_eq_true,
        if_false])]
    exact e2
  · unfold pdT rowL
    beta_reduce
    rw [if_neg (by simp), List.map_map, ← List.map_eq_flatMap]
    exact foldl_dotRight 0 (M.row i) fun e => (symUp false ldb B e.1.toNat j, alpha * e.2)

theorem pdTempCol_val {M : Csr R} (hM : M.WF) {ldb : Nat} {B : List R}
    (hB : UpIn true ldb M.n B) (alpha : R) {i : Nat} (hi : i < M.m) {t : List R} {f : Nat → R}
    (ht : Rep t M.n f) :
    ∃ t', pdTempCol false id M.n M.arrs B ldb alpha i t = some t' ∧
      Rep t' M.n (pdT true ldb B alpha (rowL M i)) := by
  obtain ⟨p1, p2⟩ := rd_ptr2 hM hi
  unfold pdTempCol
  simp only [Csr.arrs, p1, p2, Option.bind_eq_bind, Option.bind_some]
  have hdot : ∀ j : Nat, j < M.n → forC (M.p i) (M.p (i + 1)) (pdColElem false id ⟨M.base, M.ptr, M.ind, M.val⟩ B ldb j) 0
      = some (dotRight 0 ((rowL M i).map fun e => (e.2, symUp true ldb B e.1 j))) := by
    intro j hj
    rw [forC_rowB hM hi (G := fun c v s => some (s + v * symUp true ldb B c.toNat j)) (by
      intro k c v s h1 h2 hm
      obtain ⟨h0, h1'⟩ := Csr.row_range hM hm
      obtain ⟨d, rfl⟩ : ∃ d : Nat, c = (d : Int) := ⟨c.toNat, by omega⟩
      unfold pdColElem
      simp only [h1, h2, Option.bind_eq_bind, Option.bind_some, Int.add_sub_cancel, Int.toNat_natCast,
        Bool.false_eq_true, if_false]
      unfold symUp
      by_cases hlt : (j : Int) < d
      · rw [if_pos hlt, if_neg (by omega), rd_upper' hB (k := j) (l := d) (by omega) (by simp at h1'; omega)
          (by simp [denseOff]; ring)]
        simp
      · rw [if_neg hlt, if_pos (by omega), rd_upper' hB (k := d) (l := j) (by omega) hj
          (by simp [denseOff]; ring)]
        simp)]
    rw [foldlM_pure, rowL, List.map_map]
    unfold dotRight
    rw [List.foldl_map]
    rfl
  obtain ⟨t', e, r⟩ := forC_inv_nat (n := M.n) (s := t)
    (f := fun j t => (forC (M.p i) (M.p (i + 1)) (pdColElem false id ⟨M.base, M.ptr, M.ind, M.val⟩ B ldb j) 0).bind
      fun s => wr t j (s * alpha))
    (P := fun k t => Rep t M.n (fun q => if q < k then pdT true ldb B alpha (rowL M i) q else f q))
    (ht.congr (by simp)) (by
      intro k t hk h
      rw [hdot k hk, Option.bind_some]
      obtain ⟨t', e, r⟩ := h.wr_nat (pdT true ldb B alpha (rowL M i) k) hk
      refine ⟨t', e, r.congr (fun q _ => ?_)⟩
      by_cases h : q = k
      · subst h
        rw [Function.update_self, if_pos (by omega)]
      · rw [Function.update_of_ne h]
        refine if_congr ?_ rfl rfl
        omega)
  exact ⟨t', e, r.congr (fun q hq => by rw [if_pos hq])⟩

theorem pdTemp_val {col : Bool} {M : Csr R} (hM : M.WF) {ldb : Nat} {B : List R}
    (hB : UpIn col ldb M.n B) (alpha : R) {i : Nat} (hi : i < M.m) {t : List R} {f : Nat → R}
    (ht : Rep t M.n f) :
    ∃ t', (if col then pdTempCol else pdTempRow) false id M.n M.arrs B ldb alpha i t = some t' ∧
      Rep t' M.n (pdT col ldb B alpha (rowL M i)) := by
  cases col
  · exact pdTempRow_val hM hB alpha hi ht
  · exact pdTempCol_val hM hB alpha hi ht

omit [Zero R] in
theorem pdDot_val {col : Bool} {M : Csr R} (hM : M.WF) {ldc len : Nat} {t : List R} {g : Nat → R}
    (ht : Rep t M.n g) {i j : Nat} (hj : j < M.m) (hl : denseOff col ldc i j < len) :
    AddsL len (pdDot col false id M.arrs ldc t i j)
      (fun p => if p = denseOff col ldc i j then (rowL M j).map fun e => g e.1 * e.2 else []) := by
  have ha := addsL_foldlM (len := len) (L := M.row j)
    (body := fun C e => addAt C (mdOff col ldc i j) (g e.1.toNat * e.2))
    (D := fun e p => if (p : Int) = mdOff col ldc i j then [g e.1.toNat * e.2] else []) (by
      intro e he
      exact addsL_addAt (by rw [mdOff_nat]; omega) (by rw [mdOff_nat]; omega) _)
  refine ha.congr (fun C => ?_) (fun p _ => ?_)
  · obtain ⟨p1, p2⟩ := rd_ptr2 hM hj
    unfold pdDot
    simp only [Csr.arrs, p1, p2, Option.bind_eq_bind, Option.bind_some]
    refine forC_rowB hM hj (G := fun c v C => addAt C (mdOff col ldc i j) (g c.toNat * v)) ?_ C
    intro k c v s h1 h2 hm
    obtain ⟨h0, h1'⟩ := Csr.row_range hM hm
    simp only [h1, h2, Option.bind_some, Int.add_sub_cancel, id_eq, Bool.false_eq_true, if_false]
    rw [ht.rd h0 h1', Option.bind_some]
  · by_cases h : p = denseOff col ldc i j
    · rw [if_pos h, mdOff_nat]
      simp only [h, if_true]
      rw [← List.map_eq_flatMap, rowL, List.map_map]
      rfl
    · rw [if_neg h, mdOff_nat]
      simp only [Nat.cast_inj, if_neg h]
      rw [List.flatMap_eq_nil_iff.2 (fun _ _ => rfl)]

omit [Zero R] [Mul R] in
theorem addsL_forC_off {len n : Nat} {lo hi : Int} (hh : hi = lo + n) {body : Int → List R → Option (List R)}
    {D : Nat → Nat → List R} (h : ∀ d : Nat, d < n → AddsL len (body (lo + d)) (D d)) :
    AddsL len (forC lo hi body) (fun k => (List.range n).flatMap fun d => D d k) := by
  intro y f hy
  refine forC_inv_off (P := fun i s => Rep s len (fun k => ((List.range i).flatMap fun t => D t k).foldl (· + ·) (f k)))
    hh (hy.congr (by simp)) ?_
  intro i s hi hs
  obtain ⟨y', e, r⟩ := h i hi s _ hs
  exact ⟨y', e, r.congr (fun k _ => by
    rw [List.range_succ, List.flatMap_append, List.foldl_append]; simp)⟩

/-- the products added to element `(i, j)` of C -/
def pdAdd (col : Bool) (ldb : Nat) (B : List R) (alpha : R) (M : Csr R) (i j : Nat) : List R :=
  (rowL M j).map fun e => pdT col ldb B alpha (rowL M i) e.1 * e.2

/-- the products added to cell `p` by the first `k` rows -/
def pdCells (col : Bool) (ldb : Nat) (B : List R) (alpha : R) (M : Csr R) (ldc k p : Nat) : List R :=
  (List.range k).flatMap fun i => (List.range (M.m - i)).flatMap fun d =>
    if p = denseOff col ldc i (i + d) then pdAdd col ldb B alpha M i (i + d) else []

theorem pdRows_val {col : Bool} {M : Csr R} (hM : M.WF) {ldb : Nat} {B : List R}
    (hB : UpIn col ldb M.n B) (alpha : R) {ldc len : Nat}
    (hlen : ∀ i j, i ≤ j → j < M.m → denseOff col ldc i j < len) {C : List R} {f : Nat → R} (hC : Rep C len f) :
    ∃ t C', forC 0 (M.m : Int) (pdRow col false id M.m M.n M.arrs B ldb alpha ldc)
        (List.replicate M.n 0, C) = some (t, C') ∧
      Rep C' len (fun p => (pdCells col ldb B alpha M ldc M.m p).foldl (· + ·) (f p)) := by
  obtain ⟨⟨t, C'⟩, e, _, r⟩ := forC_inv_nat (n := M.m) (s := (List.replicate M.n (0 : R), C))
    (f := pdRow col false id M.m M.n M.arrs B ldb alpha ldc)
    (P := fun k s => (∃ g, Rep s.1 M.n g) ∧ Rep s.2 len
      (fun p => (pdCells col ldb B alpha M ldc k p).foldl (· + ·) (f p)))
    ⟨⟨fun _ => 0, ⟨by simp, fun q hq => by simp [hq]⟩⟩, hC.congr (by simp [pdCells])⟩
    (by
      rintro i ⟨t, C1⟩ hi ⟨⟨g, ht⟩, hC1⟩
      obtain ⟨t', e1, r1⟩ := pdTemp_val hM hB alpha hi ht
      have ha := addsL_forC_off (len := len) (lo := (i : Int)) (hi := (M.m : Int)) (n := M.m - i) (by omega)
        (body := fun j C => pdDot col false id M.arrs ldc t' i j C)
        (D := fun d p => if p = denseOff col ldc i (i + d) then pdAdd col ldb B alpha M i (i + d) else []) (by
          intro d hd
          rw [show (i : Int) + d = ((i + d : Nat) : Int) by omega]
          exact pdDot_val hM r1 (by omega) (hlen i (i + d) (by omega) (by omega)))
      obtain ⟨C2, e2, r2⟩ := ha C1 _ hC1
      refine ⟨(t', C2), ?_, ⟨_, r1⟩, r2.congr (fun p _ => ?_)⟩
      · unfold pdRow
        simp only [Option.bind_eq_bind, e1, Option.bind_some]
        rw [e2]
        rfl
      · unfold pdCells
        rw [List.range_succ, List.flatMap_append, List.foldl_append]
        simp)
  exact ⟨t, C', e, r⟩

theorem pdCells_at {col : Bool} {ldb : Nat} {B : List R} {alpha : R} {M : Csr R} {ldc : Nat} (hld : M.m ≤ ldc)
    {i j : Nat} (hij : i ≤ j) (hj : j < M.m) :
    pdCells col ldb B alpha M ldc M.m (denseOff col ldc i j) = pdAdd col ldb B alpha M i j := by
  unfold pdCells
  have hinj : ∀ i' d, i' + d < M.m → denseOff col ldc i j = denseOff col ldc i' (i' + d) → i = i' ∧ j = i' + d :=
    fun i' d h e => (denseOff_ij_inj (mnr_lt hld hij hj) (mnr_lt hld (by omega) h)).mp e
  rw [flatMap_range_single (i := i) (by omega), flatMap_range_single (i := j - i) (by omega),
    show i + (j - i) = j by omega, if_pos rfl]
  · intro d hd hne
    rw [if_neg]
    intro e
    have := hinj i d (by omega) e
    omega
  · intro i' hi' hne
    apply flatMap_range_none
    intro d hd
    rw [if_neg]
    intro e
    exact hne (hinj i' d (by omega) e).1.symm

theorem pdCells_none {col : Bool} {ldb : Nat} {B : List R} {alpha : R} {M : Csr R} {ldc p : Nat}
    (hp : ∀ i j, i ≤ j → j < M.m → p ≠ denseOff col ldc i j) :
    pdCells col ldb B alpha M ldc M.m p = [] := by
  apply flatMap_range_none
  intro i hi
  apply flatMap_range_none
  intro d hd
  rw [if_neg (hp i (i + d) (by omega) (by omega))]

/-- an element of C before the additions -/
def pdScaled [DecidableEq R] (beta c : R) : R := if beta = 0 then 0 else beta * c

omit [Add R] in
theorem upScale_val [DecidableEq R] {col : Bool} {K ldc len : Nat} (beta : R) (hK : K ≤ ldc)
    (hlen : ∀ i j, i ≤ j → j < K → denseOff col ldc i j < len) {C : List R} {f : Nat → R}
    (hC : Rep C len f) :
    ∃ C', upScale col beta K ldc C = some C' ∧
      Rep C' len (doneF ldc (upS col K) (fun _ _ v => pdScaled beta v) f) := by
  unfold upScale
  by_cases h0 : beta = 0
  · rw [if_neg (not_not.mpr h0)]
    exact upLoops_ok hK hlen (pdScaled beta) (fun p C v _ _ => by rw [pdScaled, if_pos h0]) hC
  · rw [if_pos h0]
    exact upLoops_ok hK hlen (pdScaled beta) (fun p C v _ hv => by simp [upMul, hv, pdScaled, h0]) hC

omit [Mul R] in
theorem upper_final_val {col : Bool} {K ldc : Nat} {g : R → R} (hK : K ≤ ldc) {C C' : List R}
    {D : Nat → List R} (hlen : ∀ i j, i ≤ j → j < K → denseOff col ldc i j < C.length)
    (hC : Rep C' C.length (fun p => (D p).foldl (· + ·) (doneF ldc (upS col K) (fun _ _ v => g v) (fun k => C.getD k 0) p)))
    (hD0 : ∀ p, (∀ i j, i ≤ j → j < K → p ≠ denseOff col ldc i j) → D p = []) :
    IsUpCells col K ldc (fun i j c => (D (denseOff col ldc i j)).foldl (· + ·) (g c)) C C' := by
  refine ⟨hC.1, ?_, ?_⟩
  · intro i j hi hj
    have hl := hlen i j hi hj
    rw [hC.2 _ hl]
    beta_reduce
    congr 2
    rw [denseOff_mm, doneF_in (mnr_lt hK hi hj) (upS_ij.mpr ⟨hi, hj⟩)]
  · intro p hp
    by_cases hl : p < C.length
    · rw [hC.2 p hl]
      beta_reduce
      rw [hD0 p hp]
      have : ¬ upS col K (p / ldc) (p % ldc) := by
        intro h
        have hpe : p = p / ldc * ldc + p % ldc := by
          rw [Nat.mul_comm]; exact (Nat.div_add_mod p ldc).symm
        cases col
        · simp only [upS, Bool.false_eq_true, if_false] at h
          exact hp (p / ldc) (p % ldc) h.1 h.2 (by rw [denseOff_mm]; exact hpe)
        · simp only [upS, if_true] at h
          exact hp (p % ldc) (p / ldc) h.1 h.2 (by rw [denseOff_mm]; exact hpe)
      unfold doneF
      rw [if_neg this]
      beta_reduce
      rw [List.foldl_nil, List.getD_eq_getElem?_getD, List.getElem?_eq_getElem hl]
      rfl
    · have := hC.1
      rw [List.getElem?_eq_none (by omega), List.getElem?_eq_none (by omega)]

theorem pdKernel_val [DecidableEq R] {col : Bool} {M : Csr R} (hM : M.WF) {ldb : Nat} {B : List R}
    (hB : UpIn col ldb M.n B) (alpha beta : R) {ldc : Nat} {C : List R} (hld : M.m ≤ ldc)
    (hlen : ∀ i j, i ≤ j → j < M.m → denseOff col ldc i j < C.length) :
    ∃ C', pdKernel col false id M.m M.n M.arrs B ldb alpha beta C ldc = some C' ∧
      IsUpCells col M.m ldc (fun i j c => if alpha = 0 then pdScaled beta c
        else dotRight (pdScaled beta c) ((rowL M j).map fun e => (pdT col ldb B alpha (rowL M i) e.1, e.2))) C C' := by
  obtain ⟨C1, e1, r1⟩ := upScale_val beta hld hlen (Rep.of_list C (0 : R))
  unfold pdKernel
  simp only [Option.bind_eq_bind, e1, Option.bind_some, Int.toNat_natCast]
  by_cases h0 : alpha = 0
  · rw [if_pos h0]
    simp only [if_pos h0]
    exact ⟨C1, rfl, upper_final_val hld hlen (D := fun _ => []) r1 (fun _ _ => rfl)⟩
  · rw [if_neg h0]
    simp only [if_neg h0]
    obtain ⟨t, C2, e2, r2⟩ := pdRows_val hM hB alpha hlen r1
    rw [e2]
    have := upper_final_val hld hlen r2 (fun p hp => pdCells_none hp)
    refine ⟨C2, rfl, this.length, fun i j hi hj => ?_, this.rest⟩
    rw [this.cells i j hi hj, pdCells_at hld hi hj, pdAdd]
    congr 1
    exact foldl_dotRight _ (rowL M j) fun e => (pdT col ldb B alpha (rowL M i) e.1, e.2)

end Verif
