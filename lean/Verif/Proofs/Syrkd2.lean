import Verif.Proofs.Syrkd

namespace Verif
open Model Finset

variable {R : Type} [CommRing R] [StarRing R]

/-! ### syrkd: both ways through the matrix -/

/-- the conjugations of the two factors as homomorphisms -/
def leftH (R : Type) [CommRing R] [StarRing R] (cjl : Bool) : R →+* R :=
  if cjl then starRingEnd R else RingHom.id R
def rightH (R : Type) [CommRing R] [StarRing R] (cjl : Bool) : R →+* R :=
  if cjl then RingHom.id R else starRingEnd R

theorem leftC_eq (cjl : Bool) : leftC cjl (star : R → R) = leftH R cjl := by
  cases cjl <;> rfl
theorem rightC_eq (cjl : Bool) : rightC cjl (star : R → R) = rightH R cjl := by
  cases cjl <;> rfl

/-- what the kernel adds to C -/
structure AddsUp (len : Nat) (col : Bool) (K ldc : Nat) (V : Nat → Nat → R)
    (body : List R → Option (Status × List R)) : Prop where
  run : ∃ D : Nat → R, (∀ C f, Rep C len f → ∃ C', body C = some (.success, C') ∧
      Rep C' len (fun p => f p + D p)) ∧
    (∀ i j, i ≤ j → j < K → D (denseOff col ldc i j) = V i j) ∧
    (∀ p, (∀ i j, i ≤ j → j < K → p ≠ denseOff col ldc i j) → D p = 0)

theorem sdAtb_up {A : Csr R} (hA : A.WF) (hs : A.Strict) (col cjl : Bool) (alpha : R) {ldc len : Nat}
    (hld : A.n ≤ ldc) (hlen : ∀ i j, i ≤ j → j < A.n → denseOff col ldc i j < len) :
    AddsUp len col A.n ldc (fun i j => alpha * ∑ x ∈ range A.m, leftH R cjl (A.mat x i) * rightH R cjl (A.mat x j))
      (fun C => (sdAtb col cjl star A.m A.n alpha A.arrs ldc C).map fun C => (.success, C)) := by
  obtain ⟨X, hX, ha⟩ := sdAtb_ok (cjl := cjl) hA hs star alpha hlen
  rw [leftC_eq, rightC_eq] at ha
  refine ⟨_, ?_, fun i j h1 h2 => sdTotal_eq hA hX _ _ alpha hld h1 h2, fun p hp => sdTotal_rest hA _ _ alpha hp⟩
  intro C f hC
  obtain ⟨C', e, r⟩ := ha C f hC
  exact ⟨C', by rw [e]; rfl, r⟩

theorem sdKernel_ok {A : Csr R} (hA : A.WF) (hnd : A.NoDup) (isT : Bool) (op : Op)
    (hs : (isT = true ↔ op = .none) → A.Sorted) (hreal : op = .trans → ∀ x : R, star x = x) (col : Bool)
    (alpha : R) {ldc len : Nat} (hld : opRows op isT A ≤ ldc)
    (hlen : ∀ i j, i ≤ j → j < opRows op isT A → denseOff col ldc i j < len) :
    AddsUp len col (opRows op isT A) ldc
      (fun i j => alpha * gram op (userMat isT A) (opCols op isT A) i j)
      (sdKernel col star (syEff isT op.code) (A.raw isT) alpha ldc) := by
  by_cases hc : isT = true ↔ op = .none
  · have hK : opRows op isT A = A.n := by
      cases isT <;> cases op <;> simp_all [opRows, userRows, userCols]
    have hL : opCols op isT A = A.m := by
      cases isT <;> cases op <;> simp_all [opCols, userRows, userCols]
    have heff : syEff isT op.code ≠ 111 := by
      cases isT <;> cases op <;> simp_all [syEff, Op.code]
    rw [hK] at hld hlen ⊢
    obtain ⟨D, h1, h2, h3⟩ := sdAtb_up hA (Csr.strict_of (hs hc) hnd) col (!isT) alpha hld hlen
    refine ⟨D, ?_, ?_, h3⟩
    · intro C f hC
      obtain ⟨C', e, r⟩ := h1 C f hC
      refine ⟨C', ?_, r⟩
      unfold sdKernel
      rw [if_neg heff]
      exact e
    · intro i j hi hj
      rw [h2 i j hi hj, hL]
      congr 1
      unfold gram
      apply Finset.sum_congr rfl
      intro k _
      cases isT <;> cases op <;> simp_all [applyOp, userMat, transM, leftH, rightH, starRingEnd_apply]
  · have hK : opRows op isT A = A.m := by
      cases isT <;> cases op <;> simp_all [opRows, userRows, userCols]
    have hL : opCols op isT A = A.n := by
      cases isT <;> cases op <;> simp_all [opCols, userRows, userCols]
    have heff : syEff isT op.code = 111 := by
      cases isT <;> cases op <;> simp_all [syEff, Op.code]
    rw [hK] at hld hlen ⊢
    obtain ⟨T, e1, ho, hst⟩ := orient_strict hA hnd isT
    have hTm : T.m = A.n := ho.m
    have hTn : T.n = A.m := ho.n
    obtain ⟨D, h1, h2, h3⟩ := sdAtb_up ho.wf hst col isT alpha (ldc := ldc) (len := len) (by omega)
      (by rw [hTn]; exact hlen)
    rw [hTn] at h2 h3
    refine ⟨D, ?_, ?_, h3⟩
    · intro C f hC
      obtain ⟨C', e, r⟩ := h1 C f hC
      refine ⟨C', ?_, r⟩
      unfold sdKernel
      rw [if_pos heff, e1, Option.bind_some]
      rw [hTm, hTn] at e
      exact e
    · intro i j hi hj
      rw [h2 i j hi hj, hL, hTm]
      congr 1
      unfold gram
      apply Finset.sum_congr rfl
      intro k hk
      have hk := Finset.mem_range.mp hk
      have hm : ∀ y, y < A.m → T.mat k y = A.mat y k := by
        intro y hy
        have h1 := ho.entry k y (by omega) (by omega)
        rw [if_pos rfl] at h1
        exact h1
      rw [hm i (by omega), hm j hj]
      cases isT <;> cases op <;> simp_all [applyOp, userMat, transM, leftH, rightH, starRingEnd_apply]

/-! ### syprd -/

/-- the cells of the upper triangle are in the array -/
def UpIn (col : Bool) (ld K : Nat) (B : List R) : Prop := ∀ k l, k ≤ l → l < K → denseOff col ld k l < B.length

omit [CommRing R] [StarRing R] in
theorem rd_upper [Zero R] {col : Bool} {ld K : Nat} {B : List R} (hB : UpIn col ld K B) {k l : Nat} (h1 : k ≤ l)
    (h2 : l < K) {p : Int} (hp : p = ((denseOff col ld k l : Nat) : Int)) :
    rd B p = some (B.getD (denseOff col ld k l) 0) := by
  subst hp
  have := hB k l h1 h2
  rw [rd_ofNat, List.getD_eq_getElem?_getD, List.getElem?_eq_getElem this]
  rfl

/-- a row of alpha·M·B -/
def pdTemp (cL : R →+* R) (M : Csr R) (H : Mat R) (alpha : R) (i j : Nat) : R :=
  alpha * ∑ c ∈ range M.n, cL (M.mat i c) * H c j

theorem pdClear_ok {n : Nat} {t : List R} {f : Nat → R} (ht : Rep t n f) :
    ∃ t', pdClear (n : Int) t = some t' ∧ Rep t' n (fun _ => 0) := by
  obtain ⟨t', e, r⟩ := forC_inv_nat (n := n) (s := t) (f := fun j t => wr t j (0 : R))
    (P := fun k t => Rep t n (fun q => if q < k then 0 else f q)) (ht.congr (by simp)) (by
      intro k t hk h
      obtain ⟨t', e, r⟩ := h.wr_nat 0 hk
      refine ⟨t', e, r.congr (fun q _ => ?_)⟩
      by_cases h : q = k
      · subst h; simp
      · rw [Function.update_of_ne h]
        refine if_congr ?_ rfl rfl
        omega)
  exact ⟨t', e, r.congr (fun q hq => by rw [if_pos hq])⟩

omit [StarRing R] in
/-- a loop that adds to consecutive cells -/
theorem adds_cells {len : Nat} {lo : Nat} {hi : Nat} (hlo : lo ≤ hi) (hhi : hi ≤ len) (v : Nat → R)
    {body : Int → List R → Option (List R)}
    (hb : ∀ j : Nat, lo ≤ j → j < hi → ∀ t, body j t = addAt t (j : Int) (v j)) :
    Adds len (forC (lo : Int) (hi : Int) body) (fun p => if lo ≤ p ∧ p < hi then v p else 0) := by
  refine (adds_forC' (lo := (lo : Int)) (hi := (hi : Int)) (n := hi - lo) (by omega)
    (D := fun d p => if (p : Int) = ((lo + d : Nat) : Int) then v (lo + d) else 0) (by
      intro d hd
      refine (adds_addAt (i := ((lo + d : Nat) : Int)) (by omega) (by omega) (v (lo + d))).congr
        (fun t => ?_) (fun _ _ => rfl)
      rw [show (lo : Int) + d = ((lo + d : Nat) : Int) by omega, hb _ (by omega) (by omega)])).congr
    (fun _ => rfl) ?_
  intro p _
  by_cases h : lo ≤ p ∧ p < hi
  · rw [if_pos h, sum_eq_single (p - lo)]
    · rw [show lo + (p - lo) = p by omega, if_pos rfl]
    · intro b _ hb
      rw [if_neg]
      intro e
      apply hb
      omega
    · intro hn
      exact absurd (mem_range.mpr (show p - lo < hi - lo by omega)) hn
  · rw [if_neg h, sum_eq_zero]
    intro d hd
    have := mem_range.mp hd
    rw [if_neg]
    intro e
    apply h
    omega

theorem pdRowElem_ok {cjl : Bool} {N ldb : Nat} {B : List R} (hB : UpIn false ldb N B) (alpha : R) {c : Nat}
    (hc : c < N) (v : R) {M : Arrs R} {k : Int} (h1 : rd M.ind (k - M.base) = some (c + M.base))
    (h2 : rd M.val (k - M.base) = some v) :
    Adds N (pdRowElem cjl star N M B ldb alpha k)
      (fun j => (alpha * leftH R cjl v) * hermUp false ldb B c j) := by
  have a1 := adds_cells (len := N) (lo := 0) (hi := c) (by omega) (by omega)
    (fun j => star (B.getD (denseOff false ldb j c) 0) * (alpha * leftH R cjl v))
    (body := fun j t => do
      let b ← rd B (j * ldb + ((c + M.base) - M.base))
      addAt t j (star b * (alpha * leftH R cjl v))) (by
      intro j _ hj t
      rw [rd_upper hB (k := j) (l := c) (by omega) hc (by simp [denseOff])]
      rfl)
  have a2 := adds_cells (len := N) (lo := c) (hi := N) (by omega) (by omega)
    (fun j => B.getD (denseOff false ldb c j) 0 * (alpha * leftH R cjl v))
    (body := fun j t => do
      let b ← rd B (((c + M.base) - M.base) * ldb + j)
      addAt t j (b * (alpha * leftH R cjl v))) (by
      intro j hj hjN t
      rw [rd_upper hB (k := c) (l := j) hj hjN (by simp [denseOff])]
      rfl)
  refine (a1.comp a2).congr ?_ ?_
  · intro t
    unfold pdRowElem
    simp only [h1, h2, Option.bind_eq_bind, Option.bind_some, Int.add_sub_cancel]
    have hl : (if cjl = true then star v else v) = leftH R cjl v := by cases cjl <;> rfl
    rw [hl]
    rfl
  · intro j hj
    unfold hermUp
    by_cases h : c ≤ j
    · rw [if_pos h, if_neg (by omega), if_pos ⟨h, hj⟩]; ring
    · rw [if_neg h, if_pos (by omega), if_neg (by omega)]; ring

theorem pdTempRow_ok {cjl : Bool} {M : Csr R} (hM : M.WF) {ldb : Nat} {B : List R}
    (hB : UpIn false ldb M.n B) (alpha : R) {i : Nat} (hi : i < M.m) {t : List R} {f : Nat → R}
    (ht : Rep t M.n f) :
    ∃ t', pdTempRow cjl star M.n M.arrs B ldb alpha i t = some t' ∧
      Rep t' M.n (pdTemp (leftH R cjl) M (hermUp false ldb B) alpha i) := by
  obtain ⟨t1, e1, r1⟩ := pdClear_ok ht
  have ha := adds_foldlM (len := M.n) (L := M.row i)
    (body := fun t e => (fun t => (forC 0 e.1 (fun j t => do
        let b ← rd B (j * ldb + e.1)
        addAt t j (star b * (alpha * leftH R cjl e.2))) t).bind fun t =>
      forC e.1 M.n (fun j t => do
        let b ← rd B (e.1 * ldb + j)
        addAt t j (b * (alpha * leftH R cjl e.2))) t) t)
    (D := fun e j => (alpha * leftH R cjl e.2) * hermUp false ldb B e.1.toNat j) (by
      intro e he
      obtain ⟨h0, h1⟩ := Csr.row_range hM he
      obtain ⟨c, hc⟩ : ∃ c : Nat, e.1 = (c : Int) := ⟨e.1.toNat, by omega⟩
      have := pdRowElem_ok (cjl := cjl) hB alpha (c := c) (by omega) e.2 (M := ⟨0, [], [(c : Int)], [e.2]⟩)
        (k := 0) (by simp [rd]) (by simp [rd])
      rw [hc, Int.toNat_natCast]
      refine this.congr (fun t => ?_) (fun _ _ => rfl)
      unfold pdRowElem
      have hl : (if cjl = true then star e.2 else e.2) = leftH R cjl e.2 := by cases cjl <;> rfl
      have q1 : rd [(c : Int)] 0 = some (c : Int) := by simp [rd]
      have q2 : rd [e.2] 0 = some e.2 := by simp [rd]
      simp only [Int.sub_zero, q1, q2, Option.bind_eq_bind, Option.bind_some, hl])
  obtain ⟨t2, e2, r2⟩ := ha t1 _ r1
  refine ⟨t2, ?_, r2.congr (fun j _ => ?_)⟩
  · obtain ⟨p1, p2⟩ := rd_ptr2 hM hi
    unfold pdTempRow
    simp only [Csr.arrs, p1, p2, Option.bind_eq_bind, Option.bind_some, e1]
    rw [forC_rowB hM hi (G := fun c v t => (forC 0 c (fun j t => do
        let b ← rd B (j * ldb + c)
        addAt t j (star b * (alpha * leftH R cjl v))) t).bind fun t =>
      forC c M.n (fun j t => do
        let b ← rd B (c * ldb + j)
        addAt t j (b * (alpha * leftH R cjl v))) t) (by
      intro k c v s h1 h2 _
      unfold pdRowElem
      have hl : (if cjl = true then star v else v) = leftH R cjl v := by cases cjl <;> rfl
      simp only [h1, h2, Option.bind_eq_bind, Option.bind_some, Int.add_sub_cancel, hl])]
    exact e2
  · dsimp only
    rw [zero_add]
    unfold pdTemp
    have := filter_sum_map ((AddMonoidHom.mulLeft alpha).comp (leftH R cjl).toAddMonoidHom) (M.row i) M.n
      (fun c => hermUp false ldb B c j) (fun e he => Csr.row_range hM he)
    refine Eq.trans this ?_
    rw [mul_sum]
    refine sum_congr rfl fun c _ => ?_
    rw [← mat_eq_colSum]
    show alpha * leftH R cjl (M.mat i c) * _ = _
    ring

theorem pdTempCol_ok {cjl : Bool} {M : Csr R} (hM : M.WF) {ldb : Nat} {B : List R}
    (hB : UpIn true ldb M.n B) (alpha : R) {i : Nat} (hi : i < M.m) {t : List R} {f : Nat → R}
    (ht : Rep t M.n f) :
    ∃ t', pdTempCol cjl star M.n M.arrs B ldb alpha i t = some t' ∧
      Rep t' M.n (pdTemp (leftH R cjl) M (hermUp true ldb B) alpha i) := by
  obtain ⟨p1, p2⟩ := rd_ptr2 hM hi
  unfold pdTempCol
  simp only [Csr.arrs, p1, p2, Option.bind_eq_bind, Option.bind_some]
  have hdot : ∀ j : Nat, j < M.n → forC (M.p i) (M.p (i + 1)) (pdColElem cjl star ⟨M.base, M.ptr, M.ind, M.val⟩ B ldb j) 0
      = some (∑ c ∈ range M.n, leftH R cjl (M.mat i c) * hermUp true ldb B c j) := by
    intro j hj
    rw [forC_rowB hM hi (G := fun c v s => some (s + hermUp true ldb B c.toNat j * leftH R cjl v)) (by
      intro k c v s h1 h2 hm
      obtain ⟨h0, h1'⟩ := Csr.row_range hM hm
      have hl : (if cjl = true then star v else v) = leftH R cjl v := by cases cjl <;> rfl
      obtain ⟨d, rfl⟩ : ∃ d : Nat, c = (d : Int) := ⟨c.toNat, by omega⟩
      unfold pdColElem
      simp only [h1, h2, Option.bind_eq_bind, Option.bind_some, Int.add_sub_cancel, hl, Int.toNat_natCast]
      unfold hermUp
      by_cases hlt : (j : Int) < d
      · rw [if_pos hlt, if_neg (by omega), rd_upper hB (k := j) (l := d) (by omega) (by simp at h1'; omega)
          (by simp [denseOff]; ring)]
        simp [mul_comm]
      · rw [if_neg hlt, if_pos (by omega), rd_upper hB (k := d) (l := j) (by omega) hj
          (by simp [denseOff]; ring)]
        simp [mul_comm])]
    rw [foldlM_pure, foldl_colSum hM i (leftH R cjl) (fun c => hermUp true ldb B c j)]
    congr 1
    exact sum_congr rfl fun c _ => mul_comm _ _
  obtain ⟨t', e, r⟩ := forC_inv_nat (n := M.n) (s := t)
    (f := fun j t => (forC (M.p i) (M.p (i + 1)) (pdColElem cjl star ⟨M.base, M.ptr, M.ind, M.val⟩ B ldb j) 0).bind
      fun s => wr t j (s * alpha))
    (P := fun k t => Rep t M.n (fun q => if q < k then pdTemp (leftH R cjl) M (hermUp true ldb B) alpha i q else f q))
    (ht.congr (by simp)) (by
      intro k t hk h
      rw [hdot k hk, Option.bind_some]
      obtain ⟨t', e, r⟩ := h.wr_nat ((∑ c ∈ range M.n, leftH R cjl (M.mat i c) * hermUp true ldb B c k) * alpha) hk
      refine ⟨t', e, r.congr (fun q _ => ?_)⟩
      by_cases h : q = k
      · subst h
        rw [Function.update_self, if_pos (by omega), pdTemp, mul_comm]
      · rw [Function.update_of_ne h]
        refine if_congr ?_ rfl rfl
        omega)
  exact ⟨t', e, r.congr (fun q hq => by rw [if_pos hq])⟩

theorem pdTemp_ok {col cjl : Bool} {M : Csr R} (hM : M.WF) {ldb : Nat} {B : List R}
    (hB : UpIn col ldb M.n B) (alpha : R) {i : Nat} (hi : i < M.m) {t : List R} {f : Nat → R}
    (ht : Rep t M.n f) :
    ∃ t', (if col then pdTempCol else pdTempRow) cjl star M.n M.arrs B ldb alpha i t = some t' ∧
      Rep t' M.n (pdTemp (leftH R cjl) M (hermUp col ldb B) alpha i) := by
  cases col
  · exact pdTempRow_ok hM hB alpha hi ht
  · exact pdTempCol_ok hM hB alpha hi ht

/-- an element of alpha·M·B·Mᴴ -/
def pdVal (cL cR : R →+* R) (M : Csr R) (H : Mat R) (alpha : R) (i j : Nat) : R :=
  ∑ l ∈ range M.n, pdTemp cL M H alpha i l * cR (M.mat j l)

theorem pdDot_ok {col cjl : Bool} {M : Csr R} (hM : M.WF) {ldc len : Nat} {t : List R} {g : Nat → R}
    (ht : Rep t M.n g) {i j : Nat} (hj : j < M.m) (hl : denseOff col ldc i j < len) :
    Adds len (pdDot col cjl star M.arrs ldc t i j)
      (fun p => if p = denseOff col ldc i j then ∑ l ∈ range M.n, g l * rightH R cjl (M.mat j l) else 0) := by
  have ha := adds_foldlM (len := len) (L := M.row j)
    (body := fun C e => addAt C (mdOff col ldc i j) (rightH R cjl e.2 * g e.1.toNat))
    (D := fun e p => if (p : Int) = mdOff col ldc i j then rightH R cjl e.2 * g e.1.toNat else 0) (by
      intro e he
      exact adds_addAt (by rw [mdOff_nat]; omega) (by rw [mdOff_nat]; omega) _)
  refine ha.congr (fun C => ?_) (fun p _ => ?_)
  · obtain ⟨p1, p2⟩ := rd_ptr2 hM hj
    unfold pdDot
    simp only [Csr.arrs, p1, p2, Option.bind_eq_bind, Option.bind_some]
    refine forC_rowB hM hj (G := fun c v C => addAt C (mdOff col ldc i j) (rightH R cjl v * g c.toNat)) ?_ C
    intro k c v s h1 h2 hm
    obtain ⟨h0, h1'⟩ := Csr.row_range hM hm
    have hl : (if cjl = true then v else star v) = rightH R cjl v := by cases cjl <;> rfl
    simp only [h1, h2, Option.bind_some, Int.add_sub_cancel, hl]
    rw [ht.rd h0 h1', Option.bind_some, mul_comm]
  · by_cases h : p = denseOff col ldc i j
    · rw [if_pos h, mdOff_nat]
      have := filter_sum_map (rightH R cjl).toAddMonoidHom (M.row j) M.n g (fun e he => Csr.row_range hM he)
      simp only [h, if_true]
      refine Eq.trans ?_ this.symm
      refine sum_congr rfl fun l _ => ?_
      rw [← mat_eq_colSum, mul_comm]
      rfl
    · rw [if_neg h, mdOff_nat]
      symm
      apply List.sum_eq_zero
      intro x hx
      obtain ⟨e, _, rfl⟩ := List.mem_map.mp hx
      rw [if_neg (by exact_mod_cast h)]

theorem pdRows_ok {col cjl : Bool} {M : Csr R} (hM : M.WF) {ldb : Nat} {B : List R}
    (hB : UpIn col ldb M.n B) (alpha : R) {ldc len : Nat}
    (hlen : ∀ i j, i ≤ j → j < M.m → denseOff col ldc i j < len) {C : List R} {f : Nat → R} (hC : Rep C len f) :
    ∃ t C', forC 0 (M.m : Int) (pdRow col cjl star M.m M.n M.arrs B ldb alpha ldc)
        (List.replicate M.n 0, C) = some (t, C') ∧
      Rep C' len (fun p => f p + ∑ i ∈ range M.m, ∑ d ∈ range (M.m - i),
        if p = denseOff col ldc i (i + d)
        then pdVal (leftH R cjl) (rightH R cjl) M (hermUp col ldb B) alpha i (i + d) else 0) := by
  obtain ⟨⟨t, C'⟩, e, _, r⟩ := forC_inv_nat (n := M.m) (s := (List.replicate M.n (0 : R), C))
    (f := pdRow col cjl star M.m M.n M.arrs B ldb alpha ldc)
    (P := fun k s => (∃ g, Rep s.1 M.n g) ∧ Rep s.2 len (fun p => f p + ∑ i ∈ range k, ∑ d ∈ range (M.m - i),
        if p = denseOff col ldc i (i + d)
        then pdVal (leftH R cjl) (rightH R cjl) M (hermUp col ldb B) alpha i (i + d) else 0))
    ⟨⟨fun _ => 0, ⟨by simp, fun q hq => by simp [hq]⟩⟩, hC.congr (by simp)⟩
    (by
      rintro i ⟨t, C1⟩ hi ⟨⟨g, ht⟩, hC1⟩
      obtain ⟨t', e1, r1⟩ := pdTemp_ok (cjl := cjl) hM hB alpha hi ht
      have ha := adds_forC' (len := len) (lo := (i : Int)) (hi := (M.m : Int)) (n := M.m - i) (by omega)
        (body := fun j C => pdDot col cjl star M.arrs ldc t' i j C)
        (D := fun d p => if p = denseOff col ldc i (i + d)
          then pdVal (leftH R cjl) (rightH R cjl) M (hermUp col ldb B) alpha i (i + d) else 0) (by
          intro d hd
          rw [show (i : Int) + d = ((i + d : Nat) : Int) by omega]
          exact pdDot_ok hM r1 (by omega) (hlen i (i + d) (by omega) (by omega)))
      obtain ⟨C2, e2, r2⟩ := ha C1 _ hC1
      refine ⟨(t', C2), ?_, ⟨_, r1⟩, r2.congr (fun p _ => ?_)⟩
      · unfold pdRow
        simp only [Option.bind_eq_bind, e1, Option.bind_some]
        rw [e2]
        rfl
      · dsimp only
        rw [sum_range_succ, add_assoc])
  exact ⟨t, C', e, r⟩

theorem pdKernel_ok [DecidableEq R] {col cjl : Bool} {M : Csr R} (hM : M.WF) {ldb : Nat} {B : List R}
    (hB : UpIn col ldb M.n B) (alpha beta : R) {ldc : Nat} {C : List R} (hld : M.m ≤ ldc)
    (hlen : ∀ i j, i ≤ j → j < M.m → denseOff col ldc i j < C.length) :
    ∃ C', pdKernel col cjl star M.m M.n M.arrs B ldb alpha beta C ldc = some C' ∧
      IsUpCells col M.m ldc (fun i j c => alpha * (∑ l ∈ range M.n, (∑ k ∈ range M.n,
        leftH R cjl (M.mat i k) * hermUp col ldb B k l) * rightH R cjl (M.mat j l)) + beta * c) C C' := by
  obtain ⟨C1, e1, r1⟩ := upScale_ok beta hld hlen (Rep.of_list C (0 : R))
  unfold pdKernel
  simp only [Option.bind_eq_bind, e1, Option.bind_some, Int.toNat_natCast]
  by_cases h0 : alpha = 0
  · rw [if_pos h0]
    refine ⟨C1, rfl, upper_final hld hlen (D := fun _ => 0) (r1.congr (fun p _ => by rw [add_zero])) ?_ (fun _ _ => rfl)⟩
    intro i j _ _
    rw [h0, zero_mul]
  · rw [if_neg h0]
    obtain ⟨t, C2, e2, r2⟩ := pdRows_ok (cjl := cjl) hM hB alpha hlen r1
    rw [e2]
    refine ⟨C2, rfl, upper_final hld hlen r2 ?_ ?_⟩
    · intro i j hij hj
      rw [sum_eq_single i, sum_eq_single (j - i)]
      · rw [show i + (j - i) = j by omega, if_pos rfl, pdVal, mul_sum]
        refine sum_congr rfl fun l _ => ?_
        rw [pdTemp, mul_assoc]
      · intro d hd hne
        have := mem_range.mp hd
        rw [if_neg]
        intro e
        have := (denseOff_ij_inj (mnr_lt hld hij hj) (mnr_lt hld (by omega) (show i + d < M.m by omega))).mp e
        omega
      · intro hn
        exact absurd (mem_range.mpr (show j - i < M.m - i by omega)) hn
      · intro b hb hne
        have := mem_range.mp hb
        apply sum_eq_zero
        intro d hd
        have := mem_range.mp hd
        rw [if_neg]
        intro e
        have := (denseOff_ij_inj (mnr_lt hld hij hj) (mnr_lt hld (show b ≤ b + d by omega) (by omega))).mp e
        omega
      · intro hn
        exact absurd (mem_range.mpr (show i < M.m by omega)) hn
    · intro p hp
      refine sum_eq_zero fun i hi => sum_eq_zero fun d hd => ?_
      have := mem_range.mp hi
      have := mem_range.mp hd
      exact if_neg (hp i (i + d) (by omega) (by omega))

end Verif
